import Verif.Model.DropFilter
import Mathlib.Tactic.Ring
import Mathlib.Tactic.Linarith
import Mathlib.Tactic.FieldSimp
import Mathlib.Algebra.Order.BigOperators.Group.List
import Mathlib.Algebra.Order.Field.Basic
import Mathlib.Data.List.Induction
/-!
# C102, C103: drop-filter training
-/
namespace Verif

/-! ## Specification -/

/-- Number of training passes in a history. -/
def trainPasses (evs : List DFEv) : ℕ := evs.countP fun e => match e with | .pass t _ => t | .write _ => false

/-- The weights of the layer after a history. -/
def weightsAfter (w : List (List ℚ)) : List DFEv → List (List ℚ)
  | [] => w
  | .pass _ _ :: evs => weightsAfter w evs
  | .write w' :: evs => weightsAfter w' evs

/-- Number of passes in a history. -/
def passes (evs : List DFEv) : ℕ := evs.countP fun e => match e with | .pass _ _ => true | .write _ => false

/-- `u` is `w` with the unsampled filters dropped and the others enlarged to make up for the loss, at most
five-fold. -/
structure DropsFilters (w : List (List ℚ)) (sample : List Bool) (u : List (List ℚ)) : Prop where
  len : u.length = w.length
  dropped : ∀ i (hi : i < w.length), sample[i]? = some false → u[i]? = some (List.replicate w[i].length 0)
  kept : ∃ c : ℚ, 1 / 5 ≤ c ∧ c ≤ 1 ∧ ∀ i (hi : i < w.length), sample[i]? = some true → u[i]? = some (w[i].map (· / c))
  mass : l1Total u ≤ l1Total w
  conserved : l1Total w ≤ 5 * l1Total (maskFilters w sample) → l1Total u = l1Total w

/-! ## One masked pass -/

theorem l1_nonneg (f : List ℚ) : 0 ≤ (f.map fun x => |x|).sum :=
  List.sum_nonneg (by simp only [List.mem_map]; rintro x ⟨y, _, rfl⟩; exact abs_nonneg y)

theorem l1Total_nonneg (w : List (List ℚ)) : 0 ≤ l1Total w :=
  List.sum_nonneg (by simp only [List.mem_map]; rintro x ⟨y, _, rfl⟩; exact l1_nonneg y)

theorem l1_scale (f : List ℚ) (c : ℚ) (hc : 0 < c) :
    ((f.map fun x => x / c).map fun x => |x|).sum = (f.map fun x => |x|).sum / c := by
  induction f with
  | nil => simp
  | cons x f ih =>
    simp only [List.map_cons, List.sum_cons, List.map_map] at ih ⊢
    rw [ih, abs_div, abs_of_pos hc]; ring

theorem l1Total_scale (w : List (List ℚ)) (c : ℚ) (hc : 0 < c) :
    l1Total (w.map fun f => f.map fun x => x / c) = l1Total w / c := by
  unfold l1Total
  induction w with
  | nil => simp
  | cons f w ih =>
    rw [List.map_cons, List.map_cons, List.sum_cons, ih, List.map_cons, List.sum_cons, l1_scale f c hc]; ring

theorem l1Total_mask_le (w : List (List ℚ)) (s : List Bool) : l1Total (maskFilters w s) ≤ l1Total w := by
  unfold l1Total maskFilters
  induction w generalizing s with
  | nil => simp
  | cons f w ih =>
    cases s with
    | nil =>
      simp only [List.zipWith_nil_right, List.map_nil, List.sum_nil]
      exact l1Total_nonneg (f :: w)
    | cons b s =>
      rw [List.zipWith_cons_cons, List.map_cons, List.sum_cons, List.map_cons, List.sum_cons]
      refine add_le_add ?_ (ih s)
      cases b
      · simpa using l1_nonneg f
      · simp

theorem drops_masked (w : List (List ℚ)) (s : List Bool) (hs : s.length = w.length) :
    DropsFilters w s ((maskFilters w s).map fun f => f.map fun x => x / pruningFactor w s) := by
  have hmn := l1Total_nonneg (maskFilters w s)
  have hml := l1Total_mask_le w s
  have hw := l1Total_nonneg w
  have hc1 : (1 : ℚ) / 5 ≤ pruningFactor w s := le_max_left _ _
  have hc0 : 0 < pruningFactor w s := by linarith
  have hq1 : l1Total (maskFilters w s) / l1Total w ≤ 1 := by
    rcases hw.eq_or_lt with h | h
    · rw [← h]; simp
    · rw [div_le_one h]; exact hml
  have hc2 : pruningFactor w s ≤ 1 := max_le (by norm_num) hq1
  have hmass : l1Total (maskFilters w s) ≤ l1Total w * pruningFactor w s := by
    rcases hw.eq_or_lt with h | h
    · rw [← h] at hml ⊢; linarith
    · have : l1Total (maskFilters w s) / l1Total w ≤ pruningFactor w s := le_max_right _ _
      rw [div_le_iff₀ h] at this; linarith
  refine ⟨by simp [maskFilters, hs], ?_, ⟨pruningFactor w s, hc1, hc2, ?_⟩, ?_, ?_⟩
  · intro i hi hb
    simp only [maskFilters, List.getElem?_map, List.getElem?_zipWith, List.getElem?_eq_getElem hi, hb, Option.map_some]
    simp only [Bool.false_eq_true, if_false, mul_zero, List.map_map, Option.some.injEq]
    rw [List.map_eq_replicate_iff.2]; intro x _; simp
  · intro i hi hb
    simp only [maskFilters, List.getElem?_map, List.getElem?_zipWith, List.getElem?_eq_getElem hi, hb, Option.map_some]
    simp
  · rw [l1Total_scale _ _ hc0, div_le_iff₀ hc0]; exact hmass
  · intro h5
    rw [l1Total_scale _ _ hc0]
    rcases hw.eq_or_lt with h | h
    · have : l1Total (maskFilters w s) = 0 := le_antisymm (h ▸ hml) hmn
      rw [this, ← h]; simp
    · have : pruningFactor w s = l1Total (maskFilters w s) / l1Total w := by
        refine max_eq_right ?_
        rw [div_le_div_iff₀ (by norm_num) h]; linarith
      rw [this]
      have hne : l1Total (maskFilters w s) ≠ 0 := by intro e; rw [e] at h5; linarith
      field_simp

/-! ## Histories -/

theorem dfRun_state (w : List (List ℚ)) (evs : List DFEv) :
    (dfRun w evs).1 = ⟨weightsAfter w evs, 16 - (trainPasses evs % 16 : ℕ)⟩ ∧ (dfRun w evs).2.length = passes evs := by
  induction evs using List.reverseRecOn with
  | nil => exact ⟨rfl, rfl⟩
  | append_singleton evs e ih =>
    have hrun : dfRun w (evs ++ [e]) = dfStep (dfRun w evs) e := by simp [dfRun, List.foldl_append]
    have hwa : ∀ (w : List (List ℚ)) (e : DFEv), weightsAfter w (evs ++ [e]) =
        match e with | .pass _ _ => weightsAfter w evs | .write w' => w' := by
      intro w e
      clear ih hrun
      induction evs generalizing w with
      | nil => cases e <;> rfl
      | cons a evs ih =>
        cases a with
        | pass t s => simpa [weightsAfter] using ih w
        | write w' => simpa [weightsAfter] using ih w'
    rw [hrun, hwa]
    obtain ⟨h1, h2⟩ := ih
    cases e with
    | write w' =>
      simp only [dfStep, h1, h2]
      refine ⟨?_, ?_⟩
      · simp [trainPasses, List.countP_append]
      · simp [passes, List.countP_append]
    | pass t s =>
      simp only [dfStep, List.length_append, List.length_singleton, h2]
      refine ⟨?_, by simp [passes, List.countP_append]⟩
      rw [h1]
      cases t with
      | false => simp [DFLayer.forward, trainPasses, List.countP_append]
      | true =>
        have hcount : trainPasses (evs ++ [.pass true s]) = trainPasses evs + 1 := by
          simp [trainPasses, List.countP_append]
        rw [hcount]
        simp only [DFLayer.forward, if_true]
        have hlt := Nat.mod_lt (trainPasses evs) (by norm_num : 16 > 0)
        split
        · rename_i h
          have : trainPasses evs % 16 = 15 := by omega
          have h2 : (trainPasses evs + 1) % 16 = 0 := by omega
          rw [h2]; rfl
        · rename_i h
          have h2 : (trainPasses evs + 1) % 16 = trainPasses evs % 16 + 1 := by omega
          rw [h2]
          congr 1
          push_cast; ring_nf

theorem dfRun_prefix (w : List (List ℚ)) (pre post : List DFEv) :
    ∃ r, (dfRun w (pre ++ post)).2 = (dfRun w pre).2 ++ r := by
  induction post using List.reverseRecOn with
  | nil => exact ⟨[], by simp⟩
  | append_singleton post e ih =>
    obtain ⟨r, hr⟩ := ih
    have : dfRun w (pre ++ (post ++ [e])) = dfStep (dfRun w (pre ++ post)) e := by
      simp [dfRun, List.foldl_append]
    rw [this]
    cases e with
    | write w' => exact ⟨r, hr⟩
    | pass t s => exact ⟨r ++ [_], by simp only [dfStep]; rw [hr, List.append_assoc]⟩

/-- **C102** In every history of a drop-filter layer, a pass uses the current weights unchanged, except for
training passes number 16, 32, 48, …, which use the current weights with whole filters dropped.  The stored
weights are never changed by a pass. -/
theorem C102_schedule (w : List (List ℚ)) (pre post : List DFEv) (t : Bool) (s : List Bool)
    (hs : s.length = (weightsAfter w pre).length) :
    ∃ u, (dfRun w (pre ++ .pass t s :: post)).2[passes pre]? = some u ∧
      (t = true ∧ 16 ∣ trainPasses pre + 1 → DropsFilters (weightsAfter w pre) s u) ∧
      (¬ (t = true ∧ 16 ∣ trainPasses pre + 1) → u = weightsAfter w pre) ∧
      (dfRun w (pre ++ .pass t s :: post)).1.weight = weightsAfter w (pre ++ .pass t s :: post) := by
  obtain ⟨h1, h2⟩ := dfRun_state w pre
  obtain ⟨r, hr⟩ := dfRun_prefix w (pre ++ [.pass t s]) post
  rw [List.append_assoc, List.singleton_append] at hr
  have hstep : (dfRun w (pre ++ [.pass t s])).2 = (dfRun w pre).2 ++ [((dfRun w pre).1.forward t s).2] := by
    simp [dfRun, List.foldl_append, dfStep]
  refine ⟨((dfRun w pre).1.forward t s).2, ?_, ?_, ?_, by rw [(dfRun_state w _).1]⟩
  · rw [hr, hstep, ← h2]; simp
  · rintro ⟨rfl, hd⟩
    have hm : trainPasses pre % 16 = 15 := by omega
    rw [h1, hm]
    have := drops_masked (weightsAfter w pre) s hs
    simpa [DFLayer.forward] using this
  · intro hn
    rw [h1]
    cases t with
    | false => simp [DFLayer.forward]
    | true =>
      simp only [true_and] at hn
      have hlt := Nat.mod_lt (trainPasses pre) (by norm_num : 16 > 0)
      have : ¬ ((16 : ℤ) - (trainPasses pre % 16 : ℕ) - 1 = 0) := by omega
      simp only [DFLayer.forward, if_true]
      rw [if_neg this]

/-- **C102** is violated as shipped: the keep probability of the layers is 1.0 and nothing in the library
changes it, so every draw keeps every filter, and every pass of every history uses the plain weights. -/
theorem C102_violated_never_drops (w : List (List ℚ)) (pre post : List DFEv) (t : Bool) :
    (dfRun w (pre ++ .pass t (List.replicate (weightsAfter w pre).length true) :: post)).2[passes pre]? =
      some (weightsAfter w pre) := by
  obtain ⟨u, hu, h1, h2, _⟩ := C102_schedule w pre post t (List.replicate (weightsAfter w pre).length true) (by simp)
  rw [hu]
  by_cases hd : t = true ∧ 16 ∣ trainPasses pre + 1
  · obtain ⟨h3, _⟩ := dfRun_state w pre
    obtain ⟨r, hr⟩ := dfRun_prefix w (pre ++ [.pass t (List.replicate (weightsAfter w pre).length true)]) post
    generalize hW : weightsAfter w pre = W at *
    have hmask : maskFilters W (List.replicate W.length true) = W := by
      apply List.ext_getElem
      · simp [maskFilters]
      · intro i hi1 hi2
        simp [maskFilters]
    have hD := h1 hd
    congr 1
    obtain ⟨c, hc1, hc2, hk⟩ := hD.kept
    have hcons := hD.conserved (by rw [hmask]; have := l1Total_nonneg W; linarith)
    have hcu : u = W.map fun f => f.map fun x => x / c := by
      apply List.ext_getElem?
      intro i
      by_cases hi : i < W.length
      · rw [hk i hi (by simp [hi])]; simp [List.getElem?_eq_getElem hi]
      · rw [List.getElem?_eq_none (by rw [hD.len]; omega), List.getElem?_eq_none (by simp; omega)]
    have hc0 : 0 < c := by linarith
    rw [hcu, l1Total_scale _ _ hc0] at hcons
    rcases (l1Total_nonneg W).eq_or_lt with h | h
    · -- all weights are zero
      have hz : ∀ f ∈ W, ∀ x ∈ f, x = 0 := by
        intro f hf x hx
        have a1 : (f.map fun x => |x|).sum = 0 := by
          refine le_antisymm ?_ (l1_nonneg f)
          rw [h]
          exact List.single_le_sum (by simp only [List.mem_map]; rintro x ⟨y, _, rfl⟩; exact l1_nonneg y) _
            (List.mem_map_of_mem hf)
        have a2 : |x| ≤ 0 := by
          rw [← a1]
          exact List.single_le_sum (by simp only [List.mem_map]; rintro x ⟨y, _, rfl⟩; exact abs_nonneg y) _
            (List.mem_map_of_mem hx)
        exact abs_nonpos_iff.1 a2
      rw [hcu]
      conv_rhs => rw [← List.map_id W]
      refine List.map_congr_left fun f hf => ?_
      conv_rhs => rw [id, ← List.map_id f]
      refine List.map_congr_left fun x hx => ?_
      rw [hz f hf x hx]; simp
    · have hc : c = 1 := by
        rw [div_eq_iff hc0.ne'] at hcons
        have : l1Total W * (c - 1) = 0 := by linarith
        rcases mul_eq_zero.1 this with e | e <;> linarith
      rw [hcu, hc]; simp
  · rw [h2 hd]

/-- A layer with two filters, 15 training passes with an evaluation pass in between, and a masked one. -/
def exDfHist : List DFEv :=
  List.replicate 7 (.pass true [true, true]) ++ [.pass false [false, false], .write [[1, -1], [2, 0]]] ++
    List.replicate 8 (.pass true [false, false])

example : trainPasses exDfHist = 15 ∧ weightsAfter [[5, 5], [5, 5]] exDfHist = [[1, -1], [2, 0]] ∧
    (dfRun [[5, 5], [5, 5]] (exDfHist ++ [.pass true [true, false]])).2[passes exDfHist]? = some [[2, -2], [0, 0]] :=
  by decide +kernel

/-! ## C103: switching over -/

theorem mapM_ok_mem {α β : Type} {f : α → Except Err β} {l : List α} {r : List β} (h : l.mapM f = .ok r) :
    ∀ a ∈ l, ∃ b, f a = .ok b := by
  induction l generalizing r with
  | nil => simp
  | cons x l ih =>
    rw [List.mapM_cons] at h
    cases hx : f x with
    | error e => rw [hx] at h; cases h
    | ok y =>
      rw [hx] at h
      cases hl : l.mapM f with
      | error e => rw [hl] at h; cases h
      | ok ys =>
        intro a ha
        rcases List.mem_cons.1 ha with rfl | ha
        · exact ⟨y, hx⟩
        · exact ih hl a ha

/-- **C103** (part) A bias-free convolution without groups and dilation becomes a layer of the same geometry.
(Missing: the weights, see `C103_violated_weights`.) -/
theorem C103_geometry_partial (init : DConv → DConv) (hi : FreshInit init) (c : DConv) (hb : c.bias = none)
    (hg : c.groups = 1) (hd : c.dilation = (1, 1)) :
    ∃ c', replaceConv init c = .ok c' ∧ c'.inCh = c.inCh ∧ c'.outCh = c.outCh ∧ c'.kernel = c.kernel ∧
      c'.stride = c.stride ∧ c'.padding = c.padding ∧ c'.dilation = c.dilation ∧ c'.groups = c.groups ∧
      c'.bias = none ∧ c'.weight.length = c.outCh := by
  refine ⟨_, by rw [replaceConv, hb]; rfl, ?_⟩
  have := hi.args { c with dilation := (1, 1), groups := 1, weight := [], bias := none }
  obtain ⟨a1, a2, a3, a4, a5, a6, a7, a8⟩ := this
  refine ⟨a1, a2, a3, a4, a5, ?_, ?_, ?_, (hi.shape _).1⟩
  · rw [hd]; exact a6
  · rw [hg]; exact a7
  · simpa using a8

/-- **C103** (part) A model whose convolutions have no bias, no groups and no dilation is switched over as a whole: every
convolution keeps its place and name, and is the masked convolution built for it, of the same geometry, with fresh weights. -/
theorem C103_whole_model_partial (init : DConv → DConv) (hi : FreshInit init) (m : Dict (List String) DConv)
    (hm : ∀ kv ∈ m, kv.2.bias = none ∧ kv.2.groups = 1 ∧ kv.2.dilation = (1, 1)) :
    ∃ m', replaceConvs init m = .ok m' ∧ m'.map Prod.fst = m.map Prod.fst ∧
      List.Forall₂ (fun old new : List String × DConv => new.1 = old.1 ∧ new.2 = init { old.2 with weight := [] } ∧
        new.2.inCh = old.2.inCh ∧ new.2.outCh = old.2.outCh ∧ new.2.kernel = old.2.kernel ∧ new.2.stride = old.2.stride ∧
        new.2.padding = old.2.padding ∧ new.2.weight.length = old.2.outCh) m m' := by
  induction m with
  | nil => exact ⟨[], rfl, rfl, .nil⟩
  | cons kv m ih =>
    obtain ⟨m', h1, h2, h3⟩ := ih fun kv h => hm kv (List.mem_cons_of_mem _ h)
    obtain ⟨hb, hg, hd⟩ := hm kv List.mem_cons_self
    obtain ⟨n, c⟩ := kv
    simp only at hb hg hd
    have hr : replaceConv init c = .ok (init { c with weight := [] }) := by
      cases c; simp only at hb hg hd; subst hb hg hd; rfl
    refine ⟨(n, init { c with weight := [] }) :: m', ?_, by simp [h2], .cons ⟨rfl, rfl, ?_⟩ h3⟩
    · unfold replaceConvs at h1 ⊢
      rw [List.mapM_cons, h1, hr]; rfl
    · obtain ⟨a1, a2, a3, a4, a5, -, -, -⟩ := hi.args { c with weight := [] }
      exact ⟨a1, a2, a3, a4, a5, (hi.shape { c with weight := [] }).1⟩

/-- **C103** is violated: a model with a convolution that has a bias and more than one filter cannot be
switched at all; the construction raises `RuntimeError`. -/
theorem C103_violated_bias (init : DConv → DConv) (m : Dict (List String) DConv) (n : List String) (c : DConv)
    (b : List ℚ) (hm : (n, c) ∈ m) (hb : c.bias = some b) (hlen : b.length ≠ 1) :
    ∀ m', replaceConvs init m ≠ .ok m' := by
  intro m' h
  obtain ⟨c', hc'⟩ := mapM_ok_mem h (n, c) hm
  have : truthBias (some b) = .error .runtime := by
    match b, hlen with
    | [], _ => rfl
    | [x], h => exact absurd rfl h
    | _ :: _ :: _, _ => rfl
  simp only [replaceConv, hb, this] at hc'
  cases hc'

/-- **C103** is violated: groups and dilation are lost, whatever the initialization. -/
theorem C103_violated_groups (init : DConv → DConv) (hi : FreshInit init) (c c' : DConv)
    (h : replaceConv init c = .ok c') : c'.groups = 1 ∧ c'.dilation = (1, 1) := by
  unfold replaceConv at h
  cases hb : truthBias c.bias with
  | error e => rw [hb] at h; cases h
  | ok b =>
    rw [hb] at h
    cases h
    obtain ⟨_, _, _, _, _, a6, a7, _⟩ := hi.args
      { c with dilation := (1, 1), groups := 1, weight := [], bias := if b then some [] else none }
    exact ⟨a7, a6⟩

/-- **C103** is violated: the trained weights are not carried over; two layers that differ in nothing but their
weights become the same layer. -/
theorem C103_violated_weights (init : DConv → DConv) (c : DConv) (w : List (List ℚ)) :
    replaceConv init { c with weight := w } = replaceConv init c := rfl

/-- An initialization. -/
def exInit (c : DConv) : DConv :=
  { c with weight := List.replicate c.outCh (List.replicate (c.inCh / c.groups * (c.kernel.1 * c.kernel.2)) 1),
           bias := c.bias.map fun _ => List.replicate c.outCh 1 }
theorem exInit_fresh : FreshInit exInit :=
  ⟨fun c => ⟨rfl, rfl, rfl, rfl, rfl, rfl, rfl, by simp [exInit]⟩, fun c => ⟨by simp [exInit], by
    intro f hf; rw [exInit, List.mem_replicate] at hf; rw [hf.2]; simp⟩⟩
def exDConv : DConv := ⟨2, 2, (1, 1), (1, 1), (0, 0), (1, 1), 1, [[3, 4], [5, 6]], none⟩

example : FreshInit exInit ∧ exDConv.bias = none ∧ replaceConvs exInit [(["conv"], exDConv)] = .ok [(["conv"], exInit { exDConv with weight := [] })] ∧ replaceConv exInit exDConv = .ok { exDConv with weight := [[1, 1], [1, 1]] } ∧
    replaceConvs exInit [(["conv"], { exDConv with bias := some [1, 2] })] = .error .runtime ∧
    replaceConv exInit { exDConv with groups := 2, weight := [[3], [5]] } = .ok { exDConv with weight := [[1, 1], [1, 1]] } :=
  ⟨exInit_fresh, rfl, by decide +kernel, by decide +kernel, by decide +kernel, by decide +kernel⟩

end Verif
