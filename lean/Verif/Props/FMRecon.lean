import Verif.Model.FMRecon
import Mathlib.Tactic.Linarith
import Mathlib.Algebra.Order.BigOperators.Group.List
import Mathlib.Tactic.Ring
/-!
# C129: channel pruning with feature-map reconstruction
-/
namespace Verif

/-! ## Specification -/

/-- Squared difference between the outputs of two sets of weights (with the same bias) at the sampled
points, summed over batches, samples, points and filters. -/
def FMConv.sampleError (L : FMConv) (w w' : FMWeights) (bias : ℕ → ℚ) (Bs : List FMBatch) : ℚ :=
  (Bs.map fun B => ((List.range B.n).map fun b => (B.pts.map fun p => ((List.range L.filters).map fun f =>
    (L.out w bias B.x b f p.1 p.2 - L.out w' bias B.x b f p.1 p.2) ^ 2).sum).sum).sum).sum

/-- Scalar product of coefficients and a row of inputs. -/
def regDot (a b : List ℚ) : ℚ := (List.zipWith (· * ·) a b).sum

/-- Squared error of a linear regression without intercept, with `F` outputs. -/
def regError (F : ℕ) (rows : List (List ℚ × List ℚ)) (coef : List (List ℚ)) : ℚ :=
  (rows.map fun r => ((List.range F).map fun f => (r.2.getD f 0 - regDot (coef.getD f []) r.1) ^ 2).sum).sum

/-- What the regression is asked for: coefficients (`F` lists of length `n`) with the least squared error. -/
def IsLeastSquares (F n : ℕ) (rows : List (List ℚ × List ℚ)) (coef : List (List ℚ)) : Prop :=
  coef.length = F ∧ (∀ c ∈ coef, c.length = n) ∧
  ∀ coef' : List (List ℚ), coef'.length = F → (∀ c ∈ coef', c.length = n) → regError F rows coef ≤ regError F rows coef'

/-- The points are points of the output feature-maps (randint, 590-591). -/
def FMConv.PointsOk (L : FMConv) (Bs : List FMBatch) : Prop := ∀ B ∈ Bs, ∀ p ∈ B.pts, p.1 < L.outSize.1 ∧ p.2 < L.outSize.2

/-- Layers for which the hook pairs inputs and outputs correctly. -/
def FMConv.Aligned (L : FMConv) : Prop :=
  (L.kernel = (1, 1) ∧ L.stride = (1, 1) ∧ L.pad = (0, 0)) ∨ (L.kernel ≠ (1, 1) ∧ L.dil = (1, 1) ∧ L.outSize.1 = L.outSize.2)

/-! ## Lemmas -/

theorem sum_map_flatMap {α β : Type} (l : List α) (f : α → List β) (g : β → ℚ) :
    ((l.flatMap f).map g).sum = (l.map fun a => ((f a).map g).sum).sum := by
  induction l with
  | nil => rfl
  | cons a l ih => simp [List.flatMap_cons, ih]

theorem sum_filter_zero_fm {α : Type} (P : α → Bool) (g : α → ℚ) (h : ∀ a, P a = false → g a = 0) (l : List α) :
    (l.map g).sum = ((l.filter P).map g).sum := by
  induction l with
  | nil => rfl
  | cons a l ih =>
    cases hp : P a
    · simp [hp, ih, h a hp]
    · simp [hp, ih]

theorem regDot_append (a b c d : List ℚ) (h : a.length = b.length) : regDot (a ++ c) (b ++ d) = regDot a b + regDot c d := by
  unfold regDot; rw [List.zipWith_append h, List.sum_append]

theorem regDot_map {α : Type} (l : List α) (f g : α → ℚ) : regDot (l.map f) (l.map g) = (l.map fun a => f a * g a).sum := by
  unfold regDot; rw [List.zipWith_map, List.zipWith_self]

theorem regDot_flatMap {α β : Type} (l : List α) (m : List β) (f g : α → β → ℚ) :
    regDot (l.flatMap fun a => m.map (f a)) (l.flatMap fun a => m.map (g a)) = (l.map fun a => (m.map fun o => f a o * g a o).sum).sum := by
  induction l with
  | nil => rfl
  | cons a l ih =>
    rw [List.flatMap_cons, List.flatMap_cons, regDot_append _ _ _ _ (by simp), ih, regDot_map]; simp

theorem range_grid (g : ℕ → ℚ) (kh kw : ℕ) :
    ((List.range kh).flatMap fun u => (List.range kw).map fun v => g (u * kw + v)) = (List.range (kh * kw)).map g := by
  induction kh with
  | zero => simp
  | succ n ih =>
    rw [List.range_succ, List.flatMap_append, ih, Nat.succ_mul, List.range_add, List.map_append]
    simp [Function.comp_def]

theorem offsets_map (L : FMConv) (g : ℕ → ℚ) :
    L.offsets.map (fun o => g (o.1 * L.kernel.2 + o.2)) = (List.range L.offsets.length).map g := by
  have hl : L.offsets.length = L.kernel.1 * L.kernel.2 := by
    unfold FMConv.offsets; simp [List.length_flatMap]
  rw [hl, ← range_grid]
  unfold FMConv.offsets
  rw [List.map_flatMap]
  simp [Function.comp_def]

theorem flat_getD (m : ℕ) : ∀ (kept : List ℕ) (l : List ℚ), kept.Nodup → l.length = kept.length * m →
    (kept.flatMap fun c => (List.range m).map fun t => l.getD (kept.idxOf c * m + t) 0) = l := by
  intro kept
  induction kept with
  | nil => intro l _ h; simp at h; simp [h]
  | cons c kept ih =>
    intro l hn hl
    rw [List.flatMap_cons]
    have h1 : (List.range m).map (fun t => l.getD ((c :: kept).idxOf c * m + t) 0) = l.take m := by
      apply List.ext_getElem
      · simp [hl, Nat.succ_mul]
      · intro i h1 h2
        simp at h1 h2
        simp [List.getElem?_eq_getElem h2.2]
    have h2 : (kept.flatMap fun d => (List.range m).map fun t => l.getD ((c :: kept).idxOf d * m + t) 0) = l.drop m := by
      rw [← ih (l.drop m) hn.of_cons (by simp [hl, Nat.succ_mul])]
      apply List.flatMap_congr
      intro d hd
      have hne : d ≠ c := fun h => (List.nodup_cons.1 hn).1 (h ▸ hd)
      apply List.map_congr_left
      intro t _
      rw [List.idxOf_cons_ne _ (Ne.symm hne), Nat.succ_mul]
      simp only [List.getD_eq_getElem?_getD, List.getElem?_drop]
      congr 2; ring
    rw [h1, h2, List.take_append_drop]

theorem windows_pos (a b c d e : ℕ) : 0 < windows a b c d e := Nat.succ_pos _

/-! ## C129 -/

/-- **C129** (pairs): the sampled inputs are those the layer's output at the sampled point is computed
from, for 1x1 convolutions without stride and padding, and for larger kernels if the output
feature-maps are square and there is no dilation. -/
theorem C129_pairs_partial (L : FMConv) (hal : L.Aligned) (B : FMBatch) (hok : L.hookOk B = true) (hp : L.PointsOk [B])
    (p : ℕ × ℕ) (h : p ∈ B.pts) (b c : ℕ) (o : ℕ × ℕ) (ho : o ∈ L.offsets) :
    L.inputAt B.x b p c o = L.padded B.x b c (p.1 * L.stride.1 + o.1 * L.dil.1) (p.2 * L.stride.2 + o.2 * L.dil.2) := by
  rcases hal with ⟨hk, hs, hpad⟩ | ⟨hk, hd, hsq⟩
  · unfold FMConv.hookOk at hok
    rw [if_pos hk, List.all_eq_true] at hok
    have hin := hok p h
    simp only [decide_eq_true_eq] at hin
    have ho' : o = (0, 0) := by
      unfold FMConv.offsets at ho
      rw [hk] at ho
      simpa [List.range_succ] using ho
    unfold FMConv.inputAt FMConv.padded
    rw [if_pos hk, hs, hpad, ho']
    simp [hin.1, hin.2]
  · obtain ⟨hp1, hp2⟩ := hp B (by simp) p h
    unfold FMConv.inputAt FMConv.unfold FMConv.column
    rw [if_neg hk]
    have hw : windows L.inSize.2 L.pad.2 1 L.kernel.2 L.stride.2 = L.outSize.2 := by unfold FMConv.outSize; rw [hd]
    have hpos : 0 < L.outSize.2 := by rw [← hw]; exact windows_pos _ _ _ _ _
    rw [hw, hsq]
    have e1 : (p.1 * L.outSize.2 + p.2) / L.outSize.2 = p.1 := by
      rw [Nat.mul_comm, Nat.mul_add_div hpos, Nat.div_eq_of_lt hp2]; rfl
    have e2 : (p.1 * L.outSize.2 + p.2) % L.outSize.2 = p.2 := by
      rw [Nat.mul_comm, Nat.mul_add_mod, Nat.mod_eq_of_lt hp2]
    rw [e1, e2, hd]; simp

/-- Output of masked weights, as a scalar product with the row of sampled inputs. -/
theorem out_masked (L : FMConv) (hal : L.Aligned) (B : FMBatch) (hok : L.hookOk B = true) (hp : L.PointsOk [B])
    (p : ℕ × ℕ) (h : p ∈ B.pts) (b f : ℕ) (map : List Bool) (hm : map.length = L.channels) (v : FMWeights) :
    L.out (maskChannels (keptChannels map) v) (fun _ => 0) B.x b f p.1 p.2 =
      regDot ((keptChannels map).flatMap fun c => L.offsets.map (v f c)) ((keptChannels map).flatMap fun c => L.offsets.map (L.inputAt B.x b p c)) := by
  rw [regDot_flatMap]
  unfold FMConv.out
  rw [add_zero, ← hm]
  rw [sum_filter_zero_fm (fun c => map.getD c false)]
  · have : (List.range map.length).filter (fun c => map.getD c false) = keptChannels map := rfl
    rw [this]
    congr 1
    apply List.map_congr_left
    intro c hc
    congr 1
    apply List.map_congr_left
    intro o ho
    rw [C129_pairs_partial L hal B hok hp p h b c o ho]
    unfold maskChannels
    rw [if_pos hc]
  · intro c hc
    have : c ∉ keptChannels map := by
      unfold keptChannels
      rw [List.mem_filter]
      rintro ⟨_, h⟩
      rw [hc] at h; cases h
    simp [maskChannels, this]

theorem sum_congr_map {α : Type} (l : List α) (f g : α → ℚ) (h : ∀ a ∈ l, f a = g a) : (l.map f).sum = (l.map g).sum := by
  rw [List.map_congr_left h]

theorem sampleError_eq (L : FMConv) (hal : L.Aligned) (Bs : List FMBatch) (hok : Bs.all L.hookOk = true) (hp : L.PointsOk Bs)
    (map : List Bool) (hm : map.length = L.channels) (w v : FMWeights) :
    L.sampleError w (maskChannels (keptChannels map) v) (fun _ => 0) Bs =
      regError L.filters (Bs.flatMap (L.rows w (fun _ => 0) (keptChannels map)))
        ((List.range L.filters).map fun f => (keptChannels map).flatMap fun c => L.offsets.map (v f c)) := by
  unfold FMConv.sampleError regError
  rw [sum_map_flatMap]
  apply sum_congr_map
  intro B hB
  unfold FMConv.rows
  rw [sum_map_flatMap]
  apply sum_congr_map
  intro b _
  rw [List.map_map]
  apply sum_congr_map
  intro p hpp
  apply sum_congr_map
  intro f hf
  have hf' := List.mem_range.1 hf
  rw [out_masked L hal B (List.all_eq_true.1 hok B hB) (by intro B' hB'; simp at hB'; rw [hB']; exact hp B hB) p hpp b f map hm v]
  simp [hf']

theorem place_flat (L : FMConv) (kept : List ℕ) (hn : kept.Nodup) (coef : List (List ℚ)) (w : FMWeights) (f : ℕ)
    (hl : (coef.getD f []).length = kept.length * L.offsets.length) :
    (kept.flatMap fun c => L.offsets.map (L.place kept coef w f c)) = coef.getD f [] := by
  rw [← flat_getD L.offsets.length kept (coef.getD f []) hn hl]
  apply List.flatMap_congr
  intro c hc
  rw [← offsets_map L (fun t => (coef.getD f []).getD (kept.idxOf c * L.offsets.length + t) 0)]
  apply List.map_congr_left
  intro o _
  unfold FMConv.place
  rw [if_pos hc]

theorem kept_nodup (map : List Bool) : (keptChannels map).Nodup := List.nodup_range.filter _

/-- **C129**: for layers without bias whose inputs are paired correctly, the weights computed by
feature-map reconstruction are zero in the removed channels, and on all collected samples their
squared error is at most that of any other weights on the kept channels; in particular at most that
of simply removing the channels.  Missing for the full property: layers with a bias, 1x1
convolutions with stride, non-square outputs and dilation, for which it is false (`C129_violated_*`). -/
theorem C129_reconstruction_partial (L : FMConv) (hal : L.Aligned) (lsq : List (List ℚ × List ℚ) → List (List ℚ))
    (map : List Bool) (hm : map.length = L.channels) (w w' : FMWeights) (Bs : List FMBatch) (hp : L.PointsOk Bs)
    (h : L.reconstruct lsq map w (fun _ => 0) Bs = .ok w')
    (hls : ∀ rows, L.collect w (fun _ => 0) (keptChannels map) Bs = .ok rows →
      IsLeastSquares L.filters ((keptChannels map).length * L.offsets.length) rows (lsq rows)) :
    (∀ f c o, c ∉ keptChannels map → w' f c o = 0) ∧
    ∀ v : FMWeights, L.sampleError w w' (fun _ => 0) Bs ≤ L.sampleError w (maskChannels (keptChannels map) v) (fun _ => 0) Bs := by
  unfold FMConv.reconstruct at h
  simp only [bind, Except.bind] at h
  cases hc : L.collect w (fun _ => 0) (keptChannels map) Bs with
  | error e => rw [hc] at h; cases h
  | ok rows =>
    rw [hc] at h
    simp only at h
    split at h
    · cases h
    · cases h
      obtain ⟨l1, l2, l3⟩ := hls rows hc
      unfold FMConv.collect at hc
      split at hc
      case isFalse => cases hc
      case isTrue hok =>
      cases hc
      refine ⟨fun f c o hn => by simp [maskChannels, hn], fun v => ?_⟩
      rw [sampleError_eq L hal Bs hok hp map hm w v, sampleError_eq L hal Bs hok hp map hm w]
      have e : (List.range L.filters).map (fun f => (keptChannels map).flatMap fun c => L.offsets.map
          (L.place (keptChannels map) (lsq (Bs.flatMap (L.rows w (fun _ => 0) (keptChannels map)))) w f c)) =
          lsq (Bs.flatMap (L.rows w (fun _ => 0) (keptChannels map))) := by
        apply List.ext_getElem
        · simp [l1]
        · intro i h1 h2
          rw [List.getElem_map, List.getElem_range, place_flat L _ (kept_nodup map)]
          · simp [List.getElem?_eq_getElem h2]
          · rw [List.getD_eq_getElem?_getD, List.getElem?_eq_getElem h2]
            exact l2 _ (List.getElem_mem h2)
      rw [e]
      apply l3
      · simp
      · intro c hc
        rw [List.mem_map] at hc
        obtain ⟨f, -, rfl⟩ := hc
        simp [List.length_flatMap]

theorem sum_sq_zero {α : Type} (l : List α) (g : α → ℚ) (h0 : ∀ a ∈ l, 0 ≤ g a) (h : (l.map g).sum ≤ 0) : ∀ a ∈ l, g a = 0 := by
  induction l with
  | nil => simp
  | cons a l ih =>
    have h1 := h0 a (by simp)
    have h2 : 0 ≤ (l.map g).sum := List.sum_nonneg (by
      intro x hx
      obtain ⟨b, hb, rfl⟩ := List.mem_map.1 hx
      exact h0 b (by simp [hb]))
    rw [List.map_cons, List.sum_cons] at h
    intro b hb
    rcases List.mem_cons.1 hb with rfl | hb
    · linarith
    · exact ih (fun a ha => h0 a (by simp [ha])) (by linarith) b hb

theorem sum_nonneg' {α : Type} (l : List α) (g : α → ℚ) (h0 : ∀ a ∈ l, 0 ≤ g a) : 0 ≤ (l.map g).sum :=
  List.sum_nonneg (by
    intro x hx
    obtain ⟨b, hb, rfl⟩ := List.mem_map.1 hx
    exact h0 b hb)

/-- The error is zero exactly if the outputs agree at all sampled points. -/
theorem sampleError_zero (L : FMConv) (w w' : FMWeights) (bias : ℕ → ℚ) (Bs : List FMBatch) :
    L.sampleError w w' bias Bs ≤ 0 ↔ ∀ B ∈ Bs, ∀ b < B.n, ∀ p ∈ B.pts, ∀ f < L.filters,
      L.out w' bias B.x b f p.1 p.2 = L.out w bias B.x b f p.1 p.2 := by
  constructor
  · intro h B hB b hb p hp f hf
    unfold FMConv.sampleError at h
    have h1 := sum_sq_zero _ _ (fun B _ => sum_nonneg' _ _ fun b _ => sum_nonneg' _ _ fun p _ => sum_nonneg' _ _ fun f _ => sq_nonneg _) h B hB
    have h2 := sum_sq_zero _ _ (fun b _ => sum_nonneg' _ _ fun p _ => sum_nonneg' _ _ fun f _ => sq_nonneg _) h1.le b (List.mem_range.2 hb)
    have h3 := sum_sq_zero _ _ (fun p _ => sum_nonneg' _ _ fun f _ => sq_nonneg _) h2.le p hp
    have h4 := sum_sq_zero _ _ (fun f _ => sq_nonneg _) h3.le f (List.mem_range.2 hf)
    have := pow_eq_zero_iff (two_ne_zero) |>.1 h4
    linarith
  · intro h
    unfold FMConv.sampleError
    apply le_of_eq
    apply List.sum_eq_zero
    intro x hx; obtain ⟨B, hB, rfl⟩ := List.mem_map.1 hx
    apply List.sum_eq_zero
    intro x hx; obtain ⟨b, hb, rfl⟩ := List.mem_map.1 hx
    apply List.sum_eq_zero
    intro x hx; obtain ⟨p, hp, rfl⟩ := List.mem_map.1 hx
    apply List.sum_eq_zero
    intro x hx; obtain ⟨f, hf, rfl⟩ := List.mem_map.1 hx
    rw [h B hB b (List.mem_range.1 hb) p hp f (List.mem_range.1 hf)]; ring

/-- **C129** (exactness): if some weights on the kept channels give the original outputs at the
samples (for example because the removed channels were already zero), so do the new weights. -/
theorem C129_exact_partial (L : FMConv) (hal : L.Aligned) (lsq : List (List ℚ × List ℚ) → List (List ℚ))
    (map : List Bool) (hm : map.length = L.channels) (w w' : FMWeights) (Bs : List FMBatch) (hp : L.PointsOk Bs)
    (h : L.reconstruct lsq map w (fun _ => 0) Bs = .ok w')
    (hls : ∀ rows, L.collect w (fun _ => 0) (keptChannels map) Bs = .ok rows →
      IsLeastSquares L.filters ((keptChannels map).length * L.offsets.length) rows (lsq rows))
    (v : FMWeights) (hv : ∀ B ∈ Bs, ∀ b < B.n, ∀ p ∈ B.pts, ∀ f < L.filters,
      L.out (maskChannels (keptChannels map) v) (fun _ => 0) B.x b f p.1 p.2 = L.out w (fun _ => 0) B.x b f p.1 p.2) :
    ∀ B ∈ Bs, ∀ b < B.n, ∀ p ∈ B.pts, ∀ f < L.filters, L.out w' (fun _ => 0) B.x b f p.1 p.2 = L.out w (fun _ => 0) B.x b f p.1 p.2 := by
  apply (sampleError_zero L w w' _ Bs).1
  exact le_trans ((C129_reconstruction_partial L hal lsq map hm w w' Bs hp h hls).2 v) ((sampleError_zero L w _ _ Bs).2 hv)

theorem regError_nonneg (F : ℕ) (rows : List (List ℚ × List ℚ)) (coef : List (List ℚ)) : 0 ≤ regError F rows coef :=
  sum_nonneg' _ _ fun _ _ => sum_nonneg' _ _ fun _ _ => sq_nonneg _

/-- Coefficients without error are a solution of the regression. -/
theorem leastSquares_of_zero {F n : ℕ} {rows : List (List ℚ × List ℚ)} {coef : List (List ℚ)} (h1 : coef.length = F)
    (h2 : ∀ c ∈ coef, c.length = n) (h3 : regError F rows coef = 0) : IsLeastSquares F n rows coef :=
  ⟨h1, h2, fun coef' _ _ => by rw [h3]; exact regError_nonneg _ _ _⟩

theorem reconstruct_eq {L : FMConv} {map : List Bool} {w : FMWeights} {bias : ℕ → ℚ} {Bs : List FMBatch} {rows : List (List ℚ × List ℚ)}
    (h : L.collect w bias (keptChannels map) Bs = .ok rows) (hk : keptChannels map ≠ []) (hr : rows ≠ [])
    (lsq : List (List ℚ × List ℚ) → List (List ℚ)) :
    L.reconstruct lsq map w bias Bs = .ok (maskChannels (keptChannels map) (L.place (keptChannels map) (lsq rows) w)) := by
  unfold FMConv.reconstruct
  simp only [bind, Except.bind, h]
  rw [if_neg (by simp [hk, hr])]; rfl

/-- A 3x3 convolution with two filters, two channels and padding, on 4x4 inputs, as in the theorems. -/
def fmConv : FMConv := ⟨2, 2, (3, 3), (1, 1), (1, 1), (1, 1), (4, 4)⟩

/-- Weights whose second channel is zero. -/
def fmW : FMWeights := fun f c o => if c = 0 then ((f + 1 : ℕ) : ℚ) * (o.1 + 2 * o.2 : ℕ) else 0

/-- Two samples and two points. -/
def fmBatch : FMBatch := ⟨2, fun b c i j => ((b + 2 * c + 3 * i + j : ℕ) : ℚ), [(1, 2), (3, 0)]⟩

/-- The hypotheses of the theorems hold for `fmConv`: the regression of the kept channel has the
original weights as a solution. -/
example : fmConv.Aligned ∧ fmConv.PointsOk [fmBatch] ∧
    ∃ rows, fmConv.collect fmW (fun _ => 0) (keptChannels [true, false]) [fmBatch] = .ok rows ∧ rows.length = 4 ∧
      IsLeastSquares 2 9 rows [[0, 2, 4, 1, 3, 5, 2, 4, 6], [0, 4, 8, 2, 6, 10, 4, 8, 12]] := by
  refine ⟨.inr (by decide), ?_, (fmConv.collect fmW (fun _ => 0) (keptChannels [true, false]) [fmBatch]).toOption.get (by decide +kernel), by decide +kernel, by decide +kernel,
    leastSquares_of_zero (by decide) (by decide) (by decide +kernel)⟩
  intro B hB p hp
  rw [List.mem_singleton.1 hB] at hp
  revert p
  decide

/-- A 1x1 convolution with one filter and two channels. -/
def fmPoint (stride inSize : ℕ × ℕ) : FMConv := ⟨1, 2, (1, 1), stride, (0, 0), (1, 1), inSize⟩

/-- Weights 1 for the first channel and 0 for the second. -/
def fmOne : FMWeights := fun _ c _ => if c = 0 then 1 else 0

/-- **C129** (reference): the convolution used in the statements is the usual one: an output row exists
exactly if its window fits in the padded input, and away from the padding the padded input is the
input. -/
theorem C129_reference (L : FMConv) (hs : 0 < L.stride.1 ∧ 0 < L.stride.2)
    (hf : L.dil.1 * (L.kernel.1 - 1) < L.inSize.1 + 2 * L.pad.1 ∧ L.dil.2 * (L.kernel.2 - 1) < L.inSize.2 + 2 * L.pad.2) (i j : ℕ) :
    (i < L.outSize.1 ↔ i * L.stride.1 + L.dil.1 * (L.kernel.1 - 1) < L.inSize.1 + 2 * L.pad.1) ∧
    (j < L.outSize.2 ↔ j * L.stride.2 + L.dil.2 * (L.kernel.2 - 1) < L.inSize.2 + 2 * L.pad.2) ∧
    (∀ x b c, i < L.inSize.1 → j < L.inSize.2 → L.padded x b c (i + L.pad.1) (j + L.pad.2) = x b c i j) := by
  have key : ∀ (size pad dil kernel stride i : ℕ), 0 < stride → dil * (kernel - 1) < size + 2 * pad →
      (i < windows size pad dil kernel stride ↔ i * stride + dil * (kernel - 1) < size + 2 * pad) := by
    intro size pad dil kernel stride i h hf
    unfold windows
    rw [Nat.lt_succ_iff, Nat.le_div_iff_mul_le h]
    omega
  refine ⟨key _ _ _ _ _ i hs.1 hf.1, key _ _ _ _ _ j hs.2 hf.2, fun x b c hi hj => ?_⟩
  unfold FMConv.padded
  rw [if_pos ⟨by omega, by omega, by omega, by omega⟩]
  simp

/-- The number of positions of the kernel in the padded input, without dilation. -/
def FMConv.undilatedCols (L : FMConv) : ℕ :=
  ((L.inSize.1 + 2 * L.pad.1 - (L.kernel.1 - 1) - 1) / L.stride.1 + 1) * ((L.inSize.2 + 2 * L.pad.2 - (L.kernel.2 - 1) - 1) / L.stride.2 + 1)

/-- **C129** (when it works): reconstruction succeeds exactly if a channel is kept, there is a sample,
and for every batch the sampled points can be read: for 1x1 kernels they are points of the input; for
other kernels the batch does not have exactly one sample, the unfolded input does not have exactly one
column, and the computed columns exist. -/
theorem C129_succeeds_iff (L : FMConv) (lsq : List (List ℚ × List ℚ) → List (List ℚ)) (map : List Bool) (w : FMWeights)
    (bias : ℕ → ℚ) (Bs : List FMBatch) :
    (∃ w', L.reconstruct lsq map w bias Bs = .ok w') ↔
      true ∈ map ∧ (∃ B ∈ Bs, 0 < B.n ∧ B.pts ≠ []) ∧
      ∀ B ∈ Bs, (L.kernel = (1, 1) → ∀ p ∈ B.pts, p.1 < L.inSize.1 ∧ p.2 < L.inSize.2) ∧
        (L.kernel ≠ (1, 1) → B.n ≠ 1 ∧ L.undilatedCols ≠ 1 ∧ ∀ p ∈ B.pts, p.1 * L.outSize.1 + p.2 < L.undilatedCols) := by
  have hcols : L.undilatedCols = L.unfoldCols := by
    simp [FMConv.undilatedCols, FMConv.unfoldCols, windows]
  rw [hcols]
  have hkept : keptChannels map = [] ↔ true ∉ map := by
    unfold keptChannels
    rw [List.filter_eq_nil_iff]
    constructor
    · intro h ht
      obtain ⟨c, hc, hct⟩ := List.getElem_of_mem ht
      exact h c (List.mem_range.2 hc) (by simp [List.getD_eq_getElem?_getD, List.getElem?_eq_getElem hc, hct])
    · intro h c hc hct
      rw [List.mem_range] at hc
      rw [List.getD_eq_getElem?_getD, List.getElem?_eq_getElem hc] at hct
      exact h (by simp at hct; rw [← hct]; exact List.getElem_mem hc)
  have hrows : Bs.flatMap (L.rows w bias (keptChannels map)) = [] ↔ ¬ ∃ B ∈ Bs, 0 < B.n ∧ B.pts ≠ [] := by
    rw [List.flatMap_eq_nil_iff]
    simp only [FMConv.rows, List.flatMap_eq_nil_iff, List.map_eq_nil_iff, List.mem_range]
    constructor
    · rintro h ⟨B, hB, hn, hp⟩; exact hp (h B hB 0 hn)
    · intro h B hB b hb; by_contra hp; exact h ⟨B, hB, by omega, hp⟩
  have hhook : Bs.all L.hookOk = true ↔ ∀ B ∈ Bs, (L.kernel = (1, 1) → ∀ p ∈ B.pts, p.1 < L.inSize.1 ∧ p.2 < L.inSize.2) ∧
        (L.kernel ≠ (1, 1) → B.n ≠ 1 ∧ L.unfoldCols ≠ 1 ∧ ∀ p ∈ B.pts, p.1 * L.outSize.1 + p.2 < L.unfoldCols) := by
    rw [List.all_eq_true]
    refine forall₂_congr fun B _ => ?_
    unfold FMConv.hookOk FMConv.column
    by_cases hk : L.kernel = (1, 1)
    · simp [hk]
    · simp [hk]
  unfold FMConv.reconstruct FMConv.collect
  rw [← hhook]
  by_cases hh : Bs.all L.hookOk = true
  · simp only [hh, if_true, bind, Except.bind, hkept, hrows]
    by_cases h1 : true ∈ map <;> by_cases h2 : ∃ B ∈ Bs, 0 < B.n ∧ B.pts ≠ []
    · rw [if_neg (by rintro (h | h); exacts [h h1, h h2])]
      exact ⟨fun _ => ⟨h1, h2, trivial⟩, fun _ => ⟨_, rfl⟩⟩
    · rw [if_pos (.inr h2)]
      exact ⟨fun h => (by obtain ⟨_, h⟩ := h; cases h), fun h => absurd h.2.1 h2⟩
    · rw [if_pos (.inl h1)]
      exact ⟨fun h => (by obtain ⟨_, h⟩ := h; cases h), fun h => absurd h.1 h1⟩
    · rw [if_pos (.inl h1)]
      exact ⟨fun h => (by obtain ⟨_, h⟩ := h; cases h), fun h => absurd h.1 h1⟩
  · simp only [hh, Bool.false_eq_true, if_false, bind, Except.bind, and_false, iff_false]
    rintro ⟨_, h⟩; cases h

example : ∃ w', (⟨1, 2, (3, 3), (1, 1), (1, 1), (1, 1), (4, 4)⟩ : FMConv).reconstruct (fun _ => []) [true, false] (fun _ _ _ => 1) (fun _ => 0)
    [⟨2, fun _ _ _ _ => 1, [(3, 3)]⟩] = .ok w' := by
  rw [C129_succeeds_iff]
  refine ⟨by decide, ⟨_, List.mem_singleton.2 rfl, by decide, by decide⟩, fun B hB => ?_⟩
  rw [List.mem_singleton] at hB; subst hB
  refine ⟨fun h => absurd h (by decide), fun _ => ⟨by decide, by decide, ?_⟩⟩
  intro p hp; rw [List.mem_singleton] at hp; subst hp; decide

/-- **C129** is violated for layers with a bias: the regression has no intercept, so it fits output and
bias together, and the bias is added again; removing the (zero) channel would have changed nothing. -/
theorem C129_violated_bias : ∃ (L : FMConv) (lsq : List (List ℚ × List ℚ) → List (List ℚ)) (map : List Bool) (w w' : FMWeights)
    (bias : ℕ → ℚ) (Bs : List FMBatch), L.Aligned ∧ map.length = L.channels ∧ L.PointsOk Bs ∧ L.reconstruct lsq map w bias Bs = .ok w' ∧
    (∀ rows, L.collect w bias (keptChannels map) Bs = .ok rows → IsLeastSquares L.filters ((keptChannels map).length * L.offsets.length) rows (lsq rows)) ∧
    L.sampleError w (maskChannels (keptChannels map) w) bias Bs = 0 ∧ 0 < L.sampleError w w' bias Bs := by
  have hc : (fmPoint (1, 1) (1, 1)).collect fmOne (fun _ => 1) (keptChannels [true, false]) [⟨2, fun _ _ _ _ => 1, [(0, 0)]⟩] =
      .ok [([1], [2]), ([1], [2])] := by decide +kernel
  refine ⟨fmPoint (1, 1) (1, 1), fun _ => [[2]], [true, false], fmOne, _, fun _ => 1, [⟨2, fun _ _ _ _ => 1, [(0, 0)]⟩],
    .inl (by decide), rfl, ?_, reconstruct_eq hc (by decide) (by decide) _, ?_, by decide +kernel, by decide +kernel⟩
  · intro B hB p hp
    rw [List.mem_singleton.1 hB] at hp
    revert p
    decide
  · intro rows h
    rw [hc] at h
    cases h
    exact leastSquares_of_zero (by decide) (by decide) (by decide +kernel)

/-- **C129** is violated for 1x1 convolutions with stride: the inputs are read at the coordinates of the
output. -/
theorem C129_violated_stride : ∃ (L : FMConv) (lsq : List (List ℚ × List ℚ) → List (List ℚ)) (map : List Bool) (w w' : FMWeights)
    (Bs : List FMBatch), L.kernel = (1, 1) ∧ L.stride = (2, 2) ∧ map.length = L.channels ∧ L.PointsOk Bs ∧ L.reconstruct lsq map w (fun _ => 0) Bs = .ok w' ∧
    (∀ rows, L.collect w (fun _ => 0) (keptChannels map) Bs = .ok rows → IsLeastSquares L.filters ((keptChannels map).length * L.offsets.length) rows (lsq rows)) ∧
    L.sampleError w (maskChannels (keptChannels map) w) (fun _ => 0) Bs = 0 ∧ 0 < L.sampleError w w' (fun _ => 0) Bs := by
  have hc : (fmPoint (2, 2) (3, 3)).collect fmOne (fun _ => 0) (keptChannels [true, false]) [⟨2, fun _ _ i _ => (i : ℚ), [(1, 0)]⟩] =
      .ok [([1], [2]), ([1], [2])] := by decide +kernel
  refine ⟨fmPoint (2, 2) (3, 3), fun _ => [[2]], [true, false], fmOne, _, [⟨2, fun _ _ i _ => (i : ℚ), [(1, 0)]⟩],
    rfl, rfl, rfl, ?_, reconstruct_eq hc (by decide) (by decide) _, ?_, by decide +kernel, by decide +kernel⟩
  · intro B hB p hp
    rw [List.mem_singleton.1 hB] at hp
    revert p
    decide
  · intro rows h
    rw [hc] at h
    cases h
    exact leastSquares_of_zero (by decide) (by decide) (by decide +kernel)

/-- **C129** is violated for non-square feature-maps: the column of the unfolded input is computed with
the wrong side. -/
theorem C129_violated_nonsquare : ∃ (L : FMConv) (lsq : List (List ℚ × List ℚ) → List (List ℚ)) (map : List Bool) (w w' : FMWeights)
    (Bs : List FMBatch), L.kernel = (2, 1) ∧ L.dil = (1, 1) ∧ map.length = L.channels ∧ L.PointsOk Bs ∧ L.reconstruct lsq map w (fun _ => 0) Bs = .ok w' ∧
    (∀ rows, L.collect w (fun _ => 0) (keptChannels map) Bs = .ok rows → IsLeastSquares L.filters ((keptChannels map).length * L.offsets.length) rows (lsq rows)) ∧
    L.sampleError w (maskChannels (keptChannels map) w) (fun _ => 0) Bs = 0 ∧ 0 < L.sampleError w w' (fun _ => 0) Bs := by
  have hc : (⟨1, 2, (2, 1), (1, 1), (0, 0), (1, 1), (3, 3)⟩ : FMConv).collect fmOne (fun _ => 0) (keptChannels [true, false])
      [⟨2, fun _ _ i j => if i = 1 ∧ j = 0 then 4 else if j = 2 then 1 else 0, [(1, 0)]⟩] = .ok [([1, 1], [4]), ([1, 1], [4])] := by decide +kernel
  refine ⟨⟨1, 2, (2, 1), (1, 1), (0, 0), (1, 1), (3, 3)⟩, fun _ => [[2, 2]], [true, false], fmOne, _,
    [⟨2, fun _ _ i j => if i = 1 ∧ j = 0 then 4 else if j = 2 then 1 else 0, [(1, 0)]⟩],
    rfl, rfl, rfl, ?_, reconstruct_eq hc (by decide) (by decide) _, ?_, by decide +kernel, by decide +kernel⟩
  · intro B hB p hp
    rw [List.mem_singleton.1 hB] at hp
    revert p
    decide
  · intro rows h
    rw [hc] at h
    cases h
    exact leastSquares_of_zero (by decide) (by decide) (by decide +kernel)

/-- **C129** is violated for dilated convolutions: the input is unfolded without dilation. -/
theorem C129_violated_dilation : ∃ (L : FMConv) (lsq : List (List ℚ × List ℚ) → List (List ℚ)) (map : List Bool) (w w' : FMWeights)
    (Bs : List FMBatch), L.dil = (2, 2) ∧ L.outSize = (2, 2) ∧ map.length = L.channels ∧ L.PointsOk Bs ∧ L.reconstruct lsq map w (fun _ => 0) Bs = .ok w' ∧
    (∀ rows, L.collect w (fun _ => 0) (keptChannels map) Bs = .ok rows → IsLeastSquares L.filters ((keptChannels map).length * L.offsets.length) rows (lsq rows)) ∧
    L.sampleError w (maskChannels (keptChannels map) w) (fun _ => 0) Bs = 0 ∧ 0 < L.sampleError w w' (fun _ => 0) Bs := by
  have hc : (⟨1, 2, (2, 2), (1, 1), (0, 0), (2, 2), (4, 4)⟩ : FMConv).collect fmOne (fun _ => 0) (keptChannels [true, false])
      [⟨2, fun _ _ i j => if i = 2 ∧ j = 2 then 4 else if i = 1 ∧ j = 1 then 1 else 0, [(0, 0)]⟩] = .ok [([0, 0, 0, 1], [4]), ([0, 0, 0, 1], [4])] := by decide +kernel
  refine ⟨⟨1, 2, (2, 2), (1, 1), (0, 0), (2, 2), (4, 4)⟩, fun _ => [[0, 0, 0, 4]], [true, false], fmOne, _,
    [⟨2, fun _ _ i j => if i = 2 ∧ j = 2 then 4 else if i = 1 ∧ j = 1 then 1 else 0, [(0, 0)]⟩],
    rfl, by decide, rfl, ?_, reconstruct_eq hc (by decide) (by decide) _, ?_, by decide +kernel, by decide +kernel⟩
  · intro B hB p hp
    rw [List.mem_singleton.1 hB] at hp
    revert p
    decide
  · intro rows h
    rw [hc] at h
    cases h
    exact leastSquares_of_zero (by decide) (by decide) (by decide +kernel)

/-- **C129** is violated: a batch with one sample makes the collection fail for every kernel but 1x1. -/
theorem C129_violated_single_sample (L : FMConv) (hk : L.kernel ≠ (1, 1)) (lsq : List (List ℚ × List ℚ) → List (List ℚ)) (map : List Bool)
    (w : FMWeights) (bias : ℕ → ℚ) (Bs : List FMBatch) (B : FMBatch) (hB : B ∈ Bs) (hn : B.n = 1) :
    L.reconstruct lsq map w bias Bs = .error .index := by
  have hno : L.hookOk B = false := by
    unfold FMConv.hookOk; rw [if_neg hk]; simp [hn]
  have : Bs.all L.hookOk = false := by
    rw [List.all_eq_false]; exact ⟨B, hB, by simp [hno]⟩
  unfold FMConv.reconstruct FMConv.collect
  simp only [this, Bool.false_eq_true, if_false, bind, Except.bind]

end Verif
