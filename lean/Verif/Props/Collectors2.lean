import Verif.Props.Collectors
import Mathlib.Algebra.Order.Floor.Ring
import Mathlib.Tactic.Positivity
/-!
# C70 (histograms), C71 (collector life cycle), C72 (per-sample records)
-/
namespace Verif

/-! ## C70: activation histograms -/

/-- Specification: `y` belongs to bin `k` of `n` equal bins of `[lo, hi]`; bins are half-open, the
last one contains `hi`. -/
def InBin (n : ℕ) (lo hi : ℚ) (k : ℕ) (y : ℚ) : Prop :=
  (lo + k * ((hi - lo) / n) ≤ y ∧ y < lo + (k + 1) * ((hi - lo) / n)) ∨ (k + 1 = n ∧ y = hi)

instance instDecidableInBin (n : ℕ) (lo hi : ℚ) (k : ℕ) (y : ℚ) : Decidable (InBin n lo hi k y) := by
  unfold InBin; infer_instance

/-- The value after clamping to `[lo, hi]` (specification). -/
def clampTo (lo hi x : ℚ) : ℚ := if x < lo then lo else if hi < x then hi else x

theorem clampQ_eq {lo hi x : ℚ} (h : lo ≤ hi) : clampQ x lo hi = clampTo lo hi x := by
  unfold clampQ clampTo
  by_cases h1 : x < lo
  · rw [max_eq_right h1.le, min_eq_left h, if_pos h1]
  · rw [max_eq_left (not_lt.1 h1), if_neg h1]
    by_cases h2 : hi < x
    · rw [min_eq_right h2.le, if_pos h2]
    · rw [min_eq_left (not_lt.1 h2), if_neg h2]

theorem clampTo_mem {lo hi x : ℚ} (h : lo ≤ hi) : lo ≤ clampTo lo hi x ∧ clampTo lo hi x ≤ hi := by
  unfold clampTo
  by_cases h1 : x < lo
  · simp [h1, h]
  · by_cases h2 : hi < x
    · simp [h1, h2, h]
    · simp [h1, h2, not_lt.1 h1, not_lt.1 h2]

theorem histBin_iff {n : ℕ} {lo hi y : ℚ} {k : ℕ} (hn : 0 < n) (hlt : lo < hi) (hy : lo ≤ y ∧ y ≤ hi) (hk : k < n) :
    histBin n lo hi y = some k ↔ InBin n lo hi k y := by
  obtain ⟨y1, y2⟩ := hy
  have hw : 0 < hi - lo := by linarith
  have hnq : (0 : ℚ) < n := by exact_mod_cast hn
  unfold histBin InBin
  rw [if_neg (by rintro (h | h) <;> linarith)]
  simp only [Option.some.injEq]
  generalize hq : (y - lo) * n / (hi - lo) = q
  have hq0 : 0 ≤ q := by rw [← hq]; apply div_nonneg (mul_nonneg (by linarith) hnq.le) hw.le
  have hyq : y = lo + q * ((hi - lo) / n) := by rw [← hq]; field_simp; ring
  have hqn : q ≤ n := by
    rw [← hq, div_le_iff₀ hw]
    have := mul_le_mul_of_nonneg_right (show y - lo ≤ hi - lo by linarith) hnq.le
    linarith
  have hwn : 0 < (hi - lo) / n := div_pos hw hnq
  have hf : ((⌊q⌋.toNat : ℕ) : ℤ) = ⌊q⌋ := Int.toNat_of_nonneg (Int.floor_nonneg.2 hq0)
  have floor_iff : ∀ j : ℕ, ⌊q⌋.toNat = j ↔ ((j : ℚ) ≤ q ∧ q < j + 1) := by
    intro j
    have : (⌊q⌋ = (j : ℤ)) ↔ ((j : ℚ) ≤ q ∧ q < j + 1) := by
      rw [Int.floor_eq_iff]; push_cast; rfl
    rw [← this]; omega
  have bin_iff : ∀ j : ℕ, (lo + j * ((hi - lo) / n) ≤ y ∧ y < lo + (j + 1) * ((hi - lo) / n)) ↔ ((j : ℚ) ≤ q ∧ q < j + 1) := by
    intro j
    rw [hyq]
    constructor
    · rintro ⟨a, b⟩
      exact ⟨le_of_mul_le_mul_right (by linarith) hwn, lt_of_mul_lt_mul_right (by linarith) hwn.le⟩
    · rintro ⟨a, b⟩
      have := mul_le_mul_of_nonneg_right a hwn.le
      have := mul_lt_mul_of_pos_right b hwn
      constructor <;> linarith
  rw [bin_iff]
  have hyhi : y = hi ↔ q = n := by
    rw [hyq]
    constructor
    · intro h
      have e : q * ((hi - lo) / n) = n * ((hi - lo) / n) := by
        have : (n : ℚ) * ((hi - lo) / n) = hi - lo := by field_simp
        rw [this]; linarith
      exact mul_right_cancel₀ hwn.ne' e
    · rintro rfl; field_simp; ring
  by_cases hc : ⌊q⌋.toNat = n
  · rw [if_pos hc]
    have h1 := (floor_iff n).1 hc
    have hqe : q = n := le_antisymm hqn h1.1
    rw [hyhi]
    constructor
    · intro h; right; exact ⟨by omega, hqe⟩
    · rintro (h | h)
      · exfalso
        have : q < k + 1 := h.2
        rw [hqe] at this
        have : n < k + 1 := by exact_mod_cast this
        omega
      · omega
  · rw [if_neg hc, floor_iff]
    constructor
    · exact Or.inl
    · rintro (h | ⟨_, h⟩)
      · exact h
      · exfalso
        apply hc
        rw [floor_iff]
        rw [hyhi] at h
        rw [h]; constructor <;> linarith

theorem getHist_getElem {n : ℕ} {lo hi : ℚ} (hlt : lo < hi) {t : Tensor} {k : ℕ} (hk : k < n) :
    (getHist n lo hi t)[k]? = some (t.countP fun x => InBin n lo hi k (clampTo lo hi x)) := by
  unfold getHist histc
  rw [List.getElem?_map, List.getElem?_range hk]
  simp only [Option.map_some, Option.some.injEq]
  rw [List.countP_map]
  apply List.countP_congr
  intro x _
  have := histBin_iff (k := k) (show 0 < n by omega) hlt (clampTo_mem (x := x) hlt.le) hk
  simp [this, clampQ_eq hlt.le]

/-- **C70** For any number of bins, any range and any sequence of batches of activations: every bin of the
collected histogram holds exactly the number of values, over all batches, whose value clamped to the
range lies in that bin. -/
theorem C70_bins (n : ℕ) (lo hi : ℚ) (hlt : lo < hi) (bs : List Tensor) (k : ℕ) (hk : k < n) :
    (bs.foldl (fun h t => histAdd h n lo hi t) (histInit n))[k]? =
      some (bs.flatten.countP fun x => InBin n lo hi k (clampTo lo hi x)) := by
  induction bs using List.reverseRecOn with
  | nil => simp [histInit, hk]
  | append_singleton bs t ih =>
    rw [List.foldl_append, List.foldl_cons, List.foldl_nil]
    generalize bs.foldl (fun h t => histAdd h n lo hi t) (histInit n) = h at *
    unfold histAdd
    rw [List.getElem?_zipWith, ih, getHist_getElem hlt hk]
    simp

/-- The bins partition the range. -/
theorem inBin_unique {n : ℕ} {lo hi y : ℚ} (hn : 0 < n) (hlt : lo < hi) (hy : lo ≤ y ∧ y ≤ hi) :
    ∃ k < n, InBin n lo hi k y ∧ ∀ j < n, InBin n lo hi j y → j = k := by
  have hw : 0 < hi - lo := by linarith
  have hnq : (0 : ℚ) < n := by exact_mod_cast hn
  have hs : ∃ k, histBin n lo hi y = some k ∧ k < n := by
    unfold histBin
    rw [if_neg (by rintro (h | h) <;> linarith [hy.1, hy.2])]
    refine ⟨_, rfl, ?_⟩
    split
    · omega
    · rename_i hc
      have hqn : (y - lo) * n / (hi - lo) ≤ n := by
        rw [div_le_iff₀ hw]
        have := mul_le_mul_of_nonneg_right (show y - lo ≤ hi - lo by linarith [hy.2]) hnq.le
        linarith
      have h1 : ⌊(y - lo) * n / (hi - lo)⌋ ≤ (n : ℤ) := by
        have h2 : ((⌊(y - lo) * n / (hi - lo)⌋ : ℤ) : ℚ) ≤ ((n : ℤ) : ℚ) := le_trans (Int.floor_le _) (by exact_mod_cast hqn)
        exact_mod_cast h2
      omega
  obtain ⟨k, h1, hk⟩ := hs
  refine ⟨k, hk, (histBin_iff hn hlt hy hk).1 h1, ?_⟩
  intro j hj h
  have := (histBin_iff hn hlt hy hj).2 h
  rw [h1] at this; cases this; rfl

theorem sum_ite_eq_one {n k : ℕ} (hk : k < n) (f : ℕ → ℕ) (h1 : f k = 1) (h0 : ∀ j < n, j ≠ k → f j = 0) :
    ((List.range n).map f).sum = 1 := by
  induction n with
  | zero => omega
  | succ n ih =>
    rw [List.range_succ, List.map_append, List.sum_append]
    simp only [List.map_cons, List.map_nil, List.sum_cons, List.sum_nil, add_zero]
    by_cases c : k = n
    · subst c
      have : ((List.range k).map f).sum = 0 := by
        apply List.sum_eq_zero
        intro x hx
        obtain ⟨j, hj, rfl⟩ := List.mem_map.1 hx
        have := List.mem_range.1 hj
        exact h0 j (by omega) (by omega)
      omega
    · have := ih (by omega) (fun j hj hjk => h0 j (by omega) hjk)
      have := h0 n (by omega) (by omega)
      omega

/-- **C70** No activation is lost or counted twice: the bins sum to the number of values seen. -/
theorem C70_total (n : ℕ) (hn : 0 < n) (lo hi : ℚ) (hlt : lo < hi) (bs : List Tensor) :
    (bs.foldl (fun h t => histAdd h n lo hi t) (histInit n)).sum = bs.flatten.length := by
  have hlen : (bs.foldl (fun h t => histAdd h n lo hi t) (histInit n)).length = n := by
    induction bs using List.reverseRecOn with
    | nil => simp [histInit]
    | append_singleton bs t ih =>
      rw [List.foldl_append, List.foldl_cons, List.foldl_nil]
      generalize bs.foldl (fun h t => histAdd h n lo hi t) (histInit n) = h at *
      simp [ih, getHist, histc, histAdd]
  have he : bs.foldl (fun h t => histAdd h n lo hi t) (histInit n) =
      (List.range n).map fun k => bs.flatten.countP fun x => InBin n lo hi k (clampTo lo hi x) := by
    apply List.ext_getElem?
    intro k
    by_cases hk : k < n
    · rw [C70_bins n lo hi hlt bs k hk, List.getElem?_map, List.getElem?_range hk]; rfl
    · rw [List.getElem?_eq_none (by omega), List.getElem?_eq_none (by simp; omega)]
  rw [he]
  generalize bs.flatten = l
  induction l with
  | nil => simp
  | cons x l ih =>
    have hc : ((List.range n).map fun k => (x :: l).countP fun x => InBin n lo hi k (clampTo lo hi x)) =
        (List.range n).map fun k => (l.countP fun x => InBin n lo hi k (clampTo lo hi x)) +
          (if InBin n lo hi k (clampTo lo hi x) then 1 else 0) := by
      apply List.map_congr_left
      intro k _
      rw [List.countP_cons]
      simp
    rw [hc, List.sum_map_add, ih, List.length_cons]
    obtain ⟨k, hk, h1, h2⟩ := inBin_unique hn hlt (clampTo_mem (x := x) hlt.le)
    rw [sum_ite_eq_one hk (fun k => if InBin n lo hi k (clampTo lo hi x) then 1 else 0) (if_pos h1)
      (fun j hj hjk => if_neg fun h => hjk (h2 j hj h))]

/-- **C70** The reported bin centre is within half a bin width of every value counted in the bin. -/
theorem C70_centroid (n : ℕ) (hn : 2 ≤ n) (lo hi : ℚ) (hlt : lo < hi) (k : ℕ) (y : ℚ)
    (h : InBin n lo hi k y) : |y - binCentroid n lo hi k| ≤ (hi - lo) / n / 2 := by
  have hnq : (2 : ℚ) ≤ n := by exact_mod_cast hn
  have hw : 0 < (hi - lo) / n := div_pos (by linarith) (by linarith)
  have hc : binCentroid n lo hi k = lo + k * ((hi - lo) / n) + (hi - lo) / n / 2 := by
    unfold binCentroid
    have h1 : ((n : ℚ) - 1) ≠ 0 := by linarith
    have h2 : (n : ℚ) ≠ 0 := by linarith
    simp only
    field_simp
    ring
  rw [hc, abs_le]
  rcases h with ⟨a, b⟩ | ⟨hk, rfl⟩
  · constructor <;> linarith
  · have e : y = lo + (k + 1) * ((y - lo) / n) := by
      have : (n : ℚ) = k + 1 := by exact_mod_cast hk.symm
      rw [this]; field_simp; ring
    constructor <;> linarith

example : [[1, 2, 5], [-3, 9]].foldl (fun h t => histAdd h 4 0 8 t) (histInit 4) = [2, 1, 1, 1] := by decide +kernel

/-! ## C72: one record per sample -/

/-- **C72** The records collector keeps, for every statistic, exactly one entry per sample in the order
in which samples were seen, however they were grouped in batches. -/
theorem C72_records (bs : List Batch) :
    bs.foldl ARec.update ⟨[], [], []⟩ =
      ⟨bs.flatten.map minL, bs.flatten.map maxL, bs.flatten.map fun s => s.sum / (s.length : ℚ)⟩ := by
  induction bs using List.reverseRecOn with
  | nil => rfl
  | append_singleton bs x ih => simp [List.foldl_append, ih, ARec.update]

/-- `minL` and `maxL` are what their names say. -/
theorem C72_min_max (s : Tensor) (hs : s ≠ []) : IsLeastOf (minL s) s ∧ IsGreatestOf (maxL s) s :=
  ⟨minL_least hs, maxL_greatest hs⟩

example : exBatches.foldl ARec.update ⟨[], [], []⟩ = ⟨[1, 3, -1], [2, 6, 7], [3/2, 9/2, 3]⟩ := by decide +kernel

/-! ## C71: life cycle -/

variable {δ : Type}

/-- What a module has recorded (specification). -/
def CState.data (s : CState δ) (i : ℕ) : List δ := (s.seen.get? i).getD []

theorem forward_nohook (s : CState δ) (h : s.hooks = []) (e : ℕ × δ) : s.forward e = s := by
  unfold CState.forward; simp [h]

theorem startModule_hooks (k : CKind) (s : CState δ) (l : List ℕ) : (l.foldl (CState.startModule k) s).hooks = s.hooks ++ l := by
  induction l generalizing s with
  | nil => simp
  | cons a l ih => rw [List.foldl_cons, ih]; simp [CState.startModule]

theorem reset_data (s : CState δ) (i : ℕ) : s.reset.data i = [] := by
  unfold CState.data CState.reset
  simp only
  induction s.seen with
  | nil => rfl
  | cons kv d ih =>
    simp only [Dict.mapVals, List.map_cons] at ih ⊢
    rw [Dict.get?_cons]
    split
    · rfl
    · exact ih

theorem startModule_data (k : CKind) (s : CState δ) (l : List ℕ) (h : ∀ i, s.data i = []) (i : ℕ) :
    (l.foldl (CState.startModule k) s).data i = [] := by
  induction l generalizing s with
  | nil => exact h i
  | cons a l ih =>
    rw [List.foldl_cons]
    apply ih
    intro j
    unfold CState.data CState.startModule
    cases k with
    | fresh =>
      simp only [Dict.get?_set]
      split
      · rfl
      · exact h j
    | keeps =>
      simp only
      split
      · exact h j
      · rw [Dict.get?_set]
        split
        · rfl
        · exact h j

theorem forward_hooks (s : CState δ) (e : ℕ × δ) : (s.forward e).hooks = s.hooks := by
  unfold CState.forward
  generalize s.hooks.filter (· = e.1) = l
  induction l generalizing s with
  | nil => rfl
  | cons a l ih => rw [List.foldl_cons, ih]

theorem fold_hooks (s : CState δ) (body : List (ℕ × δ)) : (body.foldl CState.forward s).hooks = s.hooks := by
  induction body generalizing s with
  | nil => rfl
  | cons e body ih => rw [List.foldl_cons, ih, forward_hooks]

theorem forward_data (s : CState δ) (hn : s.hooks.Nodup) (e : ℕ × δ) (i : ℕ) :
    (s.forward e).data i = s.data i ++ (if i ∈ s.hooks ∧ i = e.1 then [e.2] else []) := by
  unfold CState.forward
  by_cases h : e.1 ∈ s.hooks
  · have hf : s.hooks.filter (· = e.1) = [e.1] := by
      have h2 : s.hooks.filter (fun x => decide (x = e.1)) = s.hooks.filter (fun x => x == e.1) := by
        apply List.filter_congr; intro x _; rfl
      rw [h2, List.filter_beq, List.count_eq_one_of_mem hn h]; rfl
    rw [hf]
    simp only [List.foldl_cons, List.foldl_nil]
    unfold CState.data
    simp only [Dict.get?_set]
    by_cases c : e.1 = i
    · subst c; simp [h]
    · have c' : ¬ i = e.1 := fun x => c x.symm
      simp [c, c']
  · have hf : s.hooks.filter (· = e.1) = [] := by
      rw [List.filter_eq_nil_iff]; rintro x hx; simp; rintro rfl; exact h hx
    rw [hf]
    have : ¬ (i ∈ s.hooks ∧ i = e.1) := by rintro ⟨a, rfl⟩; exact h a
    simp [this]

theorem fold_data (s : CState δ) (hn : s.hooks.Nodup) (body : List (ℕ × δ)) (i : ℕ) :
    (body.foldl CState.forward s).data i = s.data i ++ if i ∈ s.hooks then (body.filter (·.1 = i)).map (·.2) else [] := by
  induction body generalizing s with
  | nil => simp
  | cons e body ih =>
    rw [List.foldl_cons, ih _ (by rw [forward_hooks]; exact hn), forward_data s hn, forward_hooks, List.append_assoc]
    congr 1
    by_cases h : i ∈ s.hooks
    · by_cases c : e.1 = i
      · simp [h, c]
      · have c' : ¬ i = e.1 := fun x => c x.symm
        simp [h, c, c']
    · simp [h]

/-- **C71** Inside a collection context every eligible module records exactly the data of its own
forward passes, in order, starting from nothing; other modules record nothing; after a normal exit no hook
is left and a forward pass changes nothing.  (`visit` are the modules visited by `apply`, each once.) -/
theorem C71_context_partial (k : CKind) (eligible : ℕ → Bool) (visit : List ℕ) (hv : visit.Nodup) (body : List (ℕ × δ))
    (s : CState δ) (hs : s.hooks = []) :
    ∃ s', s.context k eligible visit body false = .ok (s', false) ∧ s'.hooks = [] ∧
      (∀ i, s'.data i = if i ∈ visit ∧ eligible i = true then (body.filter (·.1 = i)).map (·.2) else []) ∧
      ∀ e, s'.forward e = s' := by
  have h1 : s.reset.start k eligible visit = .ok ((visit.filter eligible).foldl (CState.startModule k) s.reset) := by
    unfold CState.start; rw [if_neg (by simp [CState.reset, hs])]
  refine ⟨_, by unfold CState.context; rw [h1]; rfl, rfl, ?_, fun e => forward_nohook _ rfl e⟩
  intro i
  have hh : ((visit.filter eligible).foldl (CState.startModule k) s.reset).hooks = visit.filter eligible := by
    rw [startModule_hooks]; simp [CState.reset, hs]
  have := fold_data ((visit.filter eligible).foldl (CState.startModule k) s.reset) (by rw [hh]; exact hv.filter _) body i
  rw [hh, startModule_data k _ _ (reset_data s)] at this
  show (body.foldl CState.forward _).data i = _
  rw [this]
  simp

example : ((⟨[], []⟩ : CState ℕ).context .fresh (fun i => i != 2) [0, 1, 2] [(0, 5), (2, 6), (1, 7), (0, 8)] false).map
    (fun r => (r.1.hooks, r.1.seen, r.2)) = .ok ([], [(0, [5, 8]), (1, [7])], false) := by decide

/-- **C71** is violated when the body raises (for instance an interrupted evaluation): the hooks stay
registered, statistics keep being collected outside the context, and the next use of the collector
raises `AssertionError`. -/
theorem C71_violated_exception : ∃ (s s' : CState ℕ) (e : ℕ × ℕ), s.hooks = [] ∧
    s.context .fresh (fun _ => true) [0, 1] [(0, 5)] true = .ok (s', true) ∧
    s'.hooks ≠ [] ∧ (s'.forward e).data 0 ≠ s'.data 0 ∧
    (∀ body, (s'.context .fresh (fun _ => true) [0, 1] body false).isOk = false) := by
  refine ⟨⟨[], []⟩, ⟨[0, 1], [(0, [5]), (1, [])]⟩, (0, 9), rfl, rfl, by simp, by decide, ?_⟩
  intro body; rfl

/-- **C71** is violated by modules reached twice (a module used in two places of the model, or a
`modules_list` naming a module and one of its descendants): each of their activations is recorded twice. -/
theorem C71_violated_shared_module : ∃ (s s' : CState ℕ), s.hooks = [] ∧
    s.context .fresh (fun _ => true) [0, 0] [(0, 5)] false = .ok (s', false) ∧ s'.data 0 = [5, 5] :=
  ⟨⟨[], []⟩, ⟨[], [(0, [5, 5])]⟩, rfl, rfl, by decide⟩

end Verif
