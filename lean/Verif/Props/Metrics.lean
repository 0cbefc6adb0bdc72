import Verif.Model.Metrics
import Verif.Lemmas.Structures
import Verif.Props.Structures
import Mathlib.Algebra.Order.BigOperators.Group.List
import Mathlib.Algebra.Order.BigOperators.Group.Finset
import Mathlib.Algebra.Group.Action.Defs
/-!
# C24, C25, C60, C61: sparsity metrics and block pruning
-/
namespace Verif
open Classical in
/-- Number of indices below `n` satisfying `P`. -/
noncomputable def howMany (n : ℕ) (P : ℕ → Prop) : ℕ := ((Finset.range n).filter P).card

/-! ## C24 -/

theorem count_split (l : Tensor) : l.count 0 + l.countP (fun x => |x| > 0) = l.length := by
  induction l with
  | nil => rfl
  | cons x l ih =>
    by_cases h : x = 0
    · subst h; rw [List.count_cons_self, List.countP_cons_of_neg (by simp), List.length_cons]; omega
    · have : |x| > 0 := abs_pos.2 h
      rw [List.count_cons_of_ne h, List.countP_cons_of_pos (by simpa using this), List.length_cons]; omega

/-- **C24** Density and sparsity are the fractions of non-zero and zero elements: complementary,
in [0,1]; sparsity is 1 exactly for the zero tensor; an empty tensor raises. -/
theorem C24_fractions (l : Tensor) :
    (l = [] → density l = .error .zeroDiv ∧ sparsity l = .error .zeroDiv) ∧
    (l ≠ [] → ∃ s d : ℚ, sparsity l = .ok s ∧ density l = .ok d ∧ s + d = 1 ∧ 0 ≤ s ∧ s ≤ 1 ∧ 0 ≤ d ∧ d ≤ 1 ∧
      s = (l.count 0 : ℚ) / l.length ∧ (s = 1 ↔ ∀ x ∈ l, x = 0)) := by
  constructor
  · rintro rfl; exact ⟨rfl, rfl⟩
  · intro hne
    have hl : l.length ≠ 0 := by simpa using hne
    have hlq : (0 : ℚ) < l.length := by exact_mod_cast Nat.pos_of_ne_zero hl
    have hc := count_split l
    have hcq : (l.count 0 : ℚ) + (l.countP (fun x => |x| > 0) : ℚ) = l.length := by exact_mod_cast hc
    refine ⟨(l.count 0 : ℚ) / l.length, (l.countP (fun x => |x| > 0) : ℚ) / l.length, ?_, ?_, ?_, ?_, ?_, ?_, ?_, rfl, ?_⟩
    · unfold sparsity density
      rw [if_neg hl]
      show Except.ok _ = _
      congr 1
      rw [eq_div_iff hlq.ne', sub_mul, div_mul_cancel₀ _ hlq.ne']
      simp only [gt_iff_lt] at hcq ⊢
      linarith
    · unfold density; rw [if_neg hl]
    · rw [← add_div, hcq, div_self hlq.ne']
    · positivity
    · rw [div_le_one hlq]
      have : (0 : ℚ) ≤ (l.countP (fun x => |x| > 0) : ℚ) := by positivity
      linarith
    · positivity
    · rw [div_le_one hlq]
      have : (0 : ℚ) ≤ (l.count 0 : ℚ) := by positivity
      linarith
    · rw [div_eq_one_iff_eq hlq.ne']
      constructor
      · intro h x hx
        have h' : l.count 0 = l.length := by exact_mod_cast h
        rw [List.count_eq_length] at h'
        exact (h' x hx).symm
      · intro h
        have : l.count 0 = l.length := by
          rw [List.count_eq_length]; intro x hx; exact (h x hx).symm
        exact_mod_cast this

/-- **C24** (masking) Masking never lowers the sparsity. -/
theorem C24_masking (w m : Tensor) (hlen : m.length = w.length) (s s' : ℚ)
    (h : sparsity w = .ok s) (h' : sparsity (tmul w m) = .ok s') : s ≤ s' := by
  have hl : (tmul w m).length = w.length := by simp [tmul, hlen]
  have hne : w ≠ [] := by rintro rfl; cases h
  have hne' : tmul w m ≠ [] := by
    intro e; rw [e] at hl; simp at hl; exact hne (List.length_eq_zero_iff.1 hl.symm)
  obtain ⟨a, _, ha, _, _, _, _, _, _, ha', _⟩ := (C24_fractions w).2 hne
  obtain ⟨b, _, hb, _, _, _, _, _, _, hb', _⟩ := (C24_fractions (tmul w m)).2 hne'
  rw [ha] at h; injection h with h; subst h
  rw [hb] at h'; injection h' with h'; subst h'
  rw [ha', hb', hl]
  apply div_le_div_of_nonneg_right _ (by positivity)
  have : ∀ (w m : Tensor), m.length = w.length → w.count 0 ≤ (tmul w m).count 0 := by
    intro w
    induction w with
    | nil => intro m _; simp
    | cons x w ih =>
      intro m hm
      cases m with
      | nil => simp at hm
      | cons y m =>
        simp only [List.length_cons, Nat.add_right_cancel_iff] at hm
        have := ih m hm
        show (x :: w).count 0 ≤ ((x * y) :: tmul w m).count 0
        rw [List.count_cons, List.count_cons]
        by_cases hx : x = 0
        · simp [hx, this]
        · have : (x == (0:ℚ)) = false := by simp [hx]
          rw [this]; simp; omega
  exact_mod_cast this w m hlen

example : sparsity [0, 2, 0, 5] = .ok (1/2) ∧ sparsity (tmul [0, 2, 0, 5] [1, 0, 1, 1]) = .ok (3/4) := by
  decide +kernel

/-! ## C25 -/

theorem sum_abs_eq_zero (l : Tensor) : (l.map fun x => |x|).sum = 0 ↔ ∀ x ∈ l, x = 0 := by
  induction l with
  | nil => simp
  | cons x l ih =>
    have h0 : 0 ≤ (l.map fun x => |x|).sum := List.sum_nonneg (by
      intro y hy; obtain ⟨z, _, rfl⟩ := List.mem_map.1 hy; exact abs_nonneg z)
    simp only [List.map_cons, List.sum_cons, List.forall_mem_cons, ← ih]
    constructor
    · intro h
      have := abs_nonneg x
      have hx : |x| = 0 := by linarith
      exact ⟨abs_eq_zero.1 hx, by linarith⟩
    · rintro ⟨rfl, h⟩; simp [h]

theorem countP_range_howMany (n : ℕ) (P : ℕ → Prop) [DecidablePred P] :
    (List.range n).countP (fun i => decide (P i)) = howMany n P := by
  unfold howMany
  induction n with
  | zero => simp
  | succ n ih =>
    rw [List.range_succ, List.countP_append, ih, Finset.range_add_one, Finset.filter_insert]
    by_cases h : P n
    · simp [h]
    · simp [h]

theorem howMany_congr {n : ℕ} {P Q : ℕ → Prop} (h : ∀ i < n, (P i ↔ Q i)) : howMany n P = howMany n Q := by
  classical
  unfold howMany
  congr 1
  ext i
  simp only [Finset.mem_filter, Finset.mem_range]
  constructor
  · rintro ⟨a, b⟩; exact ⟨a, (h i a).1 b⟩
  · rintro ⟨a, b⟩; exact ⟨a, (h i a).2 b⟩

theorem howMany_le (n : ℕ) (P : ℕ → Prop) : howMany n P ≤ n := by
  classical
  unfold howMany
  calc _ ≤ (Finset.range n).card := Finset.card_le_card (Finset.filter_subset _ _)
    _ = n := Finset.card_range n

/-- The common computation: the metric is the fraction of all-zero structures. -/
theorem structSparsity_eq (n : ℕ) (hn : 0 < n) (row : ℕ → Tensor) (P : ℕ → Prop)
    (hP : ∀ i < n, ((∀ x ∈ row i, x = 0) ↔ P i)) :
    structSparsity ((List.range n).map fun i => ((row i).map fun x => |x|).sum) n
      = .ok ((howMany n P : ℚ) / n) := by
  classical
  have hnq : (0 : ℚ) < n := by exact_mod_cast hn
  unfold structSparsity
  rw [if_neg (by omega)]
  congr 1
  have h1 : (((List.range n).map fun i => ((row i).map fun x => |x|).sum).countP fun x => x ≠ 0)
      = n - howMany n P := by
    rw [List.countP_map]
    have e1 : (List.range n).countP ((fun x : ℚ => decide (x ≠ 0)) ∘ fun i => ((row i).map fun x => |x|).sum)
        = (List.range n).countP (fun i => !decide (P i)) := by
      apply List.countP_congr
      intro i hi
      rw [List.mem_range] at hi
      have : (((row i).map fun x => |x|).sum = 0) ↔ P i := by rw [sum_abs_eq_zero, hP i hi]
      simp only [Function.comp_apply]
      by_cases h : P i
      · simp [h, this.2 h]
      · simp [h, mt this.1 h]
    rw [e1]
    have e2 := List.length_eq_countP_add_countP (fun i => decide (P i)) (l := List.range n)
    rw [List.length_range, countP_range_howMany] at e2
    simp only [Bool.not_eq_true, Bool.decide_eq_false] at e2
    omega
  rw [h1, Nat.cast_sub (howMany_le n P)]
  field_simp
  ring

theorem howMany_mul_le (n size : ℕ) (P : ℕ → Prop) (f : ℕ → ℕ) (hP : ∀ i < n, P i → f i = size) :
    howMany n P * size ≤ ∑ i ∈ Finset.range n, f i := by
  classical
  unfold howMany
  rw [← smul_eq_mul, ← Finset.sum_const]
  refine le_trans (le_of_eq (Finset.sum_congr (by congr) (g := f) ?_))
    (Finset.sum_le_sum_of_subset (Finset.filter_subset P _))
  intro i hi
  rw [Finset.mem_filter, Finset.mem_range] at hi
  exact (hP i hi.1 hi.2).symm

/-- Structures of equal size: their zero fraction is at most the fraction of zero elements. -/
theorem zero_structs_le (n size : ℕ) (hn : 0 < n) (hs : 0 < size) (row : ℕ → Tensor)
    (hl : ∀ i < n, (row i).length = size) (l : Tensor)
    (hcount : l.count 0 = ∑ i ∈ Finset.range n, (row i).count 0) (hlen : l.length = n * size) :
    (howMany n (fun i => ∀ x ∈ row i, x = 0) : ℚ) / n ≤ (l.count 0 : ℚ) / l.length := by
  classical
  have hnq : (0 : ℚ) < n := by exact_mod_cast hn
  have hsq : (0 : ℚ) < size := by exact_mod_cast hs
  have key : howMany n (fun i => ∀ x ∈ row i, x = 0) * size ≤ l.count 0 := by
    rw [hcount]
    apply howMany_mul_le
    intro i hi hz
    have : (row i).count 0 = (row i).length := by
      rw [List.count_eq_length]; intro x hx; exact (hz x hx).symm
    rw [this, hl i hi]
  rw [hlen]
  push_cast
  rw [div_le_div_iff₀ hnq (by positivity)]
  have : (howMany n (fun i => ∀ x ∈ row i, x = 0) : ℚ) * size ≤ l.count 0 := by exact_mod_cast key
  nlinarith

/-- Specification: filter / channel / kernel is all zero, by coordinates. -/
def T4.ZeroFilter (t : T4) (f : ℕ) : Prop := ∀ c < t.C, ∀ h < t.H, ∀ w < t.W, t.at f c h w = some 0
def T4.ZeroChannel (t : T4) (c : ℕ) : Prop := ∀ f < t.F, ∀ h < t.H, ∀ w < t.W, t.at f c h w = some 0
def T4.ZeroKernel (t : T4) (f c : ℕ) : Prop := ∀ h < t.H, ∀ w < t.W, t.at f c h w = some 0
def T2.ZeroRow (t : T2) (r : ℕ) : Prop := ∀ c < t.C, t.at r c = some 0
def T2.ZeroCol (t : T2) (c : ℕ) : Prop := ∀ r < t.R, t.at r c = some 0

theorem T4.at_isSome (t : T4) (ht : t.WF) {f c h w : ℕ} (hf : f < t.F) (hc : c < t.C) (hh : h < t.H) (hw : w < t.W) :
    ∃ x, t.at f c h w = some x := by
  obtain ⟨j, hj, e⟩ := idx_filter t f hc hh hw
  refine ⟨t.data[((f * t.C + c) * t.H + h) * t.W + w]'?_, List.getElem?_eq_getElem _⟩
  rw [e, ht]
  calc f * (t.C * t.H * t.W) + j < f * (t.C * t.H * t.W) + t.C * t.H * t.W := by omega
    _ = (f + 1) * (t.C * t.H * t.W) := by ring
    _ ≤ t.F * (t.C * t.H * t.W) := Nat.mul_le_mul_right _ hf
    _ = _ := by ring

theorem zeroFilter_iff (t : T4) (ht : t.WF) {f : ℕ} (hf : f < t.F) :
    (∀ x ∈ t.filterEntries f, x = 0) ↔ t.ZeroFilter f := by
  unfold T4.filterEntries
  constructor
  · intro h c hc i hi j hj
    obtain ⟨x, hx⟩ := t.at_isSome ht hf hc hi hj
    rw [hx, h x ((t.mem_filter ht hf x).2 ⟨c, hc, i, hi, j, hj, hx⟩)]
  · intro h x hx
    obtain ⟨c, hc, i, hi, j, hj, e⟩ := (t.mem_filter ht hf x).1 hx
    rw [h c hc i hi j hj] at e; injection e with e; exact e.symm

theorem zeroChannel_iff (t : T4) (ht : t.WF) {c : ℕ} (hc : c < t.C) :
    (∀ x ∈ t.channelEntries c, x = 0) ↔ t.ZeroChannel c := by
  have hm := t.mem_channel ht hc
  rw [t.transposed_chunk ht hc] at hm
  change ∀ x, x ∈ t.channelEntries c ↔ _ at hm
  constructor
  · intro h f hf i hi j hj
    obtain ⟨x, hx⟩ := t.at_isSome ht hf hc hi hj
    rw [hx, h x ((hm x).2 ⟨f, hf, i, hi, j, hj, hx⟩)]
  · intro h x hx
    obtain ⟨f, hf, i, hi, j, hj, e⟩ := (hm x).1 hx
    rw [h f hf i hi j hj] at e; injection e with e; exact e.symm

/-- **C25** (filters) -/
theorem C25_filters (t : T4) (ht : t.WF) (hF : 0 < t.F) (hs : 0 < t.C * t.H * t.W) :
    sparsity3D t = .ok ((howMany t.F t.ZeroFilter : ℚ) / t.F) ∧
    ∃ s, sparsity t.data = .ok s ∧ (howMany t.F t.ZeroFilter : ℚ) / t.F ≤ s := by
  have hlen : t.data.length = t.F * (t.C * t.H * t.W) := by rw [ht]; ring
  constructor
  · have e : filtersNorm t l1Norm 1 false = .ok ((List.range t.F).map fun f =>
        ((t.filterEntries f).map fun x => |x|).sum) := by
      unfold filtersNorm genericNorm chunks T4.filterEntries l1Norm
      simp [Nat.mod_one, List.map_map, Function.comp_def]
    unfold sparsity3D
    rw [e]
    exact structSparsity_eq t.F hF t.filterEntries t.ZeroFilter (fun i hi => zeroFilter_iff t ht hi)
  · have hne : t.data ≠ [] := by
      intro e; rw [e] at hlen; simp at hlen
      rcases hlen with h | h
      · omega
      · have : t.C * t.H * t.W = 0 := by rcases h with (h | h) | h <;> simp [h]
        omega
    obtain ⟨s, _, hsp, _, _, _, _, _, _, hs', _⟩ := (C24_fractions t.data).2 hne
    refine ⟨s, hsp, ?_⟩
    rw [hs', howMany_congr (fun i hi => (zeroFilter_iff t ht hi).symm)]
    apply zero_structs_le t.F (t.C * t.H * t.W) hF hs t.filterEntries
    · intro i hi
      apply length_chunk
      rw [hlen]; exact Nat.mul_le_mul_right _ hi
    · simp only [List.count_eq_countP]
      exact countP_chunks _ _ _ _ hlen
    · exact hlen

/-- **C25** (channels) -/
theorem C25_channels (t : T4) (ht : t.WF) (hC : 0 < t.C) (hs : 0 < t.F * (t.H * t.W)) :
    sparsityCh t = .ok ((howMany t.C t.ZeroChannel : ℚ) / t.C) ∧
    ∃ s, sparsity t.data = .ok s ∧ (howMany t.C t.ZeroChannel : ℚ) / t.C ≤ s := by
  have hlen : t.data.length = t.C * (t.F * (t.H * t.W)) := by rw [ht]; ring
  constructor
  · have e : channelsNorm t l1Norm 1 false = .ok ((List.range t.C).map fun c =>
        ((t.channelEntries c).map fun x => |x|).sum) := by
      unfold channelsNorm genericNorm chunks l1Norm
      simp only [Nat.mod_one, ne_eq, one_ne_zero, not_false_eq_true, and_self, if_true, Nat.div_one, one_mul,
        List.map_map]
      congr 1
      apply List.map_congr_left
      intro c hc
      rw [List.mem_range] at hc
      simp only [Function.comp_apply]
      rw [t.transposed_chunk ht hc]; rfl
    unfold sparsityCh
    rw [e]
    exact structSparsity_eq t.C hC t.channelEntries t.ZeroChannel (fun i hi => zeroChannel_iff t ht hi)
  · have hne : t.data ≠ [] := by
      intro e; rw [e] at hlen
      have : 0 < t.C * (t.F * (t.H * t.W)) := Nat.mul_pos hC hs
      simp only [List.length_nil] at hlen; omega
    obtain ⟨s, _, hsp, _, _, _, _, _, _, hs', _⟩ := (C24_fractions t.data).2 hne
    refine ⟨s, hsp, ?_⟩
    rw [hs', howMany_congr (fun i hi => (zeroChannel_iff t ht hi).symm)]
    apply zero_structs_le t.C (t.F * (t.H * t.W)) hC hs t.channelEntries
    · intro i hi
      exact length_flatMap_range _ _ _ (fun f hf => t.kernel_length ht hf hi)
    · simp only [List.count_eq_countP]
      rw [← t.countP_transposed ht]
      unfold T4.transposed
      rw [countP_flatMap_range]; rfl
    · exact hlen

/-- **C25** (kernels): kernel number `k` is `(k / C, k % C)`. -/
theorem C25_kernels (t : T4) (ht : t.WF) (hFC : 0 < t.F * t.C) (hs : 0 < t.H * t.W) :
    sparsity2D t = .ok ((howMany (t.F * t.C) (fun k => t.ZeroKernel (k / t.C) (k % t.C)) : ℚ) / (t.F * t.C : ℕ)) ∧
    ∃ s, sparsity t.data = .ok s ∧
      (howMany (t.F * t.C) (fun k => t.ZeroKernel (k / t.C) (k % t.C)) : ℚ) / (t.F * t.C : ℕ) ≤ s := by
  have hlen : t.data.length = t.F * t.C * (t.H * t.W) := by rw [ht]; ring
  have hC : 0 < t.C := Nat.pos_of_mul_pos_left hFC
  have hz : ∀ k < t.F * t.C, ((∀ x ∈ chunk (t.H * t.W) k t.data, x = 0) ↔ t.ZeroKernel (k / t.C) (k % t.C)) := by
    intro k hk
    have hf : k / t.C < t.F := (Nat.div_lt_iff_lt_mul hC).2 hk
    have hc := Nat.mod_lt k hC
    have e : k = (k / t.C) * t.C + k % t.C := by rw [mul_comm]; exact (Nat.div_add_mod k t.C).symm
    have hm := t.mem_kernel ht hf hc
    rw [← e] at hm
    constructor
    · intro h i hi j hj
      obtain ⟨x, hx⟩ := t.at_isSome ht hf hc hi hj
      rw [hx, h x ((hm x).2 ⟨i, hi, j, hj, hx⟩)]
    · intro h x hx
      obtain ⟨i, hi, j, hj, e⟩ := (hm x).1 hx
      rw [h i hi j hj] at e; injection e with e; exact e.symm
  constructor
  · unfold sparsity2D chunks
    rw [List.map_map]
    exact structSparsity_eq (t.F * t.C) hFC (fun k => chunk (t.H * t.W) k t.data) _ hz
  · have hne : t.data ≠ [] := by
      intro e; rw [e] at hlen
      have : 0 < t.F * t.C * (t.H * t.W) := Nat.mul_pos hFC hs
      simp only [List.length_nil] at hlen; omega
    obtain ⟨s, _, hsp, _, _, _, _, _, _, hs', _⟩ := (C24_fractions t.data).2 hne
    refine ⟨s, hsp, ?_⟩
    rw [hs', howMany_congr (fun i hi => (hz i hi).symm)]
    apply zero_structs_le (t.F * t.C) (t.H * t.W) hFC hs (fun k => chunk (t.H * t.W) k t.data)
    · intro i hi
      apply length_chunk
      rw [hlen]; exact Nat.mul_le_mul_right _ hi
    · simp only [List.count_eq_countP]
      exact countP_chunks _ _ _ _ hlen
    · exact hlen

/-- A matrix is a 4-D tensor with 1×1 kernels. -/
def T2.to4 (t : T2) : T4 := ⟨t.R, t.C, 1, 1, t.data⟩

theorem T2.to4_WF {t : T2} (h : t.WF) : t.to4.WF := by
  unfold T4.WF T2.to4; dsimp only; rw [h]; ring

theorem take_one_drop (l : Tensor) (n : ℕ) : (l.drop n).take 1 = (l[n]?).toList := by
  cases h : l.drop n with
  | nil =>
    have : l[n]? = none := by
      rw [List.getElem?_eq_none]; exact List.drop_eq_nil_iff.1 h
    simp [this]
  | cons x xs =>
    have : l[n]? = some x := by
      have := List.getElem?_drop (xs := l) (i := n) (j := 0)
      rw [h] at this; simpa using this.symm
    simp [this]

theorem T2.col_eq (t : T2) (c : ℕ) : t.col c = t.to4.channelEntries c := by
  unfold T2.col T4.channelEntries T2.to4 chunk
  dsimp only
  induction List.range t.R with
  | nil => rfl
  | cons r rs ih =>
    rw [List.filterMap_cons, List.flatMap_cons, ← ih]
    simp only [Nat.mul_one, take_one_drop]
    cases t.data[r * t.C + c]? <;> simp

theorem T2.at_to4 (t : T2) (r c : ℕ) : t.to4.at r c 0 0 = t.at r c := by
  unfold T4.at T2.at T2.to4; simp

/-- **C25** (matrix rows and columns) `sparsity_matrix(·, 0)` is the fraction of zero rows,
`sparsity_matrix(·, 1)` that of zero columns; `sparsity_rows`/`sparsity_cols` report them for the
transposed matrix by default (PyTorch stores GEMM weights transposed) and for the matrix itself with
`transposed=False`. -/
theorem C25_rows_cols (t : T2) (ht : t.WF) (hR : 0 < t.R) (hC : 0 < t.C) :
    sparsityRows t false = .ok ((howMany t.R t.ZeroRow : ℚ) / t.R) ∧
    sparsityCols t false = .ok ((howMany t.C t.ZeroCol : ℚ) / t.C) ∧
    sparsityRows t true = sparsityCols t false ∧ sparsityCols t true = sparsityRows t false ∧
    ∃ s, sparsity t.data = .ok s ∧ (howMany t.R t.ZeroRow : ℚ) / t.R ≤ s ∧
      (howMany t.C t.ZeroCol : ℚ) / t.C ≤ s := by
  have h4 := T2.to4_WF ht
  have hf := C25_filters t.to4 h4 hR (by simp [T2.to4, hC])
  have hc := C25_channels t.to4 h4 hC (by simp [T2.to4, hR])
  have eF : ∀ i, t.to4.ZeroFilter i ↔ t.ZeroRow i := by
    intro i
    unfold T4.ZeroFilter T2.ZeroRow
    constructor
    · intro h c hc
      rw [← T2.at_to4]; exact h c hc 0 (by simp [T2.to4]) 0 (by simp [T2.to4])
    · intro h c hc a ha b hb
      have ha' : a = 0 := by simp [T2.to4] at ha; exact ha
      have hb' : b = 0 := by simp [T2.to4] at hb; exact hb
      subst ha'; subst hb'; rw [T2.at_to4]; exact h c hc
  have eC : ∀ i, t.to4.ZeroChannel i ↔ t.ZeroCol i := by
    intro i
    unfold T4.ZeroChannel T2.ZeroCol
    constructor
    · intro h c hc
      rw [← T2.at_to4]; exact h c hc 0 (by simp [T2.to4]) 0 (by simp [T2.to4])
    · intro h c hc a ha b hb
      have ha' : a = 0 := by simp [T2.to4] at ha; exact ha
      have hb' : b = 0 := by simp [T2.to4] at hb; exact hb
      subst ha'; subst hb'; rw [T2.at_to4]; exact h c hc
  have hwF : howMany t.R t.to4.ZeroFilter = howMany t.R t.ZeroRow := howMany_congr (fun i _ => eF i)
  have hwC : howMany t.C t.to4.ZeroChannel = howMany t.C t.ZeroCol := howMany_congr (fun i _ => eC i)
  have hrow : sparsityMatrix t false = .ok ((howMany t.R t.ZeroRow : ℚ) / t.R) := by
    unfold sparsityMatrix chunks
    simp only [Bool.false_eq_true, if_false, List.map_map]
    apply structSparsity_eq t.R hR (fun i => chunk t.C i t.data)
    intro i hi
    rw [← eF, ← zeroFilter_iff t.to4 h4 hi]
    unfold T4.filterEntries T2.to4
    simp
  have hcol : sparsityMatrix t true = .ok ((howMany t.C t.ZeroCol : ℚ) / t.C) := by
    unfold sparsityMatrix
    simp only [if_true, List.map_map]
    apply structSparsity_eq t.C hC t.col
    intro i hi
    rw [← eC, ← zeroChannel_iff t.to4 h4 hi, T2.col_eq]
  refine ⟨hrow, hcol, rfl, rfl, ?_⟩
  obtain ⟨s, hs, hle⟩ := hf.2
  obtain ⟨s', hs', hle'⟩ := hc.2
  have : s = s' := by
    have e : sparsity t.to4.data = sparsity t.data := rfl
    rw [e] at hs hs'
    rw [hs] at hs'; injection hs'
  subst this
  refine ⟨s, hs, ?_, ?_⟩
  · rw [← hwF]; exact hle
  · rw [← hwC]; exact hle'

example : sparsity3D ⟨2, 1, 1, 2, [0, 0, 1, 0]⟩ = .ok (1/2) ∧ sparsityCh ⟨2, 2, 1, 1, [0, 0, 1, 0]⟩ = .ok (1/2) ∧
    sparsity2D ⟨2, 2, 1, 1, [0, 0, 1, 0]⟩ = .ok (3/4) ∧ sparsityCols ⟨2, 2, [0, 0, 1, 0]⟩ false = .ok (1/2) := by
  decide +kernel

/-! ## C61: model statistics -/

/-- **C61** For every model with at least one counted, non-empty parameter, `model_params_stats`
returns the number of counted elements, the number of non-zero ones and
`100 * (zero elements / elements)`. -/
theorem C61_model_stats (l : List StatEntry) (hne : ∀ e ∈ l, e.counted = true → e.data ≠ [])
    (hex : ∃ e ∈ l, e.counted = true) :
    let all := (l.filter (·.counted)).flatMap (·.data)
    modelParamsStats l = .ok (100 * ((all.count 0 : ℚ) / all.length), all.length, (all.countP fun x => |x| > 0 : ℕ)) := by
  intro all
  have H : ∀ (l : List StatEntry) (a b : ℚ), (∀ e ∈ l, e.counted = true → e.data ≠ []) →
      l.foldlM (fun (acc : ℚ × ℚ) e =>
        if e.counted then do
          let d ← density e.data
          return (acc.1 + e.data.length, acc.2 + e.data.length * d)
        else return acc) ((a, b) : ℚ × ℚ)
      = (.ok (a + (((l.filter (·.counted)).flatMap (·.data)).length : ℚ),
          b + ((((l.filter (·.counted)).flatMap (·.data)).countP fun x => |x| > 0 : ℕ) : ℚ)) : Except Err (ℚ × ℚ)) := by
    intro l
    induction l with
    | nil => intro a b _; simp; rfl
    | cons e l ih =>
      intro a b h
      rw [List.foldlM_cons]
      by_cases hc : e.counted = true
      · have hl : e.data.length ≠ 0 := by simpa using h e (by simp) hc
        have hlq : (e.data.length : ℚ) ≠ 0 := by exact_mod_cast hl
        have hd : density e.data = .ok (((e.data.countP fun x => |x| > 0 : ℕ) : ℚ) / e.data.length) := by
          unfold density; rw [if_neg hl]
        simp only [hc, if_true, hd]
        show List.foldlM _ _ l = _
        rw [ih _ _ (fun e he => h e (by simp [he]))]
        rw [List.filter_cons_of_pos (by simpa using hc), List.flatMap_cons, List.length_append, List.countP_append]
        push_cast
        rw [mul_div_cancel₀ _ hlq, add_assoc, add_assoc]
      · simp only [hc, Bool.false_eq_true, if_false]
        show List.foldlM _ _ l = _
        rw [ih _ _ (fun e he => h e (by simp [he]))]
        rw [List.filter_cons_of_neg (by simpa using hc)]
  have hlen : (all.length : ℚ) ≠ 0 := by
    obtain ⟨e, he, hc⟩ := hex
    have : e.data.length ≤ all.length := by
      have hm : e ∈ l.filter (·.counted) := List.mem_filter.2 ⟨he, hc⟩
      obtain ⟨s, t, hst⟩ := List.append_of_mem hm
      show _ ≤ ((l.filter (·.counted)).flatMap (·.data)).length
      rw [hst]; simp; omega
    have h0 : e.data.length ≠ 0 := by simpa using hne e he hc
    exact_mod_cast (by omega : all.length ≠ 0)
  unfold modelParamsStats
  rw [H l 0 0 hne]
  simp only [zero_add]
  show (if (all.length : ℚ) = 0 then _ else _) = _
  rw [if_neg hlen]
  have hs := count_split all
  have hsq : (all.count 0 : ℚ) + ((all.countP fun x => |x| > 0 : ℕ) : ℚ) = all.length := by exact_mod_cast hs
  show Except.ok _ = _
  congr 2
  rw [mul_comm]
  congr 1
  rw [eq_div_iff hlen, sub_mul, div_mul_cancel₀ _ hlen, one_mul]
  linarith

example : modelParamsStats [⟨true, [0, 1, 0]⟩, ⟨false, [5]⟩, ⟨true, [2]⟩] = .ok (50, 4, 2) := by decide +kernel

end Verif
