import Verif.Model.RandomPruner
import Mathlib.Tactic.Linarith
import Mathlib.Tactic.FieldSimp
import Mathlib.Tactic.Ring
import Mathlib.Algebra.BigOperators.Pi
import Mathlib.Algebra.BigOperators.Fin
import Mathlib.Algebra.BigOperators.Ring.Finset
import Mathlib.Data.Fintype.BigOperators
import Mathlib.Algebra.Order.BigOperators.Group.List
/-!
# C130: random filter pruners
-/
namespace Verif

/-! ## The random ranking -/

/-- **C130** (number of filters): for every permutation drawn, the random pruner removes exactly
`int(fraction * filters)` filters (those last in the permutation) and keeps the others unchanged; if
this number is zero it sets no mask. -/
theorem C130_random (f : ℚ) (n : ℕ) (perm : List ℕ) (hperm : perm.Perm (List.range n)) (h0 : 0 ≤ f) (h1 : f ≤ 1) :
    (filtersToPrune f n = 0 → randomPrune f n perm none = none) ∧
    (filtersToPrune f n ≠ 0 → ∃ m, randomPrune f n perm none = some m ∧ m.length = n ∧ (∀ v ∈ m, v = 0 ∨ v = 1) ∧
      m.count 0 = filtersToPrune f n ∧ (filtersToPrune f n : ℚ) ≤ f * n ∧ f * n < filtersToPrune f n + 1 ∧
      ∀ i (hi : i < m.length), m[i] = 0 ↔ i ∈ perm.drop (n - filtersToPrune f n)) := by
  have hfl : (filtersToPrune f n : ℚ) = ((f * n).floor : ℚ) := by
    unfold filtersToPrune
    have : 0 ≤ (f * n).floor := Rat.le_floor_iff.2 (by simpa using mul_nonneg h0 (Nat.cast_nonneg n))
    have h := Int.toNat_of_nonneg this
    exact_mod_cast congrArg (fun z : ℤ => (z : ℚ)) h
  have hle : (filtersToPrune f n : ℚ) ≤ f * n := by rw [hfl]; exact Rat.floor_le _
  have hlt : f * n < filtersToPrune f n + 1 := by rw [hfl]; exact_mod_cast Rat.lt_floor_add_one (f * n)
  have hkn : filtersToPrune f n ≤ n := by
    have : (filtersToPrune f n : ℚ) ≤ n := le_trans hle (by nlinarith [Nat.cast_nonneg (α := ℚ) n])
    exact_mod_cast this
  constructor
  · intro h; unfold randomPrune; simp [h]
  · intro h
    have hf : f ≠ 0 := by
      rintro rfl
      apply h; unfold filtersToPrune; simp; rfl
    have hlen : perm.length = n := by rw [hperm.length_eq]; simp
    have hnd : perm.Nodup := hperm.nodup_iff.2 List.nodup_range
    set k := filtersToPrune f n with hk
    have hsplit := List.take_append_drop (n - k) perm
    have hdis : ∀ i, i < n → (i ∉ perm.take (n - k) ↔ i ∈ perm.drop (n - k)) := by
      intro i hi
      have hm : i ∈ perm := hperm.mem_iff.2 (List.mem_range.2 hi)
      rw [← hsplit] at hm hnd
      have hd := List.disjoint_of_nodup_append hnd
      rcases List.mem_append.1 hm with h | h
      · exact ⟨fun h' => absurd h h', fun h' => absurd h' (hd h)⟩
      · exact ⟨fun _ => h, fun _ h' => hd h' h⟩
    refine ⟨filterMapFromOrder (perm.take (perm.length - k)) n none, ?_, ?_, ?_, ?_, hle, hlt, ?_⟩
    · unfold randomPrune; rw [if_neg hf, if_neg h]
    · simp [filterMapFromOrder]
    · intro v hv
      simp only [filterMapFromOrder, List.mem_map] at hv
      obtain ⟨i, -, rfl⟩ := hv
      split
      · exact .inr rfl
      · exact .inl rfl
    · rw [hlen]
      unfold filterMapFromOrder
      rw [List.count_eq_countP, List.countP_map]
      have e1 : List.countP ((fun x => x == (0 : ℚ)) ∘ fun i => if i ∈ perm.take (n - k) then (1 : ℚ) else 0) (List.range n) =
          List.countP (fun i => decide (i ∈ perm.drop (n - k))) (List.range n) := by
        apply List.countP_congr
        intro i hi
        have := hdis i (List.mem_range.1 hi)
        by_cases hc : i ∈ perm.take (n - k)
        · have h2 : i ∉ perm.drop (n - k) := fun h' => (this.2 h') hc
          simp [hc, h2]
        · have h2 := this.1 hc
          simp [hc, h2]
      rw [e1, ← hperm.countP_eq]
      rw [← hsplit] at hnd
      have hd := List.disjoint_of_nodup_append hnd
      have c1 : List.countP (fun i => decide (i ∈ perm.drop (n - k))) (perm.take (n - k)) = 0 := by
        rw [List.countP_eq_zero]
        intro a ha h'
        exact hd ha (by simpa using h')
      have c2 : List.countP (fun i => decide (i ∈ perm.drop (n - k))) (perm.drop (n - k)) = (perm.drop (n - k)).length := by
        rw [List.countP_eq_length]
        intro a ha; simpa using ha
      have c3 := List.countP_append (p := fun i => decide (i ∈ perm.drop (n - k))) (l₁ := perm.take (n - k)) (l₂ := perm.drop (n - k))
      rw [hsplit, c1, c2] at c3
      rw [c3]
      simp [hlen]; omega
    · intro i hi
      have hin : i < n := by simpa [filterMapFromOrder] using hi
      simp only [filterMapFromOrder, List.getElem_map, List.getElem_range]
      rw [hlen, ← hdis i hin]
      by_cases hc : i ∈ perm.take (n - k) <;> simp [hc]

example : randomPrune (1/2) 5 [3, 0, 4, 1, 2] none = some [1, 0, 0, 1, 1] ∧ filtersToPrune (1/2) 5 = 2 := by decide +kernel

/-! ## Random dropping with compensation -/

/-- The number of kept filters. -/
def keptCount (draw : List Bool) : ℕ := draw.count true

theorem bernoulli_sum (draw : List Bool) : (bernoulliMap draw none).sum = keptCount draw := by
  unfold keptCount bernoulliMap
  induction draw with
  | nil => simp
  | cons b l ih => cases b <;> simp at ih ⊢ <;> rw [ih]; ring

/-- **C130** (compensation): unless all filters are dropped, the mask of the Bernoulli pruner is zero for
dropped filters and the number of filters divided by the number of kept ones for kept filters, so its
mean over the filters is one. -/
theorem C130_bernoulli (f : ℚ) (hf : f ≠ 0) (n : ℕ) (draw : List Bool) (hn : draw.length = n) (hk : keptCount draw ≠ 0) :
    bernoulliPrune f n draw none = some ((bernoulliMask n draw).map some) ∧
    bernoulliMask n draw = draw.map (fun b => if b then (n : ℚ) / keptCount draw else 0) ∧
    (bernoulliMask n draw).sum = n := by
  have hk' : (keptCount draw : ℚ) ≠ 0 := by exact_mod_cast hk
  have hn0 : (n : ℚ) ≠ 0 := by
    have : keptCount draw ≤ n := by rw [← hn]; exact List.count_le_length
    have : n ≠ 0 := by omega
    exact_mod_cast this
  have hm : bernoulliMask n draw = draw.map (fun b => if b then (n : ℚ) / keptCount draw else 0) := by
    unfold bernoulliMask
    rw [bernoulli_sum]
    unfold bernoulliMap
    rw [List.map_map]
    apply List.map_congr_left
    intro b _
    cases b
    · simp
    · simp
  refine ⟨?_, hm, ?_⟩
  · unfold bernoulliPrune bernoulliMask
    simp only [if_neg hf]
    rw [bernoulli_sum, List.map_map]
    congr 1
    apply List.map_congr_left
    intro v _
    simp [hk', hn0]
  · have : bernoulliMask n draw = (bernoulliMap draw none).map fun v => v * ((n : ℚ) / keptCount draw) := by
      unfold bernoulliMask
      rw [bernoulli_sum]
      apply List.map_congr_left
      intro v _
      field_simp
    rw [this, List.sum_map_mul_right, List.map_id', bernoulli_sum]
    field_simp

/-- Probability of a draw when every filter is kept with probability `p`. -/
def drawProb {n : ℕ} (p : ℚ) (s : Fin n → Bool) : ℚ := ∏ i, if s i then p else 1 - p

/-- The mask of filter `i`. -/
def maskAt {n : ℕ} (s : Fin n → Bool) (i : Fin n) : ℚ := (bernoulliMask n (List.ofFn s)).getD i 0

theorem drawProb_total {n : ℕ} (p : ℚ) : ∑ s : Fin n → Bool, drawProb p s = 1 := by
  unfold drawProb
  have := Finset.prod_univ_sum (fun _ : Fin n => (Finset.univ : Finset Bool)) (fun _ b => if b then p else 1 - p)
  rw [Fintype.piFinset_univ] at this
  rw [← this]
  simp

theorem maskAt_eq {n : ℕ} (s : Fin n → Bool) (hk : keptCount (List.ofFn s) ≠ 0) (i : Fin n) :
    maskAt s i = if s i then (n : ℚ) / keptCount (List.ofFn s) else 0 := by
  unfold maskAt
  rw [(C130_bernoulli 1 one_ne_zero n (List.ofFn s) (by simp) hk).2.1]
  simp

theorem maskAt_sum {n : ℕ} (s : Fin n → Bool) (hk : keptCount (List.ofFn s) ≠ 0) : ∑ i, maskAt s i = n := by
  have h := (C130_bernoulli 1 one_ne_zero n (List.ofFn s) (by simp) hk)
  rw [← h.2.2, h.2.1]
  rw [List.map_ofFn, List.sum_ofFn]
  apply Finset.sum_congr rfl
  intro i _
  rw [maskAt_eq s hk]; rfl

theorem keptCount_perm {n : ℕ} (s : Fin n → Bool) (e : Equiv.Perm (Fin n)) : keptCount (List.ofFn (s ∘ e)) = keptCount (List.ofFn s) := by
  have h : ∀ t : Fin n → Bool, (keptCount (List.ofFn t) : ℚ) = ∑ i, if t i then 1 else 0 := by
    intro t
    rw [← bernoulli_sum]
    unfold bernoulliMap
    rw [List.map_ofFn, List.sum_ofFn]; rfl
  have : (keptCount (List.ofFn (s ∘ e)) : ℚ) = keptCount (List.ofFn s) := by
    rw [h, h]
    exact Equiv.sum_comp e (fun i => if s i then (1 : ℚ) else 0)
  exact_mod_cast this

theorem drawProb_perm {n : ℕ} (p : ℚ) (s : Fin n → Bool) (e : Equiv.Perm (Fin n)) : drawProb p (s ∘ e) = drawProb p s := by
  unfold drawProb
  exact Equiv.prod_comp e (fun i => if s i then p else 1 - p)

/-- Draws that keep at least one filter. -/
def someKept (n : ℕ) : Finset (Fin n → Bool) := Finset.univ.filter fun s => keptCount (List.ofFn s) ≠ 0

theorem exp_symm {n : ℕ} (p : ℚ) (i j : Fin n) :
    ∑ s ∈ someKept n, drawProb p s * maskAt s i = ∑ s ∈ someKept n, drawProb p s * maskAt s j := by
  apply Finset.sum_bij (fun s _ => s ∘ Equiv.swap i j)
  · intro s hs
    simp only [someKept, Finset.mem_filter, Finset.mem_univ, true_and] at hs ⊢
    rw [keptCount_perm]; exact hs
  · intro a _ b _ h
    funext x
    have := congrFun h (Equiv.swap i j x)
    simpa using this
  · intro s hs
    refine ⟨s ∘ Equiv.swap i j, ?_, ?_⟩
    · simp only [someKept, Finset.mem_filter, Finset.mem_univ, true_and] at hs ⊢
      rw [keptCount_perm]; exact hs
    · funext x; simp
  · intro s hs
    simp only [someKept, Finset.mem_filter, Finset.mem_univ, true_and] at hs
    rw [drawProb_perm, maskAt_eq s hs, maskAt_eq (s ∘ Equiv.swap i j) (by rw [keptCount_perm]; exact hs), keptCount_perm]
    simp

theorem someKept_prob (n : ℕ) (p : ℚ) : ∑ s ∈ someKept n, drawProb p s = 1 - (1 - p) ^ n := by
  have h := Finset.sum_filter_add_sum_filter_not (Finset.univ : Finset (Fin n → Bool)) (fun s => keptCount (List.ofFn s) ≠ 0) (drawProb p)
  rw [drawProb_total] at h
  have hz : (Finset.univ.filter fun s : Fin n → Bool => ¬ keptCount (List.ofFn s) ≠ 0) = {fun _ => false} := by
    ext s
    simp only [Finset.mem_filter, Finset.mem_univ, true_and, Finset.mem_singleton, not_not]
    constructor
    · intro h
      unfold keptCount at h
      rw [List.count_eq_zero] at h
      funext i
      cases hs : s i
      · rfl
      · exact absurd (by rw [List.mem_ofFn]; exact ⟨i, hs⟩) h
    · rintro rfl
      unfold keptCount
      rw [List.count_eq_zero, List.mem_ofFn]
      rintro ⟨i, h⟩; cases h
  rw [hz, Finset.sum_singleton] at h
  have : drawProb p (fun _ : Fin n => false) = (1 - p) ^ n := by simp [drawProb]
  rw [this] at h
  unfold someKept
  linarith

/-- **C130** (no bias): if every filter is kept with probability `p`, independently, the mean value of
the mask of each filter over the draws that keep some filter is one: the expected masked weights are the
weights.  (Stated without division: the sum over these draws of probability times mask is the
probability of these draws, `1 - (1-p)^n`.) -/
theorem C130_unbiased (n : ℕ) (p : ℚ) (i : Fin n) :
    ∑ s ∈ someKept n, drawProb p s * maskAt s i = 1 - (1 - p) ^ n ∧ ∑ s ∈ someKept n, drawProb p s = 1 - (1 - p) ^ n := by
  refine ⟨?_, someKept_prob n p⟩
  have h1 : ∑ j : Fin n, ∑ s ∈ someKept n, drawProb p s * maskAt s j = n * (1 - (1 - p) ^ n) := by
    rw [Finset.sum_comm, ← someKept_prob n p, Finset.mul_sum]
    apply Finset.sum_congr rfl
    intro s hs
    simp only [someKept, Finset.mem_filter, Finset.mem_univ, true_and] at hs
    rw [← Finset.mul_sum, maskAt_sum s hs]; ring
  have h2 : ∑ j : Fin n, ∑ s ∈ someKept n, drawProb p s * maskAt s j = n * ∑ s ∈ someKept n, drawProb p s * maskAt s i := by
    rw [Finset.sum_congr rfl fun j _ => exp_symm p j i]
    simp
  have hn : (n : ℚ) ≠ 0 := by
    have := i.pos
    have : n ≠ 0 := by omega
    exact_mod_cast this
  exact mul_left_cancel₀ hn (h2.symm.trans h1)

example : bernoulliPrune (1/4) 4 [true, false, true, true] none = some [some (4/3), some 0, some (4/3), some (4/3)] ∧
    keptCount [true, false, true, true] = 3 := by decide +kernel

/-- **C130** (dependent layers): a layer that is given the decision of the leader of its group removes the
same filters, with the same scale, whatever is drawn for it. -/
theorem C130_dependent (f : ℚ) (hf : f ≠ 0) (n : ℕ) (perm perm' : List ℕ) (draw draw' : List Bool)
    (hp : filtersToPrune f n ≠ 0) (m : List ℚ) (hm : randomPrune f n perm none = some m) :
    randomPrune f n perm' (some m) = some m ∧
    bernoulliPrune f n draw' (some (bernoulliMap draw none)) = bernoulliPrune f n draw none := by
  unfold randomPrune bernoulliPrune
  simp [hf, hp, filterMapFromOrder, bernoulliMap]

example : randomPrune (1/2) 4 [2, 0, 3, 1] none = some [1, 0, 1, 0] ∧ randomPrune (1/2) 4 [0, 1, 2, 3] (some [1, 0, 1, 0]) = some [1, 0, 1, 0] := by
  decide +kernel

/-- **C130** is violated: if no filter is drawn, all weights of the layer become NaN. -/
theorem C130_violated_all_dropped (f : ℚ) (hf : f ≠ 0) (n : ℕ) (draw : List Bool) (h : ∀ b ∈ draw, b = false) :
    bernoulliPrune f n draw none = some (draw.map fun _ => none) := by
  have hk : keptCount draw = 0 := by
    unfold keptCount
    rw [List.count_eq_zero]
    intro ht; exact absurd (h true ht) (by decide)
  unfold bernoulliPrune
  simp only [if_neg hf]
  rw [bernoulli_sum, hk]
  unfold bernoulliMap
  rw [List.map_map]
  congr 1
  apply List.map_congr_left
  intro b _
  simp

/-- **C130** is violated: the mask is not made of zeros and ones, so applying it again changes the
weights again; without copies of the weights, a mask applied in `k` mini-batches multiplies the weights
of kept filters by the `k`-th power of the factor. -/
theorem C130_violated_repeated (m : Masker) (hd : m.dbl = false) (hr : m.isReg = false) (c x : ℚ) (hc : m.mask = some [c]) (k : ℕ) :
    ((fun s : Masker × Tensor => s.1.applyMask s.2)^[k] (m, [x])) = (m, [c ^ k * x]) := by
  induction k with
  | zero => simp
  | succ k ih =>
    rw [Function.iterate_succ_apply', ih]
    unfold Masker.applyMask Masker.maskTensor tmul
    simp [hd, hr, hc, pow_succ]
    ring

end Verif
