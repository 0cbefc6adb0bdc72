import Verif.Model.TSVD
import Mathlib.Algebra.BigOperators.Fin
import Mathlib.Algebra.Order.BigOperators.Ring.Finset
import Mathlib.Tactic.Linarith
import Mathlib.Tactic.Ring
import Mathlib.Tactic.Abel
/-!
# C113: truncated SVD
-/
namespace Verif
open Matrix Finset

/-- The part of a singular value decomposition with index below `l`. -/
theorem trunc_apply {n m k : ℕ} (U : Matrix (Fin n) (Fin k) ℝ) (s : Fin k → ℝ) (V : Matrix (Fin m) (Fin k) ℝ) (l : ℕ)
    (x : Fin m → ℝ) (a : Fin n) :
    ((truncU U l).mulVec ((truncSV s V l).mulVec x)) a =
      ∑ i : Fin k, if i.val < l then U a i * (s i * ∑ b, V b i * x b) else 0 := by
  rw [← Finset.sum_filter]
  simp only [truncU, truncSV, mulVec, dotProduct, submatrix_apply, id]
  have e : ∀ j : Fin (min l k), (∑ b, (diagonal (fun i => s (firstOf l k i)) * (Vᵀ).submatrix (firstOf l k) id) j b * x b) =
      s (firstOf l k j) * ∑ b, V b (firstOf l k j) * x b := by
    intro j
    rw [Finset.mul_sum]
    refine Finset.sum_congr rfl fun b _ => ?_
    rw [diagonal_mul]
    simp [submatrix_apply, transpose_apply, mul_assoc]
  simp only [e]
  refine Finset.sum_bij' (fun j _ => firstOf l k j) (fun i hi => ⟨i.val, lt_min (by simpa using hi) i.2⟩) ?_ ?_ ?_ ?_ ?_
  · intro j _; simp [firstOf]; exact lt_of_lt_of_le j.2 (min_le_left l k)
  · intro i hi; simp
  · intro j _; simp [firstOf]
  · intro i hi; simp [firstOf]
  · intro j _; rfl

theorem svd_apply {n m k : ℕ} {W : Matrix (Fin n) (Fin m) ℝ} {U : Matrix (Fin n) (Fin k) ℝ} {s : Fin k → ℝ}
    {V : Matrix (Fin m) (Fin k) ℝ} (h : IsSVD W U s V) (x : Fin m → ℝ) (a : Fin n) :
    (W.mulVec x) a = ∑ i : Fin k, U a i * (s i * ∑ b, V b i * x b) := by
  rw [h.product]
  have e : ∀ b, (U * diagonal s * Vᵀ) a b = ∑ i, U a i * s i * V b i := by
    intro b
    rw [mul_apply]
    simp [mul_diagonal, transpose_apply]
  simp only [mulVec, dotProduct, e]
  simp only [Finset.sum_mul, Finset.mul_sum]
  rw [Finset.sum_comm]
  refine Finset.sum_congr rfl fun i _ => Finset.sum_congr rfl fun b _ => ?_
  ring

/-- **C113** With at least as many singular values retained as there are, the two factors multiply to the weight
matrix. -/
theorem C113_exact {n m k : ℕ} (W : Matrix (Fin n) (Fin m) ℝ) (U : Matrix (Fin n) (Fin k) ℝ) (s : Fin k → ℝ)
    (V : Matrix (Fin m) (Fin k) ℝ) (h : IsSVD W U s V) (l : ℕ) (hl : k ≤ l) : truncU U l * truncSV s V l = W := by
  apply Matrix.ext_of_mulVec_single
  intro b
  rw [← mulVec_mulVec]
  funext a
  rw [trunc_apply, svd_apply h]
  refine Finset.sum_congr rfl fun i _ => ?_
  rw [if_pos (lt_of_lt_of_le i.2 hl)]

/-- Squared length. -/
def sqNorm {n : ℕ} (v : Fin n → ℝ) : ℝ := ∑ i, v i ^ 2

theorem sqNorm_comb {n k : ℕ} {U : Matrix (Fin n) (Fin k) ℝ} (hu : Uᵀ * U = 1) (c : Fin k → ℝ) :
    sqNorm (fun a => ∑ i, U a i * c i) = ∑ i, c i ^ 2 := by
  have e : ∀ i j : Fin k, ∑ a, U a i * U a j = if i = j then 1 else 0 := by
    intro i j
    have := congrFun (congrFun hu i) j
    simpa [mul_apply, transpose_apply, one_apply] using this
  unfold sqNorm
  calc ∑ a, (∑ i, U a i * c i) ^ 2 = ∑ a, ∑ i, ∑ j, (U a i * U a j) * (c i * c j) := by
        refine Finset.sum_congr rfl fun a _ => ?_
        rw [pow_two, Finset.sum_mul_sum]
        refine Finset.sum_congr rfl fun i _ => Finset.sum_congr rfl fun j _ => by ring
    _ = ∑ i, ∑ j, (∑ a, U a i * U a j) * (c i * c j) := by
        rw [Finset.sum_comm]
        refine Finset.sum_congr rfl fun i _ => ?_
        rw [Finset.sum_comm]
        refine Finset.sum_congr rfl fun j _ => ?_
        rw [Finset.sum_mul]
    _ = ∑ i, c i ^ 2 := by
        refine Finset.sum_congr rfl fun i _ => ?_
        simp [e, pow_two]

/-- Bessel's inequality for the columns of `V`. -/
theorem bessel {m k : ℕ} {V : Matrix (Fin m) (Fin k) ℝ} (hv : Vᵀ * V = 1) (x : Fin m → ℝ) :
    ∑ i, (∑ b, V b i * x b) ^ 2 ≤ sqNorm x := by
  set c : Fin k → ℝ := fun i => ∑ b, V b i * x b with hc
  have h0 : 0 ≤ sqNorm (fun b => x b - ∑ i, V b i * c i) := Finset.sum_nonneg fun _ _ => sq_nonneg _
  have h1 : sqNorm (fun b => x b - ∑ i, V b i * c i) = sqNorm x - 2 * ∑ i, c i ^ 2 + ∑ i, c i ^ 2 := by
    have : ∑ i, c i ^ 2 = ∑ b, x b * ∑ i, V b i * c i := by
      simp only [Finset.mul_sum]
      rw [Finset.sum_comm]
      refine Finset.sum_congr rfl fun i _ => ?_
      rw [pow_two]
      conv_lhs => rw [hc]
      simp only
      rw [Finset.sum_mul]
      refine Finset.sum_congr rfl fun b _ => ?_
      ring
    have h2 : ∑ i, c i ^ 2 = sqNorm (fun b => ∑ i, V b i * c i) := (sqNorm_comb hv c).symm
    have h3 : sqNorm x - 2 * ∑ i, c i ^ 2 + ∑ i, c i ^ 2 =
        sqNorm x - 2 * (∑ b, x b * ∑ i, V b i * c i) + sqNorm (fun b => ∑ i, V b i * c i) := by
      rw [← this, ← h2]
    rw [h3]
    unfold sqNorm
    rw [Finset.mul_sum, ← Finset.sum_sub_distrib, ← Finset.sum_add_distrib]
    refine Finset.sum_congr rfl fun b _ => ?_
    ring
  linarith

/-- **C113** (error) Truncation to `l` singular values changes the product with any input by exactly the discarded
components; its length is at most the largest discarded singular value times that of the input. -/
theorem C113_error {n m k : ℕ} (W : Matrix (Fin n) (Fin m) ℝ) (U : Matrix (Fin n) (Fin k) ℝ) (s : Fin k → ℝ)
    (V : Matrix (Fin m) (Fin k) ℝ) (h : IsSVD W U s V) (l : ℕ) (hl : l < k) (x : Fin m → ℝ) :
    sqNorm (W.mulVec x - (truncU U l * truncSV s V l).mulVec x) =
      (∑ i : Fin k, if l ≤ i.val then s i ^ 2 * (∑ b, V b i * x b) ^ 2 else 0) ∧
    sqNorm (W.mulVec x - (truncU U l * truncSV s V l).mulVec x) ≤ s ⟨l, hl⟩ ^ 2 * sqNorm x := by
  have e : (W.mulVec x - (truncU U l * truncSV s V l).mulVec x) =
      fun a => ∑ i, U a i * (if l ≤ i.val then s i * ∑ b, V b i * x b else 0) := by
    funext a
    rw [← mulVec_mulVec, Pi.sub_apply, trunc_apply, svd_apply h, ← Finset.sum_sub_distrib]
    refine Finset.sum_congr rfl fun i _ => ?_
    by_cases hi : i.val < l
    · rw [if_pos hi, if_neg (by omega)]; ring
    · rw [if_neg hi, if_pos (by omega)]; ring
  have e2 : sqNorm (W.mulVec x - (truncU U l * truncSV s V l).mulVec x) =
      ∑ i : Fin k, if l ≤ i.val then s i ^ 2 * (∑ b, V b i * x b) ^ 2 else 0 := by
    rw [e, sqNorm_comb h.u]
    refine Finset.sum_congr rfl fun i _ => ?_
    split
    · ring
    · simp
  refine ⟨e2, ?_⟩
  rw [e2]
  calc (∑ i : Fin k, if l ≤ i.val then s i ^ 2 * (∑ b, V b i * x b) ^ 2 else 0)
      ≤ ∑ i : Fin k, s ⟨l, hl⟩ ^ 2 * (∑ b, V b i * x b) ^ 2 := by
        refine Finset.sum_le_sum fun i _ => ?_
        split
        · rename_i hi
          have h1 : s i ≤ s ⟨l, hl⟩ := h.sorted ⟨l, hl⟩ i hi
          have h2 := h.pos i
          have : s i ^ 2 ≤ s ⟨l, hl⟩ ^ 2 := pow_le_pow_left₀ h2 h1 2
          exact mul_le_mul_of_nonneg_right this (sq_nonneg _)
        · positivity
    _ = s ⟨l, hl⟩ ^ 2 * ∑ i : Fin k, (∑ b, V b i * x b) ^ 2 := by rw [Finset.mul_sum]
    _ ≤ s ⟨l, hl⟩ ^ 2 * sqNorm x := mul_le_mul_of_nonneg_left (bessel h.v x) (sq_nonneg _)

/-- A diagonal matrix is decomposed by the identity. -/
theorem exSVD : IsSVD (diagonal ![(3 : ℝ), 2]) (1 : Matrix (Fin 2) (Fin 2) ℝ) ![3, 2] 1 :=
  ⟨by simp, by simp, by simp, by intro i; fin_cases i <;> norm_num, by
    intro i j hij; fin_cases i <;> fin_cases j <;> simp_all <;> norm_num⟩

example : IsSVD (diagonal ![(3 : ℝ), 2]) (1 : Matrix (Fin 2) (Fin 2) ℝ) ![3, 2] 1 ∧ 1 < 2 ∧ (2 ≤ 2) := ⟨exSVD, by decide, by decide⟩

/-- The layer it replaces. -/
def linearForward {n m : ℕ} (W : Matrix (Fin n) (Fin m) ℝ) (b : Fin n → ℝ) (x : Fin m → ℝ) : Fin n → ℝ := W.mulVec x + b

/-- **C113** is violated even if nothing is truncated: the bias of the replaced layer is dropped and the two new
layers have the random biases of their construction, so that the output is off by `U bSV + bU - b` for every
input. -/
theorem C113_violated_bias {n m k : ℕ} (W : Matrix (Fin n) (Fin m) ℝ) (U : Matrix (Fin n) (Fin k) ℝ) (s : Fin k → ℝ)
    (V : Matrix (Fin m) (Fin k) ℝ) (h : IsSVD W U s V) (l : ℕ) (hl : k ≤ l) (bSV : Fin (min l k) → ℝ) (bU b : Fin n → ℝ)
    (x : Fin m → ℝ) :
    tsvdForward U s V l bSV bU x - linearForward W b x = (truncU U l).mulVec bSV + bU - b := by
  unfold tsvdForward linearForward
  rw [mulVec_add, mulVec_mulVec, C113_exact W U s V h l hl]
  abel

/-- **C113** is violated by small ratios: with `int(ratio * outputs) = 0` no singular value is kept, and the output
does not depend on the input. -/
theorem C113_violated_empty {n m k : ℕ} (U : Matrix (Fin n) (Fin k) ℝ) (s : Fin k → ℝ) (V : Matrix (Fin m) (Fin k) ℝ)
    (bSV : Fin (min 0 k) → ℝ) (bU : Fin n → ℝ) (x : Fin m → ℝ) : tsvdForward U s V 0 bSV bU x = bU := by
  funext a
  have : IsEmpty (Fin (min 0 k)) := by rw [Nat.zero_min]; infer_instance
  simp [tsvdForward, mulVec, dotProduct]

end Verif
