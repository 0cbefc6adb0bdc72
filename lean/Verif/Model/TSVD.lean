import Mathlib.Data.Matrix.Mul
import Mathlib.Data.Real.Basic
import Mathlib.LinearAlgebra.Matrix.DotProduct
/-!
# Truncated SVD (distiller/modules/tsvd.py)

Real matrices.  (The file does not import `torch`, so that importing it raises `NameError`; the model is of the code
with the missing imports.)
-/
namespace Verif
open Matrix

/-- What `torch.svd(W, some=True)` returns: `W = U diag(s) Vᵀ` with orthonormal columns and sorted, non-negative
singular values. -/
structure IsSVD {n m k : ℕ} (W : Matrix (Fin n) (Fin m) ℝ) (U : Matrix (Fin n) (Fin k) ℝ) (s : Fin k → ℝ)
    (V : Matrix (Fin m) (Fin k) ℝ) : Prop where
  product : W = U * diagonal s * Vᵀ
  u : Uᵀ * U = 1
  v : Vᵀ * V = 1
  pos : ∀ i, 0 ≤ s i
  sorted : ∀ i j, i ≤ j → s j ≤ s i

/-- The first `min l k` of `k` indices (`[:l]`). -/
def firstOf (l k : ℕ) (i : Fin (min l k)) : Fin k := ⟨i.val, lt_of_lt_of_le i.2 (min_le_right l k)⟩

/-- `Ul = U[:, :l]` (tsvd.py:40). -/
def truncU {n k : ℕ} (U : Matrix (Fin n) (Fin k) ℝ) (l : ℕ) : Matrix (Fin n) (Fin (min l k)) ℝ :=
  U.submatrix id (firstOf l k)

/-- `SV = diag(s[:l]) @ V.t()[:l, :]` (tsvd.py:41-45). -/
def truncSV {m k : ℕ} (s : Fin k → ℝ) (V : Matrix (Fin m) (Fin k) ℝ) (l : ℕ) : Matrix (Fin (min l k)) (Fin m) ℝ :=
  diagonal (fun i => s (firstOf l k i)) * (Vᵀ).submatrix (firstOf l k) id

/-- `TruncatedSVD.forward` (tsvd.py:63-66): two linear layers with the computed weights and the biases `nn.Linear`
initialized them with (tsvd.py:56-61). -/
def tsvdForward {n m k : ℕ} (U : Matrix (Fin n) (Fin k) ℝ) (s : Fin k → ℝ) (V : Matrix (Fin m) (Fin k) ℝ) (l : ℕ)
    (bSV : Fin (min l k) → ℝ) (bU : Fin n → ℝ) (x : Fin m → ℝ) : Fin n → ℝ :=
  (truncU U l).mulVec ((truncSV s V l).mulVec x + bSV) + bU

end Verif
