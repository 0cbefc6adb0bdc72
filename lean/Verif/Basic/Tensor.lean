import Mathlib.Data.Rat.Defs
import Mathlib.Algebra.Order.Ring.Rat
/-!
# Tensors as flat row-major lists of rationals

torch floats are idealised to exact rationals.  A tensor is its row-major list of
entries; `view` does not change that list.  Where the shape matters the model
carries it separately.
-/
namespace Verif

/-- A torch tensor, flattened. -/
abbrev Tensor := List ℚ

/-- `a.mul(b)` for tensors of the same shape.  (torch raises on incompatible
shapes; the model is only used on masks having the shape of their parameter.) -/
def tmul (a b : Tensor) : Tensor := List.zipWith (· * ·) a b

/-- Specification vocabulary: wherever the mask `m` has a 0 the tensor `w` has a 0. -/
def ZeroWhere (m w : Tensor) : Prop :=
  ∀ i : ℕ, m[i]? = some 0 → ∀ x, w[i]? = some x → x = 0

instance (m w : Tensor) : Decidable (ZeroWhere m w) :=
  decidable_of_iff (∀ i : Fin (m.length), m[i]? = some 0 → (w[i]? = none ∨ w[i]? = some 0)) (by
    constructor
    · intro h i hm x hx
      have hi : i < m.length := by
        rcases Nat.lt_or_ge i m.length with h' | h'
        · exact h'
        · rw [List.getElem?_eq_none h'] at hm; cases hm
      rcases h ⟨i, hi⟩ hm with h1 | h1
      · simp [hx] at h1
      · simp [hx] at h1; exact h1
    · intro h i hm
      cases hw : w[(i : ℕ)]? with
      | none => exact Or.inl rfl
      | some x => exact Or.inr (by rw [h i hm x hw]))

theorem zeroWhere_tmul (m w : Tensor) : ZeroWhere m (tmul w m) := by
  intro i hm x hx
  unfold tmul at hx
  rw [List.getElem?_zipWith] at hx
  cases hw : w[i]? with
  | none => simp [hw] at hx
  | some y => simp [hw, hm] at hx; exact hx.symm

end Verif
