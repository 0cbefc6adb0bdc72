import Verif.Model.Structures
/-!
# Norms of groups of structures
(distiller/norms.py 102-119, 213-230; filters and channels are in `Model/Structures`)
-/
namespace Verif

/-- `kernels_norm` (norms.py:102-119) for any group length: `view(-1, group_size)` raises if the groups do not divide the tensor. -/
def kernelsNormG (t : T4) (nf : NormFn) (g : ℕ := 1) (ln : Bool := false) : Except Err (List ℚ) :=
  let gs := g * (t.H * t.W)
  if g ≠ 0 ∧ (t.F * t.C) % g = 0 then .ok (genericNorm (chunks (t.F * t.C / g) gs t.data) nf gs ln)
  else .error .runtime

end Verif
