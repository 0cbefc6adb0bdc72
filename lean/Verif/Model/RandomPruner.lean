import Verif.Model.Scheduler
/-!
# Model of the random filter pruners (distiller/pruning/ranked_structures_pruner.py:313-319, 403-472)

Masks are given by one number per filter, which `expand_binary_map(param, 'Filters', ..)` copies to all
weights of the filter.  Random draws are arguments.
-/
namespace Verif

/-- `int(fraction_to_prune * num_filters)` (421, 456), for fractions that are not negative. -/
def filtersToPrune (f : ℚ) (n : ℕ) : ℕ := (f * n).floor.toNat

/-- `_mask_from_filter_order` (313-319): ones for the given filters, unless a map is given. -/
def filterMapFromOrder (kept : List ℕ) (n : ℕ) : Option (List ℚ) → List ℚ
  | some m => m
  | none => (List.range n).map fun i => if i ∈ kept then 1 else 0

/-- `RandomRankedFilterPruner` (411-435): `perm` is the result of `np.random.permutation`; `none` is
"no mask set". -/
def randomPrune (f : ℚ) (n : ℕ) (perm : List ℕ) (map : Option (List ℚ)) : Option (List ℚ) :=
  if f = 0 then none
  else if filtersToPrune f n = 0 then none
  else some (filterMapFromOrder (perm.take (perm.length - filtersToPrune f n)) n map)

/-- The binary map of `BernoulliFilterPruner` (458-460); `draw` is the result of `torch.bernoulli`. -/
def bernoulliMap (draw : List Bool) : Option (List ℚ) → List ℚ
  | some m => m
  | none => draw.map fun b => if b then 1 else 0

/-- `BernoulliFilterPruner` (446-472): the mask divided by the fraction of kept filters; `none` in the
list is a NaN (0 / 0). -/
def bernoulliPrune (f : ℚ) (n : ℕ) (draw : List Bool) (map : Option (List ℚ)) : Option (List (Option ℚ)) :=
  if f = 0 then none
  else
    let m := bernoulliMap draw map
    let factor := m.sum / n
    some (m.map fun v => if factor = 0 then none else some (v / factor))

/-- A mask of the Bernoulli pruner as numbers, when it has no NaN. -/
def bernoulliMask (n : ℕ) (draw : List Bool) : List ℚ :=
  (bernoulliMap draw none).map fun v => v / ((bernoulliMap draw none).sum / n)

end Verif
