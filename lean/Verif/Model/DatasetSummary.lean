import Verif.Basic.Py
import Mathlib.Algebra.Field.Rat
/-!
# Histogram of the class membership
(distiller/apputils/dataset_summaries.py 22-45)
-/
namespace Verif

/-- `np.histogram(l, bins=np.arange(1001))[0]` (line 39) for whole numbers: the intervals are half-open except for the last one, which contains both
of its ends; other numbers are not counted. -/
def npHist1000 (l : List ℤ) : List ℕ :=
  (List.range 1000).map fun c : ℕ => (l.filter fun x => x = (c : ℤ) ∨ c = 999 ∧ x = 1000).length

/-- What is logged (lines 41-45): the size of each class, the number of classes and the average. -/
structure DatasetLog where
  sizes : List (ℕ × ℕ)
  classes : ℕ
  average : ℚ
  deriving DecidableEq, Repr

/-- `dataset_summary` (lines 22-45) for the labels of the batches.  The first batch creates the array, `UnboundLocalError` being a `NameError` (lines
31-34); without batches line 39 raises it.  The number of items, that of the sampler, is not modelled. -/
def datasetSummary (batches : List (List ℤ)) : Except Err DatasetLog :=
  match batches with
  | [] => .error .name
  | b :: bs =>
    let all := bs.foldl (· ++ ·) b
    let h := npHist1000 all
    .ok ⟨h.zipIdx.map fun x => (x.2, x.1), h.length, (h.sum : ℚ) / h.length⟩

end Verif
