import Verif.Model.Metrics
/-!
# The mask summary (distiller/model_summaries.py:135-156)
-/
namespace Verif

/-- One entry of `model.state_dict()`: does it pass the filter on rank and name, its data, and its entry in
`zeros_mask_dict`: none (it is no parameter), or a masker with or without mask. -/
structure MaskEntry where
  counted : Bool
  data : Tensor
  masker : Option (Option Tensor)
  deriving DecidableEq, Repr

/-- The density of an entry's mask (model_summaries.py:143-147). -/
def maskDensity (e : MaskEntry) : Except Err ℚ :=
  match e.masker with
  | none => .error .key
  | some none => .ok 1
  | some (some m) => density m

/-- One iteration of the loop (model_summaries.py:140-150). -/
def maskSummaryStep (acc : List ℚ × ℚ × ℚ) (e : MaskEntry) : Except Err (List ℚ × ℚ × ℚ) :=
  if e.counted then
    (maskDensity e).map fun d => (acc.1 ++ [(1 - d) * 100], acc.2.1 + e.data.length, acc.2.2 + e.data.length * d)
  else .ok acc

/-- `masks_sparsity_summary` (model_summaries.py:135-155): the percentages of the listed parameters, and the
total. -/
def masksSummary (l : List MaskEntry) : Except Err (List ℚ × ℚ) :=
  (l.foldlM maskSummaryStep ([], 0, 0)).bind fun acc =>
    if acc.2.1 = 0 then .error .assertion else .ok (acc.1, (1 - acc.2.2 / acc.2.1) * 100)

end Verif
