import Verif.Model.Metrics
import Verif.Model.Quantizer
import Mathlib.Data.Int.Log
/-!
# The weights sparsity table (distiller/model_summaries.py:82-124)

The columns with element counts are computed by the code in double precision and truncated with `int`; these are modelled
with the rounding of IEEE-754 doubles, since truncation makes a rounding error visible.  The percentages are modelled in exact
arithmetic.  The columns Shape, Std, Mean and Abs-Mean are not modelled.
-/
namespace Verif

/-- Rounding to a double: to the nearest multiple of the unit in the last place, ties to even (53 significant bits; overflow
and subnormal numbers are not modelled). -/
def fl64 (q : ℚ) : ℚ :=
  if q = 0 then 0 else roundHalfEven (q / (2 : ℚ) ^ (Int.log 2 |q| - 52)) * (2 : ℚ) ^ (Int.log 2 |q| - 52)

/-- A tensor of the state dictionary, by rank. -/
inductive SumT where
  | d4 (t : T4)
  | d2 (t : T2)
  | other (dim : ℕ) (data : Tensor)
  deriving DecidableEq, Repr

/-- `param.dim()`. -/
def SumT.dim : SumT → ℕ
  | .d4 _ => 4
  | .d2 _ => 2
  | .other n _ => n

/-- The elements. -/
def SumT.data : SumT → Tensor
  | .d4 t => t.data
  | .d2 t => t.data
  | .other _ l => l

/-- An entry of `model.state_dict()`; `id` is the identity of the parameter object (a shared parameter occurs under several
names). -/
structure SumEntry where
  name : String
  id : ℕ
  tensor : SumT
  deriving DecidableEq, Repr

/-- `param.dim() in param_dims and any(type in name for type in ['weight', 'bias'])` (model_summaries.py:91). -/
def SumEntry.counted (dims : List ℕ) (e : SumEntry) : Bool :=
  decide (e.tensor.dim ∈ dims) && (decide ("weight".toList <:+: e.name.toList) || decide ("bias".toList <:+: e.name.toList))

/-- Number of elements that are not zero (utils.py:180). -/
def nnz (l : Tensor) : ℕ := l.countP fun x => |x| > 0

/-- `density` (utils.py:166-181) as the code computes it. -/
def density64 (l : Tensor) : Except Err ℚ := if l.length = 0 then .error .zeroDiv else .ok (fl64 (nnz l / l.length))

/-- A row of the table. -/
structure SumRow where
  name : String
  dense : ℕ
  sparse : ℤ
  cols : ℚ
  rows : ℚ
  ch : ℚ
  d2 : ℚ
  d3 : ℚ
  fine : ℚ
  deriving DecidableEq, Repr

/-- The structured sparsities of a tensor: columns, rows, channels, kernels (rows of matrices), filters
(utils.py:200-272, 321-357). -/
def SumT.structured : SumT → Except Err (ℚ × ℚ × ℚ × ℚ × ℚ)
  | .d4 t => do
    let ch ← sparsityCh t
    let k ← sparsity2D t
    let f ← sparsity3D t
    return (0, 0, ch, k, f)
  | .d2 t => do
    let c ← sparsityCols t
    let r ← sparsityRows t
    let k ← sparsityMatrix t false
    return (c, r, 0, k, 0)
  | .other _ _ => .ok (0, 0, 0, 0, 0)

/-- Accumulators: the table, `params_size`, `sparse_params_size` in double precision, and its exact value. -/
structure SumAcc where
  rows : List SumRow
  size : ℕ
  sparse64 : ℚ
  sparse : ℕ
  deriving DecidableEq, Repr

/-- One iteration (model_summaries.py:89-110). -/
def sumStep (dims : List ℕ) (acc : SumAcc) (e : SumEntry) : Except Err SumAcc :=
  if e.counted dims then do
    let d ← density64 e.tensor.data
    let s ← e.tensor.structured
    let x ← sparsity e.tensor.data
    return ⟨acc.rows ++ [⟨e.name, e.tensor.data.length, pyInt (fl64 (d * e.tensor.data.length)),
        s.1 * 100, s.2.1 * 100, s.2.2.1 * 100, s.2.2.2.1 * 100, s.2.2.2.2 * 100, x * 100⟩],
      acc.size + e.tensor.data.length, fl64 (acc.sparse64 + fl64 (e.tensor.data.length * d)), acc.sparse + nnz e.tensor.data⟩
  else .ok acc

/-- `weights_sparsity_summary(model, return_total_sparsity=True, param_dims)` (model_summaries.py:82-124): the table with its
last row, and the total. -/
def weightsSummary (dims : List ℕ) (l : List SumEntry) : Except Err (List SumRow × ℚ) := do
  let acc ← l.foldlM (sumStep dims) ⟨[], 0, 0, 0⟩
  if acc.size = 0 then .error .zeroDiv
  else
    let total : ℚ := (1 - acc.sparse / acc.size) * 100
    return (acc.rows ++ [⟨"Total sparsity:", acc.size, pyInt acc.sparse64, 0, 0, 0, 0, 0, total⟩], total)

end Verif
