import Verif.Model.Structures
/-!
# Model of the sparsity metrics (distiller/utils.py:157-394)
and of block pruning (distiller/pruning/ranked_structures_pruner.py:189-267)
-/
namespace Verif

/-- `density` (utils.py:166-181); empty tensors divide by zero. -/
def density (l : Tensor) : Except Err ℚ :=
  if l.length = 0 then .error .zeroDiv
  else .ok ((l.countP fun x => |x| > 0) / l.length)

/-- `sparsity` (utils.py:184-197). -/
def sparsity (l : Tensor) : Except Err ℚ := do
  let d ← density l
  return 1 - d

/-- `1 - len(torch.nonzero(norms)) / n`, the form shared by the structured metrics. -/
def structSparsity (norms : List ℚ) (n : ℕ) : Except Err ℚ :=
  if n = 0 then .error .zeroDiv
  else .ok (1 - (norms.countP fun x => x ≠ 0) / n)

/-- `sparsity_3D` (utils.py:200-207), 4-D; for other ranks the code returns 0. -/
def sparsity3D (t : T4) : Except Err ℚ := do
  let norms ← filtersNorm t l1Norm 1 false
  structSparsity norms t.F

/-- `sparsity_2D` (utils.py:215-244), 4-D: kernels. -/
def sparsity2D (t : T4) : Except Err ℚ :=
  structSparsity ((chunks (t.F * t.C) (t.H * t.W) t.data).map fun r => (r.map fun x => |x|).sum) (t.F * t.C)

/-- `sparsity_ch` (utils.py:252-272). -/
def sparsityCh (t : T4) : Except Err ℚ := do
  let norms ← channelsNorm t l1Norm 1 false
  structSparsity norms t.C

/-- `sparsity_matrix(tensor, dim)` (utils.py:321-328): `dim = 0` counts rows, `dim = 1` columns. -/
def sparsityMatrix (t : T2) (byCols : Bool) : Except Err ℚ :=
  if byCols then structSparsity (((List.range t.C).map t.col).map fun r => (r.map fun x => |x|).sum) t.C
  else structSparsity ((chunks t.R t.C t.data).map fun r => (r.map fun x => |x|).sum) t.R

/-- `sparsity_cols` (utils.py:331-340). -/
def sparsityCols (t : T2) (transposed : Bool := true) : Except Err ℚ :=
  if transposed then sparsityMatrix t false else sparsityMatrix t true

/-- `sparsity_rows` (utils.py:348-357). -/
def sparsityRows (t : T2) (transposed : Bool := true) : Except Err ℚ :=
  if transposed then sparsityMatrix t true else sparsityMatrix t false

/-- One entry of `model.state_dict()` for `model_params_stats`: does it pass the filter on rank and
name (utils.py:389), and its data. -/
structure StatEntry where
  counted : Bool
  data : Tensor
  deriving DecidableEq, Repr

/-- `model_params_stats` (utils.py:377-394): (sparsity in percent, parameters, non-zero ones). -/
def modelParamsStats (l : List StatEntry) : Except Err (ℚ × ℚ × ℚ) := do
  let acc ← l.foldlM (fun (acc : ℚ × ℚ) e =>
    if e.counted then do
      let d ← density e.data
      return (acc.1 + e.data.length, acc.2 + e.data.length * d)
    else return acc) ((0, 0) : ℚ × ℚ)
  if acc.1 = 0 then .error .zeroDiv
  else return ((1 - acc.2 / acc.1) * 100, acc.1, acc.2)

/-! ## Blocks -/

/-- Dimensions `(n, len, width)` of the block view (ranked_structures_pruner.py:221-228,
utils.py:301-312): each block is a column `view[n, :, width]`.  In the second case torch infers the
last dimension; it raises when the sizes do not match. -/
def blockView (t : T4) (reps depth : ℕ) : Except Err (ℕ × ℕ × ℕ) :=
  let total := t.F * t.C * (t.H * t.W)
  if 1 < depth then
    let n := t.F * t.C / (reps * depth)
    if n * (reps * depth) * (t.H * t.W) = total then .ok (n, reps * depth, t.H * t.W)
    else .error .runtime
  else
    let n := t.F / reps
    if n * reps ≠ 0 ∧ total % (n * reps) = 0 then .ok (n, reps, total / (n * reps))
    else .error .runtime

/-- Entries of block `(b, k)`: `view[b, :, k]`. -/
def blockEntries (t : T4) (v : ℕ × ℕ × ℕ) (b k : ℕ) : Tensor :=
  (List.range v.2.1).filterMap fun j => t.data[(b * v.2.1 + j) * v.2.2 + k]?

/-- `magnitude_fn(view1, dim=1).view(-1)` (ranked_structures_pruner.py:233-235). -/
def blockMags (t : T4) (v : ℕ × ℕ × ℕ) (nf : NormFn) : List ℚ :=
  (List.range v.1).flatMap fun b => (List.range v.2.2).map fun k => nf (blockEntries t v b k)

/-- `binary_map_to_mask` (ranked_structures_pruner.py:245-249). -/
def blockMask (v : ℕ × ℕ × ℕ) (bm : List ℚ) : Tensor :=
  (List.range v.1).flatMap fun b => repeatAll v.2.1 (chunk v.2.2 b bm)

/-- `rank_and_prune_blocks` (ranked_structures_pruner.py:189-267) for a block shape
`[reps, depth, 1, 1]`, computing map and mask. -/
def rankAndPruneBlocks (fraction : ℚ) (t : T4) (reps depth : ℕ) (nf : NormFn) :
    Except Err PruneOut := do
  if reps * depth = 0 then .error .zeroDiv
  else if t.F * t.C * (t.H * t.W) % (reps * depth) ≠ 0 then .error .value
  else
    let v ← blockView t reps depth
    let mags := blockMags t v nf
    let k := pyInt (fraction * mags.length)
    if k = 0 then return ⟨none, none⟩
    else
      let bot ← bottomK mags k
      match ← mapFromRanking (some (bot, mags)) with
      | none => return ⟨none, none⟩
      | some b => return ⟨some b, some (blockMask v b)⟩

/-- `sparsity_blocks` (utils.py:280-318). -/
def sparsityBlocks (t : T4) (reps depth : ℕ) : Except Err ℚ := do
  if reps * depth = 0 ∨ t.data.length = 0 then .error .zeroDiv
  else
    let v ← blockView t reps depth
    let num : ℚ := (t.F * t.C * (t.H * t.W) : ℕ) / (reps * depth : ℕ)
    return 1 - ((blockMags t v l1Norm).countP fun x => x ≠ 0) / num

end Verif
