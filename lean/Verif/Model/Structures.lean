import Verif.Basic.Py
import Verif.Basic.Shape
import Verif.Model.Pruners
/-!
# Model of structured pruning
(distiller/norms.py, distiller/thresholding.py, distiller/pruning/ranked_structures_pruner.py)

Dimension checks on `param.dim()` are expressed by the types `T4` / `T2`.
-/
namespace Verif

/-! ## norms.py -/

/-- Python's `round` on a float (and `torch.round`): half to even. -/
def roundHalfEven (q : ℚ) : ℤ :=
  let f := ⌊q⌋
  let d := q - f
  if d < 1/2 then f else if 1/2 < d then f + 1 else if f % 2 = 0 then f else f + 1

/-- `num_structs_to_prune` (norms.py:270-279); `r` is `rounding_fn`. -/
def numStructsToPrune (n g : ℕ) (fraction : ℚ) (r : ℚ → ℤ) : ℤ :=
  let k := r (fraction * n)
  let k := r ((k : ℚ) / g) * g
  if k = n ∧ fraction ≠ 1 then (n : ℤ) - g else k

/-- A norm over the entries of a structure: `l1_norm`, `l2_norm`, `max_norm` (norms.py:66-80)
or any other callable. -/
abbrev NormFn := List ℚ → ℚ

/-- `l1_norm` (norms.py:76). -/
def l1Norm : NormFn := fun l => (l.map fun x => |x|).sum

/-- `max_norm` (norms.py:66-73, 78). -/
def maxNorm : NormFn := fun l => (l.map fun x => |x|).foldl max 0

/-- `generic_norm` on the rows of a view (norms.py:253-263). -/
def genericNorm (rows : List Tensor) (nf : NormFn) (groupSize : ℕ) (lengthNormalized : Bool) :
    List ℚ :=
  rows.map fun r => if lengthNormalized then nf r / groupSize else nf r

/-- `filters_norm` (norms.py:193-210): `view(-1, group_size)` raises when the group does not
divide the tensor. -/
def filtersNorm (t : T4) (nf : NormFn) (g : ℕ := 1) (ln : Bool := false) : Except Err (List ℚ) :=
  let gs := g * (t.C * t.H * t.W)
  if g ≠ 0 ∧ t.F % g = 0 then .ok (genericNorm (chunks (t.F / g) gs t.data) nf gs ln)
  else .error .runtime

/-- `channels_norm` (norms.py:141-171), 4-D case. -/
def channelsNorm (t : T4) (nf : NormFn) (g : ℕ := 1) (ln : Bool := false) : Except Err (List ℚ) :=
  let gs := g * (t.F * (t.H * t.W))
  if g ≠ 0 ∧ t.C % g = 0 then .ok (genericNorm (chunks (t.C / g) gs t.transposed) nf gs ln)
  else .error .runtime

/-- `kernels_norm` (norms.py:102-119) with `group_len = 1`. -/
def kernelsNorm (t : T4) (nf : NormFn) (ln : Bool := false) : List ℚ :=
  genericNorm (chunks (t.F * t.C) (t.H * t.W) t.data) nf (t.H * t.W) ln

/-- `rows_norm` = `sub_matrix_norm(dim=1)` (norms.py:213-230, 239-240).  Note the divisor:
`param.size(abs(dim-1)) = size(0)`, the number of rows. -/
def rowsNorm (t : T2) (nf : NormFn) (g : ℕ := 1) (ln : Bool := false) : List ℚ :=
  genericNorm (chunks t.R t.C t.data) nf (g * t.R) ln

/-- `cols_norm` = `sub_matrix_norm(dim=0)` (norms.py:213-230, 249-250); divisor `size(1)`. -/
def colsNorm (t : T2) (nf : NormFn) (g : ℕ := 1) (ln : Bool := false) : List ℚ :=
  genericNorm ((List.range t.C).map t.col) nf (g * t.C) ln

/-- `k_smallest_elems` (norms.py:298-308).  `noise` is the multiplier drawn by
`e_greedy_normal_noise` (norms.py:282-295): `none` = 1. -/
def kSmallestElems (mags : List ℚ) (k : ℤ) (noise : Option (List ℚ)) :
    Except Err (List ℚ × List ℚ) := do
  let mags := match noise with
    | none => mags
    | some v => List.zipWith (· * ·) mags v
  let b ← bottomK mags k
  return (b, mags)

/-- `rank_filters` (norms.py:321-328). -/
def rankFilters (t : T4) (g : ℕ) (nf : NormFn) (fraction : ℚ) (r : ℚ → ℤ)
    (noise : Option (List ℚ)) : Except Err (Option (List ℚ × List ℚ)) := do
  let k := numStructsToPrune t.F g fraction r
  if k = 0 then return none
  else
    let mags ← filtersNorm t nf g true
    let res ← kSmallestElems mags k noise
    return some res

/-- `rank_channels` (norms.py:311-318), 4-D case. -/
def rankChannels (t : T4) (g : ℕ) (nf : NormFn) (fraction : ℚ) (r : ℚ → ℤ)
    (noise : Option (List ℚ)) : Except Err (Option (List ℚ × List ℚ)) := do
  let k := numStructsToPrune t.C g fraction r
  if k = 0 then return none
  else
    let mags ← channelsNorm t nf g true
    let res ← kSmallestElems mags k noise
    return some res

/-- `rank_channels` (norms.py:311-318), 2-D case: the "channels" of a matrix are its columns. -/
def rankChannels2 (t : T2) (g : ℕ) (nf : NormFn) (fraction : ℚ) (r : ℚ → ℤ)
    (noise : Option (List ℚ)) : Except Err (Option (List ℚ × List ℚ)) := do
  let k := numStructsToPrune t.C g fraction r
  if k = 0 then return none
  else
    let res ← kSmallestElems (colsNorm t nf g true) k noise
    return some res

/-! ## thresholding.py: expand_binary_map -/

/-- torch broadcasting of a 1-D map to `n` entries in `expand`. -/
def expandTo (n : ℕ) (b : List ℚ) : Except Err (List ℚ) :=
  if b.length = n then .ok b
  else match b with
    | [x] => .ok (List.replicate n x)
    | _ => .error .runtime

/-- `expand_binary_map(param, '3D' | 'Filters', map)` (thresholding.py:160-162), 4-D. -/
def expandFilters (t : T4) (b : List ℚ) : Except Err Tensor := do
  let b ← expandTo t.F b
  return repeatEach (t.C * t.H * t.W) b

/-- `expand_binary_map(param, 'Channels', map)` (thresholding.py:163-168), 4-D. -/
def expandChannels (t : T4) (b : List ℚ) : Except Err Tensor := do
  let b ← expandTo t.C b
  return repeatEach (t.H * t.W) (repeatAll t.F b)

/-- `expand_binary_map(param, '2D', map)` (thresholding.py:151-154). -/
def expandKernels (t : T4) (b : List ℚ) : Except Err Tensor := do
  let b ← expandTo (t.F * t.C) b
  return repeatEach (t.H * t.W) b

/-- `expand_binary_map(param, 'Rows', map)` (thresholding.py:155-156). -/
def expandRows (t : T2) (b : List ℚ) : Except Err Tensor := do
  let b ← expandTo t.R b
  return repeatEach t.C b

/-- `expand_binary_map(param, 'Cols', map)`, also used for `'Channels'` of a 2-D tensor
(thresholding.py:148-149, 157-158). -/
def expandCols (t : T2) (b : List ℚ) : Except Err Tensor := do
  let b ← expandTo t.C b
  return repeatAll t.R b

/-- `norms.gt(thresholds)` (thresholding.py:104). -/
def gtMap (norms : List ℚ) (thr : ℚ) : List ℚ := norms.map fun x => if x > thr then 1 else 0

/-! ## ranked_structures_pruner.py -/

/-- The common part of `rank_and_prune_filters` / `rank_and_prune_channels` /
`rank_and_prune_blocks` (ranked_structures_pruner.py:147-154, 170-178, 252-258): the binary map
from the ranking; `bottomk[-1]`. -/
def mapFromRanking (r : Option (List ℚ × List ℚ)) : Except Err (Option (List ℚ)) :=
  match r with
  | none => .ok none
  | some (bottomk, mags) =>
    match bottomk.getLast? with
    | none => .error .index
    | some thr => .ok (some (gtMap mags thr))

/-- Outcome of a `rank_and_prune_*` call: the binary map returned (`none` = Python `None`) and
the mask installed, if any. -/
structure PruneOut where
  bmap : Option (List ℚ)
  mask : Option Tensor
  deriving DecidableEq, Repr

/-- `LpRankedStructureParameterPruner.rank_and_prune_filters`
(ranked_structures_pruner.py:165-186); `install` = `zeros_mask_dict is not None`. -/
def rankAndPruneFilters (fraction : ℚ) (t : T4) (install : Bool) (bmap : Option (List ℚ))
    (nf : NormFn) (noise : Option (List ℚ)) (g : ℕ) (r : ℚ → ℤ) : Except Err PruneOut := do
  let bm ← (match bmap with
    | some b => .ok (some b)
    | none => do mapFromRanking (← rankFilters t g nf fraction r noise))
  match bm with
  | none => return ⟨none, none⟩
  | some b =>
    if install then do
      let m ← expandFilters t b
      return ⟨some b, some m⟩
    else return ⟨some b, none⟩

/-- `LpRankedStructureParameterPruner.rank_and_prune_channels`
(ranked_structures_pruner.py:143-162), 4-D. -/
def rankAndPruneChannels (fraction : ℚ) (t : T4) (install : Bool) (bmap : Option (List ℚ))
    (nf : NormFn) (noise : Option (List ℚ)) (g : ℕ) (r : ℚ → ℤ) : Except Err PruneOut := do
  let bm ← (match bmap with
    | some b => .ok (some b)
    | none => do mapFromRanking (← rankChannels t g nf fraction r noise))
  match bm with
  | none => return ⟨none, none⟩
  | some b =>
    if install then do
      let m ← expandChannels t b
      return ⟨some b, some m⟩
    else return ⟨some b, none⟩

/-- `LpRankedStructureParameterPruner.rank_and_prune_channels`
(ranked_structures_pruner.py:143-162), 2-D. -/
def rankAndPruneChannels2 (fraction : ℚ) (t : T2) (install : Bool) (bmap : Option (List ℚ))
    (nf : NormFn) (noise : Option (List ℚ)) (g : ℕ) (r : ℚ → ℤ) : Except Err PruneOut := do
  let bm ← (match bmap with
    | some b => .ok (some b)
    | none => do mapFromRanking (← rankChannels2 t g nf fraction r noise))
  match bm with
  | none => return ⟨none, none⟩
  | some b =>
    if install then do
      let m ← expandCols t b
      return ⟨some b, some m⟩
    else return ⟨some b, none⟩

/-- The structure types of `LpRankedStructureParameterPruner` handled here (`'3D'` is
`'Filters'`; for 4-D weights `'Rows'` is treated like `'Channels'`). -/
inductive GroupType where
  | filters | channels
  deriving DecidableEq, Repr

/-- `LpRankedStructureParameterPruner.prune_group` (ranked_structures_pruner.py:126-140): no
pruning at fraction 0; `rounding_fn` is not passed on, so it is always `math.floor`. -/
def lpPruneGroup (gt : GroupType) (nf : NormFn) (g : ℕ) (fraction : ℚ) (t : T4) (install : Bool)
    (bmap : Option (List ℚ)) : Except Err PruneOut :=
  if fraction = 0 then .ok ⟨none, none⟩
  else match gt with
    | .filters => rankAndPruneFilters fraction t install bmap nf none g Int.floor
    | .channels => rankAndPruneChannels fraction t install bmap nf none g Int.floor

/-- Mutable state of `_RankedStructureParameterPruner` (ranked_structures_pruner.py:50-51). -/
structure LeaderState where
  leaderMap : Option (List ℚ) := none
  lastTarget : Option ℚ := none
  deriving DecidableEq, Repr

/-- `_RankedStructureParameterPruner._set_param_mask_by_sparsity_target`
(ranked_structures_pruner.py:78-94) with `group_dependency == "Leader"`, for a parameter listed
in `weights`.  `leader` is `model.state_dict()[self.leader()]` at the time of the call, `old` the
parameter's mask before it; the result is the mask after it.  `prune_group` may leave the mask
alone (`none` in `PruneOut.mask`). -/
def leaderSetMask (pg : ℚ → T4 → Bool → Option (List ℚ) → Except Err PruneOut)
    (s : LeaderState) (target : ℚ) (leader param : T4) (old : Option Tensor) :
    LeaderState × Except Err (Option Tensor) :=
  let finish (s : LeaderState) : LeaderState × Except Err (Option Tensor) :=
    match s.leaderMap with
    | none => (s, .error .assertion)
    | some b => (s, do
        let o ← pg target param true (some b)
        return match o.mask with
          | some m => some m
          | none => old)
  if some target ≠ s.lastTarget then
    match pg target leader false none with
    | .error e => ({ s with lastTarget := some target }, .error e)
    | .ok o => finish { leaderMap := o.bmap, lastTarget := some target }
  else finish s

/-- Without group dependency (ranked_structures_pruner.py:80, 94). -/
def freeSetMask (pg : ℚ → T4 → Bool → Option (List ℚ) → Except Err PruneOut)
    (target : ℚ) (param : T4) (old : Option Tensor) : Except Err (Option Tensor) := do
  let o ← pg target param true none
  return match o.mask with
    | some m => some m
    | none => old

/-! ### Pruners ranking filters by an external criterion -/

/-- Indices sorted by ascending key (`np.argsort`; ties in index order – numpy leaves the order of
ties unspecified, the theorems do not depend on it). -/
def argsort (key : List ℚ) : List ℕ :=
  (List.range key.length).insertionSort fun i j => key.getD i 0 ≤ key.getD j 0

/-- `order[:-k]` for `k > 0`. -/
def dropLastN (k : ℕ) (l : List ℕ) : List ℕ := l.take (l.length - k)

/-- `_mask_from_filter_order` (ranked_structures_pruner.py:313-319): map is 1 at the given indices. -/
def mapFromOrder (n : ℕ) (order : List ℕ) : List ℚ :=
  (List.range n).map fun i => if i ∈ order then 1 else 0

/-- `ActivationRankedFilterPruner.rank_and_prune_filters` (ranked_structures_pruner.py:340-375)
without the module lookup: `crit` is the criterion's value per filter.  `none`: nothing is done. -/
def activationMap (crit : List ℚ) (fraction : ℚ) : Option (List ℚ) :=
  let k := pyInt (fraction * crit.length)
  if k = 0 then none
  else some (mapFromOrder crit.length (dropLastN k.toNat (argsort crit)))

/-- `GradientRankedFilterPruner.rank_and_prune_filters` (ranked_structures_pruner.py:488-515):
`crit` is `(grad * weights).sum` per filter, sorted descending. -/
def gradientMap (crit : List ℚ) (fraction : ℚ) : Option (List ℚ) :=
  let k := pyInt (fraction * crit.length)
  if k = 0 then none
  else some (mapFromOrder crit.length (dropLastN k.toNat (argsort (crit.map fun x => -x))))

end Verif
