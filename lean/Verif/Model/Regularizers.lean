import Mathlib.Analysis.SpecialFunctions.Pow.Real
import Verif.Model.Structures
/-!
# Regularizers (`distiller/regularization/*.py`) and the loss of `RegularizationPolicy`
(distiller/policy.py:271-280)

Losses are real numbers (a Euclidean norm is a square root), weights stay rational.  Gradients of
the losses are computed by autograd and are not modelled.
-/
namespace Verif

/-- A parameter tensor with the number of dimensions the regularizers look at.  `other` stands for
0-, 1- and 3-dimensional parameters (biases, batch-norm scales, …). -/
inductive RegParam where
  | d4 (t : T4)
  | d2 (t : T2)
  | other (data : Tensor)
  deriving DecidableEq, Repr

/-- The elements of a parameter. -/
def RegParam.data : RegParam → Tensor
  | .d4 t => t.data
  | .d2 t => t.data
  | .other l => l

/-- `EPSILON` (regularizer.py:18). -/
noncomputable def regEps : ℝ := 1 / 10 ^ 8

/-- `x.pow(2).sum()` over the entries of a group. -/
noncomputable def sqSum (l : Tensor) : ℝ := (l.map fun x : ℚ => (x : ℝ) ^ 2).sum

/-- `norm(2)` of a group of elements. -/
noncomputable def norm2 (l : Tensor) : ℝ := Real.sqrt (sqSum l)

/-- `L1Regularizer.__add_l1` (l1_regularizer.py:43-45). -/
noncomputable def addL1 (l : Tensor) (strength : ℝ) : ℝ := (l.map fun x : ℚ => |(x : ℝ)|).sum * strength

/-- `L1Regularizer.loss` (l1_regularizer.py:27-32): the running loss is added to in place. -/
noncomputable def l1RegLoss (regs : Dict Name ℚ) (p : RegParam) (n : Name) (acc : ℝ) : Except Err ℝ :=
  match regs.get? n with
  | some s => .ok (acc + addL1 p.data s)
  | none => .ok acc

/-- `__grouplasso_reg` with a dimension (group_regularizer.py:94-99): sum of the norms of the rows of a view. -/
noncomputable def groupLassoReg (rows : List Tensor) (strength : ℝ) : ℝ := (rows.map norm2).sum * strength

/-- `_channels_l2` (group_regularizer.py:128-153): the squares are summed per kernel; the vector of
kernel sums is viewed as filters × channels, transposed and summed per row; `EPSILON` is added
under the root. -/
noncomputable def channelsL2 (t : T4) : List ℝ :=
  let kSqSums := (chunks (t.F * t.C) (t.H * t.W) t.data).map sqSum
  (List.range t.C).map fun c =>
    Real.sqrt (((List.range t.F).map fun f => kSqSums.getD (f * t.C + c) 0).sum + regEps)

/-- `__2d_kernelwise_reg` (group_regularizer.py:165-174). -/
noncomputable def kernelwiseReg (p : RegParam) (s : ℝ) : Except Err ℝ :=
  match p with
  | .d4 t => .ok (groupLassoReg (chunks (t.F * t.C) (t.H * t.W) t.data) s)
  | _ => .error .assertion

/-- `__2d_rowwise_reg` (group_regularizer.py:155-158). -/
noncomputable def rowwiseReg (p : RegParam) (s : ℝ) : Except Err ℝ :=
  match p with
  | .d2 t => .ok (groupLassoReg (chunks t.R t.C t.data) s)
  | _ => .error .assertion

/-- `__2d_colwise_reg` (group_regularizer.py:160-163). -/
noncomputable def colwiseReg (p : RegParam) (s : ℝ) : Except Err ℝ :=
  match p with
  | .d2 t => .ok (groupLassoReg ((List.range t.C).map t.col) s)
  | _ => .error .assertion

/-- `_3d_channelwise_reg` (group_regularizer.py:118-126). -/
noncomputable def channelwiseReg (p : RegParam) (s : ℝ) : Except Err ℝ :=
  match p with
  | .d4 t => .ok ((channelsL2 t).sum * s)
  | _ => .error .assertion

/-- `__3d_filterwise_reg` (group_regularizer.py:108-116). -/
noncomputable def filterwiseReg (p : RegParam) (s : ℝ) : Except Err ℝ :=
  match p with
  | .d4 t => .ok (groupLassoReg (chunks t.F (t.C * t.H * t.W) t.data) s)
  | _ => .error .assertion

/-- `__4d_layerwise_reg` (group_regularizer.py:101-106, 95-98). -/
noncomputable def layerwiseReg (p : RegParam) (s : ℝ) : Except Err ℝ :=
  match p with
  | .d4 t => .ok (norm2 t.data * s)
  | _ => .error .assertion

/-- `GroupLassoRegularizer.__3d_channelwise_reg`, the name used by the `'Channels+4D'` branch
(group_regularizer.py:79): the class defines no such attribute (the method is called
`_3d_channelwise_reg`). -/
def missingChannelwiseReg : Except Err ℝ := .error .attribute

/-- `GroupLassoRegularizer.loss` (group_regularizer.py:56-83).  (On an exception the partial sum in
the running loss is lost with it.) -/
noncomputable def groupRegLoss (regs : Dict Name (ℚ × String)) (p : RegParam) (n : Name) (acc : ℝ) :
    Except Err ℝ :=
  match regs.get? n with
  | none => .ok acc
  | some (s, g) =>
    if g = "2D" then (kernelwiseReg p s).map (acc + ·)
    else if g = "Rows" then (rowwiseReg p s).map (acc + ·)
    else if g = "Cols" then (colwiseReg p s).map (acc + ·)
    else if g = "Rows+Cols" ∨ g = "Cols+Rows" then
      (rowwiseReg p s).bind fun a => (colwiseReg p s).map fun b => acc + a + b
    else if g = "Channels" then (channelwiseReg p s).map (acc + ·)
    else if g = "Filters" ∨ g = "3D" then (filterwiseReg p s).map (acc + ·)
    else if g = "4D" then (layerwiseReg p s).map (acc + ·)
    else if g = "Channels+4D" ∨ g = "4D+Channels" then
      missingChannelwiseReg.bind fun a => (layerwiseReg p s).map fun b => acc + a + b
    else .error .value

/-- `Tensor.var()` (unbiased). -/
noncomputable def varUnbiased (l : List ℝ) : ℝ :=
  (l.map fun x => (x - l.sum / l.length) ^ 2).sum / (l.length - 1)

/-- `GroupVarianceRegularizer.loss` (group_regularizer.py:189-202).  A variance that is not
positive makes the torch result infinite or NaN, which no real number stands for: `notFinite`.
There is no check of the number of dimensions: `layer_weights.size(2)` raises for a smaller one. -/
inductive VarLoss where
  | finite (x : ℝ)
  | notFinite

/-- See `VarLoss`; the running loss is `acc`. -/
noncomputable def groupVarLoss (regs : Dict Name (ℚ × String)) (p : RegParam) (n : Name) (acc : ℝ) :
    Except Err VarLoss :=
  match regs.get? n with
  | none => .ok (.finite acc)
  | some (s, g) =>
    if g = "Channels" then
      match p with
      | .d4 t =>
        open Classical in
        if 2 ≤ t.C ∧ 0 < varUnbiased (channelsL2 t) then
          .ok (.finite (acc + s * (1 / varUnbiased (channelsL2 t))))
        else .ok .notFinite
      | _ => .error .index
    else .error .value

/-- What `before_backward_pass` returns: `PolicyLoss(overall_loss, [LossComponent(_, value)])`. -/
structure RegPolicyLoss where
  overall : ℝ
  component : ℝ

/-- `RegularizationPolicy.before_backward_pass` (policy.py:271-280). -/
noncomputable def regBeforeBackward (rl : RegParam → Name → ℝ → Except Err ℝ)
    (params : List (Name × RegParam)) (loss : ℝ) : Except Err RegPolicyLoss := do
  let r ← params.foldlM (fun acc kv => rl kv.2 kv.1 acc) (0 : ℝ)
  return ⟨loss + r, r⟩

/-! ## Thresholding -/

/-- The criteria `GroupLassoRegularizer` accepts besides `None` (group_regularizer.py:54). -/
inductive ThrCrit where
  | max | meanAbs
  deriving DecidableEq, Repr

/-- The constructor's check (group_regularizer.py:47-54). -/
def groupRegCtor (crit : Option String) : Except Err (Option ThrCrit) :=
  match crit with
  | none => .ok none
  | some c => if c = "Max" then .ok (some .max) else if c = "Mean_Abs" then .ok (some .meanAbs)
    else .error .assertion

/-- Norm and normalisation chosen by the criterion (thresholding.py:66-74). -/
def ThrCrit.norm : ThrCrit → NormFn × Bool
  | .max => (maxNorm, false)
  | .meanAbs => (l1Norm, true)

/-- `group_threshold_mask` → `group_threshold_binary_map` → `expand_binary_map`
(thresholding.py:41-172), the mask only. -/
def groupThresholdMask (p : RegParam) (g : String) (thr : ℚ) (crit : ThrCrit) : Except Err Tensor :=
  if g = "2D" then
    match p with
    | .d4 t => expandKernels t (gtMap (kernelsNorm t crit.norm.1 crit.norm.2) thr)
    | _ => .error .assertion
  else if g = "Rows" then
    match p with
    | .d2 t => expandRows t (gtMap (rowsNorm t crit.norm.1 1 crit.norm.2) thr)
    | _ => .error .assertion
  else if g = "Cols" then
    match p with
    | .d2 t => expandCols t (gtMap (colsNorm t crit.norm.1 1 crit.norm.2) thr)
    | _ => .error .assertion
  else if g = "3D" ∨ g = "Filters" then
    match p with
    | .d4 t => do
      let n ← filtersNorm t crit.norm.1 1 crit.norm.2
      expandFilters t (gtMap n thr)
    | _ => .error .assertion
  else if g = "Channels" then
    match p with
    | .d4 t => do
      let n ← channelsNorm t crit.norm.1 1 crit.norm.2
      expandChannels t (gtMap n thr)
    | _ => .error .assertion
  else .error .assertion

/-- `GroupLassoRegularizer.threshold` (group_regularizer.py:85-92): the mask it installs, `none` if
it leaves the parameter alone. -/
def groupRegThreshold (crit : Option ThrCrit) (regs : Dict Name (ℚ × String)) (p : RegParam) (n : Name) :
    Except Err (Option Tensor) :=
  match crit, regs.get? n with
  | some c, some (s, g) => (groupThresholdMask p g s c).map some
  | _, _ => .ok none

/-- `L1Regularizer.threshold` (l1_regularizer.py:34-41). -/
def l1RegThreshold (crit : Option String) (regs : Dict Name ℚ) (p : RegParam) (n : Name) :
    Except Err (Option Tensor) :=
  match crit, regs.get? n with
  | some _, some s => .ok (some (createMaskThreshold p.data s))
  | _, _ => .ok none

end Verif
