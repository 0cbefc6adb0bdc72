import Verif.Model.QLayer
/-!
# Model of the wrappers of parameter-less operations
(distiller/quantization/range_linear.py: base class 376-640, Matmul 1047-1107, Concat 1126-1159,
EltwiseAdd 1178-1210, EltwiseMult 1225-1262) with preset activation statistics, and of the wrapped
modules (distiller/modules/eltwise.py, matmul.py, topology.py).

A tensor is the list of its elements; the operands of an element-wise operation have equal shapes
(torch broadcasting is not modelled).  Evaluation mode only.
-/
namespace Verif

/-- Static settings and output buffers of a wrapper (range_linear.py:398-482). -/
structure OpCfg where
  actRange : ℤ × ℤ
  accRange : ℤ × ℤ
  clipHalf : Bool
  approxBits : Option ℕ
  outScale : ℚ
  outZp : ℚ
  /-- the input has explicit user settings (`inputs_quant_settings_overrides`) -/
  overridden : ℕ → Bool
  autoFallback : Bool
  /-- parameters of every input from the calibration statistics (`inputs_quant_metadata_fallback`) -/
  fallback : ℕ → Except Err QMeta

/-- A float tensor with the metadata attached by the operation that produced it, if any. -/
structure QTensor where
  data : List ℚ
  md : Option QMeta
  deriving DecidableEq, Repr

/-- `_get_input_quant_metadata` (range_linear.py:597-638), preset statistics. -/
def OpCfg.inputMeta (cfg : OpCfg) (idx : ℕ) (t : QTensor) : Except Err QMeta :=
  match t.md with
  | some q => if cfg.overridden idx then .error .runtime else .ok q
  | none =>
    if cfg.overridden idx = false ∧ cfg.autoFallback = false then .error .runtime
    else cfg.fallback idx

/-- `_prepare_input` (range_linear.py:591-595): the integers and their metadata. -/
def OpCfg.prepareInput (cfg : OpCfg) (idx : ℕ) (t : QTensor) : Except Err (QMeta × List ℚ) := do
  let q ← cfg.inputMeta idx t
  return (q, quantInput q t.data)

/-- The loop over all inputs (range_linear.py:565). -/
def OpCfg.prepareInputs (cfg : OpCfg) : ℕ → List QTensor → Except Err (List (QMeta × List ℚ))
  | _, [] => .ok []
  | i, t :: ts => do
    let x ← cfg.prepareInput i t
    let xs ← cfg.prepareInputs (i + 1) ts
    return x :: xs

/-- `EltwiseAdd.forward` / `EltwiseMult.forward` (modules/eltwise.py:20-36, 56-72), in place or not;
no operand is an `IndexError`. -/
def eltwiseModule (op : ℚ → ℚ → ℚ) : List (List ℚ) → Except Err (List ℚ)
  | [] => .error .index
  | x :: xs => .ok (xs.foldl (List.zipWith op) x)

/-- `Concat.forward` along the only dimension (modules/topology.py). -/
def concatModule (xs : List (List ℚ)) : List ℚ := xs.flatten

/-- Accumulator clamping (`clamp(accum.data, self.accum_min_q_val, self.accum_max_q_val)`). -/
def OpCfg.clampAcc (cfg : OpCfg) (x : ℚ) : ℚ := clampQ x cfg.accRange.1 cfg.accRange.2

/-- `quantized_forward` of EltwiseMult (range_linear.py:1243-1253): accumulator scale and
accumulator. -/
def multForward (cfg : OpCfg) (ins : List (QMeta × List ℚ)) : Except Err (ℚ × List ℚ) := do
  let accumScale := (ins.map fun i => i.1.scale).foldl (· * ·) 1
  let acc ← eltwiseModule (· * ·) (ins.map fun i => i.2.map (· + i.1.zp))
  return (accumScale, acc.map cfg.clampAcc)

/-- Re-scaling of one input to the output scale (range_linear.py:1148-1151, 1197-1200). -/
def reQuantInput (cfg : OpCfg) (i : QMeta × List ℚ) : List ℚ :=
  i.2.map fun v => linearQuantizeClamp (v + i.1.zp) (cfg.outScale / i.1.scale) 0 cfg.accRange.1 cfg.accRange.2

/-- `quantized_forward` of EltwiseAdd (range_linear.py:1195-1204); the requantization scale is 1
(1209-1210). -/
def addForward (cfg : OpCfg) (ins : List (QMeta × List ℚ)) : Except Err (ℚ × List ℚ) := do
  let acc ← eltwiseModule (· + ·) (ins.map (reQuantInput cfg))
  return (cfg.outScale, acc.map cfg.clampAcc)

/-- `quantized_forward` of Concat (range_linear.py:1145-1152). -/
def concatForward (cfg : OpCfg) (ins : List (QMeta × List ℚ)) : Except Err (ℚ × List ℚ) :=
  .ok (cfg.outScale, concatModule (ins.map (reQuantInput cfg)))

/-- `get_accum_to_output_re_quantization_params` of EltwiseMult and Matmul
(range_linear.py:1102-1106, 1258-1262). -/
def requantMul (cfg : OpCfg) (accumScale : ℚ) : ℚ :=
  match cfg.approxBits with
  | none => cfg.outScale / accumScale
  | some m => approxScale (cfg.outScale / accumScale) m false

/-- The tail of the base-class `forward` on one accumulator value (range_linear.py:569-586). -/
def OpCfg.outElem (cfg : OpCfg) (requant : ℚ) (a : ℚ) : ℚ :=
  let a := if cfg.clipHalf then max a 0 else a
  linearDequantize (linearQuantizeClamp a requant cfg.outZp cfg.actRange.1 cfg.actRange.2) cfg.outScale cfg.outZp

/-- The metadata attached to the output (range_linear.py:587). -/
def OpCfg.outMeta (cfg : OpCfg) : QMeta := ⟨cfg.outScale, cfg.outZp, cfg.actRange⟩

/-- Which operation is wrapped. -/
inductive QOp where
  | mult | add | concat
  deriving DecidableEq, Repr

/-- `quantized_forward` of the three wrappers. -/
def QOp.quantizedForward (cfg : OpCfg) (ins : List (QMeta × List ℚ)) : QOp → Except Err (ℚ × List ℚ)
  | .mult => multForward cfg ins
  | .add => addForward cfg ins
  | .concat => concatForward cfg ins

/-- `get_accum_to_output_re_quantization_params` of the three wrappers (range_linear.py:1157-1159,
1209-1210, 1258-1262). -/
def QOp.requant (cfg : OpCfg) (accumScale : ℚ) : QOp → ℚ
  | .mult => requantMul cfg accumScale
  | .add => 1
  | .concat => 1

/-- `forward` (range_linear.py:548-589) of the three wrappers. -/
def QOp.forward (op : QOp) (cfg : OpCfg) (inputs : List QTensor) : Except Err QTensor :=
  if inputs = [] then .error .index
  else do
    let ins ← cfg.prepareInputs 0 inputs
    let r ← op.quantizedForward cfg ins
    return ⟨r.2.map (cfg.outElem (op.requant cfg r.1)), some cfg.outMeta⟩

/-- `forward` of the Matmul wrapper (range_linear.py:1085-1107) for a matrix given by its rows and a
second operand given by its columns. -/
def matmulForward (cfg : OpCfg) (q0 q1 : QMeta) (rows cols : List (List ℚ)) : List (List ℚ) :=
  let accumScale := q0.scale * q1.scale
  rows.map fun r => cols.map fun c =>
    cfg.outElem (requantMul cfg accumScale)
      (cfg.clampAcc (dot ((quantInput q0 r).map (· + q0.zp)) ((quantInput q1 c).map (· + q1.zp))))

end Verif
