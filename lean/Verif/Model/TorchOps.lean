import Verif.Model.QOps
import Verif.Props.TorchQuant
/-!
# Conversion of the wrappers of operations without parameters to PyTorch quantization
(distiller/quantization/range_linear.py:674-678, 1109-1120, 1161-1174, 1212-1221, 1264-1277, 1505-1531;
distiller/quantization/pytorch_quant_conversion.py:332-386)

The conversion of the parameters and PyTorch's quantize and de-quantize functions are those of C82.
-/
namespace Verif

/-- A quantized PyTorch tensor (`torch.quint8`). -/
structure TorchT where
  ints : List ℤ
  scale : ℚ
  zp : ℤ
  deriving DecidableEq, Repr

/-- The numbers the tensor stands for (`dequantize`). -/
def TorchT.values (t : TorchT) : List ℚ := t.ints.map fun q => torchDequantize q t.scale t.zp

/-- `torch.quantize_per_tensor(…, torch.quint8)`. -/
def quantVals (s : ℚ) (z : ℤ) (xs : List ℚ) : TorchT := ⟨xs.map fun x => torchQuantize x s z .quint8, s, z⟩

/-- The results of the conversion: PyTorch modules, or a Python list of modules. -/
inductive TorchOp where
  /-- `QFunctionalAdd` / `QFunctionalAddRelu` (pytorch_quant_conversion.py:338-344, 379-385) -/
  | add (relu : Bool) (s : ℚ) (z : ℤ)
  /-- `QFunctionalMul` (354-360) -/
  | mul (s : ℚ) (z : ℤ)
  /-- `QFunctionalCat` (370-377) -/
  | cat (s : ℚ) (z : ℤ)
  /-- `nn.Sequential(m, nnq.ReLU())` -/
  | thenRelu (m : TorchOp)
  /-- the list `[module, Quantize]` returned for matrix products (range_linear.py:1115-1120) -/
  | pyList (relu : Bool) (s : ℚ) (z : ℤ)
  deriving DecidableEq, Repr

/-- Calling the result.  PyTorch's kernels: de-quantize the operands, compute, quantize; `nnq.ReLU` raises integers below the
zero-point to it. `forward(self, x, y)` takes two operands; a list cannot be called. -/
def TorchOp.run : TorchOp → List TorchT → Except Err TorchT
  | .add relu s z, [x, y] => .ok (quantVals s z ((List.zipWith (· + ·) x.values y.values).map fun v => if relu then max v 0 else v))
  | .add _ _ _, _ => .error .type
  | .mul s z, [x, y] => .ok (quantVals s z (List.zipWith (· * ·) x.values y.values))
  | .mul _ _, _ => .error .type
  | .cat s z, xs => if xs.isEmpty then .error .runtime else .ok (quantVals s z (xs.flatMap TorchT.values))
  | .thenRelu m, xs => do
    let t ← m.run xs
    return { t with ints := t.ints.map fun q => max q t.zp }
  | .pyList _ _ _, _ => .error .type

/-- Operations with a wrapper of their own. -/
inductive WOp where
  | elt (op : QOp)
  | matmul
  deriving DecidableEq, Repr

/-- `_convert_to_pytorch_quant` of the four wrappers, given the converted output parameters. -/
def WOp.module (op : WOp) (relu : Bool) (p : ℚ × ℤ) : TorchOp :=
  match op with
  | .elt .add => .add relu p.1 p.2
  | .elt .mult => if relu then .thenRelu (.mul p.1 p.2) else .mul p.1 p.2
  | .elt .concat => if relu then .thenRelu (.cat p.1 p.2) else .cat p.1 p.2
  | .matmul => .pyList relu p.1 p.2

/-- `to_pytorch_quant` (range_linear.py:674-678) with preset statistics. -/
def WOp.toTorch (op : WOp) (cfg : OpCfg) (mode : QMode) (bits : ℕ) (reduce : Bool) : Except Err TorchOp :=
  if bits ≠ 8 then .error .assertion
  else do
    let p ← qparamsToTorch cfg.outScale cfg.outZp bits mode .quint8 reduce
    return op.module cfg.clipHalf p

/-! ## Modules without a quantized implementation of their own -/

/-- What a wrapped module computes on the numbers of its operands. -/
abbrev FloatFn := List (List ℚ) → List ℚ

/-- `RangeLinearFakeQuantWrapper.forward` (range_linear.py:548-589, 1473-1503) with preset statistics and
`quantize_inputs=False`, on the numbers of the operands. -/
def fakeOpForward (cfg : OpCfg) (f : FloatFn) (xs : List (List ℚ)) : List ℚ :=
  (f xs).map fun v => linearDequantize (linearQuantizeClamp (if cfg.clipHalf then max v 0 else v) cfg.outScale cfg.outZp cfg.actRange.1 cfg.actRange.2) cfg.outScale cfg.outZp

/-- The converted wrapper (range_linear.py:1505-1531): `quantize = none` for modules PyTorch runs on quantized tensors. -/
structure TorchFake where
  quantize : Option (ℚ × ℤ)
  relu : Bool
  deriving DecidableEq, Repr

/-- `to_pytorch_quant` of the fake-quantization wrapper; `supported`: the class of the module is one of ReLU, ReLU6, AvgPool2d,
AdaptiveAvgPool2d, MaxPool2d (1507-1514). -/
def fakeToTorch (supported : Bool) (cfg : OpCfg) (mode : QMode) (bits : ℕ) (reduce : Bool) : Except Err TorchFake :=
  if bits ≠ 8 then .error .assertion
  else if supported then .ok ⟨none, cfg.clipHalf⟩
  else do
    let p ← qparamsToTorch cfg.outScale cfg.outZp bits mode .quint8 reduce
    return ⟨some p, cfg.clipHalf⟩

/-- ReLU on a quantized tensor. -/
def TorchT.relu (t : TorchT) : TorchT := { t with ints := t.ints.map fun q => max q t.zp }

/-- Running it: de-quantize, compute, quantize and ReLU, or run the module on the quantized tensor, which keeps the scale and
zero-point of its operand (`onInts`: what the kernel does with the integers and the zero-point). -/
def TorchFake.run (m : TorchFake) (f : FloatFn) (onInts : List ℤ → ℤ → List ℤ) (xs : List TorchT) : Except Err TorchT :=
  match m.quantize with
  | some p => .ok (let t := quantVals p.1 p.2 (f (xs.map TorchT.values)); if m.relu then t.relu else t)
  | none =>
    match xs with
    | [x] => .ok (let t := { x with ints := onInts x.ints x.zp }; if m.relu then t.relu else t)
    | _ => .error .type

end Verif
