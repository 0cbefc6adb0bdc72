import Verif.Model.QUtils
import Verif.Model.Quantizer
/-!
# Model of the training-time quantization functions
distiller/quantization/clipped_linear.py and distiller/quantization/range_linear.py:2177-2310
-/
namespace Verif

/-- `LinearQuantizeSTE.forward` (q_utils.py:315-323), elementwise: quantizes *without clamping to
the integer range*, then optionally de-quantizes. -/
def ste (x scale zp : ℚ) (dequantize : Bool) : ℚ :=
  let q := linearQuantize x scale zp
  if dequantize then linearDequantize q scale zp else q

/-- `ClippedLinearQuantization` (clipped_linear.py:32-46): constructor (parameters) and `forward`. -/
def clippedLinear (bits : ℕ) (clip : ℚ) (dequantize : Bool) (xs : Tensor) : Except Err Tensor := do
  let p ← asymParams bits 0 clip true false
  return xs.map fun x => ste (clampQ x 0 clip) p.1 p.2 dequantize

/-- `LearnedClippedLinearQuantization.forward` (clipped_linear.py:62-71) with the current value of
the learned `clip_val`. -/
def learnedClipped (bits : ℕ) (clip : ℚ) (dequantize : Bool) (xs : Tensor) : Except Err Tensor := do
  let ys := xs.map fun x => if max x 0 < clip then max x 0 else clip
  let p ← asymParams bits 0 clip true false
  return ys.map fun x => ste x p.1 p.2 dequantize

/-- `wrpn_quantize_param` (clipped_linear.py:95-99). -/
def wrpnParam (bits : ℕ) (xs : Tensor) : Except Err Tensor := do
  let p ← symParams bits 1 false
  return xs.map fun x => ste (clampQ x (-1) 1) p.1 p.2 true

/-- Largest absolute value of a tensor (`t.abs().max()`). -/
def absMax (t : Tensor) : ℚ := t.foldl (fun m x => max m |x|) 0

/-- `dorefa_quantize_param` (clipped_linear.py:112-121); `f` stands for `tanh`, of which nothing is
used; one-bit weights are binarized (clipped_linear.py:124-132). -/
def dorefaParam (f : ℚ → ℚ) (bits : ℕ) (xs : Tensor) : Except Err Tensor :=
  if bits = 1 then
    let e := meanQ (xs.map fun x => |x|)
    .ok (xs.map fun x => (if x = 0 then 1 else if 0 < x then 1 else -1) * e)
  else do
    let p ← asymParams bits 0 1 true false
    let ys := xs.map f
    let m := absMax ys
    return ys.map fun y => 2 * ste (y / (2 * m) + 1/2) p.1 p.2 true - 1

/-- `update_ema` (range_linear.py:2177-2180). -/
def updateEma (biased value decay : ℚ) (step : ℕ) : ℚ × ℚ :=
  let b := biased * decay + (1 - decay) * value
  (b, b / (1 - decay ^ step))

/-- The `mode` argument as it reaches the functions: a `LinearQuantMode`, or the
`ModuleQuantMode(activations, weights)` tuple built by `verify_quant_mode` (range_linear.py:97-106). -/
inductive ModeArg where
  | lin (m : QMode)
  | pair (activations weights : QMode)
  deriving DecidableEq, Repr

/-- `is_linear_quant_mode_symmetric(mode)` (q_utils.py:28-29) and the `==` comparisons with members
of `LinearQuantMode`: a tuple is equal to none of them. -/
def ModeArg.is (a : ModeArg) (m : QMode) : Bool := a = .lin m
def ModeArg.isSym (a : ModeArg) : Bool := a.is .symmetric || a.is .symmetricRestricted

/-- Buffers of `FakeLinearQuantization` (range_linear.py:2203-2210). -/
structure FakeQ where
  minB : ℚ
  minT : ℚ
  maxB : ℚ
  maxT : ℚ
  iter : ℕ
  scale : ℚ
  zp : ℚ
  deriving DecidableEq, Repr

def FakeQ.init : FakeQ := ⟨0, 0, 0, 0, 0, 1, 0⟩

/-- Tracking part of `forward` in training (range_linear.py:2221-2230). -/
def FakeQ.track (decay : ℚ) (mm : ℚ × ℚ) (s : FakeQ) : FakeQ :=
  let it := s.iter + 1
  let a := updateEma s.minB mm.1 decay it
  let b := updateEma s.maxB mm.2 decay it
  { s with iter := it, minB := a.1, minT := a.2, maxB := b.1, maxT := b.2 }

/-- `FakeLinearQuantization.forward` (range_linear.py:2212-2247) with `dequantize=True`. -/
def FakeQ.forward (bits : ℕ) (mode : ModeArg) (decay : ℚ) (training : Bool) (xs : Tensor) (s : FakeQ) :
    Except Err (FakeQ × Tensor) := do
  let s ← (if training then do
      let mm ← tensorMinMax xs
      return s.track decay mm
    else return s)
  let range : ℚ × ℚ :=
    if mode.isSym then (-(max |s.minT| |s.maxT|), max |s.minT| |s.maxT|) else (s.minT, s.maxT)
  let s ← (if training then do
      let p ← (if mode.isSym then symParams bits range.2 (mode.is .symmetricRestricted)
        else asymParams bits s.minT s.maxT true (mode.is .asymmetricSigned))
      return { s with scale := p.1, zp := p.2 }
    else return s)
  return (s, xs.map fun x => ste (clampQ x range.1 range.2) s.scale s.zp true)

/-- `linear_quantize_param` of `QuantAwareTrainRangeLinearQuantizer` (range_linear.py:2298-2310),
per tensor. -/
def qatParam (bits : ℕ) (mode : ModeArg) (xs : Tensor) : Except Err Tensor := do
  let mm ← tensorMinMax xs
  let p ← (if mode.isSym then symParams bits (max |mm.1| |mm.2|) (mode.is .symmetricRestricted)
    else asymParams bits mm.1 mm.2 true (mode.is .asymmetricSigned))
  return xs.map fun x => ste x p.1 p.2 true

end Verif
