import Verif.Model.QLayer
import Verif.Model.TorchQuant
/-!
# Model of the conversion of one parameter layer to a native PyTorch quantized module
(distiller/quantization/range_linear.py:674-681 `to_pytorch_quant`, 978-1028
`RangeLinearQuantParamLayerWrapper._convert_to_pytorch_quant`) on the layer state of
`Model/QLayer.lean` (preset statistics).  The class checks on the wrapped module are not modelled.
-/
namespace Verif

/-- An output channel of the PyTorch module: stored 8-bit integers, their scale and zero-point,
and the float bias. -/
structure TorchChan where
  w : List ℤ
  scale : ℚ
  zp : ℤ
  bias : ℚ
  deriving DecidableEq, Repr

/-- The PyTorch module: `LinearReLU` / `ConvReLU2d` if `relu`. -/
structure TorchLayer where
  chans : List TorchChan
  relu : Bool
  outScale : ℚ
  outZp : ℤ
  deriving DecidableEq, Repr

/-- Weights of all elements of a channel (range_linear.py:1001-1005). -/
def weightsToTorch (mode : QMode) (bits : ℕ) (scale zp : ℚ) : List ℚ → Except Err (List ℤ)
  | [] => .ok []
  | q :: qs => do
    let t ← tensorToTorch q scale zp bits mode .qint8
    let ts ← weightsToTorch mode bits scale zp qs
    return t.1 :: ts

/-- Weights, scale and zero-point of one channel (1001-1005). -/
def chanToTorch (mode : QMode) (bits : ℕ) (c : Chan) : Except Err TorchChan := do
  let p ← qparamsToTorch c.wScale c.wZp bits mode .qint8 false
  let w ← weightsToTorch mode bits c.wScale c.wZp c.w
  return ⟨w, p.1, p.2, c.biasQ⟩

/-- All channels (1001-1005). -/
def chansToTorch (mode : QMode) (bits : ℕ) : List Chan → Except Err (List TorchChan)
  | [] => .ok []
  | c :: cs => do
    let t ← chanToTorch mode bits c
    let ts ← chansToTorch mode bits cs
    return t :: ts

/-- The "crude check" whether the bias has been quantized (1012). -/
def biasLooksQuantized (cs : List Chan) : Bool := cs.all fun c => c.biasQ = (truncZ c.biasQ : ℚ)

/-- The bias handed to PyTorch (1010-1014). -/
def torchBias (looksQ : Bool) (c : Chan) : ℚ :=
  if looksQ then linearDequantize c.biasQ c.accumScale 0 else c.biasQ

/-- `to_pytorch_quant` of a parameter layer (674-678, 998-1028): `wMode`, `wBits` are the weights'
settings, `aMode`, `aBits` the output's. -/
def Layer.toTorch (cfg : LayerCfg) (wMode : QMode) (wBits : ℕ) (aMode : QMode) (aBits : ℕ) (reduceRange : Bool)
    (l : Layer) : Except Err TorchLayer :=
  if aBits ≠ 8 then .error .assertion
  else if wBits ≠ 8 then .error .assertion
  else do
    let cs ← chansToTorch wMode wBits l.chans
    if l.chans.any (fun c => c.fpBias.isNone) then .error .attribute
    else do
      let b := biasLooksQuantized l.chans
      let out ← qparamsToTorch cfg.outScale cfg.outZp aBits aMode .quint8 reduceRange
      return ⟨List.zipWith (fun t c => { t with bias := torchBias b c }) cs l.chans, cfg.clipHalf, out.1, out.2⟩

end Verif
