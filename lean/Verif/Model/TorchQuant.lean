import Verif.Model.QUtils
/-!
# Model of distiller/quantization/pytorch_quant_conversion.py:35-146
Conversion of Distiller's quantization parameters and quantized tensors to PyTorch's native ones.
Per-channel parameters are converted element by element; the model is on one scale and zero-point.
-/
namespace Verif

/-- Destination dtypes (`torch.qint8`, `torch.quint8`). -/
inductive TDtype where
  | qint8 | quint8
  deriving DecidableEq, Repr

/-- Integers of the dtype. -/
def TDtype.range : TDtype → ℤ × ℤ
  | .qint8 => (-128, 127)
  | .quint8 => (0, 255)

/-- `tensor.long()`: truncation towards zero. -/
def truncZ (q : ℚ) : ℤ := if 0 ≤ q then ⌊q⌋ else ⌈q⌉

/-- The zero-point and scale after `reduce_range` (pytorch_quant_conversion.py:71-83). -/
def reduceParams (scale zp : ℚ) (mode : QMode) : ℚ × ℚ :=
  if mode.isSym then (scale * (63 / 127), zp)
  else
    let off : ℚ := if mode = .asymmetricSigned then 128 else 0
    (scale * (127 / 255), (roundHalfEven ((zp - off) * (127 / 255) + off / 2) : ℚ))

/-- Negation and offset of the zero-point (pytorch_quant_conversion.py:88-104). -/
def convertZp (zp : ℤ) (numBits : ℕ) (mode : QMode) (dest : TDtype) : ℤ :=
  let half : ℤ := 2 ^ (numBits - 1)
  if mode.isSym then (if dest = .qint8 then zp else half)
  else if mode = .asymmetricSigned ∧ dest = .quint8 then -(zp - half)
  else if mode ≠ .asymmetricSigned ∧ dest = .qint8 then -(zp + half)
  else -zp

/-- `distiller_qparams_to_pytorch` (pytorch_quant_conversion.py:35-106). -/
def qparamsToTorch (scale zp : ℚ) (numBits : ℕ) (mode : QMode) (dest : TDtype) (reduceRange : Bool) :
    Except Err (ℚ × ℤ) :=
  let reduce : Bool := if mode.isSym ∧ dest = .quint8 then false else reduceRange
  if reduce then
    if numBits ≠ 8 then .error .assertion
    else
      let p := reduceParams scale zp mode
      .ok (1 / p.1, convertZp (truncZ p.2) 7 mode dest)
  else .ok (1 / scale, convertZp (truncZ zp) numBits mode dest)

/-- `.to(torch.uint8)` / `.to(torch.int8)` of an integer-valued tensor: two's complement
wrap-around. -/
def castTo (dest : TDtype) (v : ℚ) : ℤ :=
  let n := truncZ v
  match dest with
  | .quint8 => n % 256
  | .qint8 => (n + 128) % 256 - 128

/-- `distiller_quantized_tensor_to_pytorch` (pytorch_quant_conversion.py:109-156) on one element:
stored integer, scale, zero-point. -/
def tensorToTorch (q scale zp : ℚ) (numBits : ℕ) (mode : QMode) (dest : TDtype) : Except Err (ℤ × ℚ × ℤ) :=
  if q ≠ (truncZ q : ℚ) then .error .assertion
  else do
    let p ← qparamsToTorch scale zp numBits mode dest false
    let zpDiff : ℚ := -(p.2 : ℚ) - zp
    return (castTo dest (q - zpDiff), p.1, p.2)

end Verif
