import Verif.Model.QOps
/-!
# Model of input preparation on tensors shared by several layers
(distiller/quantization/range_linear.py: `_prepare_input` 591-595, `_get_input_quant_metadata`
597-635, the fake-quantization wrapper's `_prepare_input` 1475-1486).  Unlike `Model/QOps.lean`, the
write of the attribute `quant_metadata` to the caller's tensor object is kept.  Preset statistics,
evaluation mode.
-/
namespace Verif

/-- How a wrapper prepares its inputs. -/
inductive Prep where
  /-- every wrapper but the fake-quantization one (591-595) -/
  | integer
  /-- `RangeLinearFakeQuantWrapper` with its `quantize_inputs` flag (1475-1486) -/
  | fake (quantizeInputs : Bool)
  deriving DecidableEq, Repr

/-- A wrapper reading a tensor as its input number `idx`. -/
structure InReader where
  cfg : OpCfg
  prep : Prep
  idx : ℕ

/-- `_prepare_input` (591-595, 1475-1486): the caller's tensor object afterwards (its attribute
`quant_metadata` may have been written) and the data handed to the wrapped module. -/
def InReader.read (r : InReader) (t : QTensor) : Except Err (QTensor × List ℚ) :=
  match r.prep with
  | .integer => do
    let q ← r.cfg.inputMeta r.idx t
    return ({ t with md := some q }, quantInput q t.data)
  | .fake false => .ok (t, t.data)
  | .fake true => do
    let q ← r.cfg.inputMeta r.idx t
    if t.md.isSome then return ({ t with md := some q }, t.data)
    else return ({ t with md := some q }, (quantInput q t.data).map fun v => linearDequantize v q.scale q.zp)

/-- Several wrappers read the same tensor object one after the other. -/
def readAll : List InReader → QTensor → Except Err (QTensor × List (List ℚ))
  | [], t => .ok (t, [])
  | r :: rs, t => do
    let a ← r.read t
    let b ← readAll rs a.1
    return (b.1, a.2 :: b.2)

end Verif
