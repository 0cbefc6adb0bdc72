import Verif.Model.TorchQuant
/-!
# Model of the clipping-value setters and of `RangeLinearEmbeddingWrapper`
(distiller/quantization/range_linear.py: `_check_clipping_val` 361-373, `output_clipping` setter
523-535, `weight_clipping` setter 877-890, embedding wrapper 1320-1449).  `UnsatisfiedRequirements`
is represented by `Err.runtime`.
-/
namespace Verif

/-- A clipping value handed to a setter: a float, a sequence of scalars, or another object. -/
inductive ClipArg where
  | float (v : ℚ)
  | seq (vs : List ℚ)
  | other
  deriving DecidableEq, Repr

/-- `_check_clipping_val` (361-373). -/
def checkClip (arg : ClipArg) (mode : QMode) (half : Bool) : Except Err (ℚ × ℚ) :=
  match arg with
  | .float v => if mode.isSym then .ok (-v, v) else if half then .ok (0, v) else .error .value
  | .seq [a, b] => .ok (a, b)
  | .seq _ => .error .assertion
  | .other => .error .type

/-- Parameters computed by the `weight_clipping` setter of parameter layers (880-888) from the
two clipping values. -/
def layerClipParams (bits : ℕ) (mode : QMode) (lo hi : ℚ) : Except Err (ℚ × ℚ) :=
  if mode.isSym then symParams bits |max lo hi| false
  else asymParams bits lo hi true (mode = .asymmetricSigned)

/-- Parameters computed by the `weight_clipping` setter of the embedding wrapper (1407-1415). -/
def embClipParams (bits : ℕ) (mode : QMode) (lo hi : ℚ) : Except Err (ℚ × ℚ) :=
  if mode.isSym then symParams bits hi false
  else asymParams bits lo hi true (mode = .asymmetricSigned)

/-- Parameters computed by the `output_clipping` setter (530-533), i.e.
`_get_quant_params_from_stats_dict` with clip mode NONE (176-203). -/
def outputClipParams (bits : ℕ) (mode : QMode) (approx : Option ℕ) (lo hi : ℚ) : Except Err (ℚ × ℚ) := do
  let p ← modeParams mode bits lo hi
  match approx with
  | Option.none => return p
  | some m => return (approxScale p.1 m false, p.2)

/-! ## The embedding wrapper -/

/-- State of the wrapper: stored integer rows, the saved float rows if any (1335-1336), the two
buffers, and the metadata object attached to outputs (1352-1353).  The metadata refers to the
buffer tensors themselves until the module is moved to another device, which replaces the
buffers (`aliased`). -/
structure Emb where
  rows : List (List ℚ)
  floatRows : Option (List (List ℚ))
  scale : ℚ
  zp : ℚ
  mdScale : ℚ
  mdZp : ℚ
  aliased : Bool
  deriving DecidableEq, Repr

/-- Quantization of all rows (1350-1351, 1375-1377). -/
def quantRows (range : ℤ × ℤ) (scale zp : ℚ) (rows : List (List ℚ)) : List (List ℚ) :=
  rows.map fun r => r.map fun x => linearQuantizeClamp x scale zp range.1 range.2

/-- The constructor (1321-1354), with parameters `p` computed from the weights or statistics. -/
def Emb.init (range : ℤ × ℤ) (saveFp : Bool) (p : ℚ × ℚ) (rows : List (List ℚ)) : Emb :=
  ⟨quantRows range p.1 p.2 rows, if saveFp then some rows else none, p.1, p.2, p.1, p.2, true⟩

/-- Names of the settable parameters. -/
inductive EmbParam where
  | scale | zp
  deriving DecidableEq, Repr

/-- `set_linear_quant_param('w_scale' / 'w_zero_point', val)` (1361-1384): the buffer is filled in
place, the saved float rows are re-quantized. -/
def Emb.setParam (range : ℤ × ℤ) (e : Emb) (n : EmbParam) (v : ℚ) : Except Err Emb :=
  match e.floatRows with
  | Option.none => .error .runtime
  | some fr =>
    let e := match n with
      | .scale => { e with scale := v, mdScale := if e.aliased then v else e.mdScale }
      | .zp => { e with zp := v, mdZp := if e.aliased then v else e.mdZp }
    .ok { e with rows := quantRows range e.scale e.zp fr }

/-- The `weight_clipping` setter (1403-1417). -/
def Emb.setClip (range : ℤ × ℤ) (bits : ℕ) (mode : QMode) (e : Emb) (arg : ClipArg) : Except Err Emb := do
  let v ← checkClip arg mode false
  let p ← embClipParams bits mode v.1 v.2
  let e ← e.setParam range .scale p.1
  e.setParam range .zp p.2

/-- Moving the module to another device: the buffers become new tensors (`nn.Module._apply`), the
metadata object keeps the old ones. -/
def Emb.move (e : Emb) : Emb := { e with aliased := false }

/-- Row lookup (`nn.Embedding`); an index out of range raises. -/
def lookupRows (rows : List (List ℚ)) : List ℕ → Except Err (List (List ℚ))
  | [] => .ok []
  | i :: is =>
    match rows[i]? with
    | some r => do
      let rs ← lookupRows rows is
      return r :: rs
    | Option.none => .error .index

/-- `forward` (1425-1429): de-quantized rows and the attached scale and zero-point. -/
def Emb.forward (e : Emb) (ids : List ℕ) : Except Err (List (List ℚ) × (ℚ × ℚ)) := do
  let rs ← lookupRows e.rows ids
  return (rs.map fun r => r.map fun v => linearDequantize v e.scale e.zp, (e.mdScale, e.mdZp))

/-- The converted embedding: a float embedding followed by a quantization (1431-1449). -/
structure TorchEmb where
  rows : List (List ℚ)
  scale : ℚ
  zp : ℤ
  deriving DecidableEq, Repr

/-- `to_pytorch_quant` (1431-1449): with `save_fp_weights` it reads the attribute `float_weight` of
the wrapper, which does not exist (it is registered on the wrapped module, 1336). -/
def Emb.toTorch (bits : ℕ) (mode : QMode) (reduce : Bool) (e : Emb) : Except Err TorchEmb :=
  match e.floatRows with
  | some _ => .error .attribute
  | Option.none => do
    let p ← qparamsToTorch e.scale e.zp bits mode .quint8 reduce
    return ⟨e.rows.map fun r => r.map fun v => linearDequantize v e.scale e.zp, p.1, p.2⟩

end Verif
