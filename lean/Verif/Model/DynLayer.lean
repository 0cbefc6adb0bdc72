import Verif.Model.QLayer
/-!
# Model of post-training quantization with dynamic ranges
(distiller/quantization/range_linear.py: base-class constructor 431-450 and `forward` 550-589 without
activation statistics, `_get_input_quant_metadata` 597-635, parameter layers 745-833, 907-976, the
fake-quantization wrapper 1475-1503), and of the per-input settings overrides.

Clip modes NONE and AVG; weights are not clipped (`also_clip_weights` off).  Evaluation mode.
-/
namespace Verif

/-- The quantization mode stored in a `QuantSettings` object (range_linear.py:237-244): a
`LinearQuantMode`, or a `ModuleQuantMode` pair, which `verify_quant_mode` (97-106) returns. -/
inductive SetMode where
  | linear (m : QMode)
  | pair (acts wts : QMode)
  deriving DecidableEq, Repr

/-- The mode as the parameter functions see it (142-154, 192-198): they compare it with members of
`LinearQuantMode`; a pair equals none of them, so every comparison is false, as for
`ASYMMETRIC_UNSIGNED`. -/
def SetMode.forParams : SetMode → QMode
  | .linear m => m
  | .pair _ _ => .asymmetricUnsigned

/-- The mode as the range computation sees it (470-473, 626-628): `quant_mode !=
ASYMMETRIC_UNSIGNED` is true for a pair and `quant_mode == SYMMETRIC_RESTRICTED` is false, as for
`ASYMMETRIC_SIGNED`. -/
def SetMode.forRange : SetMode → QMode
  | .linear m => m
  | .pair _ _ => .asymmetricSigned

/-- Settings of one input or output (`QuantSettings`, 237-244), per tensor. -/
structure InSettings where
  bits : ℕ
  mode : SetMode
  clip : TensorClip
  deriving DecidableEq, Repr

/-- The dictionary of one input in `input_overrides` (433-450); `extra` are unsupported keys, and
`mode` is what `verify_quant_mode` makes of the given mode. -/
structure OverrideDict where
  fromOutput : Bool
  bits : Option ℕ
  mode : Option (QMode × QMode)
  clip : Option TensorClip
  extra : List String
  deriving DecidableEq, Repr

/-- Construction of the settings of one overridden input (433-450). -/
def OverrideDict.settings (outBits : ℕ) (outMode : QMode) (outClip : TensorClip) (d : OverrideDict) :
    Except Err InSettings :=
  if d.fromOutput then .ok ⟨outBits, .linear outMode, outClip⟩
  else
    let mode := d.mode.getD (outMode, outMode)
    if d.extra.isEmpty then .ok ⟨d.bits.getD outBits, .pair mode.1 mode.2, d.clip.getD outClip⟩
    else .error .value

/-- A float tensor, as the list of its samples, with attached metadata. -/
structure DTensor where
  rows : List (List ℚ)
  md : Option QMeta
  deriving DecidableEq, Repr

/-- Static settings of a parameter layer without activation statistics. -/
structure DynCfg where
  wMode : QMode
  wBits : ℕ
  perChannel : Bool
  aMode : QMode
  aBits : ℕ
  clip : TensorClip
  accBits : ℕ
  clipHalf : Bool
  approx : Option ℕ
  /-- settings of the input, if overridden -/
  override0 : Option InSettings
  autoFallback : Bool
  deriving DecidableEq, Repr

/-- `get_quantized_range(num_bits_accum, signed=True, signed_restrict_qrange=False)` (422-423). -/
def DynCfg.accRange (cfg : DynCfg) : ℤ × ℤ := quantizedRange cfg.accBits true false

/-- The parameters computed for a tensor under given settings (618-629). -/
def InSettings.metaOf (s : InSettings) (approx : Option ℕ) (rows : List (List ℚ)) : Except Err QMeta := do
  let p ← paramsFromTensor rows s.bits s.mode.forParams s.clip approx
  return ⟨p.1, p.2, modeRange s.mode.forRange s.bits⟩

/-- `_get_input_quant_metadata` (597-635) without statistics. -/
def DynCfg.inputMeta (cfg : DynCfg) (t : DTensor) : Except Err QMeta :=
  match t.md with
  | some q => if cfg.override0.isSome then .error .runtime else .ok q
  | none =>
    match cfg.override0 with
    | some s => s.metaOf cfg.approx t.rows
    | none =>
      if cfg.autoFallback then (⟨cfg.aBits, .linear cfg.aMode, cfg.clip⟩ : InSettings).metaOf cfg.approx t.rows
      else .error .runtime

/-- One output channel: simulated weights, their parameters, the bias quantized once (`base_b_q`)
and the bias currently in the wrapped module. -/
structure DChan where
  w : List ℚ
  wScale : ℚ
  wZp : ℚ
  baseB : Option ℚ
  biasQ : ℚ
  deriving DecidableEq, Repr

/-- State of the wrapper. -/
structure DLayer where
  chans : List DChan
  bScale : ℚ
  bZp : ℚ
  shifted : Bool
  deriving DecidableEq, Repr

/-- Construction of one channel (range_linear.py:775-800). -/
def DChan.init (wRange accRange : ℤ × ℤ) (bs bz : ℚ) (wf : List ℚ) (p : ℚ × ℚ) (b : Option ℚ) : DChan :=
  ⟨wf.map fun x => linearQuantizeClamp x p.1 p.2 wRange.1 wRange.2, p.1, p.2,
    b.map fun b => linearQuantizeClamp b bs bz accRange.1 accRange.2, b.getD 0⟩

/-- Weight parameters, one pair per channel (777-782). -/
def DynCfg.weightParams (cfg : DynCfg) (wf : List (List ℚ)) : Except Err (List (ℚ × ℚ)) :=
  if cfg.perChannel then paramsPerChannel wf cfg.wBits cfg.wMode none
  else (paramsFromTensor wf cfg.wBits cfg.wMode .none none).map fun p => wf.map fun _ => p

/-- Bias parameters (791-796). -/
def DynCfg.biasParams (cfg : DynCfg) : Option (List ℚ) → Except Err (ℚ × ℚ)
  | none => .ok (1, 0)
  | some b => paramsFromTensor [b] cfg.accBits .symmetric .none none

/-- The biases of the channels. -/
def biasList (wf : List (List ℚ)) : Option (List ℚ) → List (Option ℚ)
  | none => wf.map fun _ => none
  | some b => b.map some

/-- The constructor (745-833) on the float weights (one list per output channel) and biases. -/
def DLayer.init (cfg : DynCfg) (wf : List (List ℚ)) (bias : Option (List ℚ)) : Except Err DLayer := do
  let ps ← cfg.weightParams wf
  let bp ← cfg.biasParams bias
  return ⟨List.zipWith (fun wp b => DChan.init (modeRange cfg.wMode cfg.wBits) cfg.accRange bp.1 bp.2 wp.1 wp.2 b)
    (List.zip wf ps) (biasList wf bias), bp.1, bp.2, false⟩

/-- Scale approximation if configured (914-915, 935-936, 974-975). -/
def DynCfg.approxIf (cfg : DynCfg) (s : ℚ) : ℚ :=
  match cfg.approx with
  | none => s
  | some m => approxScale s m false

/-- The bias re-quantized for the current input scale (931-939). -/
def DLayer.rebias (cfg : DynCfg) (sx : ℚ) (l : DLayer) : DLayer :=
  { l with chans := l.chans.map fun c =>
      { c with biasQ := match c.baseB with
          | some b => linearQuantizeClamp (b + l.bZp) (cfg.approxIf (cfg.approxIf (sx * c.wScale) / l.bScale)) 0
              cfg.accRange.1 cfg.accRange.2
          | none => c.biasQ } }

/-- Pre-shifting of the simulated weights (949-954). -/
def DLayer.shift (cfg : DynCfg) (l : DLayer) : DLayer :=
  if cfg.wMode.isSym = false ∧ l.shifted = false then
    { l with shifted := true, chans := l.chans.map fun c => { c with w := c.w.map (· + c.wZp) } }
  else l

/-- A patch of a sample: positions of its elements; `none` is padding, which the wrapped module
adds as the number 0 after the zero-point has been added (956-957). -/
def gatherPatch (row : List ℚ) (g : List (Option ℕ)) : List ℚ :=
  g.map fun o => match o with
    | some i => row.getD i 0
    | none => 0

/-- The wrapped linear or convolution layer on one sample, with the accumulator clamped and the
fused ReLU applied (956-960, 569-571): accumulator scale and accumulator of every output element
(in patch-major order). -/
def DLayer.accum (cfg : DynCfg) (gs : List (List (Option ℕ))) (q : QMeta) (l : DLayer) (row : List ℚ) : List (ℚ × ℚ) :=
  gs.flatMap fun g => l.chans.map fun c =>
    let a := clampQ (dot (gatherPatch ((quantInput q row).map (· + q.zp)) g) c.w + c.biasQ) cfg.accRange.1 cfg.accRange.2
    (cfg.approxIf (q.scale * c.wScale), if cfg.clipHalf then max a 0 else a)

/-- `forward` (550-589, 907-976): the state afterwards and the output with its metadata. -/
def DLayer.forward (cfg : DynCfg) (gs : List (List (Option ℕ))) (t : DTensor) (l : DLayer) :
    DLayer × Except Err DTensor :=
  match cfg.inputMeta t with
  | .error e => (l, .error e)
  | .ok q =>
    let l := (l.rebias cfg q.scale).shift cfg
    let outs := t.rows.map (l.accum cfg gs q)
    match paramsFromTensor (outs.map fun r => r.map fun a => a.2 / a.1) cfg.aBits cfg.aMode cfg.clip cfg.approx with
    | .error e => (l, .error e)
    | .ok p =>
      let range := modeRange cfg.aMode cfg.aBits
      (l, .ok ⟨outs.map fun r => r.map fun a =>
        linearDequantize (linearQuantizeClamp a.2 (cfg.approxIf (p.1 / a.1)) p.2 range.1 range.2) p.1 p.2, some ⟨p.1, p.2, range⟩⟩)

/-- `state_dict` (900-905): new state and the weights it contains. -/
def DLayer.stateDict (l : DLayer) : DLayer × List (List ℚ) :=
  let l := if l.shifted then
      { l with shifted := false, chans := l.chans.map fun c => { c with w := c.w.map (· - c.wZp) } }
    else l
  (l, l.chans.map (·.w))

/-! ## The fake-quantization wrapper and aliasing -/

/-- The result of a wrapped module: a new tensor, or its input tensor itself or a view of it
(for example `nn.Identity`, `nn.Dropout` in evaluation mode, `nn.Flatten`). -/
inductive ModRes where
  | fresh (rows : List (List ℚ))
  | view
  deriving DecidableEq, Repr

/-- `_prepare_input` of the fake-quantization wrapper (1475-1486) without statistics: the caller's
tensor afterwards (the metadata are attached to it), the data handed to the wrapped module, and
whether these are the caller's tensor itself. -/
def fakePrepare (cfg : DynCfg) (quantizeInputs : Bool) (t : DTensor) : Except Err (DTensor × List (List ℚ) × Bool) :=
  if quantizeInputs then do
    let q ← cfg.inputMeta t
    if t.md.isSome then return (⟨t.rows, some q⟩, t.rows, true)
    else return (⟨t.rows, some q⟩, t.rows.map fun r => (quantInput q r).map fun v => linearDequantize v q.scale q.zp, false)
  else .ok (t, t.rows, true)

/-- `forward` of the fake-quantization wrapper without statistics (550-589, 1475-1503): the caller's
input tensor afterwards, and the output.  The re-quantization and de-quantization of the wrapped
module's result are done in place on its storage (577-578, 584); `f.relu` makes a new tensor
(569-571). -/
def fakeForward (cfg : DynCfg) (quantizeInputs : Bool) (f : List (List ℚ) → ModRes) (t : DTensor) :
    Except Err (DTensor × DTensor) := do
  let x ← fakePrepare cfg quantizeInputs t
  let raw := match f x.2.1 with
    | .fresh rows => rows
    | .view => x.2.1
  let acc := if cfg.clipHalf then raw.map fun r => r.map (max · 0) else raw
  let p ← paramsFromTensor acc cfg.aBits cfg.aMode cfg.clip cfg.approx
  let range := modeRange cfg.aMode cfg.aBits
  let out := acc.map fun r => r.map fun v => linearDequantize (linearQuantizeClamp v p.1 p.2 range.1 range.2) p.1 p.2
  return (if x.2.2 ∧ f x.2.1 = .view ∧ cfg.clipHalf = false then ⟨out, x.1.md⟩ else x.1, ⟨out, some ⟨p.1, p.2, range⟩⟩)

end Verif
