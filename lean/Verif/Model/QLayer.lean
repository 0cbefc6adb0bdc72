import Verif.Model.QUtils
/-!
# Model of `RangeLinearQuantParamLayerWrapper` (range_linear.py:707-1043)
with quantized activations and preset activation statistics, and of the base-class `forward`.

A linear or convolution layer is a list of output channels; the wrapped module computes, for every
output position, the dot product of the input patch with the channel's weights plus the bias (zero
padding of a convolution is part of the patches: the code pads after adding the zero-point, so a
padded entry stands for the float 0).
-/
namespace Verif

/-- Static settings of the wrapper. -/
structure LayerCfg where
  /-- weights mode is asymmetric -/
  asymW : Bool
  wRange : ℤ × ℤ
  actRange : ℤ × ℤ
  accRange : ℤ × ℤ
  clipHalf : Bool
  approxBits : Option ℕ
  outScale : ℚ
  outZp : ℚ
  deriving DecidableEq, Repr

/-- One output channel: simulated weights, quantization parameters, biases, accumulator scale
(buffers registered in range_linear.py:768-822). -/
structure Chan where
  w : List ℚ
  wScale : ℚ
  wZp : ℚ
  floatW : List ℚ
  fpBias : Option ℚ
  biasQ : ℚ
  accumScale : ℚ
  deriving DecidableEq, Repr

structure Layer where
  chans : List Chan
  shifted : Bool
  numForwards : ℕ
  forceReadjust : Bool
  deriving DecidableEq, Repr

/-- Constructor of a channel (range_linear.py:768-789, 803-806): weights overwritten by their
quantized values.  `biasQ` initially holds the float bias, `accumScale` is uninitialised memory
(`torch.empty_like`, 818-822); `junk` stands for it. -/
def Chan.init (cfg : LayerCfg) (wf : List ℚ) (bias : Option ℚ) (p : ℚ × ℚ) (junk : ℚ) : Chan :=
  ⟨wf.map fun x => linearQuantizeClamp x p.1 p.2 cfg.wRange.1 cfg.wRange.2, p.1, p.2, wf, bias,
    bias.getD 0, junk⟩

/-- The layer after construction (`num_forwards = 0`, `force_readjust = False`,
`is_simulated_quant_weight_shifted = False`; 418-419, 831). -/
def Layer.init (cs : List Chan) : Layer := ⟨cs, false, 0, false⟩

/-- `get_accum_scale` (range_linear.py:910-916). -/
def accumScaleOf (cfg : LayerCfg) (sx wScale : ℚ) : ℚ :=
  match cfg.approxBits with
  | none => sx * wScale
  | some m => approxScale (sx * wScale) m false

/-- The bias re-quantized to the accumulator scale `a` (range_linear.py:922-926; no bias adds 0). -/
def biasQOf (cfg : LayerCfg) (a : ℚ) : Option ℚ → ℚ
  | some b => linearQuantizeClamp b a 0 cfg.accRange.1 cfg.accRange.2
  | none => 0

/-- "Requantize bias to accumulator scale" (range_linear.py:918-927), preset statistics. -/
def Layer.readjust (cfg : LayerCfg) (sx : ℚ) (l : Layer) : Layer :=
  if l.numForwards = 0 ∨ l.forceReadjust = true then
    { l with
      forceReadjust := false
      chans := l.chans.map fun c =>
        { c with
          accumScale := accumScaleOf cfg sx c.wScale
          biasQ := biasQOf cfg (accumScaleOf cfg sx c.wScale) c.fpBias } }
  else l

/-- Pre-shifting of the simulated weights (range_linear.py:948-953). -/
def Layer.shift (cfg : LayerCfg) (l : Layer) : Layer :=
  if cfg.asymW ∧ l.shifted = false then
    { l with shifted := true, chans := l.chans.map fun c => { c with w := c.w.map (· + c.wZp) } }
  else l

/-- Dot product. -/
def dot (a b : List ℚ) : ℚ := (List.zipWith (· * ·) a b).sum

/-- Metadata of an input tensor (`TensorQuantMetadata`, range_linear.py:229). -/
structure QMeta where
  scale : ℚ
  zp : ℚ
  range : ℤ × ℤ
  deriving DecidableEq, Repr

/-- `_prepare_input` (range_linear.py:593-597). -/
def quantInput (q : QMeta) (x : List ℚ) : List ℚ :=
  x.map fun v => linearQuantizeClamp v q.scale q.zp q.range.1 q.range.2

/-- The accumulator of one channel for one patch (range_linear.py:955-957). -/
def chanAccum (cfg : LayerCfg) (q : QMeta) (c : Chan) (xq : List ℚ) : ℚ :=
  clampQ (dot (xq.map (· + q.zp)) c.w + c.biasQ) cfg.accRange.1 cfg.accRange.2

/-- Re-quantization and de-quantization of an accumulator (range_linear.py:569-586, 972-976). -/
def chanOut (cfg : LayerCfg) (c : Chan) (accum : ℚ) : ℚ :=
  let a := if cfg.clipHalf then max accum 0 else accum
  let rs := cfg.outScale / c.accumScale
  let rs := match cfg.approxBits with
    | none => rs
    | some m => approxScale rs m false
  linearDequantize (linearQuantizeClamp a rs cfg.outZp cfg.actRange.1 cfg.actRange.2) cfg.outScale cfg.outZp

/-- `forward` in eval mode (range_linear.py:550-591, 907-959) on the patches of a batch:
new state and, per patch, the outputs of all channels. -/
def Layer.forward (cfg : LayerCfg) (q : QMeta) (patches : List (List ℚ)) (l : Layer) :
    Layer × List (List ℚ) :=
  let l := (l.readjust cfg q.scale).shift cfg
  let out := patches.map fun p => l.chans.map fun c => chanOut cfg c (chanAccum cfg q c (quantInput q p))
  ({ l with numForwards := l.numForwards + 1 }, out)

/-- `state_dict` (range_linear.py:900-905): new state and the weights it contains. -/
def Layer.stateDict (l : Layer) : Layer × List (List ℚ) :=
  let l := if l.shifted then
      { l with shifted := false, chans := l.chans.map fun c => { c with w := c.w.map (· - c.wZp) } }
    else l
  (l, l.chans.map (·.w))

/-- `set_linear_quant_param('w_scale' / 'w_zero_point', val)` with `save_fp_weights`
(range_linear.py:844-860, 495-503): fills the buffer and re-quantizes the float weights. -/
def Layer.setW (cfg : LayerCfg) (isScale : Bool) (v : ℚ) (l : Layer) : Layer :=
  { l with
    forceReadjust := true
    chans := l.chans.map fun c =>
      let c := if isScale then { c with wScale := v } else { c with wZp := v }
      { c with w := c.floatW.map fun x => linearQuantizeClamp x c.wScale c.wZp cfg.wRange.1 cfg.wRange.2 } }

/-- `PostTrainLinearQuantizer.set_linear_quant_param` on a weight scale (range_linear.py:1864-1876):
fills the buffer and forces readjustment, without touching the weights. -/
def Layer.quantizerSetWScale (v : ℚ) (l : Layer) : Layer :=
  { l with forceReadjust := true, chans := l.chans.map fun c => { c with wScale := v } }

end Verif
