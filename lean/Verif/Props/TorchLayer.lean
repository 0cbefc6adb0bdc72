import Verif.Model.TorchLayer
import Verif.Props.TorchQuant
import Verif.Props.QLayer
/-!
# C117: converting a quantized layer to a native PyTorch module
-/
namespace Verif

/-! ## Specification -/

/-- The real numbers a PyTorch module's weights stand for. -/
def TorchChan.realWeights (c : TorchChan) : List ℚ := c.w.map fun n => torchDequantize n c.scale c.zp

/-- Real pre-activation of a PyTorch channel on real inputs. -/
def TorchChan.preact (c : TorchChan) (x : List ℚ) : ℚ := dot x c.realWeights + c.bias

/-- Real value of the output of a PyTorch channel: the pre-activation (after the fused ReLU)
quantized to `quint8`. -/
def TorchLayer.outValue (l : TorchLayer) (c : TorchChan) (x : List ℚ) : ℚ :=
  torchDequantize (torchQuantize (if l.relu then max (c.preact x) 0 else c.preact x) l.outScale l.outZp .quint8)
    l.outScale l.outZp

/-- Number of forward passes in a history. -/
def forwardsIn : List LayerOp → ℕ
  | [] => 0
  | .forward _ _ :: ops => forwardsIn ops + 1
  | .stateDict :: ops => forwardsIn ops

/-- A layer's weights are stored unshifted after this history: they are symmetric, or no forward
pass happened since the start or the last `state_dict` call. -/
def Unshifted (asym : Bool) (ops : List LayerOp) : Prop := asym = false ∨ ops = [] ∨ ops.getLast? = some .stateDict

/-! ## Lemmas -/

theorem runLayer_numForwards (cfg : LayerCfg) (ops : List LayerOp) : ∀ l : Layer,
    (runLayer cfg l ops).1.numForwards = l.numForwards + forwardsIn ops := by
  induction ops with
  | nil => intro l; rfl
  | cons op ops ih =>
    intro l
    cases op with
    | forward q ps =>
      simp only [runLayer, LayerOp.step, ih, forwardsIn]
      have : (l.forward cfg q ps).1.numForwards = l.numForwards + 1 := by
        unfold Layer.forward Layer.readjust Layer.shift
        simp only
        split <;> split <;> rfl
      omega
    | stateDict =>
      simp only [runLayer, LayerOp.step, ih, forwardsIn]
      have : (l.stateDict).1.numForwards = l.numForwards := by
        unfold Layer.stateDict
        simp only
        split <;> rfl
      omega

theorem reach_unshifted (cfg : LayerCfg) (sx : ℚ) (cs : List Chan) (ops : List LayerOp)
    (hsx : ∀ q ps, LayerOp.forward q ps ∈ ops → q.scale = sx) (hun : Unshifted cfg.asymW ops) :
    (runLayer cfg (Layer.init cs) ops).1 = canonLayer cfg sx cs false (forwardsIn ops) := by
  obtain ⟨sh, nf, h1, h2, h3⟩ := reach_canon cfg sx cs ops hsx
  have hnf := runLayer_numForwards cfg ops (Layer.init cs)
  rw [h3] at hnf
  have : nf = forwardsIn ops := by simpa [canonLayer, Layer.init] using hnf
  subst this
  rcases hun with h | h | h
  · cases sh with
    | false => exact h3
    | true => rw [h1 rfl] at h; cases h
  · subst h
    rw [canon_init cfg sx cs]; rfl
  · rw [h2 h] at h3; exact h3

theorem reach_shifted (cfg : LayerCfg) (sx : ℚ) (cs : List Chan) (ops : List LayerOp)
    (hsx : ∀ q ps, LayerOp.forward q ps ∈ ops → q.scale = sx) (q : QMeta) (ps : List (List ℚ)) (hq : q.scale = sx)
    (hasym : cfg.asymW = true) :
    (runLayer cfg (Layer.init cs) (ops ++ [.forward q ps])).1 = canonLayer cfg sx cs true (forwardsIn ops + 1) := by
  obtain ⟨sh, nf, h1, h2, h3⟩ := reach_canon cfg sx cs ops hsx
  have hnf := runLayer_numForwards cfg ops (Layer.init cs)
  rw [h3] at hnf
  have : nf = forwardsIn ops := by simpa [canonLayer, Layer.init] using hnf
  subst this
  have hap : ∀ (a : List LayerOp) (l : Layer) (o : LayerOp),
      (runLayer cfg l (a ++ [o])).1 = (o.step cfg (runLayer cfg l a).1).1 := by
    intro a
    induction a with
    | nil => intro l o; rfl
    | cons b a ih => intro l o; exact ih _ o
  rw [hap, h3]
  subst hq
  show (Layer.forward cfg q ps (canonLayer cfg q.scale cs sh (forwardsIn ops))).1 = _
  rw [canon_forward cfg q ps cs sh (forwardsIn ops) h1, hasym]

theorem quantClamp_int (x scale zp : ℚ) (r : ℤ × ℤ) (hr : r.1 ≤ r.2) (hz : ∃ z : ℤ, zp = z) :
    ∃ n : ℤ, linearQuantizeClamp x scale zp r.1 r.2 = n ∧ r.1 ≤ n ∧ n ≤ r.2 := by
  obtain ⟨z, rfl⟩ := hz
  unfold linearQuantizeClamp linearQuantize clampQ
  refine ⟨min (max (roundHalfEven (scale * x - z)) r.1) r.2, by push_cast; rfl, ?_, ?_⟩
  · exact le_min (le_max_right _ _) hr
  · exact min_le_right _ _

theorem modeRange_le (mode : QMode) : (modeRange mode 8).1 ≤ (modeRange mode 8).2 := by
  cases mode <;> decide

/-- All weights of an unshifted channel convert, and keep their values. -/
theorem weightsToTorch_ok (mode : QMode) (lo hi : ℚ) (p : ℚ × ℚ) (h : modeParams mode 8 lo hi = .ok p) (wf : List ℚ) :
    ∃ (ns : List ℤ) (st : ℚ) (zt : ℤ), qparamsToTorch p.1 p.2 8 mode .qint8 false = .ok (st, zt) ∧
      weightsToTorch mode 8 p.1 p.2 (wf.map fun x => linearQuantizeClamp x p.1 p.2 (modeRange mode 8).1 (modeRange mode 8).2) = .ok ns ∧
      ns.map (fun n => torchDequantize n st zt) = wf.map (fun x => fakeQuant x p.1 p.2 (modeRange mode 8)) := by
  obtain ⟨scale, zp⟩ := p
  obtain ⟨hs, ⟨z, hz, -, -⟩, -, -⟩ := modeParams_image mode 8 (by norm_num) lo hi scale zp h
  obtain ⟨st, zt, hqp⟩ : ∃ (st : ℚ) (zt : ℤ), qparamsToTorch scale zp 8 mode .qint8 false = .ok (st, zt) := by
    unfold qparamsToTorch; exact ⟨_, _, by simp; exact ⟨rfl, rfl⟩⟩
  suffices H : ∃ ns : List ℤ, weightsToTorch mode 8 scale zp (wf.map fun x => linearQuantizeClamp x scale zp (modeRange mode 8).1 (modeRange mode 8).2) = .ok ns ∧
      ns.map (fun n => torchDequantize n st zt) = wf.map (fun x => fakeQuant x scale zp (modeRange mode 8)) by
    obtain ⟨ns, h1, h2⟩ := H
    exact ⟨ns, st, zt, hqp, h1, h2⟩
  induction wf with
  | nil => exact ⟨[], rfl, rfl⟩
  | cons x wf ih =>
    obtain ⟨ns, h1, h2⟩ := ih
    obtain ⟨n, hn, hn1, hn2⟩ := quantClamp_int x scale zp (modeRange mode 8) (modeRange_le mode) ⟨z, hz⟩
    obtain ⟨m, st', zt', ht, -, -, hv⟩ := C82_tensor_value_preserved mode 8 (by norm_num) (by norm_num) lo hi scale zp h .qint8 n hn1 hn2
    have hst : st' = st ∧ zt' = zt := by
      unfold tensorToTorch at ht
      rw [truncZ_int, if_neg (by simp), hqp] at ht
      have ht' : Except.ok (castTo .qint8 ((n : ℚ) - (-(zt : ℚ) - zp)), st, zt) = (Except.ok (m, st', zt') : Except Err _) := ht
      simp only [Except.ok.injEq, Prod.mk.injEq] at ht'
      exact ⟨ht'.2.1.symm, ht'.2.2.symm⟩
    obtain ⟨rfl, rfl⟩ := hst
    refine ⟨m :: ns, ?_, ?_⟩
    · simp only [List.map_cons, weightsToTorch, hn, ht]
      change (weightsToTorch mode 8 scale zp _ >>= fun ts => pure (m :: ts)) = _
      rw [h1]; rfl
    · simp only [List.map_cons, h2, hv]
      unfold fakeQuant
      rw [hn]

/-- The bias a layer's conversion should give PyTorch: the float bias quantized to the accumulator
scale. -/
theorem biasQOf_int (cfg : LayerCfg) (hacc : cfg.accRange.1 ≤ cfg.accRange.2) (a : ℚ) (b : Option ℚ) :
    biasQOf cfg a b = (truncZ (biasQOf cfg a b) : ℚ) := by
  cases b with
  | none => simp [biasQOf, truncZ]
  | some b =>
    obtain ⟨n, hn, -, -⟩ := quantClamp_int b a 0 cfg.accRange hacc ⟨0, by simp⟩
    simp only [biasQOf, hn, truncZ_int]

/-! ## Theorems -/

/-- A layer to be converted: settings and channels built from float weights and biases by the
library's own parameters. -/
structure ConvSetup where
  cfg : LayerCfg
  wMode : QMode
  aMode : QMode
  /-- float weights, float bias, clipping range of the weights, parameters, uninitialised memory -/
  ws : List (List ℚ × ℚ × (ℚ × ℚ) × (ℚ × ℚ) × ℚ)

def ConvSetup.chan (s : ConvSetup) (w : List ℚ × ℚ × (ℚ × ℚ) × (ℚ × ℚ) × ℚ) : Chan :=
  Chan.init s.cfg w.1 (some w.2.1) w.2.2.2.1 w.2.2.2.2

def ConvSetup.layer (s : ConvSetup) : Layer := Layer.init (s.ws.map s.chan)

structure ConvSetup.Ok (s : ConvSetup) : Prop where
  asym : s.cfg.asymW = !s.wMode.isSym
  range : s.cfg.wRange = modeRange s.wMode 8
  acc : s.cfg.accRange.1 ≤ s.cfg.accRange.2
  params : ∀ w ∈ s.ws, modeParams s.wMode 8 w.2.2.1.1 w.2.2.1.2 = .ok w.2.2.2.1

theorem chansToTorch_ok (s : ConvSetup) (hs : s.Ok) (f : Chan → Chan)
    (hf : ∀ c, (f c).w = c.w ∧ (f c).wScale = c.wScale ∧ (f c).wZp = c.wZp) :
    ∃ ts, chansToTorch s.wMode 8 ((s.ws.map s.chan).map f) = .ok ts ∧ ts.length = s.ws.length ∧
      ∀ (j : ℕ) (t : TorchChan) (w : List ℚ × ℚ × (ℚ × ℚ) × (ℚ × ℚ) × ℚ), ts[j]? = some t → s.ws[j]? = some w →
        t.realWeights = w.1.map (fun x => fakeQuant x w.2.2.2.1.1 w.2.2.2.1.2 s.cfg.wRange) := by
  obtain ⟨h1, h2, h3, h4⟩ := hs
  suffices H : ∀ l : List (List ℚ × ℚ × (ℚ × ℚ) × (ℚ × ℚ) × ℚ), (∀ w ∈ l, w ∈ s.ws) →
      ∃ ts, chansToTorch s.wMode 8 ((l.map s.chan).map f) = .ok ts ∧ ts.length = l.length ∧
      ∀ (j : ℕ) (t : TorchChan) (w : List ℚ × ℚ × (ℚ × ℚ) × (ℚ × ℚ) × ℚ), ts[j]? = some t → l[j]? = some w →
        t.realWeights = w.1.map (fun x => fakeQuant x w.2.2.2.1.1 w.2.2.2.1.2 s.cfg.wRange) from H s.ws (fun _ h => h)
  intro l
  induction l with
  | nil => intro _; exact ⟨[], rfl, rfl, by simp⟩
  | cons w l ih =>
    intro hl
    obtain ⟨ts, e1, e2, e3⟩ := ih (fun w hw => hl w (List.mem_cons_of_mem _ hw))
    obtain ⟨ns, st, zt, g1, g2, g3⟩ := weightsToTorch_ok s.wMode _ _ _ (h4 w (hl w (by simp))) w.1
    have hc : chanToTorch s.wMode 8 (f (s.chan w)) = .ok ⟨ns, st, zt, (f (s.chan w)).biasQ⟩ := by
      unfold chanToTorch
      rw [(hf _).1, (hf _).2.1, (hf _).2.2]
      simp only [ConvSetup.chan, Chan.init, h2]
      rw [g1]
      change (weightsToTorch s.wMode 8 _ _ _ >>= fun w' => pure _) = _
      rw [g2]; rfl
    refine ⟨⟨ns, st, zt, (f (s.chan w)).biasQ⟩ :: ts, ?_, by simp [e2], ?_⟩
    · simp only [List.map_cons, chansToTorch, hc]
      change (chansToTorch s.wMode 8 ((l.map s.chan).map f) >>= fun ts => pure (_ :: ts)) = _
      rw [e1]; rfl
    · intro j t w' hj hw'
      cases j with
      | zero =>
        simp only [List.getElem?_cons_zero, Option.some.injEq] at hj hw'
        subst hj; subst hw'
        rw [h2]; exact g3
      | succ j => exact e3 j t w' (by simpa using hj) (by simpa using hw')

/-- The converted module of a layer whose weights are stored unshifted. -/
theorem toTorch_canon (s : ConvSetup) (hs : s.Ok) (sx : ℚ) (nf : ℕ) (reduce : Bool) (st : ℚ) (zt : ℤ)
    (hout : qparamsToTorch s.cfg.outScale s.cfg.outZp 8 s.aMode .quint8 reduce = .ok (st, zt)) :
    ∃ tl, Layer.toTorch s.cfg s.wMode 8 s.aMode 8 reduce (canonLayer s.cfg sx (s.ws.map s.chan) false nf) = .ok tl ∧
      tl.relu = s.cfg.clipHalf ∧ tl.outScale = st ∧ tl.outZp = zt ∧ tl.chans.length = s.ws.length ∧
      ∀ (j : ℕ) (t : TorchChan) (w : List ℚ × ℚ × (ℚ × ℚ) × (ℚ × ℚ) × ℚ), tl.chans[j]? = some t → s.ws[j]? = some w →
        t.realWeights = w.1.map (fun x => fakeQuant x w.2.2.2.1.1 w.2.2.2.1.2 s.cfg.wRange) ∧
        (0 < nf → t.bias = linearDequantize (biasQOf s.cfg (accumScaleOf s.cfg sx w.2.2.2.1.1) (some w.2.1))
          (accumScaleOf s.cfg sx w.2.2.2.1.1) 0) ∧
        (nf = 0 → (¬ ∀ w' ∈ s.ws, w'.2.1 = (truncZ w'.2.1 : ℚ)) → t.bias = w.2.1) ∧
        (nf = 0 → (∀ w' ∈ s.ws, w'.2.1 = (truncZ w'.2.1 : ℚ)) → t.bias = w.2.1 / w.2.2.2.2) := by
  set f : Chan → Chan := fun c =>
    ⟨c.w, c.wScale, c.wZp, c.floatW, c.fpBias,
      if nf = 0 then c.biasQ else biasQOf s.cfg (accumScaleOf s.cfg sx c.wScale) c.fpBias,
      if nf = 0 then c.accumScale else accumScaleOf s.cfg sx c.wScale⟩ with hfdef
  obtain ⟨ts, e1, e2, e3⟩ := chansToTorch_ok s hs f (fun c => ⟨rfl, rfl, rfl⟩)
  have hch : (canonLayer s.cfg sx (s.ws.map s.chan) false nf).chans = (s.ws.map s.chan).map f := by
    simp [canonLayer, hfdef]
  have hb : ((s.ws.map s.chan).map f).any (fun c => c.fpBias.isNone) = false := by
    simp [hfdef, ConvSetup.chan, Chan.init]
  have hto : Layer.toTorch s.cfg s.wMode 8 s.aMode 8 reduce (canonLayer s.cfg sx (s.ws.map s.chan) false nf) =
      .ok ⟨List.zipWith (fun t c => { t with bias := torchBias (biasLooksQuantized ((s.ws.map s.chan).map f)) c }) ts
        ((s.ws.map s.chan).map f), s.cfg.clipHalf, st, zt⟩ := by
    unfold Layer.toTorch
    rw [if_neg (by simp), if_neg (by simp), hch, e1]
    change (if ((s.ws.map s.chan).map f).any (fun c => c.fpBias.isNone) then _ else _) = _
    rw [hb]
    simp only [Bool.false_eq_true, if_false]
    rw [hout]; rfl
  refine ⟨_, hto, rfl, rfl, rfl, ?_, ?_⟩
  · simp [e2]
  · intro j t w hj hw
    simp only [List.getElem?_zipWith] at hj
    simp only [List.map_map, List.getElem?_map, hw, Option.map_some] at hj
    cases ht : ts[j]? with
    | none => simp [ht] at hj
    | some t0 =>
      simp only [ht, Option.some.injEq] at hj
      subst hj
      have hmem : w ∈ s.ws := List.mem_of_getElem? hw
      refine ⟨e3 j t0 w ht hw, ?_, ?_, ?_⟩
      · intro hnf
        have hq : biasLooksQuantized (s.ws.map (f ∘ s.chan)) = true := by
          simp only [biasLooksQuantized, List.all_map, List.all_eq_true, Function.comp, decide_eq_true_eq]
          intro w' _
          have : nf ≠ 0 := by omega
          simp only [hfdef, this, if_false]
          exact biasQOf_int s.cfg hs.acc _ _
        have : nf ≠ 0 := by omega
        simp only [torchBias, hq, if_true]
        simp only [Function.comp, hfdef, this, if_false, ConvSetup.chan, Chan.init]
      · intro hnf hni
        have hq : biasLooksQuantized (s.ws.map (f ∘ s.chan)) = false := by
          rw [Bool.eq_false_iff]
          intro h
          apply hni
          intro w' hw'
          simp only [biasLooksQuantized, List.all_map, List.all_eq_true, Function.comp, decide_eq_true_eq] at h
          have := h w' hw'
          simpa [hfdef, hnf, ConvSetup.chan, Chan.init] using this
        simp only [torchBias, hq, Bool.false_eq_true, if_false]
        simp only [Function.comp, hfdef, hnf, if_true, ConvSetup.chan, Chan.init,
          Option.getD_some]
      · intro hnf hi
        have hq : biasLooksQuantized (s.ws.map (f ∘ s.chan)) = true := by
          simp only [biasLooksQuantized, List.all_map, List.all_eq_true, Function.comp, decide_eq_true_eq]
          intro w' hw'
          simpa [hfdef, hnf, ConvSetup.chan, Chan.init] using hi w' hw'
        simp only [torchBias, hq, if_true]
        simp only [Function.comp, hfdef, hnf, if_true, ConvSetup.chan, Chan.init, Option.getD_some,
          linearDequantize, add_zero]

/-- **C117**: after any history of forward passes (with one input scale) and `state_dict` calls
that leaves the weights unshifted and contains at least one forward pass, the layer converts, the
PyTorch module's weights stand for exactly the reals Distiller uses (its fake-quantized float
weights), and on every input its real pre-activation is Distiller's. -/
theorem C117_preactivation_partial (s : ConvSetup) (hs : s.Ok) (happ : s.cfg.approxBits = none) (q : QMeta)
    (ops : List LayerOp) (hsx : ∀ q' ps, LayerOp.forward q' ps ∈ ops → q'.scale = q.scale)
    (hun : Unshifted s.cfg.asymW ops) (hfw : 0 < forwardsIn ops)
    (reduce : Bool) (st : ℚ) (zt : ℤ)
    (hout : qparamsToTorch s.cfg.outScale s.cfg.outZp 8 s.aMode .quint8 reduce = .ok (st, zt)) :
    ∃ tl, Layer.toTorch s.cfg s.wMode 8 s.aMode 8 reduce (runLayer s.cfg s.layer ops).1 = .ok tl ∧
      tl.relu = s.cfg.clipHalf ∧ tl.outScale = st ∧ tl.outZp = zt ∧ tl.chans.length = s.ws.length ∧
      ∀ (j : ℕ) (t : TorchChan) (wf : List ℚ) (b : ℚ) (r p : ℚ × ℚ) (junk : ℚ), tl.chans[j]? = some t → s.ws[j]? = some (wf, b, r, p, junk) →
        t.realWeights = wf.map (fun x => fakeQuant x p.1 p.2 s.cfg.wRange) ∧
        ∀ x : List ℚ, t.preact (x.map fun v => fakeQuant v q.scale q.zp q.range) =
          realAccum q s.cfg.wRange s.cfg.accRange p wf (some b) x := by
  obtain ⟨tl, h1, h2, h3, h4, h5, h6⟩ := toTorch_canon s hs q.scale (forwardsIn ops) reduce st zt hout
  rw [← reach_unshifted s.cfg q.scale _ ops hsx hun] at h1
  refine ⟨tl, h1, h2, h3, h4, h5, ?_⟩
  intro j t wf b r p junk ht hw
  obtain ⟨g1, g2, -, -⟩ := h6 j t _ ht hw
  refine ⟨g1, fun x => ?_⟩
  unfold TorchChan.preact realAccum
  rw [g1, g2 hfw]
  simp only [biasQOf, accumScaleOf, happ, fakeQuant]

/-- **C117** (before the first forward pass): the conversion of a layer that has never run keeps
the weights' values, and the bias exactly, unless every bias happens to be an integer. -/
theorem C117_fresh_partial (s : ConvSetup) (hs : s.Ok) (reduce : Bool) (st : ℚ) (zt : ℤ)
    (hout : qparamsToTorch s.cfg.outScale s.cfg.outZp 8 s.aMode .quint8 reduce = .ok (st, zt))
    (hni : ¬ ∀ w ∈ s.ws, w.2.1 = (truncZ w.2.1 : ℚ)) :
    ∃ tl, Layer.toTorch s.cfg s.wMode 8 s.aMode 8 reduce s.layer = .ok tl ∧ tl.chans.length = s.ws.length ∧
      ∀ (j : ℕ) (t : TorchChan) (wf : List ℚ) (b : ℚ) (r p : ℚ × ℚ) (junk : ℚ), tl.chans[j]? = some t → s.ws[j]? = some (wf, b, r, p, junk) →
        t.realWeights = wf.map (fun x => fakeQuant x p.1 p.2 s.cfg.wRange) ∧ t.bias = b := by
  obtain ⟨tl, h1, h2, h3, h4, h5, h6⟩ := toTorch_canon s hs 1 0 reduce st zt hout
  rw [← canon_init] at h1
  refine ⟨tl, h1, h5, ?_⟩
  intro j t wf b r p junk ht hw
  obtain ⟨g1, -, g3, -⟩ := h6 j t _ ht hw
  exact ⟨g1, g3 rfl hni⟩

/-- **C117** (integer biases before the first forward pass): if every bias is an integer, the
conversion takes them for quantized ones and divides each by the accumulator-scale buffer, which
is uninitialised memory until the first forward pass. -/
theorem C117_violated_integer_bias (s : ConvSetup) (hs : s.Ok) (reduce : Bool) (st : ℚ) (zt : ℤ)
    (hout : qparamsToTorch s.cfg.outScale s.cfg.outZp 8 s.aMode .quint8 reduce = .ok (st, zt))
    (hint : ∀ w ∈ s.ws, w.2.1 = (truncZ w.2.1 : ℚ)) :
    ∃ tl, Layer.toTorch s.cfg s.wMode 8 s.aMode 8 reduce s.layer = .ok tl ∧
      ∀ (j : ℕ) (t : TorchChan) (wf : List ℚ) (b : ℚ) (r p : ℚ × ℚ) (junk : ℚ), tl.chans[j]? = some t → s.ws[j]? = some (wf, b, r, p, junk) → t.bias = b / junk := by
  obtain ⟨tl, h1, h2, h3, h4, h5, h6⟩ := toTorch_canon s hs 1 0 reduce st zt hout
  rw [← canon_init] at h1
  refine ⟨tl, h1, ?_⟩
  intro j t wf b r p junk ht hw
  obtain ⟨-, -, -, g4⟩ := h6 j t _ ht hw
  exact g4 rfl hint

/-- **C117** (no bias): a layer without bias cannot be converted, whatever its state, if its
weights can. -/
theorem C117_violated_no_bias (cfg : LayerCfg) (wMode aMode : QMode) (reduce : Bool) (l : Layer)
    (ts : List TorchChan) (hts : chansToTorch wMode 8 l.chans = .ok ts) (c : Chan) (hc : c ∈ l.chans)
    (hb : c.fpBias = none) : Layer.toTorch cfg wMode 8 aMode 8 reduce l = .error .attribute := by
  unfold Layer.toTorch
  rw [if_neg (by simp), if_neg (by simp), hts]
  change (if l.chans.any (fun c => c.fpBias.isNone) then _ else _) = _
  rw [if_pos]
  rw [List.any_eq_true]
  exact ⟨c, hc, by simp [hb]⟩

/-- **C117** (other bit widths are refused). -/
theorem C117_only_8_bits (cfg : LayerCfg) (wMode aMode : QMode) (wBits aBits : ℕ) (reduce : Bool) (l : Layer)
    (h : wBits ≠ 8 ∨ aBits ≠ 8) : Layer.toTorch cfg wMode wBits aMode aBits reduce l = .error .assertion := by
  unfold Layer.toTorch
  rcases h with h | h
  · by_cases ha : aBits = 8 <;> simp [h, ha]
  · simp [h]

theorem castTo_mod (d : TDtype) (n : ℤ) : ∃ k : ℤ, castTo d (n : ℚ) = n + 256 * k := by
  unfold castTo
  rw [truncZ_int]
  cases d
  · refine ⟨-((n + 128) / 256), ?_⟩
    have := Int.emod_add_mul_ediv (n + 128) 256
    simp only; omega
  · refine ⟨-(n / 256), ?_⟩
    have := Int.emod_add_mul_ediv n 256
    simp only; omega

theorem shifted_weight_wrong (mode : QMode) (lo hi : ℚ) (p : ℚ × ℚ)
    (hp : modeParams mode 8 lo hi = .ok p) (hz : p.2 ≠ 0) (x : ℚ) :
    ∃ (n : ℤ) (st : ℚ) (zt : ℤ),
      tensorToTorch (linearQuantizeClamp x p.1 p.2 (modeRange mode 8).1 (modeRange mode 8).2 + p.2) p.1 p.2 8 mode .qint8 = .ok (n, st, zt) ∧
      torchDequantize n st zt ≠ fakeQuant x p.1 p.2 (modeRange mode 8) := by
  obtain ⟨scale, zp⟩ := p
  obtain ⟨hs, ⟨z, rfl, hz1, hz2⟩, -, -⟩ := modeParams_image mode 8 (by norm_num) lo hi scale zp hp
  obtain ⟨m, hm, hm1, hm2⟩ := quantClamp_int x scale z (modeRange mode 8) (modeRange_le mode) ⟨z, rfl⟩
  have hz0 : z ≠ 0 := by simpa using hz
  have hb : -256 < z ∧ z < 256 := by
    cases mode
    · rw [modeRange_sym] at hz1 hz2; norm_num at hz1 hz2; omega
    · rw [modeRange_symR] at hz1 hz2; norm_num at hz1 hz2; omega
    · rw [modeRange_unsigned] at hz1 hz2; norm_num at hz1 hz2; omega
    · rw [modeRange_signed] at hz1 hz2; norm_num at hz1 hz2; omega
  obtain ⟨st, zt, hqp, hst⟩ : ∃ (st : ℚ) (zt : ℤ), qparamsToTorch scale z 8 mode .qint8 false = .ok (st, zt) ∧ st = 1 / scale := by
    unfold qparamsToTorch; exact ⟨1 / scale, convertZp (truncZ z) 8 mode .qint8, by simp, rfl⟩
  obtain ⟨k, hk⟩ := castTo_mod .qint8 (m + z + zt + z)
  refine ⟨castTo .qint8 ((m + z + zt + z : ℤ) : ℚ), st, zt, ?_, ?_⟩
  · simp only [hm]
    unfold tensorToTorch
    rw [show ((m : ℚ) + z) = ((m + z : ℤ) : ℚ) by push_cast; rfl, truncZ_int, if_neg (by simp), hqp]
    show Except.ok (castTo .qint8 (((m + z : ℤ) : ℚ) - (-(zt : ℚ) - z)), st, zt) = _
    rw [show (((m + z : ℤ) : ℚ) - (-(zt : ℚ) - z)) = ((m + z + zt + z : ℤ) : ℚ) by push_cast; ring]
  · intro he
    rw [hk] at he
    unfold torchDequantize fakeQuant linearDequantize at he
    rw [hm, hst, mul_one_div, div_left_inj' hs.ne'] at he
    have he' : ((m + z + zt + z + 256 * k : ℤ) : ℚ) - zt = (m : ℚ) + z := he
    have : m + z + zt + z + 256 * k - zt = m + z := by exact_mod_cast he'
    omega

theorem chansToTorch_get (mode : QMode) (bits : ℕ) (cs : List Chan) : ∀ (ts : List TorchChan), chansToTorch mode bits cs = .ok ts →
    ∀ (j : ℕ) (t : TorchChan) (c : Chan), ts[j]? = some t → cs[j]? = some c → chanToTorch mode bits c = .ok t := by
  induction cs with
  | nil => intro ts h j t c _ hc; simp at hc
  | cons a cs ih =>
    intro ts h j t c ht hc
    simp only [chansToTorch] at h
    cases h1 : chanToTorch mode bits a with
    | error e => rw [h1] at h; cases h
    | ok b =>
      rw [h1] at h
      change (chansToTorch mode bits cs >>= fun x => pure (b :: x)) = _ at h
      cases h2 : chansToTorch mode bits cs with
      | error e => rw [h2] at h; cases h
      | ok bs =>
        rw [h2] at h
        cases h
        cases j with
        | zero =>
          simp only [List.getElem?_cons_zero, Option.some.injEq] at ht hc
          subst ht; subst hc; exact h1
        | succ j => exact ih bs h2 j t c (by simpa using ht) (by simpa using hc)

theorem weightsToTorch_get (mode : QMode) (bits : ℕ) (scale zp : ℚ) (qs : List ℚ) : ∀ (ns : List ℤ),
    weightsToTorch mode bits scale zp qs = .ok ns → ∀ (i : ℕ) (n : ℤ), ns[i]? = some n →
    ∃ (q : ℚ) (t : ℤ × ℚ × ℤ), qs[i]? = some q ∧ tensorToTorch q scale zp bits mode .qint8 = .ok t ∧ n = t.1 := by
  induction qs with
  | nil => intro ns h i n hn; cases h; simp at hn
  | cons a qs ih =>
    intro ns h i n hn
    simp only [weightsToTorch] at h
    cases h1 : tensorToTorch a scale zp bits mode .qint8 with
    | error e => rw [h1] at h; cases h
    | ok b =>
      rw [h1] at h
      change (weightsToTorch mode bits scale zp qs >>= fun x => pure (b.1 :: x)) = _ at h
      cases h2 : weightsToTorch mode bits scale zp qs with
      | error e => rw [h2] at h; cases h
      | ok bs =>
        rw [h2] at h
        cases h
        cases i with
        | zero =>
          simp only [List.getElem?_cons_zero, Option.some.injEq] at hn
          exact ⟨a, b, by simp, h1, hn.symm⟩
        | succ i =>
          obtain ⟨q, t, g1, g2, g3⟩ := ih bs h2 i n (by simpa using hn)
          exact ⟨q, t, by simpa using g1, g2, g3⟩

/-- **C117** (asymmetric weights after a forward pass): if the last thing done with the layer was
a forward pass and the weights are asymmetric, every single converted weight of every channel with
a non-zero zero-point is wrong. -/
theorem C117_violated_after_forward (s : ConvSetup) (hs : s.Ok) (hasym : s.wMode.isSym = false) (sx : ℚ)
    (ops : List LayerOp) (hsx : ∀ q' ps, LayerOp.forward q' ps ∈ ops → q'.scale = sx)
    (q : QMeta) (ps : List (List ℚ)) (hq : q.scale = sx) (aMode : QMode) (reduce : Bool) (tl : TorchLayer)
    (h : Layer.toTorch s.cfg s.wMode 8 aMode 8 reduce (runLayer s.cfg s.layer (ops ++ [.forward q ps])).1 = .ok tl) :
    ∀ (j : ℕ) (t : TorchChan) (wf : List ℚ) (b : ℚ) (r p : ℚ × ℚ) (junk : ℚ), tl.chans[j]? = some t →
      s.ws[j]? = some (wf, b, r, p, junk) → p.2 ≠ 0 →
      ∀ (i : ℕ) (v x : ℚ), t.realWeights[i]? = some v → wf[i]? = some x → v ≠ fakeQuant x p.1 p.2 s.cfg.wRange := by
  intro j t wf b r p junk ht hw hp i v x hv hx
  have hA : s.cfg.asymW = true := by rw [hs.asym, hasym]; rfl
  have hreach := reach_shifted s.cfg sx (s.ws.map s.chan) ops hsx q ps hq hA
  change Layer.toTorch s.cfg s.wMode 8 aMode 8 reduce (runLayer s.cfg (Layer.init (s.ws.map s.chan)) (ops ++ [.forward q ps])).1 = _ at h
  rw [hreach] at h
  unfold Layer.toTorch at h
  rw [if_neg (by simp), if_neg (by simp)] at h
  cases hcs : chansToTorch s.wMode 8 (canonLayer s.cfg sx (s.ws.map s.chan) true (forwardsIn ops + 1)).chans with
  | error e => rw [hcs] at h; cases h
  | ok cs =>
    rw [hcs] at h
    change (if _ then _ else _) = _ at h
    split at h
    · cases h
    · cases hout : qparamsToTorch s.cfg.outScale s.cfg.outZp 8 aMode .quint8 reduce with
      | error e => rw [hout] at h; cases h
      | ok o =>
        rw [hout] at h
        cases h
        simp only [List.getElem?_zipWith] at ht
        cases hc : cs[j]? with
        | none => simp [hc] at ht
        | some t0 =>
          cases hc2 : (canonLayer s.cfg sx (s.ws.map s.chan) true (forwardsIn ops + 1)).chans[j]? with
          | none => simp [hc, hc2] at ht
          | some c0 =>
            simp only [hc, hc2, Option.some.injEq] at ht
            subst ht
            have hch := chansToTorch_get s.wMode 8 _ cs hcs j t0 c0 hc hc2
            have hc0 : c0.w = (wf.map fun x => linearQuantizeClamp x p.1 p.2 s.cfg.wRange.1 s.cfg.wRange.2).map (· + p.2) ∧
                c0.wScale = p.1 ∧ c0.wZp = p.2 := by
              simp only [canonLayer, List.getElem?_map, hw, Option.map_some, Option.some.injEq] at hc2
              subst hc2
              exact ⟨rfl, rfl, rfl⟩
            unfold chanToTorch at hch
            rw [hc0.1, hc0.2.1, hc0.2.2] at hch
            cases hqp : qparamsToTorch p.1 p.2 8 s.wMode .qint8 false with
            | error e => rw [hqp] at hch; cases hch
            | ok sz =>
              rw [hqp] at hch
              change (weightsToTorch s.wMode 8 p.1 p.2 _ >>= fun w => pure _) = _ at hch
              cases hwt : weightsToTorch s.wMode 8 p.1 p.2 ((wf.map fun x => linearQuantizeClamp x p.1 p.2 s.cfg.wRange.1 s.cfg.wRange.2).map (· + p.2)) with
              | error e => rw [hwt] at hch; cases hch
              | ok ns =>
                rw [hwt] at hch
                cases hch
                simp only [TorchChan.realWeights, List.getElem?_map] at hv
                cases hn : ns[i]? with
                | none => simp [hn] at hv
                | some n =>
                  simp only [hn, Option.map_some, Option.some.injEq] at hv
                  obtain ⟨qv, tt, g1, g2, g3⟩ := weightsToTorch_get s.wMode 8 p.1 p.2 _ ns hwt i n hn
                  simp only [List.getElem?_map, hx, Option.map_some, Option.some.injEq] at g1
                  subst g1
                  have hpar : modeParams s.wMode 8 r.1 r.2 = .ok p := hs.params (wf, b, r, p, junk) (List.mem_of_getElem? hw)
                  obtain ⟨n', st, zt, e1, e2⟩ := shifted_weight_wrong s.wMode r.1 r.2 p hpar hp x
                  rw [hs.range] at g2
                  rw [e1] at g2
                  cases g2
                  have hsz : sz = (st, zt) := by
                    unfold tensorToTorch at e1
                    split at e1
                    · cases e1
                    · rw [hqp] at e1
                      have e1' := congrArg (fun r : Except Err (ℤ × ℚ × ℤ) => r.toOption.map Prod.snd) e1
                      exact Option.some.inj e1'
                  subst hsz
                  rw [← hv, hs.range, g3]
                  exact e2

/-- **C117** (end to end): with the same hypotheses, a backend that does not reduce the range and
activations that are not in the restricted mode, the converted module's output stands for exactly
the number Distiller's layer outputs, on every input whose accumulator does not saturate and whose
result is not half-way between two output grid points. -/
theorem C117_same_output_partial (s : ConvSetup) (hs : s.Ok) (happ : s.cfg.approxBits = none) (q : QMeta) (hsx0 : 0 < q.scale)
    (ops : List LayerOp) (hsx : ∀ q' ps, LayerOp.forward q' ps ∈ ops → q'.scale = q.scale)
    (hun : Unshifted s.cfg.asymW ops) (hfw : 0 < forwardsIn ops)
    (ha : s.aMode ≠ .symmetricRestricted) (alo ahi : ℚ)
    (hap : modeParams s.aMode 8 alo ahi = .ok (s.cfg.outScale, s.cfg.outZp)) (har : s.cfg.actRange = modeRange s.aMode 8) :
    ∃ tl, Layer.toTorch s.cfg s.wMode 8 s.aMode 8 false (runLayer s.cfg s.layer ops).1 = .ok tl ∧
      ∀ (patches : List (List ℚ)) (i j : ℕ) (x : List ℚ) (t : TorchChan) (wf : List ℚ) (b : ℚ) (r p : ℚ × ℚ) (junk : ℚ), patches[i]? = some x → tl.chans[j]? = some t →
        s.ws[j]? = some (wf, b, r, p, junk) →
        let y := realAccum q s.cfg.wRange s.cfg.accRange p wf (some b) x
        (s.cfg.accRange.1 : ℚ) ≤ q.scale * p.1 * y → q.scale * p.1 * y ≤ s.cfg.accRange.2 →
        Int.fract (s.cfg.outScale * (if s.cfg.clipHalf then max y 0 else y)) ≠ 1/2 →
        ∃ outs, ((runLayer s.cfg s.layer ops).1.forward s.cfg q patches).2[i]? = some outs ∧
          outs[j]? = some (tl.outValue t (x.map fun v => fakeQuant v q.scale q.zp q.range)) := by
  obtain ⟨st, zt, hout, -, -⟩ := C82_quantize_agrees s.aMode ha alo ahi _ _ hap .quint8 0
  obtain ⟨tl, h1, h2, h3, h4, h5, h6⟩ := C117_preactivation_partial s hs happ q ops hsx hun hfw false st zt hout
  refine ⟨tl, h1, ?_⟩
  intro patches i j x t wf b r p junk hx ht hw y hsat1 hsat2 htie
  obtain ⟨-, hpre⟩ := h6 j t wf b r p junk ht hw
  have hmem := List.mem_of_getElem? hw
  have hpos : ∀ w ∈ s.ws, 0 < w.2.2.2.1.1 := by
    intro w hw
    exact (modeParams_image s.wMode 8 (by norm_num) _ _ _ _ (hs.params w hw)).1
  -- the layer's own output
  set ws' : List (List ℚ × Option ℚ × (ℚ × ℚ) × ℚ) := s.ws.map fun w => (w.1, some w.2.1, w.2.2.2.1, w.2.2.2.2) with hws'
  have hlay : s.layer = Layer.init (ws'.map fun w => Chan.init s.cfg w.1 w.2.1 w.2.2.1 w.2.2.2) := by
    unfold ConvSetup.layer
    simp only [hws', List.map_map, Function.comp_def]
    rfl
  have hfwd : ((runLayer s.cfg s.layer ops).1.forward s.cfg q patches).2 = (s.layer.forward s.cfg q patches).2 := by
    show ((runLayer s.cfg (Layer.init (s.ws.map s.chan)) ops).1.forward s.cfg q patches).2 = ((Layer.init (s.ws.map s.chan)).forward s.cfg q patches).2
    rw [reach_unshifted s.cfg q.scale _ ops hsx hun, canon_forward s.cfg q patches _ false _ (by simp)]
  have hsym : s.cfg.asymW = false → ∀ w ∈ ws', w.2.2.1.2 = 0 := by
    intro has w hw
    rw [hs.asym] at has
    have hm : s.wMode.isSym = true := by simpa using has
    simp only [hws', List.mem_map] at hw
    obtain ⟨w0, hw0, rfl⟩ := hw
    have := hs.params w0 hw0
    unfold modeParams symParams at this
    rw [if_pos hm] at this
    split at this
    · cases this
    · injection this with this
      exact (congrArg Prod.snd this).symm
  obtain ⟨outs, ho1, ho2⟩ := C34_integer_inference s.cfg happ q hsx0 ws'
    (by intro w hw; simp only [hws', List.mem_map] at hw; obtain ⟨w0, hw0, rfl⟩ := hw; exact hpos w0 hw0) hsym patches i j x wf (some b) p junk hx
    (by rw [hws', List.getElem?_map, hw]; rfl) hsat1 hsat2
  refine ⟨outs, ?_, ?_⟩
  · rw [hfwd, hlay]; exact ho1
  · rw [ho2]
    congr 1
    obtain ⟨st', zt', hout', hag, -⟩ := C82_quantize_agrees s.aMode ha alo ahi _ _ hap .quint8 (if s.cfg.clipHalf then max y 0 else y)
    rw [hout] at hout'
    simp only [Except.ok.injEq, Prod.mk.injEq] at hout'
    obtain ⟨rfl, rfl⟩ := hout'
    unfold TorchLayer.outValue
    rw [h2, h3, h4, hpre x, hag htie, har]

/-! ### Non-vacuity -/

def exConv : ConvSetup :=
  ⟨⟨true, (0, 255), (0, 255), (-2147483648, 2147483647), true, none, 51, 0⟩, .asymmetricUnsigned, .asymmetricUnsigned,
    [([1, -1/2], 1/4, (-1/2, 2), (102, -51), 7)]⟩

example : exConv.Ok :=
  ⟨by decide, by decide +kernel, by decide, by decide +kernel⟩

def exInMeta : QMeta := ⟨10, 0, (0, 255)⟩
def exHistTL : List LayerOp := [.forward exInMeta [[1, 2]], .stateDict]

/-- The hypotheses of the theorems hold together on a layer with asymmetric weights and a fused
ReLU, after a forward pass and a save; a conversion without the save is wrong. -/
example : Unshifted exConv.cfg.asymW exHistTL ∧ 0 < forwardsIn exHistTL ∧
    modeParams exConv.aMode 8 0 5 = .ok (exConv.cfg.outScale, exConv.cfg.outZp) ∧
    (exConv.layer.toTorch exConv.cfg .asymmetricUnsigned 8 .asymmetricUnsigned 8 false).toOption.map (fun t => t.chans.map (fun c => c.realWeights)) = some [[1, -1/2]] ∧
    ((runLayer exConv.cfg exConv.layer exHistTL).1.toTorch exConv.cfg .asymmetricUnsigned 8 .asymmetricUnsigned 8 false).toOption.map
      (fun t => t.chans.map (fun c => c.realWeights)) = some [[1, -1/2]] ∧
    ((runLayer exConv.cfg exConv.layer [.forward exInMeta [[1, 2]]]).1.toTorch exConv.cfg .asymmetricUnsigned 8 .asymmetricUnsigned 8 false).toOption.map
      (fun t => t.chans.map (fun c => c.realWeights)) ≠ some [[1, -1/2]] :=
  ⟨by right; right; decide, by decide, by decide +kernel, by decide +kernel, by decide +kernel, by decide +kernel⟩

end Verif
