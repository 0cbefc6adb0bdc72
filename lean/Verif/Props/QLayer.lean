import Verif.Model.QLayer
import Verif.Props.Quant
/-!
# C34, C35: integer inference of quantized layers, and weight shifting
-/
namespace Verif

/-! ## C34 -/

theorem dot_scale (xq wq : List ℚ) (zx zw sx sw : ℚ) (hx : sx ≠ 0) (hw : sw ≠ 0) :
    dot (xq.map (· + zx)) (wq.map (· + zw)) = sx * sw *
      dot (xq.map fun v => linearDequantize v sx zx) (wq.map fun v => linearDequantize v sw zw) := by
  induction xq generalizing wq with
  | nil => simp [dot]
  | cons x xq ih =>
    cases wq with
    | nil => simp [dot]
    | cons w wq =>
      have := ih wq
      unfold dot linearDequantize at *
      simp only [List.map_cons, List.zipWith_cons_cons, List.sum_cons, this]
      field_simp

/-- Specification: the layer's real-valued result on fake-quantized operands: the dot product of
the de-quantized input and de-quantized weights, plus the bias quantized to the accumulator scale. -/
def realAccum (q : QMeta) (wRange accRange : ℤ × ℤ) (p : ℚ × ℚ) (wf : List ℚ) (bias : Option ℚ) (x : List ℚ) : ℚ :=
  dot (x.map fun v => fakeQuant v q.scale q.zp q.range) (wf.map fun v => fakeQuant v p.1 p.2 wRange) +
    (match bias with
      | some b => fakeQuant b (q.scale * p.1) 0 accRange
      | none => 0)

/-- The state of a layer after readjusting and shifting once. -/
theorem forward_init (cfg : LayerCfg) (q : QMeta) (patches : List (List ℚ)) (cs : List Chan) :
    (Layer.forward cfg q patches (Layer.init cs)).2 =
      patches.map fun p => cs.map fun c =>
        let a := accumScaleOf cfg q.scale c.wScale
        let c' : Chan := ⟨if cfg.asymW then c.w.map (· + c.wZp) else c.w, c.wScale, c.wZp, c.floatW, c.fpBias,
          biasQOf cfg a c.fpBias, a⟩
        chanOut cfg c' (chanAccum cfg q c' (quantInput q p)) := by
  unfold Layer.forward Layer.init Layer.readjust Layer.shift
  by_cases h : cfg.asymW = true
  · simp [h, List.map_map, Function.comp_def]
  · simp [h, List.map_map, Function.comp_def]

/-- **C34** For every layer built from float weights with positive scales (per tensor or per
channel, symmetric – zero-point 0 – or asymmetric), every input and every output position, the
wrapper's output is exactly the fake-quantization, with the output parameters, of the real-valued
layer result on fake-quantized operands (after the fused ReLU if any), provided the accumulator
does not saturate. -/
theorem C34_integer_inference (cfg : LayerCfg) (happ : cfg.approxBits = none)
    (q : QMeta) (hsx : 0 < q.scale)
    (ws : List (List ℚ × Option ℚ × (ℚ × ℚ) × ℚ)) (hw : ∀ w ∈ ws, 0 < w.2.2.1.1)
    (hsym : cfg.asymW = false → ∀ w ∈ ws, w.2.2.1.2 = 0)
    (patches : List (List ℚ)) (i j : ℕ) (x wf : List ℚ) (bias : Option ℚ) (p : ℚ × ℚ) (junk : ℚ)
    (hx : patches[i]? = some x) (hj : ws[j]? = some (wf, bias, p, junk))
    (hsat1 : (cfg.accRange.1 : ℚ) ≤ q.scale * p.1 * realAccum q cfg.wRange cfg.accRange p wf bias x)
    (hsat2 : q.scale * p.1 * realAccum q cfg.wRange cfg.accRange p wf bias x ≤ cfg.accRange.2) :
    let l := Layer.init (ws.map fun w => Chan.init cfg w.1 w.2.1 w.2.2.1 w.2.2.2)
    let y := realAccum q cfg.wRange cfg.accRange p wf bias x
    ∃ outs, (l.forward cfg q patches).2[i]? = some outs ∧
      outs[j]? = some (fakeQuant (if cfg.clipHalf then max y 0 else y) cfg.outScale cfg.outZp cfg.actRange) := by
  intro l y
  have hmem : (wf, bias, p, junk) ∈ ws := List.mem_of_getElem? hj
  have hsw : 0 < p.1 := hw _ hmem
  have hA : 0 < q.scale * p.1 := mul_pos hsx hsw
  show ∃ outs, (Layer.forward cfg q patches (Layer.init _)).2[i]? = some outs ∧ _
  rw [forward_init, List.getElem?_map, hx]
  refine ⟨_, rfl, ?_⟩
  rw [List.getElem?_map, List.getElem?_map, hj]
  simp only [Option.map_some]
  congr 1
  have ha : accumScaleOf cfg q.scale p.1 = q.scale * p.1 := by
    unfold accumScaleOf; rw [happ]
  have hwsh : (if cfg.asymW then (Chan.init cfg wf bias p junk).w.map (· + (Chan.init cfg wf bias p junk).wZp)
      else (Chan.init cfg wf bias p junk).w) =
      (wf.map fun v => linearQuantizeClamp v p.1 p.2 cfg.wRange.1 cfg.wRange.2).map (· + p.2) := by
    by_cases h : cfg.asymW = true
    · simp [h, Chan.init]
    · have h' : cfg.asymW = false := by simpa using h
      have := hsym h' _ hmem
      dsimp only at this
      simp [h, Chan.init, this]
  have hacc : dot ((quantInput q x).map (· + q.zp))
      ((wf.map fun v => linearQuantizeClamp v p.1 p.2 cfg.wRange.1 cfg.wRange.2).map (· + p.2)) +
      biasQOf cfg (q.scale * p.1) bias = q.scale * p.1 * y := by
    rw [dot_scale _ _ q.zp p.2 q.scale p.1 hsx.ne' hsw.ne']
    show _ = q.scale * p.1 * realAccum q cfg.wRange cfg.accRange p wf bias x
    unfold realAccum quantInput fakeQuant biasQOf
    rw [mul_add]
    congr 1
    · simp only [List.map_map, Function.comp_def]
    · cases bias with
      | none => simp
      | some b =>
        simp only
        unfold linearDequantize
        rw [add_zero, mul_div_cancel₀ _ hA.ne']
  have hfinal : ∀ c : Chan, c.w = (wf.map fun v => linearQuantizeClamp v p.1 p.2 cfg.wRange.1 cfg.wRange.2).map (· + p.2) →
      c.biasQ = biasQOf cfg (q.scale * p.1) bias → chanAccum cfg q c (quantInput q x) = q.scale * p.1 * y := by
    intro c h1 h2
    unfold chanAccum
    rw [h1, h2, hacc]
    unfold clampQ
    rw [max_eq_left hsat1, min_eq_left hsat2]
  rw [hfinal _ hwsh (by show biasQOf cfg (accumScaleOf cfg q.scale p.1) bias = _; rw [ha])]
  unfold chanOut fakeQuant
  show linearDequantize (linearQuantizeClamp _ (match cfg.approxBits with
    | none => cfg.outScale / accumScaleOf cfg q.scale p.1
    | some m => _) _ _ _) _ _ = _
  rw [happ, ha]
  have hrelu : (if cfg.clipHalf then max (q.scale * p.1 * y) 0 else q.scale * p.1 * y)
      = q.scale * p.1 * (if cfg.clipHalf then max y 0 else y) := by
    split
    · rw [mul_max_of_nonneg _ _ hA.le, mul_zero]
    · rfl
  rw [hrelu]
  congr 1
  unfold linearQuantizeClamp linearQuantize
  simp only
  congr 3
  field_simp

/-! ## C35 -/

/-- Canonical form of the states a layer reaches from `cs` by forward passes (with input scale
`sx`) and `state_dict` calls. -/
def canonLayer (cfg : LayerCfg) (sx : ℚ) (cs : List Chan) (sh : Bool) (nf : ℕ) : Layer :=
  ⟨cs.map fun c =>
    ⟨if sh then c.w.map (· + c.wZp) else c.w, c.wScale, c.wZp, c.floatW, c.fpBias,
      if nf = 0 then c.biasQ else biasQOf cfg (accumScaleOf cfg sx c.wScale) c.fpBias,
      if nf = 0 then c.accumScale else accumScaleOf cfg sx c.wScale⟩, sh, nf, false⟩

theorem canon_init (cfg : LayerCfg) (sx : ℚ) (cs : List Chan) : Layer.init cs = canonLayer cfg sx cs false 0 := by
  unfold Layer.init canonLayer
  simp

theorem canon_forward (cfg : LayerCfg) (q : QMeta) (patches : List (List ℚ)) (cs : List Chan) (sh : Bool) (nf : ℕ)
    (hsh : sh = true → cfg.asymW = true) :
    Layer.forward cfg q patches (canonLayer cfg q.scale cs sh nf)
      = (canonLayer cfg q.scale cs cfg.asymW (nf + 1), (Layer.forward cfg q patches (Layer.init cs)).2) := by
  rw [forward_init]
  have hadj : (Layer.readjust cfg q.scale (canonLayer cfg q.scale cs sh nf)) =
      { canonLayer cfg q.scale cs sh (nf + 1) with numForwards := nf } := by
    unfold Layer.readjust canonLayer
    by_cases h0 : nf = 0
    · simp [h0, List.map_map, Function.comp_def]
    · simp [h0]
  have hs : Layer.shift cfg { canonLayer cfg q.scale cs sh (nf + 1) with numForwards := nf }
      = { canonLayer cfg q.scale cs cfg.asymW (nf + 1) with numForwards := nf } := by
    unfold Layer.shift canonLayer
    cases sh
    · by_cases ha : cfg.asymW = true
      · simp [ha, List.map_map, Function.comp_def]
      · have ha' : cfg.asymW = false := by simpa using ha
        simp [ha']
    · simp [hsh rfl]
  unfold Layer.forward
  rw [hadj, hs]
  unfold canonLayer
  simp [List.map_map, Function.comp_def]

theorem canon_stateDict (cfg : LayerCfg) (sx : ℚ) (cs : List Chan) (sh : Bool) (nf : ℕ) :
    Layer.stateDict (canonLayer cfg sx cs sh nf) = (canonLayer cfg sx cs false nf, cs.map (·.w)) := by
  unfold Layer.stateDict canonLayer
  cases sh
  · simp [List.map_map, Function.comp_def]
  · simp [List.map_map, Function.comp_def]

/-- What a user can do with a layer. -/
inductive LayerOp where
  | forward (q : QMeta) (patches : List (List ℚ))
  | stateDict
  deriving DecidableEq, Repr

def LayerOp.step (cfg : LayerCfg) (l : Layer) : LayerOp → Layer × List (List ℚ)
  | .forward q ps => l.forward cfg q ps
  | .stateDict => l.stateDict

/-- State after a history, and the results of all its operations. -/
def runLayer (cfg : LayerCfg) : Layer → List LayerOp → Layer × List (List (List ℚ))
  | l, [] => (l, [])
  | l, op :: ops =>
    let r := op.step cfg l
    let r' := runLayer cfg r.1 ops
    (r'.1, r.2 :: r'.2)

/-- **C35** For every interleaving of forward passes and `state_dict` calls (inputs having one
scale, as with preset statistics): every forward pass returns what the first one would on that
input, every `state_dict` contains the unshifted integer weights, and at every point the simulated
weights are the integer weights, plus the zero-point at most once. -/
theorem C35_history (cfg : LayerCfg) (sx : ℚ) (cs : List Chan) (ops : List LayerOp)
    (hsx : ∀ q ps, LayerOp.forward q ps ∈ ops → q.scale = sx) :
    let r := runLayer cfg (Layer.init cs) ops
    (∀ (i : ℕ) (q : QMeta) (ps : List (List ℚ)), ops[i]? = some (.forward q ps) →
      r.2[i]? = some ((Layer.init cs).forward cfg q ps).2) ∧
    (∀ (i : ℕ), ops[i]? = some .stateDict → r.2[i]? = some (cs.map (·.w))) ∧
    (r.1.chans.map (·.w) = cs.map (·.w) ∨
      cfg.asymW = true ∧ r.1.chans.map (·.w) = cs.map fun c => c.w.map (· + c.wZp)) := by
  have H : ∀ (ops : List LayerOp) (sh : Bool) (nf : ℕ), (sh = true → cfg.asymW = true) →
      (∀ q ps, LayerOp.forward q ps ∈ ops → q.scale = sx) →
      let r := runLayer cfg (canonLayer cfg sx cs sh nf) ops
      (∀ (i : ℕ) (q : QMeta) (ps : List (List ℚ)), ops[i]? = some (.forward q ps) →
        r.2[i]? = some ((Layer.init cs).forward cfg q ps).2) ∧
      (∀ (i : ℕ), ops[i]? = some .stateDict → r.2[i]? = some (cs.map (·.w))) ∧
      ∃ sh' nf', (sh' = true → cfg.asymW = true) ∧ r.1 = canonLayer cfg sx cs sh' nf' := by
    intro ops
    induction ops with
    | nil => intro sh nf h _; exact ⟨by simp, by simp, sh, nf, h, rfl⟩
    | cons op ops ih =>
      intro sh nf hsh hq
      have hq' : ∀ q ps, LayerOp.forward q ps ∈ ops → q.scale = sx := fun q ps h => hq q ps (by simp [h])
      cases op with
      | forward q ps =>
        have e := hq q ps (by simp)
        subst e
        obtain ⟨h1, h2, h3⟩ := ih cfg.asymW (nf + 1) (fun h => h) hq'
        simp only [runLayer, LayerOp.step, canon_forward cfg q ps cs sh nf hsh]
        refine ⟨?_, ?_, h3⟩
        · intro i q' ps' hi
          cases i with
          | zero => simp at hi; obtain ⟨rfl, rfl⟩ := hi; rfl
          | succ i => exact h1 i q' ps' (by simpa using hi)
        · intro i hi
          cases i with
          | zero => simp at hi
          | succ i => exact h2 i (by simpa using hi)
      | stateDict =>
        obtain ⟨h1, h2, h3⟩ := ih false nf (by simp) hq'
        simp only [runLayer, LayerOp.step, canon_stateDict]
        refine ⟨?_, ?_, h3⟩
        · intro i q' ps' hi
          cases i with
          | zero => simp at hi
          | succ i => exact h1 i q' ps' (by simpa using hi)
        · intro i hi
          cases i with
          | zero => rfl
          | succ i => exact h2 i (by simpa using hi)
  intro r
  have := H ops false 0 (by simp) hsx
  rw [← canon_init] at this
  obtain ⟨h1, h2, sh', nf', hs', h3⟩ := this
  refine ⟨h1, h2, ?_⟩
  show (runLayer cfg (Layer.init cs) ops).1.chans.map (·.w) = _ ∨ _ ∧ (runLayer cfg (Layer.init cs) ops).1.chans.map (·.w) = _
  rw [h3]
  unfold canonLayer
  cases sh'
  · left; simp [List.map_map, Function.comp_def]
  · right; exact ⟨hs' rfl, by simp [List.map_map, Function.comp_def]⟩

def exCfg : LayerCfg := ⟨true, (0, 15), (0, 15), (-2147483648, 2147483647), false, none, 5, -2⟩
def exChan : Chan := Chan.init exCfg [1, -1/2] (some (1/4)) (10, -5) 7
def exMeta : QMeta := ⟨5, 0, (0, 15)⟩

/-- Non-vacuity of C34 and C35: a history with interleaved saves, and one whose output is not on
the input grid. -/
example : (Layer.forward exCfg exMeta [[1, 2]] (Layer.init [exChan])).2 = [[1/5]] ∧
    realAccum exMeta exCfg.wRange exCfg.accRange (10, -5) [1, -1/2] (some (1/4)) [1, 2] = 6/25 ∧
    (runLayer exCfg (Layer.init [exChan]) [.forward exMeta [[1, 2]], .stateDict, .forward exMeta [[1, 2]]]).2
      = [[[1/5]], [[15, 0]], [[1/5]]] := by decide +kernel

/-- **C35** is violated once weights are re-quantized after a forward pass
(`set_linear_quant_param('w_scale', v)`, also used by the `weight_clipping` setter): the weights are
reset but the "already shifted" flag is not.  Even setting the scale to the value it already has
changes the output for the same input and corrupts the saved weights. -/
theorem C35_violated_requantize_after_forward : ∃ (cfg : LayerCfg) (cs : List Chan) (q : QMeta) (x : List (List ℚ)),
    let l1 := ((Layer.init cs).forward cfg q x).1
    let l2 := l1.setW cfg true 10
    (∀ c ∈ cs, c.wScale = 10) ∧
    (l2.forward cfg q x).2 ≠ ((Layer.init cs).forward cfg q x).2 ∧
    l2.stateDict.2 ≠ (Layer.init cs).stateDict.2 :=
  ⟨exCfg, [exChan], exMeta, [[1, 2]], by decide +kernel⟩

/-- **C63** Re-quantizing through the module makes the stored weights the quantization of the float
weights under the current parameters. (What is missing: the "already shifted" flag, see
`C35_violated_requantize_after_forward`; and the quantizer-level setter.) -/
theorem C63_requantize_partial (cfg : LayerCfg) (isScale : Bool) (v : ℚ) (l : Layer) :
    ∀ c ∈ (l.setW cfg isScale v).chans,
      c.w = c.floatW.map (fun x => linearQuantizeClamp x c.wScale c.wZp cfg.wRange.1 cfg.wRange.2) ∧
      (if isScale then c.wScale else c.wZp) = v := by
  intro c hc
  unfold Layer.setW at hc
  simp only [List.mem_map] at hc
  obtain ⟨c0, _, rfl⟩ := hc
  cases isScale <;> simp

/-- **C63** On a layer that has not been run yet, setting a weight scale through the module gives
exactly the outputs of a layer constructed with that scale. -/
theorem C63_fresh_layer (cfg : LayerCfg) (v : ℚ) (ws : List (List ℚ × Option ℚ × (ℚ × ℚ) × ℚ))
    (q : QMeta) (x : List (List ℚ)) :
    (((Layer.init (ws.map fun w => Chan.init cfg w.1 w.2.1 w.2.2.1 w.2.2.2)).setW cfg true v).forward cfg q x).2 =
    ((Layer.init (ws.map fun w => Chan.init cfg w.1 w.2.1 (v, w.2.2.1.2) w.2.2.2)).forward cfg q x).2 := by
  unfold Layer.forward Layer.readjust Layer.shift Layer.setW Layer.init Chan.init
  by_cases h : cfg.asymW = true
  · simp [h, List.map_map, Function.comp_def]
  · simp [h, List.map_map, Function.comp_def]

/-- **C63** is violated by the quantizer-level setter: after
`quantizer.set_linear_quant_param('layer.w_scale', v)` the weights are still those of the old scale,
so the layer silently computes with rescaled weights. -/
theorem C63_violated_quantizer_setter : ∃ (cfg : LayerCfg) (cs : List Chan) (v : ℚ),
    (∀ c ∈ cs, c.w = c.floatW.map (fun x => linearQuantizeClamp x c.wScale c.wZp cfg.wRange.1 cfg.wRange.2)) ∧
    ¬ ∀ c ∈ ((Layer.init cs).quantizerSetWScale v).chans,
      c.w = c.floatW.map (fun x => linearQuantizeClamp x c.wScale c.wZp cfg.wRange.1 cfg.wRange.2) :=
  ⟨exCfg, [exChan], 5, by decide +kernel⟩

/-- **C64** is violated: with preset statistics the accumulator scale is fixed by the first forward
pass; if the producer of the input later changes its output scale without the quantizer forcing
re-adjustment (module-level setter), the layer keeps the stale scale and its output is wrong. -/
theorem C64_violated_stale_accumulator_scale : ∃ (cfg : LayerCfg) (cs : List Chan) (q q' : QMeta) (x : List (List ℚ)),
    (((Layer.init cs).forward cfg q x).1.forward cfg q' x).2 ≠ ((Layer.init cs).forward cfg q' x).2 :=
  ⟨exCfg, [exChan], exMeta, ⟨10, 0, (0, 15)⟩, [[1, 1]], by decide +kernel⟩

/-- **C64** With re-adjustment forced, the next forward pass is that of a layer freshly built with
the same channels (same integer weights), whatever happened before. -/
theorem C64_force_readjust (cfg : LayerCfg) (sx : ℚ) (cs : List Chan) (ops : List LayerOp)
    (hsx : ∀ q ps, LayerOp.forward q ps ∈ ops → q.scale = sx) (q' : QMeta) (x : List (List ℚ)) :
    let l := (runLayer cfg (Layer.init cs) ops).1
    (Layer.forward cfg q' x { l with forceReadjust := true }).2 = ((Layer.init cs).forward cfg q' x).2 := by
  intro l
  have hl : ∃ sh nf, (sh = true → cfg.asymW = true) ∧ l = canonLayer cfg sx cs sh nf := by
    have H : ∀ (ops : List LayerOp) (sh : Bool) (nf : ℕ), (sh = true → cfg.asymW = true) →
        (∀ q ps, LayerOp.forward q ps ∈ ops → q.scale = sx) →
        ∃ sh' nf', (sh' = true → cfg.asymW = true) ∧
          (runLayer cfg (canonLayer cfg sx cs sh nf) ops).1 = canonLayer cfg sx cs sh' nf' := by
      intro ops
      induction ops with
      | nil => intro sh nf h _; exact ⟨sh, nf, h, rfl⟩
      | cons op ops ih =>
        intro sh nf hsh hq
        have hq' : ∀ q ps, LayerOp.forward q ps ∈ ops → q.scale = sx := fun q ps h => hq q ps (by simp [h])
        cases op with
        | forward q ps =>
          have e := hq q ps (by simp)
          subst e
          simp only [runLayer, LayerOp.step, canon_forward cfg q ps cs sh nf hsh]
          exact ih cfg.asymW (nf + 1) (fun h => h) hq'
        | stateDict =>
          simp only [runLayer, LayerOp.step, canon_stateDict]
          exact ih false nf (by simp) hq'
    have := H ops false 0 (by simp) hsx
    rwa [← canon_init] at this
  obtain ⟨sh, nf, hsh, hl⟩ := hl
  rw [hl, forward_init]
  unfold Layer.forward Layer.readjust Layer.shift canonLayer
  cases sh
  · by_cases ha : cfg.asymW = true
    · simp [ha, List.map_map, Function.comp_def]
    · simp [ha, List.map_map, Function.comp_def]
  · simp [hsh rfl, List.map_map, Function.comp_def]

/-- The states reachable by forward passes and `state_dict` calls. -/
theorem reach_canon (cfg : LayerCfg) (sx : ℚ) (cs : List Chan) (ops : List LayerOp)
    (hsx : ∀ q ps, LayerOp.forward q ps ∈ ops → q.scale = sx) :
    ∃ sh nf, (sh = true → cfg.asymW = true) ∧ (ops.getLast? = some .stateDict → sh = false) ∧
      (runLayer cfg (Layer.init cs) ops).1 = canonLayer cfg sx cs sh nf := by
  have H : ∀ (ops : List LayerOp) (sh : Bool) (nf : ℕ), (sh = true → cfg.asymW = true) →
      (∀ q ps, LayerOp.forward q ps ∈ ops → q.scale = sx) →
      ∃ sh' nf', (sh' = true → cfg.asymW = true) ∧ (ops.getLast? = some .stateDict → sh' = false) ∧
        (ops = [] → sh' = sh) ∧ (runLayer cfg (canonLayer cfg sx cs sh nf) ops).1 = canonLayer cfg sx cs sh' nf' := by
    intro ops
    induction ops with
    | nil => intro sh nf h _; exact ⟨sh, nf, h, by simp, by simp, rfl⟩
    | cons op ops ih =>
      intro sh nf hsh hq
      have hq' : ∀ q ps, LayerOp.forward q ps ∈ ops → q.scale = sx := fun q ps h => hq q ps (by simp [h])
      have hlast : ∀ (o : LayerOp) (sh' : Bool), (ops.getLast? = some .stateDict → sh' = false) → (ops = [] → o = .stateDict → sh' = false) →
          ((o :: ops).getLast? = some .stateDict → sh' = false) := by
        intro o sh' h1 h2 h3
        cases ops with
        | nil => exact h2 rfl (by simpa using h3)
        | cons b l => exact h1 (by rw [List.getLast?_cons_cons] at h3; exact h3)
      cases op with
      | forward q ps =>
        have e := hq q ps (by simp)
        subst e
        simp only [runLayer, LayerOp.step, canon_forward cfg q ps cs sh nf hsh]
        obtain ⟨sh', nf', h1, h2, h3, h4⟩ := ih cfg.asymW (nf + 1) (fun h => h) hq'
        exact ⟨sh', nf', h1, hlast _ _ h2 (fun _ h => by cases h), by simp, h4⟩
      | stateDict =>
        simp only [runLayer, LayerOp.step, canon_stateDict]
        obtain ⟨sh', nf', h1, h2, h3, h4⟩ := ih false nf (by simp) hq'
        exact ⟨sh', nf', h1, hlast _ _ h2 (fun h _ => h3 h), by simp, h4⟩
  obtain ⟨sh, nf, h1, h2, -, h3⟩ := H ops false 0 (by simp) hsx
  rw [← canon_init] at h3
  exact ⟨sh, nf, h1, h2, h3⟩

/-- **C63** After any history of forward passes and `state_dict` calls, setting a weight scale through the
module makes the next forward pass that of a layer newly constructed with that scale - provided the weights
are symmetric or `state_dict` was called last.  (Otherwise see `C35_violated_requantize_after_forward`.) -/
theorem C63_history_partial (cfg : LayerCfg) (v sx : ℚ) (ws : List (List ℚ × Option ℚ × (ℚ × ℚ) × ℚ))
    (ops : List LayerOp) (hsx : ∀ q ps, LayerOp.forward q ps ∈ ops → q.scale = sx)
    (hsym : cfg.asymW = false ∨ ops.getLast? = some .stateDict) (q : QMeta) (x : List (List ℚ)) :
    (((runLayer cfg (Layer.init (ws.map fun w => Chan.init cfg w.1 w.2.1 w.2.2.1 w.2.2.2)) ops).1.setW cfg true v).forward cfg q x).2 =
    ((Layer.init (ws.map fun w => Chan.init cfg w.1 w.2.1 (v, w.2.2.1.2) w.2.2.2)).forward cfg q x).2 := by
  obtain ⟨sh, nf, h1, h2, h3⟩ := reach_canon cfg sx _ ops hsx
  have hsh : sh = false := by
    rcases hsym with h | h
    · cases sh
      · rfl
      · rw [h1 rfl] at h; cases h
    · exact h2 h
  subst hsh
  rw [h3]
  unfold Layer.forward Layer.readjust Layer.shift Layer.setW Layer.init Chan.init canonLayer
  by_cases h : cfg.asymW = true
  · simp [h, List.map_map, Function.comp_def]
  · simp [h, List.map_map, Function.comp_def]

-- non-vacuity: one forward pass, a save, then a new scale
example : ∃ l1 l2, l1 = (runLayer exCfg (Layer.init [exChan]) [.forward exMeta [[1, 2]], .stateDict]).1 ∧
    l2 = (l1.setW exCfg true 5).forward exCfg exMeta [[1, 2]] ∧ l2.2 ≠ (l1.forward exCfg exMeta [[1, 2]]).2 :=
  ⟨_, _, rfl, rfl, by decide +kernel⟩

end Verif
