import Verif.Props.QLayer
import Verif.Props.Stats
import Verif.Props.QAT
/-!
# More on C34, C64, C83, C38: approximated scales, quantizer-level setters, the analytical clipping
tables, positivity of the learned scale
-/
namespace Verif

/-! ## C34 with approximated scales -/

/-- An approximated scale is the scale reduced by a relative error below `2^-(m-1)`. -/
theorem approxScale_rel (s : ℚ) (hs : 0 < s) (m : ℕ) (hm : 2 ≤ m) :
    ∃ δ : ℚ, 0 ≤ δ ∧ δ < 1 / 2 ^ (m - 1) ∧ δ < 1 ∧ approxScale s m false = (1 - δ) * s := by
  obtain ⟨-, -, -, h1, -, h2, -⟩ := C32_scale_approx s hs m hm false
  obtain ⟨h2, h3⟩ := h2 rfl
  refine ⟨1 - approxScale s m false / s, ?_, ?_, ?_, ?_⟩
  · have : approxScale s m false / s ≤ 1 := (div_le_one hs).2 h1
    linarith
  · have : 1 - approxScale s m false / s = (s - approxScale s m false) / s := by field_simp
    rw [this, div_lt_iff₀ hs]
    calc _ < _ := h2
      _ = _ := by ring
  · have := div_pos h3 hs
    linarith
  · field_simp; ring

/-- **C34** (approximated scales) With `scale_approx_mult_bits = m` the output of a freshly built layer is the
fake-quantization of the result reduced by a relative error `δ`, where the dot product on the fake-quantized
operands is enlarged by `1 / (1 - ε)` (the accumulator scale is approximated as well) and the bias is quantized
with the approximated accumulator scale; both errors are below `2^-(m-1)`, `ε` depends on the layer only. -/
theorem C34_approx (cfg : LayerCfg) (m : ℕ) (hm : 2 ≤ m) (happ : cfg.approxBits = some m) (ho : 0 < cfg.outScale)
    (q : QMeta) (hsx : 0 < q.scale)
    (ws : List (List ℚ × Option ℚ × (ℚ × ℚ) × ℚ)) (hw : ∀ w ∈ ws, 0 < w.2.2.1.1)
    (hsym : cfg.asymW = false → ∀ w ∈ ws, w.2.2.1.2 = 0)
    (j : ℕ) (wf : List ℚ) (bias : Option ℚ) (p : ℚ × ℚ) (junk : ℚ)
    (hj : ws[j]? = some (wf, bias, p, junk)) :
    ∃ ε δ : ℚ, 0 ≤ ε ∧ ε < 1 / 2 ^ (m - 1) ∧ ε < 1 ∧ 0 ≤ δ ∧ δ < 1 / 2 ^ (m - 1) ∧
      ∀ (patches : List (List ℚ)) (i : ℕ) (x : List ℚ), patches[i]? = some x →
        let a := (1 - ε) * (q.scale * p.1)
        let y := dot (x.map fun v => fakeQuant v q.scale q.zp q.range) (wf.map fun v => fakeQuant v p.1 p.2 cfg.wRange)
            / (1 - ε) + (match bias with
              | some b => fakeQuant b a 0 cfg.accRange
              | none => 0)
        (cfg.accRange.1 : ℚ) ≤ a * y → a * y ≤ cfg.accRange.2 →
        ∃ outs, ((Layer.init (ws.map fun w => Chan.init cfg w.1 w.2.1 w.2.2.1 w.2.2.2)).forward cfg q patches).2[i]?
            = some outs ∧
          outs[j]? = some (fakeQuant ((1 - δ) * (if cfg.clipHalf then max y 0 else y)) cfg.outScale cfg.outZp cfg.actRange) := by
  have hmem : (wf, bias, p, junk) ∈ ws := List.mem_of_getElem? hj
  have hsw : 0 < p.1 := hw _ hmem
  obtain ⟨ε, e0, e1, e2, ee⟩ := approxScale_rel (q.scale * p.1) (mul_pos hsx hsw) m hm
  have ha : accumScaleOf cfg q.scale p.1 = (1 - ε) * (q.scale * p.1) := by
    unfold accumScaleOf; rw [happ]; exact ee
  have hA : 0 < (1 - ε) * (q.scale * p.1) := mul_pos (by linarith) (mul_pos hsx hsw)
  obtain ⟨δ, d0, d1, d2, dd⟩ := approxScale_rel (cfg.outScale / ((1 - ε) * (q.scale * p.1))) (div_pos ho hA) m hm
  refine ⟨ε, δ, e0, e1, e2, d0, d1, ?_⟩
  intro patches i x hx a y hsat1 hsat2
  rw [forward_init, List.getElem?_map, hx]
  refine ⟨_, rfl, ?_⟩
  rw [List.getElem?_map, List.getElem?_map, hj]
  simp only [Option.map_some]
  congr 1
  have hwsh : (if cfg.asymW then (Chan.init cfg wf bias p junk).w.map (· + (Chan.init cfg wf bias p junk).wZp)
      else (Chan.init cfg wf bias p junk).w) =
      (wf.map fun v => linearQuantizeClamp v p.1 p.2 cfg.wRange.1 cfg.wRange.2).map (· + p.2) := by
    by_cases h : cfg.asymW = true
    · simp [h, Chan.init]
    · have h' : cfg.asymW = false := by simpa using h
      have := hsym h' _ hmem
      dsimp only at this
      simp [h, Chan.init, this]
  have h1e : (1 - ε) ≠ 0 := by intro h; linarith
  have hacc : dot ((quantInput q x).map (· + q.zp))
      ((wf.map fun v => linearQuantizeClamp v p.1 p.2 cfg.wRange.1 cfg.wRange.2).map (· + p.2)) +
      biasQOf cfg a bias = a * y := by
    rw [dot_scale _ _ q.zp p.2 q.scale p.1 hsx.ne' hsw.ne', mul_add]
    congr 1
    · have : a * (dot (x.map fun v => fakeQuant v q.scale q.zp q.range) (wf.map fun v => fakeQuant v p.1 p.2 cfg.wRange)
          / (1 - ε)) = q.scale * p.1 * dot (x.map fun v => fakeQuant v q.scale q.zp q.range) (wf.map fun v => fakeQuant v p.1 p.2 cfg.wRange) := by
        show (1 - ε) * (q.scale * p.1) * _ = _
        field_simp
      rw [this]
      unfold quantInput fakeQuant
      simp only [List.map_map, Function.comp_def]
    · unfold biasQOf fakeQuant
      cases bias with
      | none => simp
      | some b =>
        simp only
        unfold linearDequantize
        rw [add_zero, mul_div_cancel₀ _ hA.ne']
  have hfinal : ∀ c : Chan, c.w = (wf.map fun v => linearQuantizeClamp v p.1 p.2 cfg.wRange.1 cfg.wRange.2).map (· + p.2) →
      c.biasQ = biasQOf cfg a bias → chanAccum cfg q c (quantInput q x) = a * y := by
    intro c h1 h2
    unfold chanAccum
    rw [h1, h2, hacc]
    unfold clampQ
    rw [max_eq_left hsat1, min_eq_left hsat2]
  rw [hfinal _ hwsh (by show biasQOf cfg (accumScaleOf cfg q.scale p.1) bias = _; rw [ha])]
  unfold chanOut fakeQuant
  show linearDequantize (linearQuantizeClamp _ (match cfg.approxBits with
    | none => cfg.outScale / accumScaleOf cfg q.scale p.1
    | some m => approxScale (cfg.outScale / accumScaleOf cfg q.scale p.1) m false) _ _ _) _ _ = _
  rw [happ, ha]
  dsimp only
  rw [dd]
  have hrelu : (if cfg.clipHalf then max (a * y) 0 else a * y) = a * (if cfg.clipHalf then max y 0 else y) := by
    split
    · rw [mul_max_of_nonneg _ _ hA.le, mul_zero]
    · rfl
  rw [hrelu]
  congr 1
  unfold linearQuantizeClamp linearQuantize
  congr 3
  have hae : a = (1 - ε) * (q.scale * p.1) := rfl
  rw [← hae]
  have hane : a ≠ 0 := hA.ne'
  field_simp

/-- A case with 3-bit multipliers: both scales are approximated by 5/8 of a power of two. -/
example : (approxScale (2/3) 3 false = 5/8) ∧ ∃ ε : ℚ, approxScale (2/3) 3 false = (1 - ε) * (2/3) ∧ ε = 1/16 := by
  refine ⟨by decide +kernel, 1/16, by decide +kernel, rfl⟩

/-! ## C64: the quantizer-level setter -/

/-- **C64** Setting a weight scale through the quantizer, after any history, makes the next forward pass that of a layer
freshly built from the same stored weights with the new scale: accumulator scale and bias follow. (The stored
weights themselves do not, `C63_violated_quantizer_setter`.) -/
theorem C64_quantizer_setter (cfg : LayerCfg) (sx v : ℚ) (cs : List Chan) (ops : List LayerOp)
    (hsx : ∀ q ps, LayerOp.forward q ps ∈ ops → q.scale = sx) (q' : QMeta) (x : List (List ℚ)) :
    ((runLayer cfg (Layer.init cs) ops).1.quantizerSetWScale v |>.forward cfg q' x).2 =
      ((Layer.init (cs.map fun c => { c with wScale := v })).forward cfg q' x).2 := by
  obtain ⟨sh, nf, hsh, -, hl⟩ := reach_canon cfg sx cs ops hsx
  rw [hl, forward_init]
  unfold Layer.forward Layer.quantizerSetWScale Layer.readjust Layer.shift canonLayer
  cases sh
  · by_cases ha : cfg.asymW = true
    · simp [ha, List.map_map, Function.comp_def]
    · simp [ha, List.map_map, Function.comp_def]
  · simp [hsh rfl, List.map_map, Function.comp_def]

/-! ## C83: the tables of the analytical clipping -/

/-- **C83** (tables) In every table of the analytical clipping, more bits mean a wider range: the multiples of the
deviation are positive and strictly increasing in the number of bits, and with half the range they are never smaller
than with the full one. -/
theorem C83_aciq_monotone (half : Bool) (b : ℕ) :
    (b < 8 → ∃ x y, alphaLaplace half b = .ok x ∧ alphaLaplace half (b + 1) = .ok y ∧ 1 < x ∧ x < y) ∧
    (1 ≤ b → b < 8 → ∃ x y, alphaGauss half b = .ok x ∧ alphaGauss half (b + 1) = .ok y ∧ 1 < x ∧ x < y) ∧
    (b ≤ 8 → ∃ x y, alphaLaplace false b = .ok x ∧ alphaLaplace true b = .ok y ∧ x < y) ∧
    (1 ≤ b → b ≤ 8 → ∃ x y, alphaGauss false b = .ok x ∧ alphaGauss true b = .ok y ∧ x < y) := by
  refine ⟨fun h => ?_, fun h1 h => ?_, fun h => ?_, fun h1 h => ?_⟩
  · cases half <;> interval_cases b <;> exact ⟨_, _, rfl, rfl, by norm_num, by norm_num⟩
  · cases half <;> interval_cases b <;> exact ⟨_, _, rfl, rfl, by norm_num, by norm_num⟩
  · interval_cases b <;> exact ⟨_, _, rfl, rfl, by norm_num⟩
  · interval_cases b <;> exact ⟨_, _, rfl, rfl, by norm_num⟩

/-- **C83** (tables) A half range (after ReLU) needs one bit less: its table is the full-range one shifted by one bit,
except for the Laplace entry of 3 bits. -/
theorem C83_half_is_next_bit (b : ℕ) :
    (b < 8 → b ≠ 3 → alphaLaplace true b = alphaLaplace false (b + 1)) ∧
    (1 ≤ b → b < 8 → alphaGauss true b = alphaGauss false (b + 1)) := by
  refine ⟨fun h h3 => ?_, fun h1 h => ?_⟩
  · interval_cases b <;> first | rfl | (exact absurd rfl h3)
  · interval_cases b <;> rfl

/-- **C83** is violated by one entry of the tables: the half range with 3 bits (5.02) differs from the full range
with 4 bits (5.03). -/
theorem C83_violated_table : alphaLaplace true 3 ≠ alphaLaplace false 4 := by decide +kernel

/-! ## C38: the scale is never zero -/

theorem forward_scale_pos (bits : ℕ) (hb : 2 ≤ bits) (mode : ModeArg) (d : ℚ) (tr : Bool) (xs : Tensor) (s s' : FakeQ)
    (out : Tensor) (hs : 0 < s.scale) (h : s.forward bits mode d tr xs = .ok (s', out)) : 0 < s'.scale := by
  unfold FakeQ.forward at h
  cases tr with
  | false =>
    simp only [Bool.false_eq_true, if_false] at h
    obtain ⟨s1, e1, h⟩ := ok_bind h
    obtain ⟨s2, e2, h⟩ := ok_bind h
    cases e1; cases e2; cases h
    exact hs
  | true =>
    simp only [if_true] at h
    obtain ⟨s1, e1, h⟩ := ok_bind h
    obtain ⟨s2, e2, h⟩ := ok_bind h
    cases h
    obtain ⟨p, ep, e2⟩ := ok_bind e2
    cases e2
    show 0 < p.1
    have n1 : (0 : ℚ) < 2 ^ bits - 1 := by have := pow_two_gt_one (k := bits) (by omega); linarith
    have n2 : (0 : ℚ) < 2 ^ (bits - 1) - 1 := by have := pow_two_gt_one (k := bits - 1) (by omega); linarith
    split at ep
    · unfold symParams at ep
      dsimp only at ep
      split at ep
      · cases ep
      · rename_i hneg
        cases ep
        dsimp only
        have hn : (0 : ℚ) < (if mode.is .symmetricRestricted then 2 ^ (bits - 1) - 1 else (2 ^ bits - 1) / 2) := by
          split
          · exact n2
          · linarith
        apply div_pos hn
        split
        · exact hn
        · rename_i h0
          exact lt_of_le_of_ne (not_lt.1 hneg) (Ne.symm h0)
    · unfold asymParams at ep
      dsimp only at ep
      split at ep
      · cases ep
      · cases ep
        dsimp only
        apply div_pos n1
        split
        · exact n1
        · rename_i h0
          have : 0 ≤ max s1.maxT 0 - min s1.minT 0 := by
            have := le_max_right s1.maxT 0
            have := min_le_right s1.minT 0
            linarith
          exact lt_of_le_of_ne this (Ne.symm h0)

/-- **C38** After every history of training and evaluation passes the scale of the fake quantizer is positive – so
that de-quantization never divides by zero, not even in an evaluation pass before any training. -/
theorem C38_scale_positive (bits : ℕ) (hb : 2 ≤ bits) (mode : ModeArg) (d : ℚ) (ops : List (Bool × Tensor)) (s : FakeQ)
    (outs : List Tensor) (h : runFakeQ bits mode d FakeQ.init ops = .ok (s, outs)) : 0 < s.scale := by
  have H : ∀ (ops : List (Bool × Tensor)) (s0 s : FakeQ) (outs : List Tensor), 0 < s0.scale →
      runFakeQ bits mode d s0 ops = .ok (s, outs) → 0 < s.scale := by
    intro ops
    induction ops with
    | nil => intro s0 s outs h0 h; cases h; exact h0
    | cons op ops ih =>
      intro s0 s outs h0 h
      obtain ⟨tr, xs⟩ := op
      unfold runFakeQ at h
      obtain ⟨r, e, h⟩ := ok_bind h
      obtain ⟨r', e', h⟩ := ok_bind h
      cases h
      obtain ⟨s1, o1⟩ := r
      obtain ⟨s2, o2⟩ := r'
      exact ih s1 s2 o2 (forward_scale_pos bits hb mode d tr xs s0 s1 o1 h0 e) e'
  exact H ops FakeQ.init s outs (by norm_num [FakeQ.init]) h

/-- Non-vacuity: evaluation before training, then a training pass. -/
example : (runFakeQ 4 (.lin .asymmetricUnsigned) (1/2) FakeQ.init [(false, [1, 2]), (true, [0, 3])]).map
    (fun r => (r.1.scale, r.2)) = .ok (5, [[0, 0], [0, 3]]) := by decide +kernel

end Verif
