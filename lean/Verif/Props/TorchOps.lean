import Verif.Model.TorchOps
import Verif.Props.QOps
/-!
# C141: operations converted to PyTorch quantization compute what the Distiller wrappers compute
-/
namespace Verif

/-! ## Specification -/

/-- The output parameters of the wrapper are what the library computes for a range in an 8-bit mode other than the restricted
one, and the conversion does not reduce the range (backend qnnpack, or a symmetric mode). -/
structure OutParams (cfg : OpCfg) (md : QMode) (reduce : Bool) : Prop where
  notRestricted : md ≠ .symmetricRestricted
  full : reduce = false ∨ md.isSym = true
  params : ∃ lo hi, modeParams md 8 lo hi = .ok (cfg.outScale, cfg.outZp)
  range : cfg.actRange = modeRange md 8

/-- The numbers a Distiller wrapper takes for its input `t` with parameters `q`. -/
def opValues (t : QTensor) (q : QMeta) : List ℚ := t.data.map fun v => fakeQuant v q.scale q.zp q.range

/-- The fused ReLU. -/
def reluIf (b : Bool) (v : ℚ) : ℚ := if b then max v 0 else v

/-! ## Lemmas -/

theorem round_max_zero (x : ℚ) : roundHalfEven (max x 0) = max (roundHalfEven x) 0 := by
  rw [round_mono.map_max, show roundHalfEven 0 = 0 from by exact_mod_cast round_int 0]

theorem torchQuantize_relu (x s : ℚ) (hs : 0 < s) (z : ℤ) (h0 : 0 ≤ z) (h1 : z ≤ 255) :
    max (torchQuantize x s z .quint8) z = torchQuantize (max x 0) s z .quint8 := by
  unfold torchQuantize TDtype.range
  dsimp only
  have e : roundHalfEven (max x 0 / s) = max (roundHalfEven (x / s)) 0 := by
    rw [← round_max_zero, ← max_div_div_right hs.le, zero_div]
  rw [e]
  omega

/-- The converted parameters. -/
theorem outParams_torch {cfg : OpCfg} {md : QMode} {reduce : Bool} (hp : OutParams cfg md reduce) :
    0 < cfg.outScale ∧ ∃ (z zt : ℤ), cfg.outZp = z ∧ qparamsToTorch cfg.outScale cfg.outZp 8 md .quint8 reduce = .ok (1 / cfg.outScale, zt) ∧
      0 ≤ zt ∧ zt ≤ 255 ∧ cfg.actRange.1 + z = -zt ∧ cfg.actRange.2 + z = 255 - zt := by
  obtain ⟨lo, hi, h⟩ := hp.params
  obtain ⟨hs, ⟨z, hz, hz1, hz2⟩, hle, -⟩ := modeParams_image md 8 (by norm_num) lo hi _ _ h
  have hz0 : md.isSym = true → z = 0 := by
    intro hm
    unfold modeParams symParams at h
    rw [if_pos hm] at h
    split at h
    · cases h
    · injection h with h
      have := congrArg Prod.snd h
      dsimp only at this
      rw [hz] at this
      exact_mod_cast this.symm
  obtain ⟨e1, e2⟩ := range_shift md hp.notRestricted z hz0 .quint8
  simp only [TDtype.range] at e1 e2
  have hq : qparamsToTorch cfg.outScale cfg.outZp 8 md .quint8 false = .ok (1 / cfg.outScale, convertZp z 8 md .quint8) := by
    rw [hz]
    unfold qparamsToTorch
    rw [truncZ_int]
    simp
  rw [hp.range]
  refine ⟨hs, z, convertZp z 8 md .quint8, hz, ?_, ?_, ?_, ?_, ?_⟩
  · rcases hp.full with rfl | hsym
    · exact hq
    · cases reduce with
      | false => exact hq
      | true => rw [(C82_reduce_range_refusals _ _ 8 md .quint8).1 hsym]; exact hq
  all_goals omega

/-- The number a quantized element stands for. -/
theorem torch_value (S x : ℚ) (hS : 0 < S) (zt : ℤ) :
    S * torchDequantize (torchQuantize x (1 / S) zt .quint8) (1 / S) zt = clampQ (roundHalfEven (S * x)) (-zt) (255 - zt) := by
  unfold torchDequantize torchQuantize TDtype.range
  rw [show x / (1 / S) = S * x by field_simp]
  generalize roundHalfEven (S * x) = n
  have : ((min (max (n + zt) 0) 255 : ℤ) : ℚ) - zt = ((min (max n (-zt)) (255 - zt) : ℤ) : ℚ) := by
    rw [← Int.cast_sub]; congr 1; omega
  dsimp only
  rw [this]
  unfold clampQ
  push_cast
  field_simp

theorem quantVals_values_get (s : ℚ) (z : ℤ) (xs : List ℚ) (j : ℕ) :
    (quantVals s z xs).values[j]? = xs[j]?.map fun x => torchDequantize (torchQuantize x s z .quint8) s z := by
  unfold quantVals TorchT.values
  rw [List.map_map, List.getElem?_map]
  rfl

theorem quantVals_values (s : ℚ) (z : ℤ) (xs : List ℚ) :
    (quantVals s z xs).values = xs.map fun x => torchDequantize (torchQuantize x s z .quint8) s z := by
  unfold quantVals TorchT.values
  rw [List.map_map]
  rfl

theorem flatMap_forall₂ {α β γ : Type} {f : α → List γ} {g : β → List γ} {l : List α} {l' : List β}
    (h : List.Forall₂ (fun a b => f a = g b) l l') : l.flatMap f = l'.flatMap g := by
  induction h with
  | nil => rfl
  | cons h _ ih => rw [List.flatMap_cons, List.flatMap_cons, h, ih]

theorem metaSpec_unique {cfg : OpCfg} {k : ℕ} {t : QTensor} {q q' : QMeta} (h : cfg.metaSpec k t q) (h' : cfg.metaSpec k t q') : q = q' := by
  have a := (inputMeta_ok_iff cfg k t q).2 h
  have b := (inputMeta_ok_iff cfg k t q').2 h'
  rw [a] at b
  injection b

theorem qs_two {cfg : OpCfg} {a b : QTensor} {qa qb : QMeta} {qs : List QMeta} (hl : qs.length = [a, b].length)
    (h : ∀ (k : ℕ) (t : QTensor) (q : QMeta), [a, b][k]? = some t → qs[k]? = some q → cfg.metaSpec k t q)
    (ha : cfg.metaSpec 0 a qa) (hb : cfg.metaSpec 1 b qb) : qs = [qa, qb] := by
  match qs, hl with
  | [x, y], _ =>
    rw [metaSpec_unique (h 0 a x rfl rfl) ha, metaSpec_unique (h 1 b y rfl rfl) hb]

theorem getD_some (l : List ℚ) (j : ℕ) (hj : j < l.length) : l[j]? = some (l.getD j 0) := by
  simp [List.getElem?_eq_getElem hj, List.getD_eq_getElem?_getD]

theorem opValues_get (t : QTensor) (q : QMeta) (j : ℕ) (hj : j < t.data.length) :
    (opValues t q)[j]? = some (fakeQuant (t.data.getD j 0) q.scale q.zp q.range) := by
  unfold opValues
  rw [List.getElem?_map, getD_some _ _ hj]
  rfl

/-- The result of a module followed, if `b`, by ReLU. -/
theorem seq_relu {S : ℚ} (hS : 0 < S) {zt : ℤ} (h0 : 0 ≤ zt) (h1 : zt ≤ 255) (b : Bool) (m : TorchOp) (xs : List TorchT) (vs : List ℚ)
    (h : m.run xs = .ok (quantVals (1 / S) zt vs)) :
    (if b then TorchOp.thenRelu m else m).run xs = .ok (quantVals (1 / S) zt (vs.map (reluIf b))) := by
  cases b with
  | false =>
    have : vs.map (reluIf false) = vs := by
      rw [show reluIf false = id from funext fun v => rfl, List.map_id]
    rw [this]; exact h
  | true =>
    show (do let t ← m.run xs; pure { t with ints := t.ints.map fun q => max q t.zp }) = _
    rw [h]
    show Except.ok _ = _
    congr 1
    unfold quantVals
    simp only [List.map_map, TorchT.mk.injEq, and_true]
    apply List.map_congr_left
    intro x _
    exact torchQuantize_relu x (1 / S) (by positivity) zt h0 h1

/-! ## The property -/

/-- **C141** (element-wise product) If the operands of the converted module stand for the numbers Distiller's wrapper takes,
then so does the result, at every position where the accumulator does not saturate and the result is not half-way
between two grid points. -/
theorem C141_mult_partial (cfg : OpCfg) (happ : cfg.approxBits = none) (md : QMode) (reduce : Bool) (hp : OutParams cfg md reduce) :
    ∃ m, (WOp.elt .mult).toTorch cfg md 8 reduce = .ok m ∧
      ∀ (a b y : QTensor) (qa qb : QMeta) (xa xb : TorchT), QOp.mult.forward cfg [a, b] = .ok y →
        cfg.metaSpec 0 a qa → cfg.metaSpec 1 b qb → 0 < qa.scale → 0 < qb.scale →
        xa.values = opValues a qa → xb.values = opValues b qb →
        ∃ o, m.run [xa, xb] = .ok o ∧ ∀ (j : ℕ) (u v : ℚ), xa.values[j]? = some u → xb.values[j]? = some v →
          (cfg.accRange.1 : ℚ) ≤ qa.scale * qb.scale * (u * v) → qa.scale * qb.scale * (u * v) ≤ cfg.accRange.2 →
          Int.fract (cfg.outScale * reluIf cfg.clipHalf (u * v)) ≠ 1/2 →
          ∃ r, o.values[j]? = some r ∧ y.data[j]? = some r := by
  obtain ⟨hS, z, zt, hz, hq, h0, h1, -, -⟩ := outParams_torch hp
  refine ⟨(WOp.elt .mult).module cfg.clipHalf (1 / cfg.outScale, zt), ?_, ?_⟩
  · unfold WOp.toTorch
    rw [if_neg (by simp), hq]
    rfl
  · intro a b y qa qb xa xb hy ha hb hsa hsb hxa hxb
    have hr := seq_relu hS h0 h1 cfg.clipHalf (.mul (1 / cfg.outScale) zt) [xa, xb] _ rfl
    refine ⟨_, hr, ?_⟩
    intro j u v hu hv hlo hhi htie
    rw [quantVals_values_get, List.getElem?_map, List.getElem?_zipWith, hu, hv]
    refine ⟨_, rfl, ?_⟩
    obtain ⟨qs, hl, hm, hval⟩ := C81_mult_exact cfg happ [a, b] y hy
    obtain rfl := qs_two hl hm ha hb
    rw [hxa] at hu
    rw [hxb] at hv
    have hja : j < a.data.length := by
      by_contra hc
      rw [List.getElem?_eq_none (by unfold opValues; simpa using hc)] at hu
      cases hu
    have hjb : j < b.data.length := by
      by_contra hc
      rw [List.getElem?_eq_none (by unfold opValues; simpa using hc)] at hv
      cases hv
    rw [opValues_get a qa j hja] at hu
    rw [opValues_get b qb j hjb] at hv
    cases hu; cases hv
    have e := hval (by simp [hsa, hsb]) j (by simp [hja, hjb])
    simp only [fqAt, List.zipWith_cons_cons, List.zipWith_nil_left, List.prod_cons, List.prod_nil, mul_one, List.map_cons, List.map_nil] at e
    rw [e (by simpa [mul_assoc] using hlo) (by simpa [mul_assoc] using hhi)]
    obtain ⟨lo, hi, hpar⟩ := hp.params
    obtain ⟨st, zt', hq', hag, -⟩ := C82_quantize_agrees md hp.notRestricted lo hi _ _ hpar .quint8
      (reluIf cfg.clipHalf (fakeQuant (a.data.getD j 0) qa.scale qa.zp qa.range * fakeQuant (b.data.getD j 0) qb.scale qb.zp qb.range))
    have hq'' : qparamsToTorch cfg.outScale cfg.outZp 8 md .quint8 false = .ok (1 / cfg.outScale, zt) := by
      rcases hp.full with rfl | hsym
      · exact hq
      · cases reduce with
        | false => exact hq
        | true => rw [← (C82_reduce_range_refusals _ _ 8 md .quint8).1 hsym]; exact hq
    rw [hq''] at hq'
    simp only [Except.ok.injEq, Prod.mk.injEq] at hq'
    obtain ⟨rfl, rfl⟩ := hq'
    dsimp only
    rw [hag htie, hp.range]
    rfl

/-- **C141** (element-wise sum) Distiller rounds every operand to the output grid before adding, PyTorch rounds only the sum:
the results are both on the output grid and at most one grid step apart, where the accumulator does not saturate. -/
theorem C141_add_partial (cfg : OpCfg) (hacc : cfg.accRange.1 ≤ cfg.accRange.2) (md : QMode) (reduce : Bool) (hp : OutParams cfg md reduce) :
    ∃ m, (WOp.elt .add).toTorch cfg md 8 reduce = .ok m ∧
      ∀ (a b y : QTensor) (qa qb : QMeta) (xa xb : TorchT), QOp.add.forward cfg [a, b] = .ok y →
        cfg.metaSpec 0 a qa → cfg.metaSpec 1 b qb → 0 < qa.scale → 0 < qb.scale →
        xa.values = opValues a qa → xb.values = opValues b qb →
        ∃ o, m.run [xa, xb] = .ok o ∧ ∀ (j : ℕ) (u v : ℚ), xa.values[j]? = some u → xb.values[j]? = some v →
          (∀ w ∈ [u, v, u + v], (cfg.accRange.1 : ℚ) + 1 ≤ cfg.outScale * w ∧ cfg.outScale * w ≤ cfg.accRange.2 - 1) →
          ∃ r s, o.values[j]? = some r ∧ y.data[j]? = some s ∧ |r - s| ≤ 1 / cfg.outScale ∧
            ∃ n : ℤ, (r - s) * cfg.outScale = n := by
  obtain ⟨hS, z, zt, hz, hq, h0, h1, hlo, hhi⟩ := outParams_torch hp
  refine ⟨(WOp.elt .add).module cfg.clipHalf (1 / cfg.outScale, zt), ?_, ?_⟩
  · unfold WOp.toTorch
    rw [if_neg (by simp), hq]
    rfl
  · intro a b y qa qb xa xb hy ha hb hsa hsb hxa hxb
    refine ⟨quantVals (1 / cfg.outScale) zt ((List.zipWith (· + ·) xa.values xb.values).map (reluIf cfg.clipHalf)), rfl, ?_⟩
    intro j u v hu hv hw
    rw [quantVals_values_get, List.getElem?_map, List.getElem?_zipWith, hu, hv]
    obtain ⟨qs, hl, hm, hval⟩ := C81_add_error cfg hS z hz hacc [a, b] y hy
    obtain rfl := qs_two hl hm ha hb
    rw [hxa] at hu
    rw [hxb] at hv
    have hja : j < a.data.length := by
      by_contra hc
      rw [List.getElem?_eq_none (by unfold opValues; simpa using hc)] at hu
      cases hu
    have hjb : j < b.data.length := by
      by_contra hc
      rw [List.getElem?_eq_none (by unfold opValues; simpa using hc)] at hv
      cases hv
    rw [opValues_get a qa j hja] at hu
    rw [opValues_get b qb j hjb] at hv
    obtain rfl := Option.some.inj hu
    obtain rfl := Option.some.inj hv
    have e := hval (by simp [hsa, hsb]) j (by simp [hja, hjb])
    simp only [fqAt, List.zipWith_cons_cons, List.zipWith_nil_left, List.sum_cons, List.sum_nil, add_zero] at e
    set u := fakeQuant (a.data.getD j 0) qa.scale qa.zp qa.range
    set v := fakeQuant (b.data.getD j 0) qb.scale qb.zp qb.range
    have hw1 := hw u (by simp)
    have hw2 := hw v (by simp)
    have hw3 := hw (u + v) (by simp)
    obtain ⟨s, hs, herr⟩ := e
      (by
        intro x hx
        simp only [List.mem_cons, List.not_mem_nil, or_false] at hx
        rcases hx with rfl | rfl
        · constructor <;> linarith
        · constructor <;> linarith)
      (by simp; linarith) (by simp; linarith)
    refine ⟨_, s, rfl, hs, ?_⟩
    simp only
    set x := reluIf cfg.clipHalf (u + v) with hx
    set T := torchDequantize (torchQuantize x (1 / cfg.outScale) zt .quint8) (1 / cfg.outScale) zt
    have hT : cfg.outScale * T = clampQ (roundHalfEven (cfg.outScale * x)) (-zt) (255 - zt) := torch_value cfg.outScale x hS zt
    have hTint : ∃ n : ℤ, cfg.outScale * T = n := by
      rw [hT]
      refine ⟨min (max (roundHalfEven (cfg.outScale * x)) (-zt)) (255 - zt), ?_⟩
      unfold clampQ
      push_cast
      rfl
    obtain ⟨n, hn⟩ := hTint
    have hs' := (C81_output_meta .add cfg (by rw [hp.range]; exact (modeParams_image md 8 (by norm_num) _ _ _ _ hp.params.choose_spec.choose_spec).2.2.1) [a, b] y hy).2 s (List.mem_of_getElem? hs)
    obtain ⟨k, -, -, hk⟩ := hs'
    have hk' : cfg.outScale * s = ((k + z : ℤ) : ℚ) := by
      rw [hk, hz]; push_cast; field_simp
    have hsat : cfg.outScale * saturate cfg x = clampQ (cfg.outScale * x) (-zt) (255 - zt) := by
      unfold saturate
      rw [← clampQ_scale _ _ _ _ hS, hz, mul_div_cancel₀ _ hS.ne', mul_div_cancel₀ _ hS.ne']
      have e1 : (cfg.actRange.1 : ℚ) + z = -zt := by exact_mod_cast hlo
      have e2 : (cfg.actRange.2 : ℚ) + z = 255 - zt := by exact_mod_cast hhi
      rw [e1, e2]
    have b1 : |cfg.outScale * T - cfg.outScale * saturate cfg x| ≤ 1 / 2 := by
      rw [hT, hsat]
      refine (clamp_lip _ _ _ _).trans ?_
      obtain ⟨r1, r2⟩ := round_bounds (cfg.outScale * x)
      rw [abs_le]; constructor <;> linarith
    have b2 : |cfg.outScale * s - cfg.outScale * saturate cfg x| ≤ 1 := by
      rw [← mul_sub, abs_mul, abs_of_pos hS]
      have : |s - saturate cfg x| ≤ 1 / cfg.outScale := by
        refine herr.trans (le_of_eq ?_)
        norm_num
      rwa [le_div_iff₀ hS, mul_comm] at this
    have b3 : |(n : ℚ) - ((k + z : ℤ) : ℚ)| < 2 := by
      rw [← hn, ← hk']
      rw [abs_le] at b1 b2
      rw [abs_lt]
      constructor <;> linarith [b1.1, b1.2, b2.1, b2.2]
    have b4 : |n - (k + z)| ≤ 1 := by
      have : |n - (k + z)| < 2 := by exact_mod_cast b3
      omega
    refine ⟨?_, n - (k + z), ?_⟩
    · have : |cfg.outScale * (T - s)| ≤ 1 := by
        rw [mul_sub, hn, hk']
        exact_mod_cast b4
      rw [abs_mul, abs_of_pos hS] at this
      rw [le_div_iff₀ hS]; linarith
    · rw [sub_mul, mul_comm T, mul_comm s, hn, hk']
      push_cast; ring

theorem concat_data (cfg : OpCfg) (ts : List QTensor) (y : QTensor) (h : QOp.concat.forward cfg ts = .ok y) :
    ∃ ins, cfg.prepareInputs 0 ts = .ok ins ∧ y.data = ins.flatMap fun i => (reQuantInput cfg i).map (cfg.outElem 1) := by
  obtain ⟨ins, r, h1, h2, rfl⟩ := qop_forward_ok _ _ _ _ h
  unfold QOp.quantizedForward concatForward at h2
  cases h2
  refine ⟨ins, h1, ?_⟩
  show (concatModule (ins.map (reQuantInput cfg))).map _ = _
  unfold concatModule
  rw [List.map_flatten, List.map_map, List.flatMap_def]
  rfl

/-- **C141** (concatenation) The converted module gives exactly Distiller's numbers, for any number of operands, if no
accumulator saturates. -/
theorem C141_concat_partial (cfg : OpCfg) (md : QMode) (reduce : Bool) (hp : OutParams cfg md reduce) :
    ∃ m, (WOp.elt .concat).toTorch cfg md 8 reduce = .ok m ∧
      ∀ (ts : List QTensor) (y : QTensor) (xs : List TorchT), QOp.concat.forward cfg ts = .ok y → xs.length = ts.length →
        (∀ (k : ℕ) (t : QTensor) (x : TorchT), ts[k]? = some t → xs[k]? = some x → ∃ q, cfg.metaSpec k t q ∧ 0 < q.scale ∧ x.values = opValues t q ∧
          ∀ v ∈ x.values, (cfg.accRange.1 : ℚ) ≤ cfg.outScale * v ∧ cfg.outScale * v ≤ cfg.accRange.2) →
        ∃ o, m.run xs = .ok o ∧ o.values = y.data := by
  obtain ⟨hS, z, zt, hz, hq, h0, h1, hlo, hhi⟩ := outParams_torch hp
  refine ⟨(WOp.elt .concat).module cfg.clipHalf (1 / cfg.outScale, zt), ?_, ?_⟩
  · unfold WOp.toTorch
    rw [if_neg (by simp), hq]
    rfl
  · intro ts y xs hy hlen hx
    have hne : ts ≠ [] := by
      rintro rfl
      cases hy
    have hcat : (TorchOp.cat (1 / cfg.outScale) zt).run xs = .ok (quantVals (1 / cfg.outScale) zt (xs.flatMap TorchT.values)) := by
      unfold TorchOp.run
      rw [if_neg]
      simp only [List.isEmpty_iff]
      rintro rfl
      exact hne (List.length_eq_zero_iff.1 hlen.symm)
    refine ⟨_, seq_relu hS h0 h1 cfg.clipHalf _ xs _ hcat, ?_⟩
    obtain ⟨ins, hins, hd⟩ := concat_data cfg ts y hy
    rw [hd]
    have hil := prepareInputs_length cfg ts 0 ins hins
    have key : List.Forall₂ (fun (x : TorchT) (i : QMeta × List ℚ) =>
        (x.values.map fun v => torchDequantize (torchQuantize (reluIf cfg.clipHalf v) (1 / cfg.outScale) zt .quint8) (1 / cfg.outScale) zt) =
          (reQuantInput cfg i).map (cfg.outElem 1)) xs ins := by
      rw [List.forall₂_iff_get]
      refine ⟨by omega, ?_⟩
      intro k hk1 hk2
      have hk3 : k < ts.length := by omega
      obtain ⟨q, hq1, hq2⟩ := prepareInputs_get cfg ts 0 ins hins k ts[k] (List.getElem?_eq_getElem hk3)
      obtain ⟨q', hq3, hpos, hval, hsat⟩ := hx k ts[k] xs[k] (List.getElem?_eq_getElem hk3) (List.getElem?_eq_getElem hk1)
      rw [zero_add] at hq1
      obtain rfl := metaSpec_unique hq1 hq3
      have e1 : ins.get ⟨k, hk2⟩ = (q, quantInput q ts[k].data) := by
        rw [List.getElem?_eq_getElem hk2] at hq2
        exact Option.some.inj hq2
      have e2 : xs.get ⟨k, hk1⟩ = xs[k] := rfl
      rw [e1, e2, hval]
      rw [hval] at hsat
      unfold opValues reQuantInput quantInput
      simp only [List.map_map]
      apply List.map_congr_left
      intro v hv
      have hs := hsat (fakeQuant v q.scale q.zp q.range) (by unfold opValues; exact List.mem_map_of_mem hv)
      simp only [Function.comp]
      have hn : linearQuantizeClamp (linearQuantizeClamp v q.scale q.zp q.range.1 q.range.2 + q.zp) (cfg.outScale / q.scale) 0 cfg.accRange.1 cfg.accRange.2 =
          (roundHalfEven (cfg.outScale * fakeQuant v q.scale q.zp q.range) : ℚ) := by
        set w := cfg.outScale * fakeQuant v q.scale q.zp q.range with hw
        have e : cfg.outScale / q.scale * (linearQuantizeClamp v q.scale q.zp q.range.1 q.range.2 + q.zp) - 0 = w := by
          rw [hw]
          unfold fakeQuant linearDequantize
          field_simp; ring
        show clampQ (linearQuantize _ _ _) _ _ = _
        unfold linearQuantize
        rw [e, clampQ_int]
        have g1 : cfg.accRange.1 ≤ roundHalfEven w := by
          have := round_mono hs.1
          rwa [round_int] at this
        have g2 : roundHalfEven w ≤ cfg.accRange.2 := by
          have := round_mono hs.2
          rwa [round_int] at this
        congr 1
        omega
      rw [hn]
      apply mul_left_cancel₀ hS.ne'
      rw [torch_value _ _ hS, outElem_one cfg _ z hz hS.ne']
      have e1 : (cfg.actRange.1 : ℚ) + z = -zt := by exact_mod_cast hlo
      have e2 : (cfg.actRange.2 : ℚ) + z = 255 - zt := by exact_mod_cast hhi
      rw [e1, e2]
      congr 1
      unfold reluIf
      split
      · rw [mul_max_of_nonneg _ _ hS.le, mul_zero, round_max_zero]
        push_cast
        rfl
      · rfl
    rw [quantVals_values, List.map_map, List.map_flatMap]
    exact flatMap_forall₂ key

/-- **C141** (modules without a quantized implementation) The converted wrapper gives exactly Distiller's numbers, except
at results half-way between two grid points. -/
theorem C141_fake_partial (cfg : OpCfg) (md : QMode) (reduce : Bool) (hp : OutParams cfg md reduce) (f : FloatFn) (onInts : List ℤ → ℤ → List ℤ) :
    ∃ m, fakeToTorch false cfg md 8 reduce = .ok m ∧
      ∀ (xs : List TorchT), (∀ v ∈ f (xs.map TorchT.values), Int.fract (cfg.outScale * reluIf cfg.clipHalf v) ≠ 1/2) →
        ∃ o, m.run f onInts xs = .ok o ∧ o.values = fakeOpForward cfg f (xs.map TorchT.values) := by
  obtain ⟨hS, z, zt, hz, hq, h0, h1, hlo, hhi⟩ := outParams_torch hp
  refine ⟨⟨some (1 / cfg.outScale, zt), cfg.clipHalf⟩, ?_, ?_⟩
  · unfold fakeToTorch
    rw [if_neg (by simp), if_neg (by simp), hq]
    rfl
  · intro xs htie
    refine ⟨quantVals (1 / cfg.outScale) zt ((f (xs.map TorchT.values)).map (reluIf cfg.clipHalf)), ?_, ?_⟩
    · unfold TorchFake.run
      dsimp only
      cases hc : cfg.clipHalf with
      | false =>
        have : (f (xs.map TorchT.values)).map (reluIf false) = f (xs.map TorchT.values) := by
          rw [show reluIf false = id from funext fun v => rfl, List.map_id]
        rw [this]; rfl
      | true =>
        rw [if_pos rfl]
        congr 1
        unfold TorchT.relu quantVals
        simp only [List.map_map, TorchT.mk.injEq, and_true]
        apply List.map_congr_left
        intro x _
        exact torchQuantize_relu x (1 / cfg.outScale) (by positivity) zt h0 h1
    · rw [quantVals_values, List.map_map]
      unfold fakeOpForward
      apply List.map_congr_left
      intro v hv
      obtain ⟨lo, hi, hpar⟩ := hp.params
      obtain ⟨st, zt', hq', hag, -⟩ := C82_quantize_agrees md hp.notRestricted lo hi _ _ hpar .quint8 (reluIf cfg.clipHalf v)
      have hq'' : qparamsToTorch cfg.outScale cfg.outZp 8 md .quint8 false = .ok (1 / cfg.outScale, zt) := by
        rcases hp.full with rfl | hsym
        · exact hq
        · cases reduce with
          | false => exact hq
          | true => rw [← (C82_reduce_range_refusals _ _ 8 md .quint8).1 hsym]; exact hq
      rw [hq''] at hq'
      simp only [Except.ok.injEq, Prod.mk.injEq] at hq'
      obtain ⟨rfl, rfl⟩ := hq'
      simp only [Function.comp]
      rw [hag (htie v hv), ← hp.range]
      rfl

/-- **C141** (ReLU) PyTorch's ReLU on the quantized tensor computes the ReLU of the numbers exactly and keeps the operand's grid;
Distiller's wrapper rounds the result to its own output grid: where that grid covers the result, they are half a step of
it apart at most. -/
theorem C141_relu_partial (cfg : OpCfg) (hh : cfg.clipHalf = true) (md : QMode) (reduce : Bool) (hp : OutParams cfg md reduce) :
    ∃ m, fakeToTorch true cfg md 8 reduce = .ok m ∧
      ∀ (x : TorchT), 0 < x.scale →
        ∃ o, m.run (fun xs => xs.flatten.map fun v => max v 0) (fun qs z => qs.map fun q => max q z) [x] = .ok o ∧
          o.values = x.values.map (fun v => max v 0) ∧
          ∀ (j : ℕ) (v : ℚ), o.values[j]? = some v → cfg.outScale * v ≤ cfg.actRange.2 + cfg.outZp →
            ∃ y, (fakeOpForward cfg (fun xs => xs.flatten.map fun v => max v 0) [x.values])[j]? = some y ∧ |v - y| ≤ 1 / 2 / cfg.outScale := by
  refine ⟨⟨none, cfg.clipHalf⟩, ?_, ?_⟩
  · unfold fakeToTorch
    rw [if_neg (by simp), if_pos rfl]
  · intro x hx
    have hv : ∀ q : ℤ, torchDequantize (max q x.zp) x.scale x.zp = max (torchDequantize q x.scale x.zp) 0 := by
      intro q
      unfold torchDequantize
      push_cast
      rcases le_total (q : ℚ) x.zp with h | h
      · rw [max_eq_right h, sub_self, zero_mul, max_eq_right]
        exact mul_nonpos_of_nonpos_of_nonneg (by linarith) hx.le
      · rw [max_eq_left h, max_eq_left]
        exact mul_nonneg (by linarith) hx.le
    refine ⟨_, rfl, ?_, ?_⟩
    · dsimp only
      rw [hh, if_pos rfl]
      unfold TorchT.relu TorchT.values
      simp only [List.map_map]
      apply List.map_congr_left
      intro q _
      simp only [Function.comp]
      rw [max_assoc, max_self]
      exact hv q
    · intro j v hj hr
      dsimp only at hj
      rw [hh, if_pos rfl] at hj
      unfold TorchT.relu TorchT.values at hj
      simp only [List.map_map, List.getElem?_map] at hj
      cases hi : x.ints[j]? with
      | none => rw [hi] at hj; cases hj
      | some q =>
        rw [hi] at hj
        simp only [Option.map_some, Function.comp, Option.some.injEq] at hj
        rw [max_assoc, max_self, hv] at hj
        have hd : (fakeOpForward cfg (fun xs => xs.flatten.map fun v => max v 0) [x.values])[j]? = some (fakeQuant v cfg.outScale cfg.outZp cfg.actRange) := by
          unfold fakeOpForward TorchT.values
          simp only [List.flatten_cons, List.flatten_nil, List.append_nil, List.map_map, List.getElem?_map, hi, Option.map_some, Function.comp, Option.some.injEq]
          rw [hh, if_pos rfl, max_assoc, max_self, hj]
          rfl
        refine ⟨_, hd, ?_⟩
        obtain ⟨hS, z, zt, hz, -, h0, h1, hlo, hhi⟩ := outParams_torch hp
        have hv0 : 0 ≤ v := by rw [← hj]; exact le_max_right _ _
        have hle : cfg.actRange.1 ≤ cfg.actRange.2 := by omega
        have hzle : (cfg.actRange.1 : ℚ) + z ≤ 0 := by exact_mod_cast (by omega : cfg.actRange.1 + z ≤ 0)
        have herr := round_clamp_err (cfg.outScale * v - cfg.outZp) cfg.actRange.1 cfg.actRange.2 hle
          (by rw [hz]; have := mul_nonneg hS.le hv0; linarith) (by linarith)
        unfold fakeQuant linearDequantize linearQuantizeClamp linearQuantize
        rw [show v - (clampQ (↑(roundHalfEven (cfg.outScale * v - cfg.outZp))) ↑cfg.actRange.1 ↑cfg.actRange.2 + cfg.outZp) / cfg.outScale =
          -(clampQ (↑(roundHalfEven (cfg.outScale * v - cfg.outZp))) ↑cfg.actRange.1 ↑cfg.actRange.2 - (cfg.outScale * v - cfg.outZp)) / cfg.outScale by field_simp; ring]
        rw [abs_div, abs_neg, abs_of_pos hS]
        exact div_le_div_of_nonneg_right herr hS.le

/-! ## Where it fails -/

/-- **C141** is violated for matrix products: what is put into the model in place of the wrapper is a Python list, and calling it
raises TypeError, for all parameters and operands. -/
theorem C141_violated_matmul (cfg : OpCfg) (md : QMode) (bits : ℕ) (reduce : Bool) (m : TorchOp) (h : WOp.matmul.toTorch cfg md bits reduce = .ok m)
    (xs : List TorchT) : m.run xs = .error .type := by
  unfold WOp.toTorch at h
  split at h
  · cases h
  · obtain ⟨p, _, h⟩ := ok_bind h
    cases h
    rfl

/-- **C141** is violated for sums and products of a number of operands other than two: Distiller's wrappers take any number, the
converted modules raise TypeError. -/
theorem C141_violated_operands (op : QOp) (hop : op = .add ∨ op = .mult) (cfg : OpCfg) (md : QMode) (bits : ℕ) (reduce : Bool) (m : TorchOp)
    (h : (WOp.elt op).toTorch cfg md bits reduce = .ok m) (xs : List TorchT) (hx : xs.length ≠ 2) : m.run xs = .error .type := by
  unfold WOp.toTorch at h
  split at h
  · cases h
  · obtain ⟨p, _, h⟩ := ok_bind h
    cases h
    have ha : ∀ r s z, (TorchOp.add r s z).run xs = .error .type := by
      intro r s z
      match xs, hx with
      | [], _ => rfl
      | [_], _ => rfl
      | [_, _], hx => exact absurd rfl hx
      | _ :: _ :: _ :: _, _ => rfl
    have hm : ∀ s z, (TorchOp.mul s z).run xs = .error .type := by
      intro s z
      match xs, hx with
      | [], _ => rfl
      | [_], _ => rfl
      | [_, _], hx => exact absurd rfl hx
      | _ :: _ :: _ :: _, _ => rfl
    rcases hop with rfl | rfl
    · exact ha _ _ _
    · show (if cfg.clipHalf then TorchOp.thenRelu (.mul p.1 p.2) else .mul p.1 p.2).run xs = _
      split
      · show (do let t ← (TorchOp.mul p.1 p.2).run xs; pure _) = _
        rw [hm]; rfl
      · exact hm _ _

/-- Only 8-bit wrappers are converted. -/
theorem C141_only_8_bits (op : WOp) (supported : Bool) (cfg : OpCfg) (md : QMode) (bits : ℕ) (reduce : Bool) (h : bits ≠ 8) :
    op.toTorch cfg md bits reduce = .error .assertion ∧ fakeToTorch supported cfg md bits reduce = .error .assertion := by
  unfold WOp.toTorch fakeToTorch
  rw [if_pos h, if_pos h]
  exact ⟨rfl, rfl⟩

/-! ## Cases -/

/-- Unsigned output range [0, 5] with a fused ReLU. -/
def exTO : OpCfg := ⟨(0, 255), (-2147483648, 2147483647), true, none, 51, 0, fun _ => false, true, fun _ => .error .key⟩

theorem exTO_params : OutParams exTO .asymmetricUnsigned false := ⟨by decide, .inl rfl, ⟨0, 5, by decide +kernel⟩, by decide +kernel⟩

/-- Signed symmetric output, with the reducing backend. -/
def exTS : OpCfg := ⟨(-128, 127), (-2147483648, 2147483647), false, none, 255/4, 0, fun _ => false, true, fun _ => .error .key⟩

theorem exTS_params : OutParams exTS .symmetric true := ⟨by decide, .inr rfl, ⟨-2, 1, by decide +kernel⟩, by decide +kernel⟩

/-- Operands: the numbers 1/5, -2/5 and 3/10, 3/10 as Distiller tensors and as PyTorch tensors. -/
def exTA : QTensor := ⟨[1/5, -2/5], some ⟨10, -10, (0, 255)⟩⟩
def exTB : QTensor := ⟨[3/10, 3/10], some ⟨10, 0, (0, 255)⟩⟩
def exXA : TorchT := ⟨[12, 6], 1/10, 10⟩
def exXB : TorchT := ⟨[3, 3], 1/10, 0⟩

example : exXA.values = opValues exTA ⟨10, -10, (0, 255)⟩ ∧ exXB.values = opValues exTB ⟨10, 0, (0, 255)⟩ ∧ exXA.values = [1/5, -2/5] := by decide +kernel

example : exTO.metaSpec 0 exTA ⟨10, -10, (0, 255)⟩ ∧ exTO.metaSpec 1 exTB ⟨10, 0, (0, 255)⟩ := ⟨.inl ⟨rfl, rfl⟩, .inl ⟨rfl, rfl⟩⟩

/-- Product and concatenation agree, the sum does too here (25.5 would be a tie: 1/2 is 25.5 steps). -/
example : (QOp.mult.forward exTO [exTA, exTB]).map (fun y => y.data) = .ok [3/51, 0] ∧
    ((WOp.elt .mult).toTorch exTO .asymmetricUnsigned 8 false).bind (fun m => (m.run [exXA, exXB]).map TorchT.values) = .ok [3/51, 0] ∧
    (QOp.concat.forward exTO [exTA, exTB, exTA]).map (fun y => y.data) = .ok [10/51, 0, 15/51, 15/51, 10/51, 0] ∧
    ((WOp.elt .concat).toTorch exTO .asymmetricUnsigned 8 false).bind (fun m => (m.run [exXA, exXB, exXA]).map TorchT.values) = .ok [10/51, 0, 15/51, 15/51, 10/51, 0] := by
  decide +kernel

/-- The sum can differ by a step. -/
theorem C141_violated_add : ∃ (cfg : OpCfg) (a b y : QTensor) (xa xb o : TorchT) (m : TorchOp), OutParams cfg .asymmetricUnsigned false ∧
    xa.values = a.data ∧ xb.values = b.data ∧ QOp.add.forward cfg [a, b] = .ok y ∧
    (WOp.elt .add).toTorch cfg .asymmetricUnsigned 8 false = .ok m ∧ m.run [xa, xb] = .ok o ∧ o.values ≠ y.data :=
  ⟨⟨(0, 255), (-2147483648, 2147483647), false, none, 51, 0, fun _ => false, true, fun _ => .error .key⟩,
    ⟨[1/125], some ⟨125, 0, (0, 255)⟩⟩, ⟨[1/125], some ⟨125, 0, (0, 255)⟩⟩, ⟨[0], some ⟨51, 0, (0, 255)⟩⟩, ⟨[1], 1/125, 0⟩, ⟨[1], 1/125, 0⟩,
    ⟨[1], 1/51, 0⟩, .add false (1/51) 0,
    ⟨by decide, .inl rfl, ⟨0, 5, by decide +kernel⟩, by decide +kernel⟩, by decide +kernel, by decide +kernel, by decide +kernel, by decide +kernel, by decide +kernel, by decide +kernel⟩

/-- **C141** is violated by ReLU and pooling: the converted module does not round to the output grid of the wrapper. -/
theorem C141_violated_relu : ∃ (cfg : OpCfg) (x o : TorchT) (m : TorchFake), OutParams cfg .asymmetricUnsigned false ∧ cfg.clipHalf = true ∧
    fakeToTorch true cfg .asymmetricUnsigned 8 false = .ok m ∧
    m.run (fun xs => xs.flatten.map fun v => max v 0) (fun qs z => qs.map fun q => max q z) [x] = .ok o ∧
    o.values ≠ fakeOpForward cfg (fun xs => xs.flatten.map fun v => max v 0) [x.values] :=
  ⟨exTO, ⟨[11], 1/10, 10⟩, ⟨[11], 1/10, 10⟩, ⟨none, true⟩, exTO_params, rfl, by decide +kernel, by decide +kernel, by decide +kernel⟩

end Verif
