import Verif.Model.Embedding
import Verif.Props.TorchLayer
/-!
# C118: the quantized embedding; C119: reading and writing back clipping values
-/
namespace Verif

/-! ## C118 -/

/-- What a user can do with a quantized embedding. -/
inductive EmbOp where
  | set (n : EmbParam) (v : ℚ)
  | clip (arg : ClipArg)
  | move

/-- One operation. -/
def EmbOp.step (range : ℤ × ℤ) (bits : ℕ) (mode : QMode) (e : Emb) : EmbOp → Except Err Emb
  | .set n v => e.setParam range n v
  | .clip a => e.setClip range bits mode a
  | .move => .ok e.move

/-- A history of operations, all of which succeed. -/
def runEmb (range : ℤ × ℤ) (bits : ℕ) (mode : QMode) : Emb → List EmbOp → Except Err Emb
  | e, [] => .ok e
  | e, op :: ops => do
    let e' ← op.step range bits mode e
    runEmb range bits mode e' ops

/-- Invariant: the stored rows are the original float rows quantized with the current buffers. -/
structure EmbInv (range : ℤ × ℤ) (saveFp : Bool) (rows : List (List ℚ)) (e : Emb) : Prop where
  rows_eq : e.rows = quantRows range e.scale e.zp rows
  float_eq : e.floatRows = if saveFp then some rows else none
  md : e.aliased = true → e.mdScale = e.scale ∧ e.mdZp = e.zp

theorem emb_init_inv (range : ℤ × ℤ) (saveFp : Bool) (p : ℚ × ℚ) (rows : List (List ℚ)) :
    EmbInv range saveFp rows (Emb.init range saveFp p rows) :=
  ⟨rfl, rfl, fun _ => ⟨rfl, rfl⟩⟩

theorem emb_setParam_inv {range : ℤ × ℤ} {saveFp : Bool} {rows : List (List ℚ)} {e e' : Emb} (n : EmbParam) (v : ℚ)
    (hi : EmbInv range saveFp rows e) (h : e.setParam range n v = .ok e') :
    EmbInv range saveFp rows e' ∧ e'.aliased = e.aliased ∧ saveFp = true ∧
      e'.scale = (if n = .scale then v else e.scale) ∧ e'.zp = (if n = .zp then v else e.zp) := by
  obtain ⟨h1, h2, h3⟩ := hi
  unfold Emb.setParam at h
  cases saveFp with
  | false => rw [h2] at h; simp at h
  | true =>
    rw [h2] at h
    simp only [if_true, Except.ok.injEq] at h
    subst h
    cases n with
    | scale =>
      refine ⟨⟨rfl, by simpa using h2, fun ha => ?_⟩, rfl, rfl, by simp, by simp⟩
      have ha' : e.aliased = true := ha
      simp only [ha', if_true]
      exact ⟨trivial, (h3 ha').2⟩
    | zp =>
      refine ⟨⟨rfl, by simpa using h2, fun ha => ?_⟩, rfl, rfl, by simp, by simp⟩
      have ha' : e.aliased = true := ha
      simp only [ha', if_true]
      exact ⟨(h3 ha').1, trivial⟩

theorem emb_setClip_inv {range : ℤ × ℤ} {saveFp : Bool} {rows : List (List ℚ)} {e e' : Emb} {bits : ℕ} {mode : QMode}
    (a : ClipArg) (hi : EmbInv range saveFp rows e) (h : e.setClip range bits mode a = .ok e') :
    EmbInv range saveFp rows e' ∧ e'.aliased = e.aliased ∧ saveFp = true ∧
      ∃ v p, checkClip a mode false = .ok v ∧ embClipParams bits mode v.1 v.2 = .ok p ∧ e'.scale = p.1 ∧ e'.zp = p.2 := by
  unfold Emb.setClip at h
  cases hv : checkClip a mode false with
  | error er => rw [hv] at h; cases h
  | ok v =>
    rw [hv] at h
    change (embClipParams bits mode v.1 v.2 >>= fun p => e.setParam range .scale p.1 >>= fun e => e.setParam range .zp p.2) = _ at h
    cases hp : embClipParams bits mode v.1 v.2 with
    | error er => rw [hp] at h; cases h
    | ok p =>
      rw [hp] at h
      change (e.setParam range .scale p.1 >>= fun e => e.setParam range .zp p.2) = _ at h
      cases h1 : e.setParam range .scale p.1 with
      | error er => rw [h1] at h; cases h
      | ok e1 =>
        rw [h1] at h
        change e1.setParam range .zp p.2 = _ at h
        obtain ⟨g1, g2, g3, g4, g5⟩ := emb_setParam_inv .scale p.1 hi h1
        obtain ⟨k1, k2, k3, k4, k5⟩ := emb_setParam_inv .zp p.2 g1 h
        exact ⟨k1, k2.trans g2, g3, v, p, rfl, hp, by simpa [g4] using k4, by simpa using k5⟩

theorem runEmb_inv {range : ℤ × ℤ} {saveFp : Bool} {rows : List (List ℚ)} {bits : ℕ} {mode : QMode} (ops : List EmbOp) :
    ∀ {e e' : Emb}, EmbInv range saveFp rows e → runEmb range bits mode e ops = .ok e' → EmbInv range saveFp rows e' ∧
      (EmbOp.move ∉ ops → e'.aliased = e.aliased) := by
  induction ops with
  | nil => intro e e' hi h; cases h; exact ⟨hi, fun _ => rfl⟩
  | cons op ops ih =>
    intro e e' hi h
    simp only [runEmb] at h
    cases hs : op.step range bits mode e with
    | error er => rw [hs] at h; cases h
    | ok e1 =>
      rw [hs] at h
      change runEmb range bits mode e1 ops = _ at h
      cases op with
      | set n v =>
        obtain ⟨g1, g2, -⟩ := emb_setParam_inv n v hi hs
        obtain ⟨k1, k2⟩ := ih g1 h
        exact ⟨k1, fun hm => (k2 (fun hmem => hm (List.mem_cons_of_mem _ hmem))).trans g2⟩
      | clip a =>
        obtain ⟨g1, g2, -⟩ := emb_setClip_inv a hi hs
        obtain ⟨k1, k2⟩ := ih g1 h
        exact ⟨k1, fun hm => (k2 (fun hmem => hm (List.mem_cons_of_mem _ hmem))).trans g2⟩
      | move =>
        cases hs
        have g1 : EmbInv range saveFp rows e.move := ⟨hi.1, hi.2, fun ha => by cases ha⟩
        obtain ⟨k1, -⟩ := ih g1 h
        exact ⟨k1, fun hm => (hm (by simp)).elim⟩

theorem lookup_map (f : List ℚ → List ℚ) (rows : List (List ℚ)) (ids : List ℕ) (h : ∀ i ∈ ids, i < rows.length) :
    lookupRows (rows.map f) ids = .ok (ids.map fun i => f (rows.getD i [])) := by
  induction ids with
  | nil => rfl
  | cons i ids ih =>
    have hi := h i (by simp)
    have := ih (fun i hi => h i (List.mem_cons_of_mem _ hi))
    simp only [lookupRows, List.getElem?_map, List.getElem?_eq_getElem hi, Option.map_some, this]
    simp [List.getD_eq_getElem?_getD, List.getElem?_eq_getElem hi]

/-- **C118**: after any history of parameter settings, clipping settings and device moves, every
in-range lookup returns the fake-quantized float rows at the current scale and zero-point; without
moves the attached metadata are that scale and zero-point. -/
theorem C118_lookup_partial (range : ℤ × ℤ) (saveFp : Bool) (bits : ℕ) (mode : QMode) (p : ℚ × ℚ) (rows : List (List ℚ))
    (ops : List EmbOp) (e : Emb) (h : runEmb range bits mode (Emb.init range saveFp p rows) ops = .ok e)
    (ids : List ℕ) (hids : ∀ i ∈ ids, i < rows.length) :
    ∃ md, e.forward ids = .ok (ids.map fun i => (rows.getD i []).map fun x => fakeQuant x e.scale e.zp range, md) ∧
      (EmbOp.move ∉ ops → md = (e.scale, e.zp)) := by
  obtain ⟨⟨h1, h2, h3⟩, h4⟩ := runEmb_inv ops (emb_init_inv range saveFp p rows) h
  refine ⟨(e.mdScale, e.mdZp), ?_, ?_⟩
  · unfold Emb.forward
    rw [h1]
    unfold quantRows
    rw [lookup_map _ rows ids hids]
    show Except.ok _ = Except.ok _
    simp [fakeQuant, List.map_map, Function.comp_def]
  · intro hm
    obtain ⟨g1, g2⟩ := h3 (h4 hm)
    rw [g1, g2]

/-- **C118** (out-of-range indices raise). -/
theorem C118_out_of_range (e : Emb) (ids : List ℕ) (i : ℕ) (hi : i ∈ ids) (hlen : e.rows.length ≤ i) :
    e.forward ids = .error .index := by
  have : ∀ ids : List ℕ, i ∈ ids → lookupRows e.rows ids = .error .index := by
    intro ids
    induction ids with
    | nil => intro h; simp at h
    | cons j ids ih =>
      intro h
      simp only [lookupRows]
      rcases List.mem_cons.1 h with rfl | h
      · rw [List.getElem?_eq_none hlen]
      · cases hj : e.rows[j]? with
        | none => rfl
        | some r => rw [ih h]; rfl
  unfold Emb.forward
  rw [this ids hi]; rfl

/-- **C118** (the last setting wins): after a successful clipping setting the parameters are those
of the requested range, whatever was set before. -/
theorem C118_set_clipping (range : ℤ × ℤ) (bits : ℕ) (mode : QMode) (rows : List (List ℚ)) (e e' : Emb)
    (hi : EmbInv range true rows e) (a : ClipArg) (h : e.setClip range bits mode a = .ok e') :
    ∃ v p, checkClip a mode false = .ok v ∧ embClipParams bits mode v.1 v.2 = .ok p ∧
      e'.rows = quantRows range p.1 p.2 rows ∧ (e'.scale, e'.zp) = p := by
  obtain ⟨g1, -, -, v, p, k1, k2, k3, k4⟩ := emb_setClip_inv a hi h
  refine ⟨v, p, k1, k2, ?_, by rw [k3, k4]⟩
  rw [g1.1, k3, k4]

/-- **C118** (without saved float weights nothing can be re-quantized): every setting fails and the
wrapper is as before. -/
theorem C118_no_float_weights (range : ℤ × ℤ) (bits : ℕ) (mode : QMode) (p : ℚ × ℚ) (rows : List (List ℚ))
    (n : EmbParam) (v : ℚ) (a : ClipArg) :
    (Emb.init range false p rows).setParam range n v = .error .runtime ∧
    ∀ e, (Emb.init range false p rows).setClip range bits mode a ≠ .ok e := by
  refine ⟨rfl, fun e h => ?_⟩
  obtain ⟨-, -, hc, -⟩ := emb_setClip_inv a (emb_init_inv range false p rows) h
  cases hc

/-- **C118** (metadata go stale): once the module has been moved to another device, setting a
parameter changes the values looked up but not the metadata attached to them. -/
theorem C118_violated_stale_metadata (range : ℤ × ℤ) (bits : ℕ) (mode : QMode) (p : ℚ × ℚ) (rows : List (List ℚ)) (v : ℚ)
    (hv : v ≠ p.1) (ids : List ℕ) (hids : ∀ i ∈ ids, i < rows.length) :
    ∃ e, runEmb range bits mode (Emb.init range true p rows) [.move, .set .scale v] = .ok e ∧
      e.scale = v ∧ e.forward ids = .ok (ids.map fun i => (rows.getD i []).map fun x => fakeQuant x v p.2 range, p) ∧
      p ≠ (e.scale, e.zp) := by
  refine ⟨_, rfl, rfl, ?_, fun h => hv (congrArg Prod.fst h).symm⟩
  obtain ⟨md, h1, -⟩ := C118_lookup_partial range true bits mode p rows [.move, .set .scale v] _ rfl ids hids
  unfold Emb.forward at h1 ⊢
  cases hl : lookupRows (quantRows range v p.2 rows) ids with
  | error er =>
    have : lookupRows _ ids = .error er := hl
    simp only [Emb.move, Emb.init] at h1
    rw [this] at h1; cases h1
  | ok rs =>
    have : lookupRows _ ids = .ok rs := hl
    simp only [Emb.move, Emb.init] at h1 ⊢
    rw [this] at h1 ⊢
    have h1' := Except.ok.inj h1
    exact congrArg Except.ok (Prod.ext (Prod.mk.inj h1').1 rfl)

/-- **C118** (conversion to PyTorch needs the float weights not to be saved): with
`save_fp_weights` it always fails. -/
theorem C118_violated_conversion (range : ℤ × ℤ) (bits : ℕ) (mode : QMode) (p : ℚ × ℚ) (rows : List (List ℚ))
    (ops : List EmbOp) (e : Emb) (h : runEmb range bits mode (Emb.init range true p rows) ops = .ok e) (reduce : Bool) :
    e.toTorch bits mode reduce = .error .attribute := by
  obtain ⟨⟨-, h2, -⟩, -⟩ := runEmb_inv ops (emb_init_inv range true p rows) h
  unfold Emb.toTorch
  rw [h2]; rfl

/-- A value on the grid is not half-way between grid points, and fake-quantizing it again changes
nothing. -/
theorem fakeQuant_idem (mode : QMode) (lo hi scale zp : ℚ) (h : modeParams mode 8 lo hi = .ok (scale, zp)) (x : ℚ) :
    fakeQuant (fakeQuant x scale zp (modeRange mode 8)) scale zp (modeRange mode 8) = fakeQuant x scale zp (modeRange mode 8) ∧
    Int.fract (scale * fakeQuant x scale zp (modeRange mode 8)) ≠ 1/2 := by
  obtain ⟨hs, ⟨z, rfl, -, -⟩, -, -⟩ := modeParams_image mode 8 (by norm_num) lo hi scale zp h
  obtain ⟨n, hn, hn1, hn2⟩ := quantClamp_int x scale z (modeRange mode 8) (modeRange_le mode) ⟨z, rfl⟩
  have e : scale * fakeQuant x scale z (modeRange mode 8) = ((n + z : ℤ) : ℚ) := by
    unfold fakeQuant linearDequantize
    rw [hn, mul_div_cancel₀ _ hs.ne']
    push_cast; ring
  have e2 : linearQuantizeClamp (fakeQuant x scale z (modeRange mode 8)) scale z (modeRange mode 8).1 (modeRange mode 8).2 = n := by
    unfold linearQuantizeClamp linearQuantize clampQ
    simp only [e]
    rw [show ((n + z : ℤ) : ℚ) - z = (n : ℚ) by push_cast; ring]
    have : roundHalfEven (n : ℚ) = n := by
      simp [roundHalfEven]
    rw [this]
    rw [max_eq_left (by exact_mod_cast hn1), min_eq_left (by exact_mod_cast hn2)]
  constructor
  · show linearDequantize (linearQuantizeClamp (fakeQuant x scale z (modeRange mode 8)) scale z _ _) scale z = _
    rw [e2]
    unfold fakeQuant
    rw [hn]
  · rw [e, Int.fract_intCast]; norm_num

/-- **C118** (conversion to PyTorch without saved float weights): an 8-bit embedding built with the
library's parameters converts, and looking up and quantizing a row in PyTorch gives exactly the
values Distiller's wrapper gives (backend not reducing the range, mode not the restricted one). -/
theorem C118_conversion_partial (mode : QMode) (hm : mode ≠ .symmetricRestricted) (lo hi : ℚ) (p : ℚ × ℚ)
    (hp : modeParams mode 8 lo hi = .ok p) (rows : List (List ℚ)) :
    ∃ te, (Emb.init (modeRange mode 8) false p rows).toTorch 8 mode false = .ok te ∧
      te.rows.map (fun r => r.map fun v => torchDequantize (torchQuantize v te.scale te.zp .quint8) te.scale te.zp) =
        rows.map (fun r => r.map fun x => fakeQuant x p.1 p.2 (modeRange mode 8)) := by
  obtain ⟨scale, zp⟩ := p
  obtain ⟨st, zt, hq, -, -⟩ := C82_quantize_agrees mode hm lo hi scale zp hp .quint8 0
  refine ⟨⟨rows.map fun r => r.map fun x => fakeQuant x scale zp (modeRange mode 8), st, zt⟩, ?_, ?_⟩
  · unfold Emb.toTorch
    simp only [Emb.init, Bool.false_eq_true, if_false, hq]
    show Except.ok _ = Except.ok _
    simp only [quantRows, List.map_map, Function.comp_def, fakeQuant]
  · simp only [List.map_map, Function.comp_def]
    apply List.map_congr_left
    intro r _
    apply List.map_congr_left
    intro x _
    obtain ⟨st', zt', hq', hag, -⟩ := C82_quantize_agrees mode hm lo hi scale zp hp .quint8 (fakeQuant x scale zp (modeRange mode 8))
    rw [hq] at hq'
    simp only [Except.ok.injEq, Prod.mk.injEq] at hq'
    obtain ⟨rfl, rfl⟩ := hq'
    obtain ⟨i1, i2⟩ := fakeQuant_idem mode lo hi scale zp hp x
    rw [hag i2, i1]

/-- Non-vacuity: a 4-bit embedding with saved weights through a history of all operations. -/
example : ∃ e, runEmb (-8, 7) 4 .symmetric (Emb.init (-8, 7) true (15/2, 0) [[1, -1/2], [1/4, 3/4]])
    [.clip (.float (1/2)), .set .scale 10, .move, .clip (.seq [-1, 1])] = .ok e ∧ e.scale = 15/2 ∧ e.mdScale = 10 ∧
    e.forward [1, 0] = .ok ([[4/15, 4/5], [14/15, -8/15]], (10, 0)) :=
  ⟨⟨[[7, -4], [2, 6]], some [[1, -1/2], [1/4, 3/4]], 15/2, 0, 10, 0, false⟩,
    by decide +kernel, by decide +kernel, by decide +kernel, by decide +kernel⟩

/-! ## C119 -/

/-- **C119** (unsigned asymmetric mode): writing back the clipping range that was read leaves scale
and zero-point exactly as they were, for weights, embeddings and outputs. -/
theorem C119_roundtrip_partial (b : ℕ) (hb : 2 ≤ b) (lo hi scale zp : ℚ)
    (h : modeParams .asymmetricUnsigned b lo hi = .ok (scale, zp)) :
    let c := clippingValues scale zp b .asymmetricUnsigned
    layerClipParams b .asymmetricUnsigned c.1 c.2 = .ok (scale, zp) ∧
    embClipParams b .asymmetricUnsigned c.1 c.2 = .ok (scale, zp) ∧
    outputClipParams b .asymmetricUnsigned none c.1 c.2 = .ok (scale, zp) := by
  intro c
  obtain ⟨hs, ⟨z, rfl, hz1, hz2⟩, -, -⟩ := modeParams_image .asymmetricUnsigned b hb lo hi scale zp h
  rw [modeRange_unsigned] at hz1 hz2
  simp only at hz1 hz2
  have hpow : (1 : ℤ) < 2 ^ b := by
    have := two_pow_pos_int (b - 1)
    have h2 := two_pow_pred (b := b) (by omega)
    have h3 : (2 : ℤ) ^ 1 ≤ 2 ^ (b - 1) := pow_le_pow_right₀ (by norm_num) (by omega)
    omega
  have hc1 : c.1 = (z : ℚ) / scale := by simp [c, clippingValues, QMode.isSym, linearDequantize]
  have hc2 : c.2 = ((2 : ℚ) ^ b - 1 + z) / scale := by simp [c, clippingValues, QMode.isSym, linearDequantize]
  have hz1' : (z : ℚ) ≤ 0 := by exact_mod_cast (by omega : z ≤ 0)
  have hz2' : (0 : ℚ) ≤ 2 ^ b - 1 + z := by exact_mod_cast (by omega : (0 : ℤ) ≤ 2 ^ b - 1 + z)
  have hn : (0 : ℚ) < 2 ^ b - 1 := by exact_mod_cast (by omega : (0 : ℤ) < 2 ^ b - 1)
  have key : asymParams b c.1 c.2 true false = .ok (scale, (z : ℚ)) := by
    have h1 : c.1 ≤ 0 := by rw [hc1]; exact div_nonpos_of_nonpos_of_nonneg hz1' hs.le
    have h2 : 0 ≤ c.2 := by rw [hc2]; exact div_nonneg hz2' hs.le
    have hd : c.2 - c.1 = (2 ^ b - 1) / scale := by rw [hc1, hc2]; field_simp; ring
    have hd0 : (2 ^ b - 1) / scale ≠ 0 := (div_pos hn hs).ne'
    unfold asymParams
    rw [if_neg (by linarith)]
    simp only [min_eq_left h1, max_eq_left h2, hd, hd0, if_false, if_true, Bool.false_eq_true]
    have e1 : (2 ^ b - 1) / ((2 ^ b - 1) / scale) = scale := by field_simp
    rw [e1, hc1, mul_div_cancel₀ _ hs.ne']
    simp [roundHalfEven]
  refine ⟨?_, ?_, ?_⟩
  · simpa [layerClipParams, QMode.isSym] using key
  · simpa [embClipParams, QMode.isSym] using key
  · unfold outputClipParams modeParams
    simp only [QMode.isSym, Bool.false_eq_true, if_false, reduceCtorEq, decide_false]
    rw [key]; rfl

/-- **C119** (what a clipping value means): a float `v > 0` in a symmetric mode is the range
`[-v, v]`; in an asymmetric mode it is refused unless the output is known to be non-negative, where
it means `[0, v]`; a pair is taken as it is; sequences of another length and other objects are
refused. -/
theorem C119_clipping_argument (mode : QMode) (half : Bool) :
    (∀ v : ℚ, mode.isSym = true → checkClip (.float v) mode half = .ok (-v, v)) ∧
    (∀ v : ℚ, mode.isSym = false → half = true → checkClip (.float v) mode half = .ok (0, v)) ∧
    (∀ v : ℚ, mode.isSym = false → half = false → checkClip (.float v) mode half = .error .value) ∧
    (∀ a b : ℚ, checkClip (.seq [a, b]) mode half = .ok (a, b)) ∧
    (∀ vs : List ℚ, vs.length ≠ 2 → checkClip (.seq vs) mode half = .error .assertion) ∧
    checkClip .other mode half = .error .type := by
  refine ⟨fun v h => by simp [checkClip, h], fun v h h2 => by simp [checkClip, h, h2],
    fun v h h2 => by simp [checkClip, h, h2], fun a b => rfl, fun vs h => ?_, rfl⟩
  rcases vs with _ | ⟨a, _ | ⟨b, _ | ⟨c, vs⟩⟩⟩
  · rfl
  · rfl
  · exact absurd rfl h
  · rfl

/-- **C119** (the scale that a range gives, asymmetric modes): for weights, embeddings and outputs
the whole range, extended to contain 0, takes the `2^b - 1` steps, and the zero-point is the
lower end rounded (shifted by `2^(b-1)` in the signed mode); reversed ranges are refused. -/
theorem C119_asymmetric_range (b : ℕ) (mode : QMode) (hm : mode.isSym = false) (lo hi : ℚ) :
    (hi < lo → layerClipParams b mode lo hi = .error .value ∧ embClipParams b mode lo hi = .error .value ∧
      outputClipParams b mode none lo hi = .error .value) ∧
    (lo ≤ hi → (lo ≠ 0 ∨ hi ≠ 0) → ∃ s z : ℚ,
      layerClipParams b mode lo hi = .ok (s, z) ∧ embClipParams b mode lo hi = .ok (s, z) ∧
      outputClipParams b mode none lo hi = .ok (s, z) ∧
      s * (max hi 0 - min lo 0) = 2 ^ b - 1 ∧
      |z - (s * min lo 0 + if mode = .asymmetricSigned then 2 ^ (b - 1) else 0)| ≤ 1 / 2) := by
  have e1 : layerClipParams b mode lo hi = asymParams b lo hi true (mode = .asymmetricSigned) := by
    simp [layerClipParams, hm]
  have e2 : embClipParams b mode lo hi = asymParams b lo hi true (mode = .asymmetricSigned) := by
    simp [embClipParams, hm]
  have e3 : outputClipParams b mode none lo hi = asymParams b lo hi true (mode = .asymmetricSigned) := by
    unfold outputClipParams modeParams
    simp only [hm, Bool.false_eq_true, if_false]
    cases asymParams b lo hi true (mode = .asymmetricSigned) <;> rfl
  rw [e1, e2, e3]
  constructor
  · intro h
    have : asymParams b lo hi true (mode = .asymmetricSigned) = .error .value := by
      unfold asymParams; rw [if_pos h]
    exact ⟨this, this, this⟩
  · intro h hne
    have hpos : 0 < max hi 0 - min lo 0 := by
      rcases hne with h1 | h1
      · rcases lt_or_gt_of_ne h1 with h2 | h2
        · rw [min_eq_left h2.le]; have := le_max_right hi 0; linarith
        · rw [min_eq_right h2.le, max_eq_left (by linarith)]; linarith
      · rcases lt_or_gt_of_ne h1 with h2 | h2
        · rw [min_eq_left (by linarith)]; have := le_max_right hi 0; linarith
        · rw [max_eq_left h2.le]; have := min_le_right lo 0; linarith
    refine ⟨(2 ^ b - 1) / (max hi 0 - min lo 0),
      (roundHalfEven ((2 ^ b - 1) / (max hi 0 - min lo 0) * min lo 0) : ℚ) + (if mode = .asymmetricSigned then 2 ^ (b - 1) else 0), ?_⟩
    have key : asymParams b lo hi true (mode = .asymmetricSigned) = .ok ((2 ^ b - 1) / (max hi 0 - min lo 0),
      (roundHalfEven ((2 ^ b - 1) / (max hi 0 - min lo 0) * min lo 0) : ℚ) + (if mode = .asymmetricSigned then 2 ^ (b - 1) else 0)) := by
      unfold asymParams
      rw [if_neg (by linarith)]
      simp only [hpos.ne', if_false, if_true]
      by_cases hs : mode = .asymmetricSigned <;> simp [hs]
    refine ⟨key, key, key, div_mul_cancel₀ _ hpos.ne', ?_⟩
    rw [add_sub_add_right_eq_sub]
    obtain ⟨g1, g2⟩ := round_bounds ((2 ^ b - 1) / (max hi 0 - min lo 0) * min lo 0)
    rw [abs_le]; constructor <;> linarith

/-- **C119** (the scale that a range gives, symmetric modes): an output's range is extended to the
symmetric one of the larger absolute value; weights and embeddings use the upper end alone. -/
theorem C119_symmetric_range (b : ℕ) (mode : QMode) (hm : mode.isSym = true) (lo hi : ℚ) (hle : lo ≤ hi) (hh : 0 < hi) :
    (∃ s : ℚ, layerClipParams b mode lo hi = .ok (s, 0) ∧ embClipParams b mode lo hi = .ok (s, 0) ∧
      s * hi = (2 ^ b - 1) / 2) ∧
    (∃ s : ℚ, outputClipParams b mode none lo hi = .ok (s, 0) ∧
      s * max (-lo) hi = if mode = .symmetricRestricted then 2 ^ (b - 1) - 1 else (2 ^ b - 1) / 2) := by
  constructor
  · have key : symParams b hi false = .ok ((2 ^ b - 1) / 2 / hi, 0) := by
      unfold symParams
      rw [if_neg (by linarith)]
      simp [hh.ne']
    refine ⟨_, ?_, ?_, div_mul_cancel₀ _ hh.ne'⟩
    · unfold layerClipParams; rw [if_pos hm, max_eq_right hle, abs_of_pos hh]; exact key
    · unfold embClipParams; rw [if_pos hm]; exact key
  · have e : max |lo| |hi| = max (-lo) hi := by
      rw [abs_of_pos hh]
      rcases le_total lo 0 with h | h
      · rw [abs_of_nonpos h]
      · rw [abs_of_nonneg h, max_eq_right hle, max_eq_right (by linarith)]
    have hp : 0 < max (-lo) hi := lt_max_of_lt_right hh
    refine ⟨(if mode = .symmetricRestricted then 2 ^ (b - 1) - 1 else (2 ^ b - 1) / 2) / max (-lo) hi, ?_, div_mul_cancel₀ _ hp.ne'⟩
    unfold outputClipParams modeParams
    rw [if_pos hm, e]
    unfold symParams
    rw [if_neg (by linarith)]
    simp only [hp.ne', if_false]
    by_cases hs : mode = .symmetricRestricted <;> simp [hs] <;> rfl

/-- **C119** (scale approximation): with `m` multiplier bits the output's zero-point is the same
and its scale is at most a fraction `1 / 2^(m-1)` below the exact one. -/
theorem C119_approximate_range (b : ℕ) (mode : QMode) (m : ℕ) (hm : 2 ≤ m) (lo hi s z : ℚ) (hs : 0 < s)
    (h : outputClipParams b mode none lo hi = .ok (s, z)) :
    ∃ s' : ℚ, outputClipParams b mode (some m) lo hi = .ok (s', z) ∧ 0 < s' ∧ s' ≤ s ∧ s - s' < s / 2 ^ (m - 1) ∧
      ∃ n k : ℤ, s' = n / 2 ^ k ∧ 0 ≤ n ∧ n ≤ 2 ^ m - 1 := by
  have hp : modeParams mode b lo hi = .ok (s, z) := by
    unfold outputClipParams at h
    cases hq : modeParams mode b lo hi with
    | error e => rw [hq] at h; cases h
    | ok p => rw [hq] at h; exact congrArg Except.ok (Except.ok.inj h)
  obtain ⟨h1, h2, h3, h4, -, h6, -⟩ := C32_scale_approx s hs m hm false
  refine ⟨approxScale s m false, ?_, (h6 rfl).2, h4, (h6 rfl).1, ?_⟩
  · unfold outputClipParams; rw [hp]; rfl
  · exact ⟨_, _, h1, h2, h3⟩

/-- Non-vacuity: the four situations on concrete values. -/
example : checkClip (.float 2) .symmetric false = .ok (-2, 2) ∧ checkClip (.seq [1, 2, 3]) .symmetric false = .error .assertion ∧
    outputClipParams 8 .asymmetricSigned none (-1) 3 = .ok (255/4, 64) ∧ layerClipParams 4 .symmetric (-5) 1 = .ok (15/2, 0) ∧
    outputClipParams 4 .symmetric none (-5) 1 = .ok (3/2, 0) := by decide +kernel

/-- **C119** (symmetric modes): writing back the range that was read multiplies a weight's scale by
`(2^b - 1) / (2^b - 2)`, every time; and an output's by `(2^b - 1) / 2^b` in the full-range mode,
by `(2^b - 2) / 2^b` in the restricted one. -/
theorem C119_violated_symmetric (b : ℕ) (hb : 2 ≤ b) (scale : ℚ) (hs : 0 < scale) (mode : QMode) (hm : mode.isSym = true) :
    let c := clippingValues scale 0 b mode
    layerClipParams b mode c.1 c.2 = .ok (scale * ((2 ^ b - 1) / (2 ^ b - 2)), 0) ∧
    embClipParams b mode c.1 c.2 = .ok (scale * ((2 ^ b - 1) / (2 ^ b - 2)), 0) ∧
    outputClipParams b mode none c.1 c.2 =
      .ok (scale * ((if mode = .symmetricRestricted then 2 ^ b - 2 else 2 ^ b - 1) / 2 ^ b), 0) ∧
    scale < scale * ((2 ^ b - 1) / (2 ^ b - 2)) ∧
    scale * ((if mode = .symmetricRestricted then 2 ^ b - 2 else 2 ^ b - 1) / 2 ^ b) < scale := by
  intro c
  have hpq : (2 : ℚ) ^ b = 2 * 2 ^ (b - 1) := by exact_mod_cast two_pow_pred (by omega : 1 ≤ b)
  have hP : (2 : ℚ) ≤ 2 ^ (b - 1) := by
    have h3 : (2 : ℚ) ^ 1 ≤ 2 ^ (b - 1) := pow_le_pow_right₀ (by norm_num) (by omega)
    simpa using h3
  set P : ℚ := 2 ^ (b - 1) with hPdef
  have hc1 : c.1 = -P / scale := by simp [c, clippingValues, hm, linearDequantize, hPdef]
  have hc2 : c.2 = (P - 1) / scale := by simp [c, clippingValues, hm, linearDequantize, hPdef]
  have hpos2 : 0 < c.2 := by rw [hc2]; exact div_pos (by linarith) hs
  have hneg1 : c.1 < 0 := by rw [hc1]; exact div_neg_of_neg_of_pos (by linarith) hs
  have hmax : |max c.1 c.2| = c.2 := by rw [max_eq_right (by linarith), abs_of_pos hpos2]
  have hne : (2 : ℚ) ^ b - 2 ≠ 0 := by rw [hpq]; linarith
  have hP1 : P - 1 ≠ 0 := by linarith
  have hwt : symParams b c.2 false = .ok (scale * ((2 ^ b - 1) / (2 ^ b - 2)), 0) := by
    unfold symParams
    rw [if_neg (by linarith)]
    simp only [Bool.false_eq_true, if_false, hpos2.ne']
    rw [hc2, hpq]
    have : (2 * P - 1) / 2 / ((P - 1) / scale) = scale * ((2 * P - 1) / (2 * P - 2)) := by
      have : (2 * P - 2) ≠ 0 := by linarith
      field_simp
    rw [this]
  have habs : max |c.1| |c.2| = P / scale := by
    rw [abs_of_neg hneg1, abs_of_pos hpos2, hc1, hc2]
    rw [max_eq_left]
    · ring
    · rw [neg_div, neg_neg]
      exact div_le_div_of_nonneg_right (by linarith) hs.le
  have hPs : 0 < P / scale := div_pos (by linarith) hs
  refine ⟨?_, ?_, ?_, ?_, ?_⟩
  · unfold layerClipParams; rw [if_pos hm, hmax]; exact hwt
  · unfold embClipParams; rw [if_pos hm]; exact hwt
  · unfold outputClipParams modeParams symParams
    rw [if_pos hm, habs, if_neg (by linarith)]
    simp only [hPs.ne', if_false]
    have h2P : 2 * P ≠ 0 := by linarith
    by_cases hr : mode = .symmetricRestricted
    · simp only [hr, decide_true, if_true]
      show Except.ok _ = Except.ok _
      rw [← hPdef, hpq]
      congr 2
      field_simp
    · simp only [hr, decide_false, Bool.false_eq_true, if_false]
      show Except.ok _ = Except.ok _
      rw [hpq]
      congr 2
      field_simp
  · have : 1 < (2 ^ b - 1 : ℚ) / (2 ^ b - 2) := by
      rw [one_lt_div (by rw [hpq]; linarith)]; linarith
    nlinarith
  · have hb0 : (0 : ℚ) < 2 ^ b := by rw [hpq]; linarith
    have : (if mode = .symmetricRestricted then (2 : ℚ) ^ b - 2 else 2 ^ b - 1) / 2 ^ b < 1 := by
      rw [div_lt_one hb0]; split <;> linarith
    nlinarith

/-- **C119** (signed asymmetric mode): writing back the range that was read never gives the same
parameters: either the zero-point moves by half the range or the scale shrinks. -/
theorem C119_violated_signed (b : ℕ) (hb : 2 ≤ b) (scale : ℚ) (hs : 0 < scale) (z : ℤ)
    (hz : -(2 ^ b - 1) ≤ z) :
    let c := clippingValues scale z b .asymmetricSigned
    (z ≤ 0 → layerClipParams b .asymmetricSigned c.1 c.2 = .ok (scale, z + 2 ^ (b - 1))) ∧
    (0 < z → layerClipParams b .asymmetricSigned c.1 c.2 =
      .ok (scale * ((2 ^ b - 1) / (2 ^ b - 1 + z)), 2 ^ (b - 1))) ∧
    embClipParams b .asymmetricSigned c.1 c.2 = layerClipParams b .asymmetricSigned c.1 c.2 ∧
    outputClipParams b .asymmetricSigned none c.1 c.2 = layerClipParams b .asymmetricSigned c.1 c.2 ∧
    layerClipParams b .asymmetricSigned c.1 c.2 ≠ .ok (scale, z) := by
  intro c
  have hpow : (1 : ℤ) < 2 ^ b := by
    have h2 := two_pow_pred (b := b) (by omega)
    have h3 : (2 : ℤ) ^ 1 ≤ 2 ^ (b - 1) := pow_le_pow_right₀ (by norm_num) (by omega)
    omega
  have hn : (0 : ℚ) < 2 ^ b - 1 := by exact_mod_cast (by omega : (0 : ℤ) < 2 ^ b - 1)
  have hc1 : c.1 = (z : ℚ) / scale := by simp [c, clippingValues, QMode.isSym, linearDequantize]
  have hc2 : c.2 = ((2 : ℚ) ^ b - 1 + z) / scale := by simp [c, clippingValues, QMode.isSym, linearDequantize]
  have hz2' : (0 : ℚ) ≤ 2 ^ b - 1 + z := by exact_mod_cast (by omega : (0 : ℤ) ≤ 2 ^ b - 1 + z)
  have h2 : 0 ≤ c.2 := by rw [hc2]; exact div_nonneg hz2' hs.le
  have hdiff : c.2 - c.1 = (2 ^ b - 1) / scale := by rw [hc1, hc2]; field_simp; ring
  have hle : ¬ c.2 < c.1 := by
    have : 0 < c.2 - c.1 := by rw [hdiff]; exact div_pos hn hs
    linarith
  have A : z ≤ 0 → asymParams b c.1 c.2 true true = .ok (scale, z + 2 ^ (b - 1)) := by
    intro hz0
    have h1 : c.1 ≤ 0 := by rw [hc1]; exact div_nonpos_of_nonpos_of_nonneg (by exact_mod_cast hz0) hs.le
    have hd0 : (2 ^ b - 1) / scale ≠ 0 := (div_pos hn hs).ne'
    unfold asymParams
    rw [if_neg hle]
    simp only [min_eq_left h1, max_eq_left h2, hdiff, hd0, if_false, if_true]
    have e1 : (2 ^ b - 1) / ((2 ^ b - 1) / scale) = scale := by field_simp
    rw [e1, hc1, mul_div_cancel₀ _ hs.ne']
    simp [roundHalfEven]
  have B : 0 < z → asymParams b c.1 c.2 true true = .ok (scale * ((2 ^ b - 1) / (2 ^ b - 1 + z)), 2 ^ (b - 1)) := by
    intro hz0
    have hz0' : (0 : ℚ) < z := by exact_mod_cast hz0
    have h1 : 0 ≤ c.1 := by rw [hc1]; exact div_nonneg hz0'.le hs.le
    have hsum : (0 : ℚ) < 2 ^ b - 1 + z := by linarith
    have hd0 : ((2 : ℚ) ^ b - 1 + z) / scale ≠ 0 := (div_pos hsum hs).ne'
    unfold asymParams
    rw [if_neg hle]
    simp only [min_eq_right h1, max_eq_left h2, sub_zero]
    rw [hc2]
    simp only [hd0, if_false, if_true, mul_zero]
    have e1 : ((2 : ℚ) ^ b - 1) / ((2 ^ b - 1 + z) / scale) = scale * ((2 ^ b - 1) / (2 ^ b - 1 + z)) := by field_simp
    rw [e1]
    simp [roundHalfEven]
  have hl : layerClipParams b .asymmetricSigned c.1 c.2 = asymParams b c.1 c.2 true true := by
    simp [layerClipParams, QMode.isSym]
  refine ⟨fun h => hl.trans (A h), fun h => hl.trans (B h), ?_, ?_, ?_⟩
  · simp [embClipParams, layerClipParams, QMode.isSym]
  · rw [hl]
    unfold outputClipParams modeParams
    simp only [QMode.isSym, Bool.false_eq_true, if_false, decide_true]
    cases asymParams b c.1 c.2 true true <;> rfl
  · rw [hl]
    intro hcon
    rcases le_or_gt z 0 with hz0 | hz0
    · rw [A hz0] at hcon
      simp only [Except.ok.injEq, Prod.mk.injEq, true_and] at hcon
      have : (0 : ℚ) < 2 ^ (b - 1) := by positivity
      linarith
    · rw [B hz0] at hcon
      simp only [Except.ok.injEq, Prod.mk.injEq] at hcon
      have hz0' : (0 : ℚ) < z := by exact_mod_cast hz0
      have : (2 ^ b - 1 : ℚ) / (2 ^ b - 1 + z) < 1 := by rw [div_lt_one (by linarith)]; linarith
      nlinarith [hcon.1]

/-- Reading and writing back ten times moves an 8-bit symmetric weight scale by a factor above
1.04; concrete parameters for the other modes. -/
example : clippingValues 100 0 8 .symmetric = (-32/25, 127/100) ∧
    layerClipParams 8 .symmetric (-32/25) (127/100) = .ok (12750/127, 0) ∧
    outputClipParams 8 .symmetric none (-32/25) (127/100) = .ok (6375/64, 0) ∧
    modeParams .asymmetricUnsigned 8 (-1) 2 = .ok (85, -85) ∧
    clippingValues 85 (-85) 8 .asymmetricUnsigned = (-1, 2) ∧
    modeParams .asymmetricSigned 8 (-1) 2 = .ok (85, 43) ∧
    clippingValues 85 43 8 .asymmetricSigned = (43/85, 298/85) := by decide +kernel

end Verif
