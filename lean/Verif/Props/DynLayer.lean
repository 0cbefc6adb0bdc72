import Verif.Model.DynLayer
import Verif.Props.QLayer
/-!
# C120: dynamic-range quantization; C121: per-input overrides; C122: inputs are not modified
-/
namespace Verif

/-! ## C120: specification -/

/-- Specification: one element of a patch of the fake-quantized sample; padding is the number 0. -/
def patchElem (q : QMeta) (row : List ℚ) : Option ℕ → ℚ
  | some i => (row.map fun v => fakeQuant v q.scale q.zp q.range).getD i 0
  | none => 0

/-- Specification: the layer's real result at one output element, on fake-quantized inputs and
weights; the bias is fake-quantized with its own parameters and then to the accumulator's grid. -/
def dynReal (accRange wRange : ℤ × ℤ) (q : QMeta) (bp : ℚ × ℚ) (wf : List ℚ) (p : ℚ × ℚ) (b : Option ℚ)
    (row : List ℚ) (g : List (Option ℕ)) : ℚ :=
  dot (g.map (patchElem q row)) (wf.map fun v => fakeQuant v p.1 p.2 wRange) +
    (match b with
      | some b => fakeQuant (fakeQuant b bp.1 bp.2 accRange) (q.scale * p.1) 0 accRange
      | none => 0)

/-- Specification: all output elements of a sample, after the fused ReLU if any. -/
def dynRow (cfg : DynCfg) (q : QMeta) (bp : ℚ × ℚ) (ws : List (List ℚ × (ℚ × ℚ) × Option ℚ))
    (gs : List (List (Option ℕ))) (row : List ℚ) : List ℚ :=
  gs.flatMap fun g => ws.map fun w =>
    let y := dynReal cfg.accRange (modeRange cfg.wMode cfg.wBits) q bp w.1 w.2.1 w.2.2 row g
    if cfg.clipHalf then max y 0 else y

/-- What a user can do with the layer. -/
inductive DynOp where
  | forward (gs : List (List (Option ℕ))) (t : DTensor)
  | stateDict

/-- State after a history. -/
def runDyn (cfg : DynCfg) : DLayer → List DynOp → DLayer
  | l, [] => l
  | l, .forward gs t :: ops => runDyn cfg (l.forward cfg gs t).1 ops
  | l, .stateDict :: ops => runDyn cfg l.stateDict.1 ops

/-! ## Invariant -/

/-- Two states that differ at most in the shift flag with correspondingly shifted weights, and in
the re-quantized biases. -/
def DynInv (cfg : DynCfg) (l0 l : DLayer) : Prop :=
  (l.shifted = true → cfg.wMode.isSym = false) ∧ l.bScale = l0.bScale ∧ l.bZp = l0.bZp ∧
  ∃ bq : List ℚ, bq.length = l0.chans.length ∧
    (∀ (i : ℕ) (c : DChan) (b : ℚ), l0.chans[i]? = some c → bq[i]? = some b → c.baseB = none → b = c.biasQ) ∧
    l.chans = List.zipWith (fun c b => { c with w := if l.shifted then c.w.map (· + c.wZp) else c.w, biasQ := b }) l0.chans bq

theorem dynInv_refl (cfg : DynCfg) (l0 : DLayer) (h : l0.shifted = false) : DynInv cfg l0 l0 := by
  refine ⟨by simp [h], rfl, rfl, l0.chans.map (·.biasQ), by simp, ?_, ?_⟩
  · intro i c b h1 h2 _
    rw [List.getElem?_map, h1] at h2
    exact (Option.some.inj h2).symm
  · simp only [h, Bool.false_eq_true, if_false]
    apply List.ext_getElem? 
    intro i
    rw [List.getElem?_zipWith, List.getElem?_map]
    cases l0.chans[i]? <;> rfl

/-- The bias of a channel after re-quantization. -/
def rebiasOf (cfg : DynCfg) (sx bS bZ : ℚ) (c : DChan) : ℚ :=
  match c.baseB with
  | some b => linearQuantizeClamp (b + bZ) (cfg.approxIf (cfg.approxIf (sx * c.wScale) / bS)) 0 cfg.accRange.1 cfg.accRange.2
  | none => c.biasQ

/-- A channel after re-quantizing the bias, with shifted weights or not. -/
def readyChan (cfg : DynCfg) (sx bS bZ : ℚ) (sh : Bool) (c : DChan) : DChan :=
  ⟨if sh then c.w.map (· + c.wZp) else c.w, c.wScale, c.wZp, c.baseB, rebiasOf cfg sx bS bZ c⟩

/-- After re-quantizing the bias and shifting, the state is determined by the initial one. -/
theorem dynInv_ready (cfg : DynCfg) (l0 l : DLayer) (h : DynInv cfg l0 l) (sx : ℚ) :
    (l.rebias cfg sx).shift cfg =
      ⟨l0.chans.map (readyChan cfg sx l0.bScale l0.bZp (!cfg.wMode.isSym)), l0.bScale, l0.bZp, !cfg.wMode.isSym⟩ := by
  obtain ⟨h1, h2, h3, bq, h4, h5, h6⟩ := h
  have key : (l.rebias cfg sx) = ⟨l0.chans.map (readyChan cfg sx l0.bScale l0.bZp l.shifted), l0.bScale, l0.bZp, l.shifted⟩ := by
    unfold DLayer.rebias
    rw [h2, h3, h6]
    congr 1
    apply List.ext_getElem?
    intro i
    rw [List.getElem?_map, List.getElem?_zipWith, List.getElem?_map]
    cases hc : l0.chans[i]? with
    | none => simp
    | some c =>
      have hi : i < bq.length := by rw [h4]; exact (List.getElem?_eq_some_iff.1 hc).1
      rw [List.getElem?_eq_getElem hi]
      simp only [Option.map_some, Option.some.injEq]
      unfold readyChan rebiasOf
      cases hb : c.baseB with
      | some b => simp [hb]
      | none =>
        have := h5 i c _ hc (List.getElem?_eq_getElem hi) hb
        simp [hb, this]
  rw [key]
  unfold DLayer.shift
  by_cases hm : cfg.wMode.isSym = false
  · cases hsh : l.shifted with
    | true => simp [hm]
    | false => simp [hm, List.map_map, Function.comp_def, readyChan]
  · have : l.shifted = false := by
      cases hsh : l.shifted with
      | true => exact absurd (h1 hsh) hm
      | false => rfl
    simp [hm, this]

theorem dynInv_forward (cfg : DynCfg) (l0 l : DLayer) (h : DynInv cfg l0 l) (gs : List (List (Option ℕ))) (t : DTensor) :
    DynInv cfg l0 (l.forward cfg gs t).1 := by
  have hr : ∀ sx, DynInv cfg l0 ((l.rebias cfg sx).shift cfg) := by
    intro sx
    rw [dynInv_ready cfg l0 l h sx]
    refine ⟨by simp, rfl, rfl, l0.chans.map (rebiasOf cfg sx l0.bScale l0.bZp), by simp, ?_, ?_⟩
    · intro i c b h1 h2 h3
      rw [List.getElem?_map, h1] at h2
      have := Option.some.inj h2
      rw [← this]; unfold rebiasOf; rw [h3]
    · apply List.ext_getElem?
      intro i
      rw [List.getElem?_zipWith, List.getElem?_map, List.getElem?_map]
      cases l0.chans[i]? <;> simp [readyChan]
  unfold DLayer.forward
  cases cfg.inputMeta t with
  | error e => exact h
  | ok q =>
    simp only
    split <;> exact hr _

theorem dynInv_stateDict (cfg : DynCfg) (l0 l : DLayer) (h : DynInv cfg l0 l) :
    DynInv cfg l0 l.stateDict.1 ∧ l.stateDict.2 = l0.chans.map (·.w) := by
  obtain ⟨h1, h2, h3, bq, h4, h5, h6⟩ := h
  have hw : ∀ (sh : Bool), (List.zipWith (fun (c : DChan) (b : ℚ) => ({ c with w := c.w, biasQ := b } : DChan)) l0.chans bq).map (·.w) =
      l0.chans.map (·.w) := by
    intro _
    apply List.ext_getElem?
    intro i
    rw [List.getElem?_map, List.getElem?_zipWith, List.getElem?_map]
    cases hc : l0.chans[i]? with
    | none => simp
    | some c =>
      have hi : i < bq.length := by rw [h4]; exact (List.getElem?_eq_some_iff.1 hc).1
      rw [List.getElem?_eq_getElem hi]; rfl
  unfold DLayer.stateDict
  cases hsh : l.shifted with
  | true =>
    have e : l.chans.map (fun c => { c with w := c.w.map (· - c.wZp) }) =
        List.zipWith (fun (c : DChan) (b : ℚ) => ({ c with w := c.w, biasQ := b } : DChan)) l0.chans bq := by
      rw [h6]
      simp only [hsh, if_true]
      rw [List.map_zipWith]
      congr 1
      funext c b
      simp [List.map_map, Function.comp_def]
    simp only [if_true]
    refine ⟨⟨by simp, h2, h3, bq, h4, h5, ?_⟩, ?_⟩
    · show l.chans.map _ = _
      rw [e]; simp
    · rw [e]; exact hw true
  | false =>
    simp only [Bool.false_eq_true, if_false]
    refine ⟨⟨by simp [hsh], h2, h3, bq, h4, h5, h6⟩, ?_⟩
    rw [h6]
    simp only [hsh, Bool.false_eq_true, if_false]
    exact hw true

theorem dynInv_run (cfg : DynCfg) (l0 : DLayer) (ops : List DynOp) : ∀ l, DynInv cfg l0 l → DynInv cfg l0 (runDyn cfg l ops) := by
  induction ops with
  | nil => intro l h; exact h
  | cons op ops ih =>
    intro l h
    cases op with
    | forward gs t => exact ih _ (dynInv_forward cfg l0 l h gs t)
    | stateDict => exact ih _ (dynInv_stateDict cfg l0 l h).1

theorem init_unshifted {cfg : DynCfg} {wf : List (List ℚ)} {bias : Option (List ℚ)} {l0 : DLayer}
    (h : DLayer.init cfg wf bias = .ok l0) : l0.shifted = false := by
  unfold DLayer.init at h
  cases hp : cfg.weightParams wf with
  | error e => rw [hp] at h; cases h
  | ok ps =>
    rw [hp] at h
    cases hb : cfg.biasParams bias with
    | error e => rw [hb] at h; cases h
    | ok bp => rw [hb] at h; cases h; rfl

/-- **C120** (no hidden state): whatever batches went through the layer before and however often
its state was saved, the result on a batch is that of the newly built layer, and a saved state
contains the unshifted integer weights. -/
theorem C120_history (cfg : DynCfg) (wf : List (List ℚ)) (bias : Option (List ℚ)) (l0 : DLayer)
    (h : DLayer.init cfg wf bias = .ok l0) (ops : List DynOp) (gs : List (List (Option ℕ))) (t : DTensor) :
    ((runDyn cfg l0 ops).forward cfg gs t).2 = (l0.forward cfg gs t).2 ∧
    (runDyn cfg l0 ops).stateDict.2 = l0.chans.map (·.w) := by
  have h0 := dynInv_refl cfg l0 (init_unshifted h)
  have h1 := dynInv_run cfg l0 ops l0 h0
  refine ⟨?_, (dynInv_stateDict cfg l0 _ h1).2⟩
  unfold DLayer.forward
  cases cfg.inputMeta t with
  | error e => rfl
  | ok q =>
    simp only
    rw [dynInv_ready cfg l0 _ h1, dynInv_ready cfg l0 _ h0]

/-! ## Exactness -/

theorem symParams_pos {b : ℕ} (hb : 2 ≤ b) {sat : ℚ} {r : Bool} {p : ℚ × ℚ} (h : symParams b sat r = .ok p) :
    0 < p.1 ∧ p.2 = 0 := by
  unfold symParams at h
  split at h
  · cases h
  · rename_i hs
    cases h
    have h2 : (2 : ℚ) ^ 1 ≤ 2 ^ (b - 1) := pow_le_pow_right₀ (by norm_num) (by omega)
    have h3 : (2 : ℚ) ^ 1 ≤ 2 ^ b := pow_le_pow_right₀ (by norm_num) (by omega)
    have hn : 0 < (if r = true then (2 : ℚ) ^ (b - 1) - 1 else (2 ^ b - 1) / 2) := by
      split <;> norm_num at h2 h3 ⊢ <;> linarith
    refine ⟨?_, rfl⟩
    simp only
    generalize (if r = true then (2 : ℚ) ^ (b - 1) - 1 else (2 ^ b - 1) / 2) = n at hn ⊢
    by_cases h0 : sat = 0
    · simp only [h0, if_true]; exact div_pos hn hn
    · simp only [h0, if_false]; exact div_pos hn (lt_of_le_of_ne (not_lt.1 hs) (Ne.symm h0))

theorem asymParams_pos {b : ℕ} (hb : 2 ≤ b) {lo hi : ℚ} {z sg : Bool} {p : ℚ × ℚ} (h : asymParams b lo hi z sg = .ok p) :
    0 < p.1 := by
  unfold asymParams at h
  split at h
  · cases h
  · cases h
    have h3 : (2 : ℚ) ^ 1 ≤ 2 ^ b := pow_le_pow_right₀ (by norm_num) (by omega)
    have hn : (0 : ℚ) < 2 ^ b - 1 := by norm_num at h3; linarith
    simp only
    split
    · exact div_pos hn hn
    · rename_i hd
      have h1 := min_le_right lo 0
      have h2 := le_max_right hi 0
      exact div_pos hn (lt_of_le_of_ne (by linarith) (Ne.symm hd))

/-- Parameters computed from a tensor have a positive scale, and zero-point 0 in symmetric modes. -/
theorem paramsFromTensor_pos {rows : List Tensor} {b : ℕ} (hb : 2 ≤ b) {mode : QMode} {clip : TensorClip} {p : ℚ × ℚ}
    (h : paramsFromTensor rows b mode clip none = .ok p) : 0 < p.1 ∧ (mode.isSym = true → p.2 = 0) := by
  unfold paramsFromTensor at h
  cases hm : mode.isSym with
  | true =>
    simp only [hm, if_true] at h
    have key : ∀ (x : Except Err ℚ), ((x >>= fun sat => symParams b sat (decide (mode = .symmetricRestricted))) >>= fun p => pure p) = .ok p →
        0 < p.1 ∧ (true = true → p.2 = 0) := by
      intro x h
      cases x with
      | error e => cases h
      | ok sat =>
        change (symParams b sat (decide (mode = .symmetricRestricted)) >>= fun p => pure p) = _ at h
        cases hp : symParams b sat (decide (mode = .symmetricRestricted)) with
        | error e => rw [hp] at h; cases h
        | ok p' => rw [hp] at h; cases h; exact ⟨(symParams_pos hb hp).1, fun _ => (symParams_pos hb hp).2⟩
    exact key _ h
  | false =>
    simp only [hm, Bool.false_eq_true, if_false] at h
    have key : ∀ (x : Except Err (ℚ × ℚ)), ((x >>= fun sat => asymParams b sat.1 sat.2 true (decide (mode = .asymmetricSigned))) >>= fun p => pure p) = .ok p →
        0 < p.1 := by
      intro x h
      cases x with
      | error e => cases h
      | ok sat =>
        change (asymParams b sat.1 sat.2 true (decide (mode = .asymmetricSigned)) >>= fun p => pure p) = _ at h
        cases hp : asymParams b sat.1 sat.2 true (decide (mode = .asymmetricSigned)) with
        | error e => rw [hp] at h; cases h
        | ok p' => rw [hp] at h; cases h; exact asymParams_pos hb hp
    exact ⟨key _ h, fun h => by cases h⟩

theorem paramsPerChannel_pos {b : ℕ} (hb : 2 ≤ b) {mode : QMode} : ∀ {rows : List Tensor} {ps : List (ℚ × ℚ)},
    paramsPerChannel rows b mode none = .ok ps → ps.length = rows.length ∧ ∀ p ∈ ps, 0 < p.1 ∧ (mode.isSym = true → p.2 = 0) := by
  intro rows
  induction rows with
  | nil => intro ps h; cases h; simp
  | cons r rows ih =>
    intro ps h
    unfold paramsPerChannel at h ih
    rw [List.mapM_cons] at h
    cases hp : paramsFromTensor [r] b mode .none none with
    | error e => rw [hp] at h; cases h
    | ok p =>
      rw [hp] at h
      cases hr : rows.mapM (fun r => paramsFromTensor [r] b mode .none none) with
      | error e => rw [hr] at h; cases h
      | ok ps' =>
        rw [hr] at h; cases h
        obtain ⟨i1, i2⟩ := ih hr
        refine ⟨by simp [i1], ?_⟩
        intro p' hp'
        rcases List.mem_cons.1 hp' with rfl | hp'
        · exact paramsFromTensor_pos hb hp
        · exact i2 p' hp'

theorem weightParams_pos {cfg : DynCfg} (hb : 2 ≤ cfg.wBits) {wf : List (List ℚ)} {ps : List (ℚ × ℚ)}
    (h : cfg.weightParams wf = .ok ps) :
    ps.length = wf.length ∧ ∀ p ∈ ps, 0 < p.1 ∧ (cfg.wMode.isSym = true → p.2 = 0) := by
  unfold DynCfg.weightParams at h
  split at h
  · exact paramsPerChannel_pos hb h
  · cases hp : paramsFromTensor wf cfg.wBits cfg.wMode .none none with
    | error e => rw [hp] at h; cases h
    | ok p =>
      rw [hp] at h; cases h
      refine ⟨by simp, ?_⟩
      intro p' hp'
      rw [List.mem_map] at hp'
      obtain ⟨_, _, rfl⟩ := hp'
      exact paramsFromTensor_pos hb hp

theorem biasParams_pos {cfg : DynCfg} (hb : 2 ≤ cfg.accBits) {bias : Option (List ℚ)} {bp : ℚ × ℚ}
    (h : cfg.biasParams bias = .ok bp) : 0 < bp.1 := by
  cases bias with
  | none => cases h; norm_num
  | some b => exact (paramsFromTensor_pos hb (show paramsFromTensor [b] cfg.accBits .symmetric .none none = .ok bp from h)).1

/-- The channels of a layer: float weights, weight parameters and bias. -/
def dynChans (wf : List (List ℚ)) (ps : List (ℚ × ℚ)) (bias : Option (List ℚ)) : List (List ℚ × (ℚ × ℚ) × Option ℚ) :=
  List.zipWith (fun wp b => (wp.1, wp.2, b)) (List.zip wf ps) (match bias with
    | some b => b.map some
    | none => wf.map fun _ => none)

theorem init_chans {cfg : DynCfg} {wf : List (List ℚ)} {bias : Option (List ℚ)} {l0 : DLayer} {ps : List (ℚ × ℚ)} {bp : ℚ × ℚ}
    (h : DLayer.init cfg wf bias = .ok l0) (hps : cfg.weightParams wf = .ok ps) (hbp : cfg.biasParams bias = .ok bp) :
    l0 = ⟨(dynChans wf ps bias).map fun w => DChan.init (modeRange cfg.wMode cfg.wBits) cfg.accRange bp.1 bp.2 w.1 w.2.1 w.2.2,
      bp.1, bp.2, false⟩ := by
  unfold DLayer.init at h
  rw [hps, hbp] at h
  have := Except.ok.inj h
  rw [← this]
  unfold dynChans
  rw [List.map_zipWith]
  cases bias <;> rfl

/-- The dot product of a gathered integer patch with shifted integer weights. -/
theorem dot_patch (q : QMeta) (hq : 0 < q.scale) (p : ℚ × ℚ) (hp : 0 < p.1) (wR : ℤ × ℤ) (row : List ℚ) (g : List (Option ℕ)) (wf : List ℚ) :
    dot (gatherPatch ((quantInput q row).map (· + q.zp)) g)
      ((wf.map fun x => linearQuantizeClamp x p.1 p.2 wR.1 wR.2).map (· + p.2)) =
    q.scale * p.1 * dot (g.map (patchElem q row)) (wf.map fun v => fakeQuant v p.1 p.2 wR) := by
  induction g generalizing wf with
  | nil => simp [dot, gatherPatch]
  | cons o g ih =>
    cases wf with
    | nil => simp [dot]
    | cons w wf =>
      have := ih wf
      have e : (match o with
          | some i => ((quantInput q row).map (· + q.zp)).getD i 0
          | none => 0) = q.scale * patchElem q row o := by
        cases o with
        | none => simp [patchElem]
        | some i =>
          simp only [patchElem, List.getD_eq_getElem?_getD, quantInput, List.getElem?_map]
          cases row[i]? with
          | none => simp
          | some v =>
            simp only [Option.map_some, Option.getD_some, fakeQuant, linearDequantize]
            field_simp
      have e2 : linearQuantizeClamp w p.1 p.2 wR.1 wR.2 + p.2 = p.1 * fakeQuant w p.1 p.2 wR := by
        unfold fakeQuant linearDequantize
        field_simp
      have e3 : gatherPatch ((quantInput q row).map (· + q.zp)) (o :: g) =
          (q.scale * patchElem q row o) :: gatherPatch ((quantInput q row).map (· + q.zp)) g := by
        rw [← e]; rfl
      rw [e3]
      unfold dot at this ⊢
      simp only [List.map_cons, List.zipWith_cons_cons, List.sum_cons]
      rw [this, e2]
      ring

/-- The accumulators of a sample are the scaled real results. -/
theorem accum_exact (cfg : DynCfg) (happ : cfg.approx = none) (q : QMeta) (hq : 0 < q.scale) (bp : ℚ × ℚ) (hbp : 0 < bp.1)
    (ws : List (List ℚ × (ℚ × ℚ) × Option ℚ)) (hws : ∀ w ∈ ws, 0 < w.2.1.1 ∧ (cfg.wMode.isSym = true → w.2.1.2 = 0))
    (gs : List (List (Option ℕ))) (row : List ℚ)
    (hsat : ∀ g ∈ gs, ∀ w ∈ ws,
      (cfg.accRange.1 : ℚ) ≤ q.scale * w.2.1.1 * dynReal cfg.accRange (modeRange cfg.wMode cfg.wBits) q bp w.1 w.2.1 w.2.2 row g ∧
      q.scale * w.2.1.1 * dynReal cfg.accRange (modeRange cfg.wMode cfg.wBits) q bp w.1 w.2.1 w.2.2 row g ≤ cfg.accRange.2) :
    DLayer.accum cfg gs q ⟨(ws.map fun w => DChan.init (modeRange cfg.wMode cfg.wBits) cfg.accRange bp.1 bp.2 w.1 w.2.1 w.2.2).map
        (readyChan cfg q.scale bp.1 bp.2 (!cfg.wMode.isSym)), bp.1, bp.2, !cfg.wMode.isSym⟩ row =
      gs.flatMap fun g => ws.map fun w =>
        (q.scale * w.2.1.1, q.scale * w.2.1.1 *
          (if cfg.clipHalf then max (dynReal cfg.accRange (modeRange cfg.wMode cfg.wBits) q bp w.1 w.2.1 w.2.2 row g) 0
            else dynReal cfg.accRange (modeRange cfg.wMode cfg.wBits) q bp w.1 w.2.1 w.2.2 row g)) := by
  have hA : ∀ s, cfg.approxIf s = s := by intro s; unfold DynCfg.approxIf; rw [happ]
  unfold DLayer.accum
  apply List.flatMap_congr
  intro g hg
  simp only [List.map_map, Function.comp_def]
  apply List.map_congr_left
  intro w hw
  obtain ⟨hp, hz⟩ := hws w hw
  obtain ⟨s1, s2⟩ := hsat g hg w hw
  have hpos : 0 < q.scale * w.2.1.1 := mul_pos hq hp
  have hwsh : (if (!cfg.wMode.isSym) = true then
        (DChan.init (modeRange cfg.wMode cfg.wBits) cfg.accRange bp.1 bp.2 w.1 w.2.1 w.2.2).w.map (· + w.2.1.2)
      else (DChan.init (modeRange cfg.wMode cfg.wBits) cfg.accRange bp.1 bp.2 w.1 w.2.1 w.2.2).w) =
      (w.1.map fun x => linearQuantizeClamp x w.2.1.1 w.2.1.2 (modeRange cfg.wMode cfg.wBits).1 (modeRange cfg.wMode cfg.wBits).2).map (· + w.2.1.2) := by
    cases hm : cfg.wMode.isSym with
    | true => simp [DChan.init, hz hm]
    | false => simp [DChan.init]
  have hbias : rebiasOf cfg q.scale bp.1 bp.2 (DChan.init (modeRange cfg.wMode cfg.wBits) cfg.accRange bp.1 bp.2 w.1 w.2.1 w.2.2) =
      q.scale * w.2.1.1 * (match w.2.2 with
        | some b => fakeQuant (fakeQuant b bp.1 bp.2 cfg.accRange) (q.scale * w.2.1.1) 0 cfg.accRange
        | none => 0) := by
    unfold rebiasOf DChan.init
    cases w.2.2 with
    | none => simp
    | some b =>
      simp only [Option.map_some, hA]
      conv_rhs => unfold fakeQuant linearDequantize
      rw [add_zero, mul_div_cancel₀ _ hpos.ne']
      unfold linearQuantizeClamp linearQuantize
      congr 4
      field_simp
  have hacc : clampQ (dot (gatherPatch ((quantInput q row).map (· + q.zp)) g)
        (readyChan cfg q.scale bp.1 bp.2 (!cfg.wMode.isSym)
          (DChan.init (modeRange cfg.wMode cfg.wBits) cfg.accRange bp.1 bp.2 w.1 w.2.1 w.2.2)).w +
        (readyChan cfg q.scale bp.1 bp.2 (!cfg.wMode.isSym)
          (DChan.init (modeRange cfg.wMode cfg.wBits) cfg.accRange bp.1 bp.2 w.1 w.2.1 w.2.2)).biasQ) cfg.accRange.1 cfg.accRange.2 =
      q.scale * w.2.1.1 * dynReal cfg.accRange (modeRange cfg.wMode cfg.wBits) q bp w.1 w.2.1 w.2.2 row g := by
    have e : (dot (gatherPatch ((quantInput q row).map (· + q.zp)) g)
        (readyChan cfg q.scale bp.1 bp.2 (!cfg.wMode.isSym)
          (DChan.init (modeRange cfg.wMode cfg.wBits) cfg.accRange bp.1 bp.2 w.1 w.2.1 w.2.2)).w +
        (readyChan cfg q.scale bp.1 bp.2 (!cfg.wMode.isSym)
          (DChan.init (modeRange cfg.wMode cfg.wBits) cfg.accRange bp.1 bp.2 w.1 w.2.1 w.2.2)).biasQ) =
        q.scale * w.2.1.1 * dynReal cfg.accRange (modeRange cfg.wMode cfg.wBits) q bp w.1 w.2.1 w.2.2 row g := by
      show dot _ (if (!cfg.wMode.isSym) = true then _ else _) + rebiasOf _ _ _ _ _ = _
      rw [hbias]
      have := dot_patch q hq w.2.1 hp (modeRange cfg.wMode cfg.wBits) row g w.1
      unfold dynReal
      rw [mul_add, ← this, ← hwsh]
      rfl
    rw [e]
    unfold clampQ
    rw [max_eq_left s1, min_eq_left s2]
  simp only [hacc]
  refine Prod.ext (hA _) ?_
  simp only
  split
  · rw [mul_max_of_nonneg _ _ hpos.le, mul_zero]
  · rfl

/-- **C120** (exact result): without scale approximation and saturation, the output of the layer on
any batch, after any history, is the real result on fake-quantized inputs, weights and biases
(after the fused ReLU), fake-quantized with the parameters computed from these very results; the
attached metadata are these parameters. -/
theorem C120_exact (cfg : DynCfg) (happ : cfg.approx = none) (hwb : 2 ≤ cfg.wBits) (hab : 2 ≤ cfg.accBits)
    (wf : List (List ℚ)) (bias : Option (List ℚ)) (l0 : DLayer) (hinit : DLayer.init cfg wf bias = .ok l0)
    (ps : List (ℚ × ℚ)) (hps : cfg.weightParams wf = .ok ps) (bp : ℚ × ℚ) (hbp : cfg.biasParams bias = .ok bp)
    (ops : List DynOp) (gs : List (List (Option ℕ))) (t : DTensor) (q : QMeta) (hq : cfg.inputMeta t = .ok q) (hq0 : 0 < q.scale)
    (hsat : ∀ row ∈ t.rows, ∀ g ∈ gs, ∀ w ∈ dynChans wf ps bias,
      (cfg.accRange.1 : ℚ) ≤ q.scale * w.2.1.1 * dynReal cfg.accRange (modeRange cfg.wMode cfg.wBits) q bp w.1 w.2.1 w.2.2 row g ∧
      q.scale * w.2.1.1 * dynReal cfg.accRange (modeRange cfg.wMode cfg.wBits) q bp w.1 w.2.1 w.2.2 row g ≤ cfg.accRange.2)
    (p : ℚ × ℚ) (hp : paramsFromTensor (t.rows.map (dynRow cfg q bp (dynChans wf ps bias) gs)) cfg.aBits cfg.aMode cfg.clip none = .ok p) :
    ((runDyn cfg l0 ops).forward cfg gs t).2 = .ok
      ⟨t.rows.map fun row => (dynRow cfg q bp (dynChans wf ps bias) gs row).map fun y =>
        fakeQuant y p.1 p.2 (modeRange cfg.aMode cfg.aBits), some ⟨p.1, p.2, modeRange cfg.aMode cfg.aBits⟩⟩ := by
  rw [(C120_history cfg wf bias l0 hinit ops gs t).1]
  have h0 := dynInv_refl cfg l0 (init_unshifted hinit)
  have hw := weightParams_pos hwb hps
  have hws : ∀ w ∈ dynChans wf ps bias, 0 < w.2.1.1 ∧ (cfg.wMode.isSym = true → w.2.1.2 = 0) := by
    intro w hw'
    unfold dynChans at hw'
    obtain ⟨i, hi, rfl⟩ := List.getElem_of_mem hw'
    rw [List.getElem_zipWith]
    have : (List.zip wf ps)[i]'(by simp at hi ⊢; omega) ∈ List.zip wf ps := List.getElem_mem _
    exact hw.2 _ (List.of_mem_zip this).2
  have hb := biasParams_pos hab hbp
  have e0 := init_chans hinit hps hbp
  unfold DLayer.forward
  rw [hq]
  simp only
  rw [dynInv_ready cfg l0 l0 h0 q.scale]
  have hacc : ∀ row ∈ t.rows, DLayer.accum cfg gs q ⟨l0.chans.map (readyChan cfg q.scale l0.bScale l0.bZp (!cfg.wMode.isSym)),
      l0.bScale, l0.bZp, !cfg.wMode.isSym⟩ row = gs.flatMap fun g => (dynChans wf ps bias).map fun w =>
        (q.scale * w.2.1.1, q.scale * w.2.1.1 *
          (if cfg.clipHalf then max (dynReal cfg.accRange (modeRange cfg.wMode cfg.wBits) q bp w.1 w.2.1 w.2.2 row g) 0
            else dynReal cfg.accRange (modeRange cfg.wMode cfg.wBits) q bp w.1 w.2.1 w.2.2 row g)) := by
    intro row hrow
    rw [e0]
    exact accum_exact cfg happ q hq0 bp hb _ hws gs row (hsat row hrow)
  have hpos : ∀ w ∈ dynChans wf ps bias, 0 < q.scale * w.2.1.1 := fun w hw' => mul_pos hq0 (hws w hw').1
  have hys : (t.rows.map (DLayer.accum cfg gs q ⟨l0.chans.map (readyChan cfg q.scale l0.bScale l0.bZp (!cfg.wMode.isSym)),
      l0.bScale, l0.bZp, !cfg.wMode.isSym⟩)).map (fun r => r.map fun a => a.2 / a.1) =
      t.rows.map (dynRow cfg q bp (dynChans wf ps bias) gs) := by
    rw [List.map_map]
    apply List.map_congr_left
    intro row hrow
    simp only [Function.comp, hacc row hrow]
    unfold dynRow
    rw [List.map_flatMap]
    apply List.flatMap_congr
    intro g _
    rw [List.map_map]
    apply List.map_congr_left
    intro w hw'
    simp only [Function.comp]
    rw [mul_div_cancel_left₀ _ (hpos w hw').ne']
  rw [hys]
  rw [happ, hp]
  simp only
  congr 2
  rw [List.map_map]
  apply List.map_congr_left
  intro row hrow
  simp only [Function.comp, hacc row hrow]
  unfold dynRow
  rw [List.map_flatMap, List.map_flatMap]
  apply List.flatMap_congr
  intro g _
  rw [List.map_map, List.map_map]
  apply List.map_congr_left
  intro w hw'
  have h1 := (hpos w hw').ne'
  simp only [Function.comp]
  unfold fakeQuant
  congr 1
  have : cfg.approxIf (p.1 / (q.scale * w.2.1.1)) = p.1 / (q.scale * w.2.1.1) := by unfold DynCfg.approxIf; rw [happ]
  rw [this]
  unfold linearQuantizeClamp linearQuantize
  generalize (if cfg.clipHalf = true then
    max (dynReal cfg.accRange (modeRange cfg.wMode cfg.wBits) q bp w.1 w.2.1 w.2.2 row g) 0 else
      dynReal cfg.accRange (modeRange cfg.wMode cfg.wBits) q bp w.1 w.2.1 w.2.2 row g) = y
  have e : p.1 / (q.scale * w.2.1.1) * (q.scale * w.2.1.1 * y) = p.1 * y := by
    rw [← mul_assoc, div_mul_cancel₀ _ h1]
  rw [e]

/-- **C120** (accuracy): with clipping mode NONE, any non-empty result is computed without error,
and every output element is within half an output quantization step of the real result. -/
theorem C120_half_step (cfg : DynCfg) (happ : cfg.approx = none) (hclip : cfg.clip = .none) (hwb : 2 ≤ cfg.wBits)
    (hab : 2 ≤ cfg.accBits) (hob : 2 ≤ cfg.aBits)
    (wf : List (List ℚ)) (bias : Option (List ℚ)) (l0 : DLayer) (hinit : DLayer.init cfg wf bias = .ok l0)
    (ps : List (ℚ × ℚ)) (hps : cfg.weightParams wf = .ok ps) (bp : ℚ × ℚ) (hbp : cfg.biasParams bias = .ok bp)
    (ops : List DynOp) (gs : List (List (Option ℕ))) (t : DTensor) (q : QMeta) (hq : cfg.inputMeta t = .ok q) (hq0 : 0 < q.scale)
    (hsat : ∀ row ∈ t.rows, ∀ g ∈ gs, ∀ w ∈ dynChans wf ps bias,
      (cfg.accRange.1 : ℚ) ≤ q.scale * w.2.1.1 * dynReal cfg.accRange (modeRange cfg.wMode cfg.wBits) q bp w.1 w.2.1 w.2.2 row g ∧
      q.scale * w.2.1.1 * dynReal cfg.accRange (modeRange cfg.wMode cfg.wBits) q bp w.1 w.2.1 w.2.2 row g ≤ cfg.accRange.2)
    (hne : (t.rows.map (dynRow cfg q bp (dynChans wf ps bias) gs)).flatten ≠ []) :
    ∃ (out : DTensor) (m : QMeta), ((runDyn cfg l0 ops).forward cfg gs t).2 = .ok out ∧ out.md = some m ∧ 0 < m.scale ∧
      List.Forall₂ (List.Forall₂ fun o y => |o - y| ≤ 1 / (2 * m.scale)) out.rows
        (t.rows.map (dynRow cfg q bp (dynChans wf ps bias) gs)) := by
  obtain ⟨s, zp, hp, hs, _, herr⟩ := C62_tensor _ hne cfg.aBits hob cfg.aMode none (by simp)
  refine ⟨_, _, C120_exact cfg happ hwb hab wf bias l0 hinit ps hps bp hbp ops gs t q hq hq0 hsat (s, zp)
    (by rw [hclip]; exact hp), rfl, hs, ?_⟩
  rw [List.forall₂_map_left_iff, List.forall₂_map_right_iff, List.forall₂_same]
  intro row hrow
  rw [List.forall₂_map_left_iff, List.forall₂_same]
  intro y hy
  exact herr y (List.mem_flatten.2 ⟨_, List.mem_map.2 ⟨row, hrow, rfl⟩, hy⟩)

/-- **C120** (accumulator): the accumulator is a signed integer of the configured width. -/
theorem C120_accumulator (cfg : DynCfg) : cfg.accRange = (-(2 ^ (cfg.accBits - 1)), 2 ^ (cfg.accBits - 1) - 1) := by
  unfold DynCfg.accRange quantizedRange
  simp

/-- **C120** (integer arithmetic): with approximated scales, the accumulator scale of every output element is an integer of at
most `m` bits divided by a power of two, never above the exact scale and less than a `2^-(m-1)` part below it. -/
theorem C120_fixed_point (cfg : DynCfg) (m : ℕ) (hm : 2 ≤ m) (happ : cfg.approx = some m) (gs : List (List (Option ℕ))) (q : QMeta)
    (hq : 0 < q.scale) (l : DLayer) (hl : ∀ c ∈ l.chans, 0 < c.wScale) (row : List ℚ) :
    ∀ e ∈ l.accum cfg gs q row, ∃ c ∈ l.chans, ∃ (k sh : ℤ), 0 ≤ k ∧ k ≤ 2 ^ m - 1 ∧ e.1 = k / 2 ^ sh ∧ e.1 ≤ q.scale * c.wScale ∧
      q.scale * c.wScale - e.1 < q.scale * c.wScale / 2 ^ (m - 1) := by
  intro e he
  unfold DLayer.accum at he
  obtain ⟨g, _, he⟩ := List.mem_flatMap.1 he
  obtain ⟨c, hc, rfl⟩ := List.mem_map.1 he
  obtain ⟨h1, h2, h3, h4, -, h6, -⟩ := C32_scale_approx (q.scale * c.wScale) (mul_pos hq (hl c hc)) m hm false
  refine ⟨c, hc, _, shiftBits (q.scale * c.wScale) m false, h2, h3, ?_, ?_, ?_⟩
  · simp only [DynCfg.approxIf, happ]; exact h1
  · simp only [DynCfg.approxIf, happ]; exact h4
  · simp only [DynCfg.approxIf, happ]; exact (h6 rfl).1

example : ∃ l : DLayer, l.chans ≠ [] ∧ (∀ c ∈ l.chans, 0 < c.wScale) ∧
    ∀ cfg : DynCfg, (l.accum cfg [[some 0]] ⟨3, 0, (-8, 7)⟩ [1]).length = 1 :=
  ⟨⟨[⟨[1], 5, 0, none, 0⟩], 1, 0, false⟩, by decide, by decide +kernel, fun cfg => rfl⟩

/-- The configuration of the example below: 4-bit asymmetric weights and symmetric activations. -/
def dynEx : DynCfg := ⟨.asymmetricSigned, 4, true, .symmetric, 4, .none, 32, true, none, none, true⟩

/-- Non-vacuity: a layer with two channels, a bias and a padded patch, after a history. -/
example : ∃ l0 : DLayer, DLayer.init dynEx [[1, -1/2], [2, 1]] (some [1/2, -1]) = .ok l0 ∧
    dynEx.weightParams [[1, -1/2], [2, 1]] = .ok [(10, 3), (15/2, 8)] ∧
    dynEx.biasParams (some [1/2, -1]) = .ok (4294967295/2, 0) ∧
    dynEx.inputMeta ⟨[[1, 2], [3/2, -1]], none⟩ = .ok ⟨15/4, 0, (-8, 7)⟩ ∧
    (∀ row ∈ [[1, 2], [3/2, -1]], ∀ g ∈ [[some 0, some 1], [some 1, none]],
      ∀ w ∈ dynChans [[1, -1/2], [2, 1]] [(10, 3), (15/2, 8)] (some [1/2, -1]),
      (dynEx.accRange.1 : ℚ) ≤ 15/4 * w.2.1.1 * dynReal dynEx.accRange (modeRange dynEx.wMode dynEx.wBits) ⟨15/4, 0, (-8, 7)⟩
        (4294967295/2, 0) w.1 w.2.1 w.2.2 row g ∧
      15/4 * w.2.1.1 * dynReal dynEx.accRange (modeRange dynEx.wMode dynEx.wBits) ⟨15/4, 0, (-8, 7)⟩
        (4294967295/2, 0) w.1 w.2.1 w.2.2 row g ≤ dynEx.accRange.2) ∧
    ((runDyn dynEx l0 [.forward [[some 0, none]] ⟨[[5, 1]], none⟩, .stateDict]).forward dynEx
      [[some 0, some 1], [some 1, none]] ⟨[[1, 2], [3/2, -1]], none⟩).2.isOk = true :=
  ⟨(DLayer.init dynEx [[1, -1/2], [2, 1]] (some [1/2, -1])).toOption.get (by decide +kernel), by decide +kernel, by decide +kernel,
    by decide +kernel, by decide +kernel, by decide +kernel, by decide +kernel⟩

/-! ## C121: overrides of input settings -/

/-- **C121** (`from_output`): the input gets the output's settings, and values of an input without
metadata are reproduced within half a quantization step (clipping NONE). -/
theorem C121_from_output_partial (d : OverrideDict) (hd : d.fromOutput = true) (bits : ℕ) (hb : 2 ≤ bits) (mode : QMode)
    (rows : List (List ℚ)) (hne : rows.flatten ≠ []) :
    ∃ (s : InSettings) (m : QMeta), d.settings bits mode .none = .ok s ∧ 0 < m.scale ∧ m.range = modeRange mode bits ∧
      (∀ x ∈ rows.flatten, |fakeQuant x m.scale m.zp m.range - x| ≤ 1 / (2 * m.scale)) ∧
      ∀ cfg : DynCfg, cfg.override0 = some s → cfg.approx = none → cfg.inputMeta ⟨rows, none⟩ = .ok m := by
  obtain ⟨s, zp, hp, hs, _, herr⟩ := C62_tensor rows hne bits hb mode none (by simp)
  refine ⟨⟨bits, .linear mode, .none⟩, ⟨s, zp, modeRange mode bits⟩, ?_, hs, rfl, herr, ?_⟩
  · unfold OverrideDict.settings; rw [if_pos hd]
  · intro cfg h1 h2
    unfold DynCfg.inputMeta InSettings.metaOf SetMode.forParams
    simp only [h1, h2, hp]
    rfl

/-- **C121** (precedence): an input that carries metadata is used with them, unless there are overrides
for it, which is an error; without metadata, overrides decide, and without them the output's settings
(if the fallback is enabled; otherwise it is an error). -/
theorem C121_precedence (cfg : DynCfg) (rows : List (List ℚ)) (q : QMeta) (s : InSettings) :
    (cfg.override0 = none → cfg.inputMeta ⟨rows, some q⟩ = .ok q) ∧
    (cfg.override0 = some s → cfg.inputMeta ⟨rows, some q⟩ = .error .runtime) ∧
    (cfg.override0 = some s → cfg.inputMeta ⟨rows, none⟩ = s.metaOf cfg.approx rows) ∧
    (cfg.override0 = none → cfg.autoFallback = false → cfg.inputMeta ⟨rows, none⟩ = .error .runtime) ∧
    (cfg.override0 = none → cfg.autoFallback = true →
      cfg.inputMeta ⟨rows, none⟩ = (⟨cfg.aBits, .linear cfg.aMode, cfg.clip⟩ : InSettings).metaOf cfg.approx rows) := by
  unfold DynCfg.inputMeta
  refine ⟨?_, ?_, ?_, ?_, ?_⟩ <;> intros <;> simp_all

/-- **C121** (the settings count): settings with a plain mode quantize the input with that mode, number of bits and clipping
mode: the parameters are those of the tensor's own (clipped) range, the integer range is that of the mode. -/
theorem C121_settings_used (s : InSettings) (mode : QMode) (hm : s.mode = .linear mode) (approx : Option ℕ) (rows : List (List ℚ)) :
    s.metaOf approx rows = (paramsFromTensor rows s.bits mode s.clip approx).map fun p => ⟨p.1, p.2, modeRange mode s.bits⟩ := by
  unfold InSettings.metaOf SetMode.forParams SetMode.forRange
  rw [hm]
  cases paramsFromTensor rows s.bits mode s.clip approx <;> rfl

example : (⟨4, .linear .asymmetricUnsigned, .avg⟩ : InSettings).metaOf none [[0, 30], [0, 0]] = .ok ⟨1, 0, (0, 15)⟩ := by decide +kernel

example : (⟨true, none, none, none, []⟩ : OverrideDict).settings 8 .symmetric .none = .ok ⟨8, .linear .symmetric, .none⟩ := by
  decide +kernel

/-- **C121** (dictionaries are checked): unsupported keys raise ValueError and nothing else does;
the number of bits and the clipping mode given are used, those of the output otherwise. -/
theorem C121_checked (d : OverrideDict) (hd : d.fromOutput = false) (bits : ℕ) (mode : QMode) (clip : TensorClip) :
    (d.settings bits mode clip = .error .value ↔ d.extra ≠ []) ∧
    (d.extra = [] → ∃ s, d.settings bits mode clip = .ok s ∧ s.bits = d.bits.getD bits ∧ s.clip = d.clip.getD clip) := by
  unfold OverrideDict.settings
  rw [hd]
  cases d.extra with
  | nil => simp
  | cons a l => simp

example : (⟨false, some 4, none, none, ["bits_acts"]⟩ : OverrideDict).settings 8 .symmetric .none = .error .value := by
  decide +kernel

/-- **C121** is violated: the mode given in the overrides of an input (or the default) is ignored;
whatever it is, the input is quantized with the parameters of an unsigned range and clamped to the
signed one. -/
theorem C121_violated_mode_ignored (d : OverrideDict) (hd : d.fromOutput = false) (he : d.extra = []) (bits : ℕ) (mode : QMode)
    (clip : TensorClip) (rows : List (List ℚ)) (m' : Option (QMode × QMode)) :
    ∃ s s' : InSettings, d.settings bits mode clip = .ok s ∧ ({ d with mode := m' } : OverrideDict).settings bits mode clip = .ok s' ∧
      s.metaOf none rows = s'.metaOf none rows := by
  refine ⟨⟨d.bits.getD bits, .pair (d.mode.getD (mode, mode)).1 (d.mode.getD (mode, mode)).2, d.clip.getD clip⟩,
    ⟨d.bits.getD bits, .pair (m'.getD (mode, mode)).1 (m'.getD (mode, mode)).2, d.clip.getD clip⟩, ?_, ?_, rfl⟩
  · unfold OverrideDict.settings; simp [hd, he]
  · unfold OverrideDict.settings; simp [hd, he]

/-- A witness: symmetric signed and asymmetric unsigned inputs are both quantized to at most the
middle of their range. -/
example : ∃ (s : InSettings) (m : QMeta), (⟨false, some 8, some (.symmetric, .symmetric), none, []⟩ : OverrideDict).settings 8
      .asymmetricUnsigned .none = .ok s ∧ s.metaOf none [[0, 51, 102]] = .ok m ∧ m = ⟨5/2, 0, (-128, 127)⟩ ∧
    fakeQuant 102 m.scale m.zp m.range = 254/5 :=
  ⟨⟨8, .pair .symmetric .symmetric, .none⟩, ⟨5/2, 0, (-128, 127)⟩, by decide +kernel, by decide +kernel, rfl, by decide +kernel⟩

/-- **C121** is violated: with explicit overrides (any mode) and clipping NONE, every value of the
upper half of the observed range (extended to contain 0) is cut down to the middle of the range. -/
theorem C121_violated_saturation (d : OverrideDict) (hd : d.fromOutput = false) (he : d.extra = []) (bits : ℕ)
    (hb : 2 ≤ d.bits.getD bits) (mode : QMode) (hc : d.clip.getD .none = .none) (rows : List (List ℚ)) (lo hi : ℚ)
    (hmm : tensorMinMax rows.flatten = .ok (lo, hi)) (hne : lo ≠ 0 ∨ hi ≠ 0) :
    ∃ (s : InSettings) (m : QMeta), d.settings bits mode .none = .ok s ∧ s.metaOf none rows = .ok m ∧ 0 < m.scale ∧
      ∀ x, fakeQuant x m.scale m.zp m.range ≤ (min lo 0 + max hi 0) / 2 := by
  have hle : lo ≤ hi := by
    have hf : rows.flatten ≠ [] := by
      intro h0; rw [h0] at hmm; cases hmm
    obtain ⟨lo', hi', h1, h2⟩ := tensorMinMax_spec hf
    rw [h1] at hmm
    cases hmm
    obtain ⟨x, hx⟩ := List.exists_mem_of_ne_nil _ hf
    exact le_trans (h2 x hx).1 (h2 x hx).2
  set b := d.bits.getD bits with hbdef
  obtain ⟨s, z, hs, hp⟩ := (C31_params_total b hb true true false 0 lo hi).2.2.2 hle
  refine ⟨⟨b, .pair (d.mode.getD (mode, mode)).1 (d.mode.getD (mode, mode)).2, .none⟩, ⟨s, z, modeRange .asymmetricSigned b⟩, ?_, ?_, hs, ?_⟩
  · unfold OverrideDict.settings; simp [hd, he, hc, hbdef]
  · have : paramsFromTensor rows b .asymmetricUnsigned .none none = .ok (s, z) := by
      unfold paramsFromTensor
      simp [QMode.isSym, hmm, hp, bind, Except.bind, pure, Except.pure]
    unfold InSettings.metaOf SetMode.forParams SetMode.forRange
    simp only [this]
    rfl
  · intro x
    have hmp : modeParams .asymmetricUnsigned b lo hi = .ok (s, z) := by
      unfold modeParams; simpa [QMode.isSym] using hp
    obtain ⟨-, hform⟩ := modeParams_form .asymmetricUnsigned b hb lo hi s z hne hmp
    obtain ⟨h1, h2⟩ := hform rfl
    simp only
    unfold fakeQuant linearDequantize linearQuantizeClamp
    rw [div_le_iff₀ hs]
    have h3 : clampQ (linearQuantize x s z) (modeRange .asymmetricSigned b).1 (modeRange .asymmetricSigned b).2 ≤ 2 ^ (b - 1) - 1 := by
      unfold clampQ
      refine le_trans (min_le_right _ _) ?_
      simp [modeRange, quantizedRange]
    have h4 : z ≤ s * min lo 0 + 1/2 := by
      rw [h2]; simpa using (round_bounds (s * min lo 0)).2
    have h5 : (2 : ℚ) ^ b = 2 * 2 ^ (b - 1) := by
      rw [← pow_succ']; congr 1; omega
    nlinarith

/-! ## C122: inputs are not modified -/

/-- **C122** (partial: modules that make a new result, or inputs quantized on the way in, or a fused
ReLU): the wrapped module sees the (fake-)quantized input, the result is its fake-quantized output,
and the caller's data are not changed. -/
theorem C122_input_kept_partial (cfg : DynCfg) (qi : Bool) (f : List (List ℚ) → ModRes) (t ti out : DTensor)
    (hgood : (∀ x, f x ≠ .view) ∨ (qi = true ∧ t.md = none) ∨ cfg.clipHalf = true)
    (h : fakeForward cfg qi f t = .ok (ti, out)) : ti.rows = t.rows := by
  unfold fakeForward at h
  cases hx : fakePrepare cfg qi t with
  | error e => rw [hx] at h; cases h
  | ok x =>
    rw [hx] at h
    have hx1 : x.1.rows = t.rows ∧ (qi = true ∧ t.md = none → x.2.2 = false) := by
      unfold fakePrepare at hx
      cases qi with
      | false => cases hx; simp
      | true =>
        simp only [if_true] at hx
        cases hm : cfg.inputMeta t with
        | error e => rw [hm] at hx; cases hx
        | ok q =>
          rw [hm] at hx
          cases ht : t.md with
          | none => simp [ht, bind, Except.bind, pure, Except.pure] at hx; subst hx; simp
          | some m => simp [ht, bind, Except.bind, pure, Except.pure] at hx; subst hx; simp
    simp only [bind, Except.bind] at h
    split at h
    · cases h
    · simp only [pure, Except.pure, Except.ok.injEq, Prod.mk.injEq] at h
      rw [← h.1, if_neg]
      · exact hx1.1
      · rintro ⟨a1, a2, a3⟩
        rcases hgood with g | g | g
        · exact g _ a2
        · rw [hx1.2 g] at a1; cases a1
        · rw [g] at a3; cases a3

/-- Non-vacuity: a module that doubles its input. -/
example : ∃ ti out : DTensor, fakeForward dynEx true (fun x => .fresh (x.map fun r => r.map (2 * ·))) ⟨[[1, 1/10]], none⟩ = .ok (ti, out) ∧
    ti.rows = [[1, 1/10]] ∧ out.rows = [[392/225, 56/225]] :=
  ⟨⟨[[1, 1/10]], some ⟨15/2, 0, (-8, 7)⟩⟩, ⟨[[392/225, 56/225]], some ⟨225/56, 0, (-8, 7)⟩⟩, by decide +kernel, by decide +kernel, by decide +kernel⟩

/-- **C122** (result): the output of a fake-quantization wrapper is the wrapped module's result on
the fake-quantized input, fake-quantized with the parameters computed from this result. -/
theorem C122_output (cfg : DynCfg) (happ : cfg.approx = none) (hclip : cfg.clip = .none) (hch : cfg.clipHalf = false) (hb : 2 ≤ cfg.aBits)
    (g : List (List ℚ) → List (List ℚ)) (t : DTensor) (hf : t.md = none) (q : QMeta) (hq : cfg.inputMeta t = .ok q)
    (hne : (g (t.rows.map fun r => r.map fun v => fakeQuant v q.scale q.zp q.range)).flatten ≠ []) :
    ∃ (ti out : DTensor) (m : QMeta), fakeForward cfg true (fun x => .fresh (g x)) t = .ok (ti, out) ∧ ti = ⟨t.rows, some q⟩ ∧
      out.md = some m ∧ 0 < m.scale ∧
      List.Forall₂ (List.Forall₂ fun o y => |o - y| ≤ 1 / (2 * m.scale)) out.rows
        (g (t.rows.map fun r => r.map fun v => fakeQuant v q.scale q.zp q.range)) := by
  have hx : fakePrepare cfg true t = .ok (⟨t.rows, some q⟩, t.rows.map fun r => r.map fun v => fakeQuant v q.scale q.zp q.range, false) := by
    unfold fakePrepare
    rw [if_pos rfl, hq]
    simp [hf, bind, Except.bind, pure, Except.pure, quantInput, fakeQuant, List.map_map, Function.comp_def]
  obtain ⟨s, zp, hp, hs, _, herr⟩ := C62_tensor _ hne cfg.aBits hb cfg.aMode none (by simp)
  refine ⟨_, ⟨(g (t.rows.map fun r => r.map fun v => fakeQuant v q.scale q.zp q.range)).map fun r => r.map fun v =>
    fakeQuant v s zp (modeRange cfg.aMode cfg.aBits), some ⟨s, zp, modeRange cfg.aMode cfg.aBits⟩⟩,
    ⟨s, zp, modeRange cfg.aMode cfg.aBits⟩, ?_, rfl, rfl, hs, ?_⟩
  · unfold fakeForward
    rw [hx]
    simp only [bind, Except.bind, hch, Bool.false_eq_true, if_false, hclip, happ, hp, pure, Except.pure, false_and]
    rfl
  · rw [List.forall₂_map_left_iff, List.forall₂_same]
    intro row hrow
    rw [List.forall₂_map_left_iff, List.forall₂_same]
    intro y hy
    exact herr y (List.mem_flatten.2 ⟨_, hrow, hy⟩)

/-- **C122** is violated: when the wrapped module returns its input (dropout in evaluation mode,
identity, a reshape) and the input is not quantized by this wrapper, the caller's tensor itself is
overwritten by the quantized values, whatever the input. -/
theorem C122_violated_view (cfg : DynCfg) (hch : cfg.clipHalf = false) (t ti out : DTensor)
    (h : fakeForward cfg false (fun _ => .view) t = .ok (ti, out)) : ti.rows = out.rows ∧ ti.md = t.md := by
  unfold fakeForward fakePrepare at h
  simp only [Bool.false_eq_true, if_false, bind, Except.bind, hch] at h
  split at h
  · cases h
  · simp only [pure, Except.pure, Except.ok.injEq, Prod.mk.injEq] at h
    rw [← h.1, ← h.2]
    simp

/-- **C122** is violated: a witness where the caller's data change, and where another reader of the
same (already quantized) tensor afterwards sees other values with the old metadata. -/
theorem C122_violated_witness : ∃ (cfg : DynCfg) (t ti out : DTensor),
    fakeForward cfg true (fun _ => .view) t = .ok (ti, out) ∧ t.md.isSome ∧ ti.md = t.md ∧ ti.rows ≠ t.rows :=
  ⟨⟨.symmetric, 8, false, .symmetric, 2, .none, 32, false, none, none, true⟩, ⟨[[1, 1/10]], some ⟨10, 0, (-128, 127)⟩⟩,
    ⟨[[2/3, 0]], some ⟨10, 0, (-128, 127)⟩⟩, ⟨[[2/3, 0]], some ⟨3/2, 0, (-2, 1)⟩⟩, by decide +kernel⟩

end Verif
