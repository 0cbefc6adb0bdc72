import Verif.Model.PTQConfig
import Verif.Props.Overrides
/-!
# C135, C136: which wrapper each module gets in post-training quantization
-/
namespace Verif

/-! ## C135: the replacement of one module -/

/-- Nothing asks for floating point, forced fake quantization or the removal of a fused ReLU. -/
structure PlainPtq (e : PtqEnv) (o : PtqOv) : Prop where
  fp16 : e.fp16 = false
  fpq : e.fpq = none
  keys : OvKey.fp16 ∉ o.keys ∧ OvKey.fpq ∉ o.keys ∧ OvKey.fake ∉ o.keys ∧ OvKey.makeIdentity ∉ o.keys

/-- Every override argument is one that the class takes: `mode` and `per_channel_wts` only for layers with
weights, inputs and output settings not for embeddings, and so on. -/
def PtqAccepted (c : PtqClass) (o : PtqOv) : Prop := ∀ k ∈ o.keys, k ∈ c.accepts

theorem plain_fp {e : PtqEnv} {o : PtqOv} (h : PlainPtq e o) :
    checkFp16 (o.or .fp16 o.fp16 e.fp16) (o.or .fpq o.fpq e.fpq) = none := by
  simp [checkFp16, PtqOv.or, h.keys.1, h.keys.2.1, h.fp16, h.fpq]

theorem accepted_any {c : PtqClass} {o : PtqOv} (h : PtqAccepted c o) :
    ¬ (o.keys.any (fun k => !(c.accepts.contains k)) = true) := by
  rw [Bool.not_eq_true, List.any_eq_false]
  intro k hk
  simp [List.contains_iff_mem, h k hk]

theorem or_absent {α : Type} {o : PtqOv} {k : OvKey} (h : k ∉ o.keys) (v d : α) : o.or k v d = d := if_neg h

theorem or_eq {α : Type} (o : PtqOv) (k : OvKey) (v d : α) : o.or k v d = if k ∈ o.keys then v else d := rfl

/-- The clipping mode that a module should get: its own if it has one. -/
def ownClip (e : PtqEnv) (o : PtqOv) : ClipMode :=
  if OvKey.clip ∈ o.keys then (match o.clip with | some m => m | none => e.clip) else e.clip

theorem clipOr_eq (e : PtqEnv) (o : PtqOv) : o.clipOr e = ownClip e o := by
  unfold PtqOv.clipOr ownClip PtqOv.or
  split
  · cases o.clip <;> rfl
  · rfl

/-- **C135** (layers with weights): a convolution or linear layer with bits for its weights computes with weights
of exactly that many bits and activations of exactly the configured bits, or float activations if there are
none; with bits for the activations only it computes in floating point and its output is quantized to these
bits; with no bits at all and no overrides it stays as it is. -/
theorem C135_layer (e : PtqEnv) (o : PtqOv) (bias : Option ℕ) (stats pred : Bool) (hp : PlainPtq e o) (ha : PtqAccepted .layer o) :
    (∀ acts w, ptqReplace e .layer o ⟨acts, some w, bias⟩ stats pred =
      .ok (.layer acts w (if OvKey.mode ∈ o.keys then o.mode else e.mode) (ownClip e o))) ∧
    (∀ a, ptqReplace e .layer o ⟨some a, none, bias⟩ stats pred =
      .ok (.fake (some a) (if OvKey.mode ∈ o.keys then o.mode else e.mode) (ownClip e o) none false)) ∧
    (o.keys = [] → ptqReplace e .layer o ⟨none, none, bias⟩ stats pred = .ok .keep) := by
  have hf := plain_fp hp
  have hk := accepted_any ha
  refine ⟨?_, ?_, ?_⟩
  · intro acts w
    rw [ptqReplace, if_neg (by simp), if_neg (by simp), if_neg (by simp), if_neg hk]
    simp [replaceParamLayer, hf, or_absent hp.keys.2.2.1, or_eq o .mode, clipOr_eq]
  · intro a
    rw [ptqReplace, if_neg (by simp), if_neg (by simp), if_neg (by simp), if_neg hk]
    simp [replaceParamLayer, hf, or_absent hp.keys.2.2.1, or_eq o .mode, clipOr_eq, fakeWrapper]
  · intro h
    simp [ptqReplace, h]

/-- **C135** (operations): additions, multiplications, concatenations and matrix products compute with quantized
operands of the configured bits; all but matrix products need statistics and stay in floating point
without. -/
theorem C135_operation (e : PtqEnv) (c : PtqClass) (o : PtqOv) (a : ℕ) (stats pred : Bool) (hc : c = .arith ∨ c = .matmul)
    (hp : PlainPtq e o) (ha : PtqAccepted c o) :
    ptqReplace e c o ⟨some a, none, none⟩ stats pred =
      .ok (if c = .arith ∧ stats = false then .keep else .op (some a) e.mode (ownClip e o)) := by
  have hf := plain_fp hp
  have hk := accepted_any ha
  rcases hc with rfl | rfl <;> rw [ptqReplace, if_neg (by simp), if_neg (by simp), if_neg (by simp), if_neg hk] <;> cases stats <;>
    simp [replaceNonParam, hf, or_absent hp.keys.2.2.1, clipOr_eq]

/-- **C135** (other modules): any other leaf module computes in floating point and its output is quantized to the
configured bits. -/
theorem C135_fake (e : PtqEnv) (c : PtqClass) (o : PtqOv) (a : ℕ) (stats pred : Bool) (hc : c = .relu ∨ c = .leaf)
    (hp : PlainPtq e o) (ha : PtqAccepted c o) :
    ptqReplace e c o ⟨some a, none, none⟩ stats pred =
      .ok (.fake (some a) e.mode (ownClip e o) none (if OvKey.quantInputs ∈ o.keys then o.quantInputs else true)) := by
  have hf := plain_fp hp
  have hk := accepted_any ha
  rcases hc with rfl | rfl <;> rw [ptqReplace, if_neg (by simp), if_neg (by simp), if_neg (by simp), if_neg hk] <;>
    simp [replaceFake, hf, or_absent hp.keys.2.2.1, or_absent hp.keys.2.2.2, or_eq o .quantInputs, clipOr_eq, fakeWrapper]

/-- **C135** (embeddings): the table is quantized to the bits of weights, and clipped only if weights are. -/
theorem C135_embedding (e : PtqEnv) (o : PtqOv) (acts bias : Option ℕ) (w : ℕ) (stats pred : Bool)
    (hp : PlainPtq e o) (ha : PtqAccepted .embedding o) :
    ptqReplace e .embedding o ⟨acts, some w, bias⟩ stats pred =
      .ok (.table w e.mode (if e.alsoClipWts then ownClip e o else .none)) := by
  have hf := plain_fp hp
  have hk := accepted_any ha
  have := clipOr_eq e o
  unfold PtqOv.clipOr at this
  rw [ptqReplace, if_neg (by simp), if_neg (by simp), if_neg (by simp), if_neg hk]
  simp [replaceEmbedding, hf, this]

/-- **C135** (untouched modules): dropouts, identities and containers are never replaced, nor is any module without
bits and overrides. -/
theorem C135_kept (e : PtqEnv) (c : PtqClass) (o : PtqOv) (q : QBits) (stats pred : Bool) :
    (c = .dropout ∨ c = .identity ∨ c = .container ∧ PtqAccepted c o → ptqReplace e c o q stats pred = .ok .keep) ∧
    (o.keys = [] → q.acts = none → q.wts = none → ptqReplace e c o q stats pred = .ok .keep) := by
  constructor
  · rintro (rfl | rfl | ⟨rfl, h⟩)
    · simp [ptqReplace]
    · simp [ptqReplace]
    · rw [ptqReplace, if_neg (by simp)]
      split
      · rfl
      · rw [if_neg (by simp), if_neg (accepted_any h)]
        simp [replaceFake]
  · intro h1 h2 h3
    simp [ptqReplace, h1, h2, h3]

/-- **C135** (removed ReLUs): a ReLU that is marked as fused into its predecessor is removed exactly if the
predecessor has become a quantized module; otherwise it is treated as any other module. -/
theorem C135_fused_relu (e : PtqEnv) (o : PtqOv) (q : QBits) (stats pred : Bool) (ha : PtqAccepted .relu o)
    (hm : OvKey.makeIdentity ∈ o.keys) (hv : o.makeIdentity = true) :
    (ptqReplace e .relu o q stats true = .ok .identity) ∧
    ptqReplace e .relu o q stats false = ptqReplace e .leaf o q stats false ∧
    (ptqReplace e .relu o q stats pred = .ok .identity → pred = true) := by
  have hk := accepted_any ha
  have hk' : ¬ (o.keys.any (fun k => !(PtqClass.leaf.accepts.contains k)) = true) := hk
  have hne : o.keys ≠ [] := by intro h; rw [h] at hm; simp at hm
  have h0 : ptqReplace e .relu o q stats false = ptqReplace e .leaf o q stats false := by
    unfold ptqReplace
    rw [if_neg (by simp), if_neg (by simp [hne]), if_neg (by simp), if_neg hk, if_neg (by simp), if_neg (by simp [hne]),
      if_neg (by simp), if_neg hk']
    simp [replaceFake]
  refine ⟨?_, h0, ?_⟩
  · rw [ptqReplace, if_neg (by simp), if_neg (by simp [hne]), if_neg (by simp), if_neg hk]
    simp [replaceFake, or_eq o .makeIdentity, hm, hv]
  · cases pred with
    | true => intro _; rfl
    | false =>
      intro h
      rw [ptqReplace, if_neg (by simp), if_neg (by simp [hne]), if_neg (by simp), if_neg hk] at h
      unfold replaceFake at h
      simp only [Bool.and_false, Bool.false_eq_true, if_false] at h
      unfold fpWrapper fakeWrapper at h
      split at h
      · split at h
        · split at h <;> simp at h
        · simp at h
      · split at h
        · simp at h
        · split at h <;> simp at h

/-- **C135** (forced fake quantization): a layer or operation with `fake_quant` computes in the floating-point precision
given, single if none is, and its output is quantized to the configured bits. -/
theorem C135_forced_fake (e : PtqEnv) (c : PtqClass) (o : PtqOv) (q : QBits) (f : Option ℕ) (stats pred : Bool)
    (hc : c = .layer ∨ c = .arith ∨ c = .matmul) (hf : f = none ∨ f = some 16 ∨ f = some 32 ∨ f = some 64)
    (hk : OvKey.fake ∈ o.keys) (hv : o.fake = true) (h16 : OvKey.fp16 ∉ o.keys) (he : e.fp16 = false)
    (hp : (OvKey.fpq ∈ o.keys ∧ o.fpq = f) ∨ (OvKey.fpq ∉ o.keys ∧ e.fpq = f)) (ha : PtqAccepted c o) :
    ptqReplace e c o q stats pred =
      .ok (.fake q.acts (if c = .layer ∧ OvKey.mode ∈ o.keys then o.mode else e.mode) (ownClip e o) f false) := by
  have hka := accepted_any ha
  have hne : o.keys ≠ [] := by intro h; rw [h] at hk; simp at hk
  have hfpq : o.or .fpq o.fpq e.fpq = f := by
    unfold PtqOv.or
    rcases hp with ⟨h1, h2⟩ | ⟨h1, h2⟩
    · rw [if_pos h1, h2]
    · rw [if_neg h1, h2]
  have hfp : checkFp16 (o.or .fp16 o.fp16 e.fp16) (o.or .fpq o.fpq e.fpq) = f := by
    rw [hfpq, or_absent h16, he]
    rcases hf with rfl | rfl | rfl | rfl <;> rfl
  have hfk : o.or .fake o.fake false = true := by rw [or_eq, if_pos hk, hv]
  have hw : ∀ m, fakeWrapper q.acts m (ownClip e o) f false = .ok (.fake q.acts m (ownClip e o) f false) := by
    intro m
    rcases hf with rfl | rfl | rfl | rfl <;> rfl
  rcases hc with rfl | rfl | rfl <;>
    rw [ptqReplace, if_neg (by simp), if_neg (by simp [hne]), if_neg (by simp), if_neg hka]
  · unfold replaceParamLayer
    rw [hfp, hfk]
    rcases hf with rfl | rfl | rfl | rfl <;> simp [clipOr_eq, hw, or_eq o .mode]
  · unfold replaceNonParam
    rw [hfp, hfk]
    rcases hf with rfl | rfl | rfl | rfl <;> simp [clipOr_eq, hw]
  · unfold replaceNonParam
    rw [hfp, hfk]
    rcases hf with rfl | rfl | rfl | rfl <;> simp [clipOr_eq, hw]

/-- **C135** (unknown arguments): an override argument that the class does not take is refused, for every module that
would be looked at. -/
theorem C135_refused (e : PtqEnv) (c : PtqClass) (o : PtqOv) (q : QBits) (stats pred : Bool) (hd : c ≠ .dropout) (hi : c ≠ .identity)
    (h : ¬ PtqAccepted c o) : ptqReplace e c o q stats pred = .error .type := by
  have hx : ∃ k ∈ o.keys, k ∉ c.accepts := by
    by_contra hc
    push Not at hc
    exact h hc
  obtain ⟨k, hk, hn⟩ := hx
  have hne : o.keys ≠ [] := by intro h; rw [h] at hk; simp at hk
  unfold ptqReplace
  rw [if_neg hd, if_neg (by simp [hne]), if_neg hi, if_pos]
  rw [List.any_eq_true]
  exact ⟨k, hk, by simp [List.contains_iff_mem, hn]⟩

example : PtqAccepted .relu { keys := [.makeIdentity, .clip], makeIdentity := true } ∧ PtqAccepted .layer { keys := [.fake, .fpq], fake := true, fpq := some 16 } ∧
    ¬ PtqAccepted .matmul { keys := [.mode] } := by
  unfold PtqAccepted; decide +kernel

/-- **C135** (which arguments): the override arguments that each class of modules takes. -/
theorem C135_arguments (c : PtqClass) (k : OvKey) : k ∈ c.accepts ↔
    (match k with
    | .perChannel | .mode => c = .layer
    | .fp16 | .clip | .nStds | .half | .fpq => True
    | .approx | .inputs | .fake => c ≠ .embedding
    | .autoFallback => c ≠ .layer ∧ c ≠ .embedding
    | .makeIdentity | .quantInputs => c ≠ .layer ∧ c ≠ .embedding ∧ c ≠ .arith ∧ c ≠ .matmul) := by
  cases c <;> cases k <;> simp [PtqClass.accepts]

/-- **C135** (floating point): with a floating-point precision, given for the quantizer or for the module, layers,
embeddings and operations with any bits run in that precision. -/
theorem C135_float (e : PtqEnv) (c : PtqClass) (o : PtqOv) (q : QBits) (b : ℕ) (stats pred : Bool)
    (hc : c = .layer ∨ c = .arith ∨ c = .matmul ∨ c = .embedding) (hb : b = 16 ∨ b = 32 ∨ b = 64)
    (hp : (OvKey.fpq ∈ o.keys ∧ o.fpq = some b) ∨ (OvKey.fpq ∉ o.keys ∧ e.fpq = some b))
    (hf : OvKey.fake ∉ o.keys) (ha : PtqAccepted c o) (hq : q.acts ≠ none ∨ q.wts ≠ none ∨ o.keys ≠ []) :
    ptqReplace e c o q stats pred = .ok (.fp b (decide (c ≠ .embedding))) := by
  have hk := accepted_any ha
  have h0 : b ≠ 0 := by omega
  have hfp : checkFp16 (o.or .fp16 o.fp16 e.fp16) (o.or .fpq o.fpq e.fpq) = some b := by
    have : (o.or .fpq o.fpq e.fpq) = some b := by
      unfold PtqOv.or
      rcases hp with ⟨h1, h2⟩ | ⟨h1, h2⟩
      · rw [if_pos h1, h2]
      · rw [if_neg h1, h2]
    rw [this]
    have h0' : (some b).filter (fun x => decide (x ≠ 0)) = some b := by simp [Option.filter, h0]
    unfold checkFp16
    simp only [h0']
    split <;> rfl
  have hk2 : ¬ (q.acts = none ∧ q.wts = none ∧ o.keys = []) := by
    rintro ⟨h1, h2, h3⟩
    rcases hq with h | h | h
    · exact h h1
    · exact h h2
    · exact h h3
  rcases hc with rfl | rfl | rfl | rfl <;> rw [ptqReplace, if_neg (by simp), if_neg hk2, if_neg (by simp), if_neg hk] <;>
    simp [replaceParamLayer, replaceNonParam, replaceEmbedding, hfp, or_absent hf, fpWrapper, hb]

/-- The bits of activations and weights a replacement computes with, if it is quantized at all. -/
def PtqRepl.uses : PtqRepl → List (Option ℕ) × List ℕ
  | .keep | .fp _ _ | .identity => ([], [])
  | .fake a _ _ _ _ => ([a], [])
  | .layer a w _ _ => ([a], [w])
  | .op a _ _ => ([a], [])
  | .table w _ _ => ([], [w])

/-- **C135** (no other bits): whatever the arguments, the class and the overrides, a module is never quantized to
bits other than those configured for it. -/
theorem C135_bits (e : PtqEnv) (c : PtqClass) (o : PtqOv) (q : QBits) (stats pred : Bool) (r : PtqRepl)
    (h : ptqReplace e c o q stats pred = .ok r) :
    (∀ a ∈ r.uses.1, a = q.acts) ∧ (∀ w ∈ r.uses.2, q.wts = some w) := by
  have hfp : ∀ b i r, fpWrapper b i = .ok r → r.uses = ([], []) := by
    intro b i r h
    unfold fpWrapper at h
    split at h <;> cases h
    rfl
  have hfk : ∀ a m cl b i r, fakeWrapper a m cl b i = .ok r → r.uses = ([a], []) := by
    intro a m cl b i r h
    unfold fakeWrapper at h
    split at h
    · cases h; rfl
    · split at h <;> cases h
      rfl
  have h0 : r.uses = ([], []) → (∀ a ∈ r.uses.1, a = q.acts) ∧ (∀ w ∈ r.uses.2, q.wts = some w) := by
    intro h; rw [h]; simp
  have h1 : r.uses = ([q.acts], []) → (∀ a ∈ r.uses.1, a = q.acts) ∧ (∀ w ∈ r.uses.2, q.wts = some w) := by
    intro h; rw [h]; simp
  have hfake : ∀ x y z, replaceFake x y z e o q = .ok r → (∀ a ∈ r.uses.1, a = q.acts) ∧ (∀ w ∈ r.uses.2, q.wts = some w) := by
    intro x y z h
    unfold replaceFake at h
    dsimp only at h
    split at h
    · cases h; exact h0 rfl
    · split at h
      · cases h; exact h0 rfl
      · split at h
        · split at h
          · exact h0 (hfp _ _ _ h)
          · cases h
        · exact h1 (hfk _ _ _ _ _ _ h)
  have hnp : ∀ x y, replaceNonParam x y e o q = .ok r → (∀ a ∈ r.uses.1, a = q.acts) ∧ (∀ w ∈ r.uses.2, q.wts = some w) := by
    intro x y h
    unfold replaceNonParam at h
    dsimp only at h
    split at h
    · exact h0 (hfp _ _ _ h)
    · split at h
      · exact h1 (hfk _ _ _ _ _ _ h)
      · split at h
        · cases h; exact h0 rfl
        · cases h; exact h1 rfl
  unfold ptqReplace at h
  split at h
  · cases h; exact h0 rfl
  split at h
  · cases h; exact h0 rfl
  split at h
  · cases h; exact h0 rfl
  split at h
  · cases h
  split at h
  · unfold replaceParamLayer at h
    dsimp only at h
    split at h
    · exact h0 (hfp _ _ _ h)
    · split at h
      · exact h1 (hfk _ _ _ _ _ _ h)
      · split at h
        · cases h
        · rename_i hw
          cases h; simp [PtqRepl.uses, hw]
  · unfold replaceEmbedding at h
    split at h
    · exact h0 (hfp _ _ _ h)
    · split at h
      · cases h
      · rename_i hw
        cases h; simp [PtqRepl.uses, hw]
  · exact hnp _ _ h
  · exact hnp _ _ h
  · exact hfake _ _ _ h
  · exact hfake _ _ _ h
  · exact hfake _ _ _ h

/-- Default arguments. -/
def exPtqEnv : PtqEnv := ⟨(.symmetric, .asymmetricUnsigned), .avg, false, none, false⟩

-- Hypotheses are met: a layer with clipping overridden.
example : PlainPtq exPtqEnv { keys := [.clip, .mode], clip := some .none } ∧ PtqAccepted .layer { keys := [.clip, .mode], clip := some .none } :=
  ⟨⟨rfl, rfl, by decide +kernel⟩, by unfold PtqAccepted; decide +kernel⟩
example : ptqReplace exPtqEnv .layer { keys := [.clip, .mode], clip := some .none } ⟨some 8, some 4, some 32⟩ true false =
    .ok (.layer (some 8) 4 (.symmetric, .symmetric) .none) := by decide +kernel
example : ptqReplace exPtqEnv .layer {} ⟨none, some 4, some 32⟩ true false = .ok (.layer none 4 (.symmetric, .asymmetricUnsigned) .avg) := by
  decide +kernel
example : ptqReplace exPtqEnv .relu { keys := [.makeIdentity], makeIdentity := true } ⟨some 8, none, none⟩ true true = .ok .identity := by
  decide +kernel
example : ptqReplace { exPtqEnv with fpq := some 16 } .embedding {} ⟨some 8, some 8, none⟩ true true = .ok (.fp 16 false) := by
  decide +kernel

/-- **C135** is violated by embeddings that have no bits for weights: quantizing activations only fails with TypeError
as soon as the model has an embedding. -/
theorem C135_violated_embedding (e : PtqEnv) (o : PtqOv) (a : ℕ) (bias : Option ℕ) (stats pred : Bool)
    (hp : PlainPtq e o) (ha : PtqAccepted .embedding o) :
    ptqReplace e .embedding o ⟨some a, none, bias⟩ stats pred = .error .type := by
  rw [ptqReplace, if_neg (by simp), if_neg (by simp), if_neg (by simp), if_neg (accepted_any ha)]
  simp [replaceEmbedding, plain_fp hp]

/-- **C135** is violated by layers that are not to be quantized but have another override, such as a clipping mode:
TypeError. -/
theorem C135_violated_unquantized_with_override (e : PtqEnv) (o : PtqOv) (bias : Option ℕ) (stats pred : Bool)
    (hp : PlainPtq e o) (ha : PtqAccepted .layer o) (hk : o.keys ≠ []) :
    ptqReplace e .layer o ⟨none, none, bias⟩ stats pred = .error .type := by
  rw [ptqReplace, if_neg (by simp), if_neg (by simp [hk]), if_neg (by simp), if_neg (accepted_any ha)]
  simp [replaceParamLayer, plain_fp hp, or_absent hp.keys.2.2.1]

/-- **C135** is violated by `fpq_module` (documented: all layers are converted to the precision, regardless of bits):
other leaf modules are quantized to the bits of activations all the same, and layers without bits stay in
single precision. -/
theorem C135_violated_float (e : PtqEnv) (b a : ℕ) (bias : Option ℕ) (stats pred : Bool) (hb : b = 16 ∨ b = 32 ∨ b = 64)
    (h1 : e.fp16 = false) (h2 : e.fpq = some b) :
    ptqReplace e .leaf {} ⟨some a, none, none⟩ stats pred = .ok (.fake (some a) e.mode e.clip (some b) true) ∧
    ptqReplace e .layer {} ⟨none, none, bias⟩ stats pred = .ok .keep := by
  have h0 : b ≠ 0 := by omega
  constructor
  · have : checkFp16 e.fp16 e.fpq = some b := by
      rw [h1, h2]; simp [checkFp16, Option.filter, h0]
    simp [ptqReplace, replaceFake, PtqOv.or, PtqOv.clipOr, this, fakeWrapper, hb]
  · simp [ptqReplace]

/-! ## C136: the command line -/

/-- The name covers another one when it is used as a pattern: the same text, but a dot covers any character. -/
def Covers : List Char → List Char → Prop
  | [], [] => True
  | k :: ks, c :: cs => (k = '.' ∨ k = c) ∧ Covers ks cs
  | _, _ => False

theorem covers_self (n : List Char) : Covers n n := by
  induction n with
  | nil => trivial
  | cons c n ih => exact ⟨Or.inr rfl, ih⟩

theorem matches_nameRe (k n : List Char) : Matches (nameRe k) n ↔ Covers k n := by
  induction k generalizing n with
  | nil =>
    constructor
    · intro h; cases h; trivial
    · intro h
      cases n with
      | nil => exact .eps
      | cons _ _ => exact h.elim
  | cons c k ih =>
    constructor
    · intro h
      unfold nameRe at h
      cases h with
      | cat h1 h2 =>
        have h2 := (ih _).1 h2
        split at h1
        · rename_i hc
          cases h1
          exact ⟨Or.inl hc, h2⟩
        · cases h1
          exact ⟨Or.inr rfl, h2⟩
    · intro h
      cases n with
      | nil => exact h.elim
      | cons d n =>
        obtain ⟨h1, h2⟩ := h
        unfold nameRe
        refine Matches.cat (u := [d]) ?_ ((ih n).2 h2)
        split
        · exact .any d
        · rename_i hc
          rcases h1 with h1 | h1
          · exact absurd h1 hc
          · rw [h1]; exact .chr d

theorem nameRe_plain (k : List Char) : (nameRe k).ngroups = 0 ∧ (nameRe k).noAnchor ∧ (nameRe k).noTopAlt := by
  induction k with
  | nil => exact ⟨rfl, trivial, trivial⟩
  | cons c k ih =>
    unfold nameRe
    refine ⟨?_, ?_, trivial⟩
    · simp only [Re.ngroups, ih.1]; split <;> rfl
    · refine ⟨?_, ih.2.1⟩
      split <;> trivial

theorem insertOv_keys (ovs : List Override) (o : Override) :
    (insertOv ovs o).map (·.key) = if o.key ∈ ovs.map (·.key) then ovs.map (·.key) else ovs.map (·.key) ++ [o.key] := by
  unfold insertOv
  by_cases h : o.key ∈ ovs.map (·.key)
  · rw [if_pos h, if_pos (by
      rw [List.any_eq_true]
      obtain ⟨x, hx, e⟩ := List.mem_map.1 h
      exact ⟨x, hx, by simp [e]⟩)]
    rw [List.map_map]
    apply List.map_congr_left
    intro x _
    show (if x.key = o.key then o else x).key = x.key
    split
    · rename_i e; exact e.symm
    · rfl
  · rw [if_neg h, if_neg (by
      rw [List.any_eq_true]
      rintro ⟨x, hx, e⟩
      exact h (List.mem_map.2 ⟨x, hx, by simpa using e⟩))]
    simp

theorem insertOv_mem (ovs : List Override) (o x : Override) (h : x ∈ insertOv ovs o) : x = o ∨ x ∈ ovs ∧ x.key ≠ o.key := by
  unfold insertOv at h
  split at h
  · obtain ⟨y, hy, e⟩ := List.mem_map.1 h
    split at e
    · exact Or.inl e.symm
    · rename_i hk; subst e; exact Or.inr ⟨hy, hk⟩
  · rename_i hn
    rcases List.mem_append.1 h with h | h
    · refine Or.inr ⟨h, fun e => hn ?_⟩
      rw [List.any_eq_true]
      exact ⟨x, h, by simp [e]⟩
    · exact Or.inl (by simpa using h)

theorem insert_fold (l ovs : List Override) (hn : (ovs.map (·.key)).Nodup) :
    ((l.foldl insertOv ovs).map (·.key)).Nodup ∧
    (∀ k, k ∈ (l.foldl insertOv ovs).map (·.key) ↔ k ∈ ovs.map (·.key) ∨ k ∈ l.map (·.key)) ∧
    (∀ x ∈ l.foldl insertOv ovs, x ∈ ovs ∨ x ∈ l) := by
  induction l generalizing ovs with
  | nil => exact ⟨hn, by simp, fun x h => Or.inl h⟩
  | cons o l ih =>
    have hk := insertOv_keys ovs o
    have hn' : ((insertOv ovs o).map (·.key)).Nodup := by
      rw [hk]
      split
      · exact hn
      · rename_i h
        rw [List.nodup_append]
        exact ⟨hn, by simp, by intro a ha b hb e; simp at hb; subst hb; exact h (e ▸ ha)⟩
    obtain ⟨i1, i2, i3⟩ := ih _ hn'
    refine ⟨i1, ?_, ?_⟩
    · intro k
      rw [List.foldl_cons, i2 k, hk]
      split
      · rename_i h
        simp only [List.map_cons, List.mem_cons]
        constructor
        · rintro (h' | h') <;> tauto
        · rintro (h' | rfl | h') <;> tauto
      · simp only [List.mem_append, List.map_cons, List.mem_cons, List.not_mem_nil, or_false]
        tauto
    · intro x hx
      rcases i3 x hx with h | h
      · rcases insertOv_mem _ _ _ h with rfl | ⟨h, _⟩
        · exact Or.inr (by simp)
        · exact Or.inl h
      · exact Or.inr (by simp [h])

/-- What the command line makes of the overrides. -/
theorem overrides_spec (a : PtqArgs) :
    ((a.overrides).map (·.key)).Nodup ∧
    (∀ k, k ∈ a.overrides.map (·.key) ↔ k ∈ a.noQuant ∨ k ∈ a.noClip) ∧
    (∀ o ∈ a.overrides, (o.key ∈ a.noQuant ∧ o = a.entry o.key false) ∨ (o.key ∈ a.noClip ∧ o.key ∉ a.noQuant ∧ o = a.entry o.key true)) := by
  have hkey : ∀ n b, (a.entry n b).key = n := by intro n b; cases b <;> rfl
  obtain ⟨h1, h2, h3⟩ := insert_fold ((a.noQuant.map (a.entry · false)) ++ ((a.noClip.filter fun n => !(a.noQuant.contains n)).map (a.entry · true))) [] (by simp)
  refine ⟨h1, ?_, ?_⟩
  · intro k
    unfold PtqArgs.overrides
    rw [h2 k]
    simp only [List.map_nil, List.not_mem_nil, false_or, List.map_append, List.map_map, List.mem_append, List.mem_map, Function.comp_apply, hkey,
      List.mem_filter, Bool.not_eq_true', exists_eq_right]
    by_cases hq : k ∈ a.noQuant
    · simp [hq]
    · simp [hq]
  · intro o ho
    rcases h3 o ho with h | h
    · simp at h
    · rcases List.mem_append.1 h with h | h
      · obtain ⟨n, hn, rfl⟩ := List.mem_map.1 h
        rw [hkey]
        exact Or.inl ⟨hn, rfl⟩
      · obtain ⟨n, hn, rfl⟩ := List.mem_map.1 h
        rw [hkey]
        rw [List.mem_filter] at hn
        exact Or.inr ⟨hn.1, by simpa using hn.2, rfl⟩

/-- The module is called `name` in the model without DataParallel. -/
def PlainName (full name : List Char) : Prop := full = dpPrefix ++ name ∨ full = name ∧ NotIn dpPrefix name

theorem cmdline_bits (a : PtqArgs) (supported : Bool) (full name : List Char) (hname : PlainName full name) :
    (name ∈ a.noQuant → moduleBits a.overrides a.dflt supported full =
      .ok (if supported then ⟨none, none, some a.bitsAccum⟩ else ⟨none, none, none⟩, some (a.entry name false))) ∧
    (name ∈ a.noClip → name ∉ a.noQuant → moduleBits a.overrides a.dflt supported full =
      .ok (if supported then a.dflt else ⟨a.dflt.acts, none, none⟩, some (a.entry name true))) ∧
    ((∀ k, k ∈ a.noQuant ∨ k ∈ a.noClip → ¬ Covers k name) → moduleBits a.overrides a.dflt supported full =
      .ok (if supported then a.dflt else ⟨a.dflt.acts, none, none⟩, none)) := by
  obtain ⟨h1, h2, h3⟩ := overrides_spec a
  have hre : ∀ o ∈ a.overrides, o.re = nameRe o.key := by
    intro o ho
    rcases h3 o ho with ⟨_, e⟩ | ⟨_, _, e⟩ <;> rw [e] <;> rfl
  obtain ⟨c1, c2, _⟩ := C36_overrides a.overrides a.dflt supported full name hname h1
    (by intro o ho e; rw [hre o ho, e]; exact (matches_nameRe _ _).2 (covers_self _))
    (by intro o ho; rw [hre o ho]; exact nameRe_plain _)
  refine ⟨?_, ?_, ?_⟩
  · intro h
    obtain ⟨o, ho, e⟩ := List.mem_map.1 ((h2 name).2 (Or.inl h))
    have e : o.key = name := e
    rcases h3 o ho with ⟨_, e'⟩ | ⟨_, hn, _⟩
    · rw [e] at e'
      rw [c1 o (Or.inl ⟨ho, e⟩), e']
      simp [PtqArgs.entry, fillBits, PtqArgs.dflt]
    · rw [e] at hn; exact absurd h hn
  · intro h hn
    obtain ⟨o, ho, e⟩ := List.mem_map.1 ((h2 name).2 (Or.inr h))
    have e : o.key = name := e
    rcases h3 o ho with ⟨hq, _⟩ | ⟨_, _, e'⟩
    · rw [e] at hq; exact absurd hq hn
    · rw [e] at e'
      rw [c1 o (Or.inl ⟨ho, e⟩), e']
      simp [PtqArgs.entry, fillBits, PtqArgs.dflt]
  · intro h
    exact c2 fun o ho hm => by
      rw [hre o ho] at hm
      exact h o.key ((h2 _).1 (List.mem_map.2 ⟨o, ho, rfl⟩)) ((matches_nameRe _ _).1 hm)

/-- The bits of a module that follow from the command line, zero meaning not quantized. -/
def cmdBits (a : PtqArgs) (c : PtqClass) : QBits :=
  ⟨if a.bitsActs = 0 then none else some a.bitsActs,
   if c = .layer ∨ c = .embedding then (if a.bitsWts = 0 then none else some a.bitsWts) else none,
   if c = .layer ∨ c = .embedding then some a.bitsAccum else none⟩

theorem cmdBits_eq (a : PtqArgs) (c : PtqClass) : (if c.weighted then a.dflt else ⟨a.dflt.acts, none, none⟩) = cmdBits a c := by
  cases c <;> simp [PtqClass.weighted, cmdBits, PtqArgs.dflt, bitsArg]

/-- **C136** (no-quant layers): a module named in `--qe-no-quant-layers` stays the original module, whatever the
other arguments, also if it is named in `--qe-no-clip-layers` too, and also in a DataParallel model. -/
theorem C136_not_quantized (a : PtqArgs) (c : PtqClass) (full name : List Char) (stats : Bool) (hname : PlainName full name)
    (h : name ∈ a.noQuant) : cmdlineReplace a c full stats = .ok .keep := by
  unfold cmdlineReplace
  rw [(cmdline_bits a c.weighted full name hname).1 h]
  simp only [bind, Except.bind]
  have hov : ovArgs (some (a.entry name false)) = {} := by simp [ovArgs, PtqArgs.entry]
  rw [hov]
  refine (C135_kept _ _ _ _ _ _).2 rfl ?_ ?_ <;> cases c <;> rfl

/-- **C136** (no-clip layers): a module named in `--qe-no-clip-layers` and not in the other list gets the bits and
modes of the command line and no clipping. -/
theorem C136_not_clipped (a : PtqArgs) (c : PtqClass) (full name : List Char) (stats : Bool) (hname : PlainName full name)
    (h : name ∈ a.noClip) (hn : name ∉ a.noQuant) :
    cmdlineReplace a c full stats = ptqReplace a.env c { keys := [.clip], clip := some .none } (cmdBits a c) stats false := by
  unfold cmdlineReplace
  rw [(cmdline_bits a c.weighted full name hname).2.1 h hn, cmdBits_eq]
  have hov : ovArgs (some (a.entry name true)) = { keys := [.clip], clip := some .none } := by simp [ovArgs, PtqArgs.entry]
  simp only [bind, Except.bind, hov]

/-- **C136** (all others): a module that no listed name covers gets the bits, modes and clipping of the command
line. -/
theorem C136_others (a : PtqArgs) (c : PtqClass) (full name : List Char) (stats : Bool) (hname : PlainName full name)
    (h : ∀ k, k ∈ a.noQuant ∨ k ∈ a.noClip → ¬ Covers k name) :
    cmdlineReplace a c full stats = ptqReplace a.env c {} (cmdBits a c) stats false := by
  unfold cmdlineReplace
  rw [(cmdline_bits a c.weighted full name hname).2.2 h, cmdBits_eq]
  have hov : ovArgs none = {} := rfl
  simp only [bind, Except.bind, hov]

/-- **C136** (layers, spelled out): convolution and linear layers with bits for weights on the command line. -/
theorem C136_layers (a : PtqArgs) (full name : List Char) (stats : Bool) (hname : PlainName full name) (hw : a.bitsWts ≠ 0) :
    let acts := if a.bitsActs = 0 then none else some a.bitsActs
    let mode := ((match a.modeActs with | some m => m | none => a.mode), (match a.modeWts with | some m => m | none => a.mode))
    (name ∈ a.noQuant → cmdlineReplace a .layer full stats = .ok .keep) ∧
    (name ∈ a.noClip → name ∉ a.noQuant → cmdlineReplace a .layer full stats = .ok (.layer acts a.bitsWts mode .none)) ∧
    ((∀ k, k ∈ a.noQuant ∨ k ∈ a.noClip → ¬ Covers k name) → cmdlineReplace a .layer full stats = .ok (.layer acts a.bitsWts mode a.clip)) := by
  have hm : a.env.mode = ((match a.modeActs with | some m => m | none => a.mode), (match a.modeWts with | some m => m | none => a.mode)) := by
    unfold PtqArgs.env
    cases a.modeActs <;> cases a.modeWts <;> rfl
  have hb : cmdBits a .layer = ⟨if a.bitsActs = 0 then none else some a.bitsActs, some a.bitsWts, some a.bitsAccum⟩ := by
    simp [cmdBits, hw]
  refine ⟨C136_not_quantized a .layer full name stats hname, ?_, ?_⟩
  · intro h hn
    rw [C136_not_clipped a .layer full name stats hname h hn, hb,
      (C135_layer a.env _ _ stats false ⟨rfl, rfl, by decide +kernel⟩ (by unfold PtqAccepted; decide +kernel)).1]
    rw [← hm]
    rfl
  · intro h
    rw [C136_others a .layer full name stats hname h, hb,
      (C135_layer a.env _ _ stats false ⟨rfl, rfl, by decide +kernel⟩ (by unfold PtqAccepted; decide +kernel)).1]
    rw [← hm]
    rfl

/-- Arguments with a layer in each list. -/
def exPtqArgs : PtqArgs :=
  ⟨8, 4, 32, .symmetric, some .asymmetricUnsigned, none, .avg, ["layer1.0".toList, "fc".toList], ["conv1".toList, "fc".toList]⟩

-- The three cases occur.
example : cmdlineReplace exPtqArgs .layer "module.fc".toList true = .ok .keep ∧
    cmdlineReplace exPtqArgs .layer "layer1.0".toList true = .ok (.layer (some 8) 4 (.asymmetricUnsigned, .symmetric) .none) ∧
    cmdlineReplace exPtqArgs .layer "layer2.0".toList true = .ok (.layer (some 8) 4 (.asymmetricUnsigned, .symmetric) .avg) ∧
    cmdlineReplace exPtqArgs .relu "relu".toList true = .ok (.fake (some 8) (.asymmetricUnsigned, .symmetric) .avg none true) := by
  refine ⟨by decide +kernel, by decide +kernel, by decide +kernel, by decide +kernel⟩
example : PlainName "module.fc".toList "fc".toList := Or.inl (by decide +kernel)
example : ∀ k, k ∈ exPtqArgs.noQuant ∨ k ∈ exPtqArgs.noClip → ¬ Covers k "fc1".toList := by
  rintro k (h | h) <;> simp only [exPtqArgs, List.mem_cons, List.not_mem_nil, or_false] at h <;> rcases h with rfl | rfl <;> simp [Covers]

/-- **C136** is violated because names are used as patterns: with `--qe-no-quant-layers a.b`, a module called `a_b`
is not quantized either. -/
theorem C136_violated_dot (a : PtqArgs) (c : PtqClass) (stats : Bool) (hq : a.noQuant = ["a.b".toList]) (hc : a.noClip = []) :
    "a_b".toList ∉ a.noQuant ∧ cmdlineReplace a c "a_b".toList stats = .ok .keep := by
  refine ⟨by rw [hq]; decide +kernel, ?_⟩
  have ho : a.overrides = [a.entry "a.b".toList false] := by
    unfold PtqArgs.overrides
    rw [hq, hc]
    rfl
  have he : (a.entry "a.b".toList false) = ⟨"a.b".toList, nameRe "a.b".toList, ⟨none, none, some a.bitsAccum⟩, 0⟩ := rfl
  have hm : moduleBits a.overrides a.dflt c.weighted "a_b".toList =
      .ok (if c.weighted then ⟨none, none, some a.bitsAccum⟩ else ⟨none, none, none⟩, some (a.entry "a.b".toList false)) := by
    rw [ho, he]
    rfl
  unfold cmdlineReplace
  rw [hm]
  simp only [bind, Except.bind]
  have hov : ovArgs (some (a.entry "a.b".toList false)) = {} := by simp [ovArgs, PtqArgs.entry]
  rw [hov]
  refine (C135_kept _ _ _ _ _ _).2 rfl ?_ ?_ <;> cases c <;> rfl

/-- **C136** is violated by `--qe-bits-wts 0` (documented: weights are not quantized): a model with an embedding is
refused with TypeError. -/
theorem C136_violated_zero_weight_bits (a : PtqArgs) (name : List Char) (stats : Bool) (hname : PlainName name name)
    (h : ∀ k, k ∈ a.noQuant ∨ k ∈ a.noClip → ¬ Covers k name) (hw : a.bitsWts = 0) (ha : a.bitsActs ≠ 0) :
    cmdlineReplace a .embedding name stats = .error .type := by
  rw [C136_others a .embedding name name stats hname h]
  have : cmdBits a .embedding = ⟨some a.bitsActs, none, some a.bitsAccum⟩ := by simp [cmdBits, hw, ha]
  rw [this]
  exact C135_violated_embedding _ _ _ _ _ _ ⟨rfl, rfl, by decide +kernel⟩ (by unfold PtqAccepted; decide +kernel)

/-- **C136** is violated by `--qe-bits-wts 0 --qe-bits-acts 0` (nothing quantized) with a layer in
`--qe-no-clip-layers`: TypeError. -/
theorem C136_violated_no_clip_unquantized (a : PtqArgs) (full name : List Char) (stats : Bool) (hname : PlainName full name)
    (h : name ∈ a.noClip) (hn : name ∉ a.noQuant) (hw : a.bitsWts = 0) (ha : a.bitsActs = 0) :
    cmdlineReplace a .layer full stats = .error .type := by
  rw [C136_not_clipped a .layer full name stats hname h hn]
  have : cmdBits a .layer = ⟨none, none, some a.bitsAccum⟩ := by simp [cmdBits, hw, ha]
  rw [this]
  exact C135_violated_unquantized_with_override _ _ _ _ _ ⟨rfl, rfl, by decide +kernel⟩ (by unfold PtqAccepted; decide +kernel) (by decide +kernel)

end Verif
