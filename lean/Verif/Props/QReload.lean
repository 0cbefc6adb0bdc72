import Verif.Model.QReload
import Verif.Props.PTQFuse2
import Verif.Props.PTQConfig
import Verif.Props.Resume
import Verif.Lemmas.Masking
/-!
# C138: a checkpoint of a quantized model re-creates the quantized model
-/
namespace Verif

theorem QMode.parse_toName (m : QMode) : QMode.parse m.toName = .ok m := by cases m <;> decide +kernel
theorem ClipTag.parse_toName (m : ClipTag) : ClipTag.parse m.toName = .ok m := by cases m <;> decide +kernel

theorem bind_ok {c : QCls} {kw : Dict String QVal} (h1 : ∀ a ∈ kw, a.1 ∈ c.required ∨ a.1 ∈ c.optional.keys)
    (h2 : ∀ r ∈ c.required, kw.get? r ≠ none) :
    bindArgs c kw = .ok fun n => (kw.get? n).getD ((c.optional.get? n).getD .none) := by
  unfold bindArgs
  rw [if_neg, if_neg]
  · rw [List.any_eq_true]
    rintro ⟨r, hr, e⟩
    exact h2 r hr (by simpa using e)
  · rw [List.any_eq_true]
    rintro ⟨a, ha, e⟩
    rcases h1 a ha with h | h <;> simp [List.contains_iff_mem, h] at e

theorem bind_inv {c : QCls} {kw : Dict String QVal} {a : String → QVal} (h : bindArgs c kw = .ok a) :
    a = fun n => (kw.get? n).getD ((c.optional.get? n).getD .none) := by
  unfold bindArgs at h
  split at h
  · cases h
  · split at h
    · cases h
    · cases h; rfl

/-- The arguments of a post-training quantizer that its metadata does not contain. -/
def lostPtq : List String := ["fp16", "save_fp_weights", "also_clip_weights"]

/-- **C138** (post-training quantization): loading the checkpoint creates a quantizer without error, all of whose settings
are those of the original one, except that `fp16`, `save_fp_weights` and `also_clip_weights` are off; and
a checkpoint saved from the loaded model contains the same again. -/
theorem C138_ptq_partial (kw : Dict String QVal) (b : QBuilt) (h : construct .ptq kw = .ok b) :
    ∃ b', reload .ptq b = .ok b' ∧ b'.meta' = b.meta' ∧
      (∀ n ∈ QCls.ptq.optional.keys, n ∉ lostPtq → b'.settings n = b.settings n) ∧
      (∀ n ∈ lostPtq, b'.settings n = .bool false) := by
  unfold construct at h
  cases hb : bindArgs .ptq kw with
  | error e => rw [hb] at h; cases h
  | ok a =>
    rw [hb] at h
    dsimp only at h
    rw [if_neg (by simp [QCls.trains])] at h
    unfold buildPtq at h
    split at h
    · cases h
    · rename_i hfp
      split at h
      · cases h
      · rename_i m hm
        split at h
        · cases h
        · rename_i cl hc
          split at h
          · cases h
          · rename_i hn
            cases h
            have hbind := bind_ok (c := .ptq) (kw := metaPtq a m cl) (by simp [metaPtq, QCls.required, QCls.optional, Dict.keys]) (by simp [QCls.required])
            generalize ha' : (fun n => (Dict.get? (metaPtq a m cl) n).getD ((QCls.ptq.optional.get? n).getD .none)) = a' at hbind
            have e1 : a' "mode" = .modeStr m.1.toName m.2.toName := by rw [← ha']; rfl
            have e2 : a' "clip_acts" = .str cl.toName := by rw [← ha']; rfl
            have e3 : a' "clip_n_stds" = a "clip_n_stds" := by rw [← ha']; rfl
            have e4 : a' "fp16" = .bool false := by rw [← ha']; rfl
            have e5 : a' "save_fp_weights" = .bool false := by rw [← ha']; rfl
            have e6 : a' "also_clip_weights" = .bool false := by rw [← ha']; rfl
            have e7 : ∀ n ∈ QCls.ptq.optional.keys, n ∉ lostPtq → n ≠ "mode" → n ≠ "clip_acts" → a' n = a n := by
              intro n hn1 hn2 hn3 hn4
              simp only [QCls.optional, Dict.keys, List.map_cons, List.map_nil, List.mem_cons, List.not_mem_nil, or_false] at hn1
              rw [← ha']
              rcases hn1 with rfl | rfl | rfl | rfl | rfl | rfl | rfl | rfl | rfl | rfl | rfl | rfl | rfl | rfl | rfl | rfl <;>
                first | rfl | exact absurd rfl hn3 | exact absurd rfl hn4 | exact absurd (by simp [lostPtq]) hn2
            have hmode : verifyMode (a' "mode") = .ok m := by
              rw [e1]
              simp [verifyMode, QMode.parse_toName, bind, Except.bind, pure, Except.pure]
            have hclip : verifyClip (a' "clip_acts") = .ok cl := by
              rw [e2]
              exact ClipTag.parse_toName cl
            have hr : reload .ptq ⟨settingsPtq a m cl, metaPtq a m cl⟩ = .ok ⟨settingsPtq a' m cl, metaPtq a' m cl⟩ := by
              unfold reload construct
              rw [hbind]
              dsimp only
              rw [if_neg (by simp [QCls.trains])]
              unfold buildPtq
              rw [if_neg (by simp [fpConflict, e4]), hmode]
              dsimp only
              rw [hclip]
              dsimp only
              rw [e3, if_neg hn]
            refine ⟨_, hr, ?_, ?_, ?_⟩
            · show metaPtq a' m cl = metaPtq a m cl
              have := fun n h1 h2 h3 h4 => e7 n h1 h2 h3 h4
              unfold metaPtq
              rw [e7 "bits_activations" (by decide +kernel) (by decide +kernel) (by decide +kernel) (by decide +kernel),
                e7 "bits_parameters" (by decide +kernel) (by decide +kernel) (by decide +kernel) (by decide +kernel),
                e7 "bits_accum" (by decide +kernel) (by decide +kernel) (by decide +kernel) (by decide +kernel), e3,
                e7 "clip_half_range" (by decide +kernel) (by decide +kernel) (by decide +kernel) (by decide +kernel),
                e7 "per_channel_wts" (by decide +kernel) (by decide +kernel) (by decide +kernel) (by decide +kernel),
                e7 "scale_approx_mult_bits" (by decide +kernel) (by decide +kernel) (by decide +kernel) (by decide +kernel),
                e7 "inputs_quant_auto_fallback" (by decide +kernel) (by decide +kernel) (by decide +kernel) (by decide +kernel),
                e7 "fpq_module" (by decide +kernel) (by decide +kernel) (by decide +kernel) (by decide +kernel),
                e7 "model_activation_stats" (by decide +kernel) (by decide +kernel) (by decide +kernel) (by decide +kernel),
                e7 "overrides" (by decide +kernel) (by decide +kernel) (by decide +kernel) (by decide +kernel)]
            · intro n h1 h2
              show settingsPtq a' m cl n = settingsPtq a m cl n
              unfold settingsPtq
              split
              · rfl
              · rename_i h3
                split
                · rfl
                · rename_i h4
                  unfold baseSettings
                  rw [e7 n h1 h2 h3 h4]
            · intro n h1
              show settingsPtq a' m cl n = .bool false
              simp only [lostPtq, List.mem_cons, List.not_mem_nil, or_false] at h1
              rcases h1 with rfl | rfl | rfl
              · rw [← e4]; rfl
              · rw [← e5]; rfl
              · rw [← e6]; rfl

/-- **C138** (which settings are accepted): the post-training quantizer can be created with any settings, except for
`fp16` with another floating-point format, and clipping at a number of deviations without the number. -/
theorem C138_accepted (kw : Dict String QVal) (hk : ∀ a ∈ kw, a.1 ∈ QCls.ptq.optional.keys) (x y : QMode) (c : ClipTag)
    (hm : kw.get? "mode" = some (.mode x y)) (hc : kw.get? "clip_acts" = some (.clip c)) :
    (∃ b, construct .ptq kw = .ok b) ↔
      ¬ (kw.get? "fp16" = some (.bool true) ∧ ∃ v, kw.get? "fpq_module" = some v ∧ v ∉ [.none, .num 16, .str "16", .str "None"]) ∧
      ¬ (c = .nStd ∧ (kw.get? "clip_n_stds").getD .none = .none) := by
  have hb := bind_ok (c := .ptq) (kw := kw) (fun a ha => .inr (hk a ha)) (by simp [QCls.required])
  unfold construct
  rw [hb]
  dsimp only
  rw [if_neg (by simp [QCls.trains])]
  unfold buildPtq
  have e1 : fpConflict ((kw.get? "fp16").getD ((QCls.ptq.optional.get? "fp16").getD .none))
      ((kw.get? "fpq_module").getD ((QCls.ptq.optional.get? "fpq_module").getD .none)) = true ↔
      (kw.get? "fp16" = some (.bool true) ∧ ∃ v, kw.get? "fpq_module" = some v ∧ v ∉ [.none, .num 16, .str "16", .str "None"]) := by
    have d1 : QCls.ptq.optional.get? "fp16" = some (.bool false) := rfl
    have d2 : QCls.ptq.optional.get? "fpq_module" = some .none := rfl
    rw [d1, d2]
    unfold fpConflict
    cases h1 : kw.get? "fp16" with
    | none => simp
    | some u =>
      cases h2 : kw.get? "fpq_module" with
      | none => simp
      | some v => simp [not_or]; tauto
  have e2 : (QCls.ptq.optional.get? "clip_n_stds").getD .none = .none := rfl
  simp only [hm, hc, Option.getD_some, verifyMode, verifyClip, e2]
  by_cases h1 : (kw.get? "fp16" = some (.bool true) ∧ ∃ v, kw.get? "fpq_module" = some v ∧ v ∉ [.none, .num 16, .str "16", .str "None"])
  · rw [if_pos (e1.2 h1)]
    simp only [reduceCtorEq, exists_false, false_iff]
    exact fun h => h.1 h1
  · rw [if_neg (fun h => h1 (e1.1 h))]
    by_cases h2 : c = .nStd ∧ (kw.get? "clip_n_stds").getD .none = .none
    · rw [if_pos h2]
      simp only [reduceCtorEq, exists_false, false_iff]
      exact fun h => h.2 h2
    · rw [if_neg h2]
      exact ⟨fun _ => ⟨h1, h2⟩, fun _ => ⟨_, rfl⟩⟩

theorem metaBase_optimizer (a : String → QVal) : Dict.get? (metaBase a) "optimizer" = none := rfl
theorem metaQat_optimizer (a : String → QVal) (m : QMode × QMode) : Dict.get? (metaQat a m) "optimizer" = none := rfl

/-- **C138** is violated by all quantizers for training: their checkpoints contain no optimizer, and the constructor,
called without one when the checkpoint is loaded, raises.  A model trained with quantization cannot be loaded. -/
theorem C138_violated_training (c : QCls) (hc : c.trains = true) (kw : Dict String QVal) (b : QBuilt) (h : construct c kw = .ok b) :
    reload c b = .error (if c = .qat then .value else .type) := by
  unfold construct at h
  cases hb : bindArgs c kw with
  | error e => rw [hb] at h; cases h
  | ok a =>
    rw [hb] at h
    dsimp only at h
    split at h
    · cases h
    · cases c with
      | ptq => cases hc
      | qat =>
        dsimp only at h
        unfold buildQat at h
        split at h
        · cases h
        · rename_i m hm
          cases h
          unfold reload construct
          rw [bind_ok (c := .qat) (kw := metaQat a m) (by simp [metaQat, metaBase, QCls.required, QCls.optional, Dict.keys]) (by simp [QCls.required])]
          rfl
      | wrpn => cases h; rfl
      | dorefa => cases h; rfl
      | pact => cases h; rfl

/-- The arguments of training quantizers that their metadata does not contain either. -/
def QCls.lost : QCls → List String
  | .pact => ["act_clip_init_val", "act_clip_decay"]
  | .qat => ["num_bits_inputs"]
  | .ptq => lostPtq
  | _ => []

/-- **C138** (training, by hand): if the quantizer is created from the metadata together with an optimizer, it has the
same settings except for the initial clipping value and decay of PACT and the bits of the inputs in quantization-aware
training, which are the defaults again. -/
theorem C138_training_with_optimizer (c : QCls) (hc : c.trains = true) (kw : Dict String QVal) (b : QBuilt) (h : construct c kw = .ok b)
    (opt : ℕ) :
    ∃ b', construct c (("optimizer", .data opt) :: b.meta') = .ok b' ∧ b'.meta' = b.meta' ∧
      (∀ n ∈ c.optional.keys, n ≠ "optimizer" → n ∉ c.lost → b'.settings n = b.settings n) ∧
      (c = .pact → b'.settings "act_clip_init_val" = .num 8 ∧ b'.settings "act_clip_decay" = .none) ∧
      (c = .qat → b'.settings "num_bits_inputs" = b.settings "bits_activations") := by
  have hov : ∀ v, ovOrEmpty (ovOrEmpty v) = ovOrEmpty v := by intro v; cases v <;> rfl
  unfold construct at h
  cases hb : bindArgs c kw with
  | error e => rw [hb] at h; cases h
  | ok a =>
    rw [hb] at h
    dsimp only at h
    split at h
    · cases h
    · rename_i hopt
      cases c with
      | ptq => cases hc
      | qat =>
        dsimp only at h
        unfold buildQat at h
        split at h
        · cases h
        · rename_i m hm
          cases h
          have hbind := bind_ok (c := .qat) (kw := ("optimizer", .data opt) :: metaQat a m)
            (by simp [metaQat, metaBase, QCls.required, QCls.optional, Dict.keys]) (by simp [QCls.required])
          generalize ha' : (fun n => (Dict.get? (("optimizer", QVal.data opt) :: metaQat a m) n).getD ((QCls.qat.optional.get? n).getD .none)) = a' at hbind
          have e1 : a' "mode" = .modeStr m.1.toName m.2.toName := by rw [← ha']; rfl
          have e2 : a' "optimizer" = .data opt := by rw [← ha']; rfl
          have e3 : a' "num_bits_inputs" = .none := by rw [← ha']; rfl
          have e4 : a' "overrides" = ovOrEmpty (a "overrides") := by rw [← ha']; rfl
          have e7 : ∀ n ∈ QCls.qat.optional.keys, n ≠ "optimizer" → n ≠ "num_bits_inputs" → n ≠ "mode" → n ≠ "overrides" → a' n = a n := by
            intro n hn1 hn2 hn3 hn4 hn5
            simp only [QCls.optional, Dict.keys, List.map_cons, List.map_nil, List.mem_cons, List.not_mem_nil, or_false] at hn1
            rw [← ha']
            rcases hn1 with rfl | rfl | rfl | rfl | rfl | rfl | rfl | rfl | rfl | rfl <;>
              first | rfl | exact absurd rfl hn2 | exact absurd rfl hn3 | exact absurd rfl hn4 | exact absurd rfl hn5
          have hmode : verifyMode (a' "mode") = .ok m := by
            rw [e1]
            simp [verifyMode, QMode.parse_toName, bind, Except.bind, pure, Except.pure]
          have hr : construct .qat (("optimizer", .data opt) :: metaQat a m) = .ok ⟨settingsQat a' m, metaQat a' m⟩ := by
            unfold construct
            rw [hbind]
            dsimp only
            rw [if_neg (by simp [e2])]
            unfold buildQat
            rw [hmode]
          refine ⟨_, hr, ?_, ?_, by simp, ?_⟩
          · show metaQat a' m = metaQat a m
            unfold metaQat metaBase
            rw [e4, hov,
              e7 "bits_activations" (by decide +kernel) (by decide +kernel) (by decide +kernel) (by decide +kernel) (by decide +kernel),
              e7 "bits_weights" (by decide +kernel) (by decide +kernel) (by decide +kernel) (by decide +kernel) (by decide +kernel),
              e7 "bits_bias" (by decide +kernel) (by decide +kernel) (by decide +kernel) (by decide +kernel) (by decide +kernel),
              e7 "ema_decay" (by decide +kernel) (by decide +kernel) (by decide +kernel) (by decide +kernel) (by decide +kernel),
              e7 "per_channel_wts" (by decide +kernel) (by decide +kernel) (by decide +kernel) (by decide +kernel) (by decide +kernel),
              e7 "quantize_inputs" (by decide +kernel) (by decide +kernel) (by decide +kernel) (by decide +kernel) (by decide +kernel)]
          · intro n h1 h2 h3
            show settingsQat a' m n = settingsQat a m n
            unfold settingsQat
            split
            · rfl
            · rename_i h4
              rw [if_neg (by simpa [QCls.lost] using h3), if_neg (by simpa [QCls.lost] using h3)]
              unfold baseSettings
              split
              · rename_i h5
                subst h5
                rw [e4, hov]
              · rename_i h5
                exact e7 n h1 h2 (by simpa [QCls.lost] using h3) h4 h5
          · intro _
            show settingsQat a' m "num_bits_inputs" = settingsQat a m "bits_activations"
            have : settingsQat a' m "num_bits_inputs" = if a' "num_bits_inputs" = .none then a' "bits_activations" else a' "num_bits_inputs" := rfl
            rw [this, if_pos e3, e7 "bits_activations" (by decide +kernel) (by decide +kernel) (by decide +kernel) (by decide +kernel) (by decide +kernel)]
            rfl
      | wrpn =>
        cases h
        refine ⟨⟨baseSettings _, metaBase _⟩, rfl, ?_, ?_, by simp, by simp⟩
        · simp [metaBase, Dict.get?, hov]
        · intro n h1 _ _
          simp only [QCls.optional, Dict.keys, List.map_cons, List.map_nil, List.mem_cons, List.not_mem_nil, or_false] at h1
          rcases h1 with rfl | rfl | rfl | rfl <;> simp [baseSettings, metaBase, Dict.get?, hov]
      | dorefa =>
        cases h
        refine ⟨⟨baseSettings _, metaBase _⟩, rfl, ?_, ?_, by simp, by simp⟩
        · simp [metaBase, Dict.get?, hov]
        · intro n h1 _ _
          simp only [QCls.optional, Dict.keys, List.map_cons, List.map_nil, List.mem_cons, List.not_mem_nil, or_false] at h1
          rcases h1 with rfl | rfl | rfl | rfl <;> simp [baseSettings, metaBase, Dict.get?, hov]
      | pact =>
        cases h
        refine ⟨⟨baseSettings _, metaBase _⟩, rfl, ?_, ?_, fun _ => ⟨rfl, rfl⟩, by simp⟩
        · simp [metaBase, Dict.get?, hov]
        · intro n h1 _ h3
          simp only [QCls.optional, Dict.keys, List.map_cons, List.map_nil, List.mem_cons, List.not_mem_nil, or_false] at h1
          rcases h1 with rfl | rfl | rfl | rfl | rfl | rfl <;> first | (simp [baseSettings, metaBase, Dict.get?, hov]; done) | exact absurd (by simp [QCls.lost]) h3

/-! ## The settings are those configured -/

/-- Documented defaults of `PostTrainLinearQuantizer`. -/
def ptqDefaults : List (String × QVal) :=
  [("bits_activations", .num 8), ("bits_parameters", .num 8), ("bits_accum", .num 32), ("overrides", .data 0),
   ("mode", .mode .symmetric .symmetric), ("clip_acts", .clip .none), ("per_channel_wts", .bool false),
   ("model_activation_stats", .none), ("fp16", .bool false), ("clip_n_stds", .none), ("clip_half_range", .bool false),
   ("scale_approx_mult_bits", .none), ("inputs_quant_auto_fallback", .bool true), ("fpq_module", .none),
   ("save_fp_weights", .bool false), ("also_clip_weights", .bool false)]

/-- The names under which quantization modes are given. -/
def modeNames : List (String × QMode) :=
  [("SYMMETRIC", .symmetric), ("SYMMETRIC_RESTRICTED", .symmetricRestricted), ("ASYMMETRIC_UNSIGNED", .asymmetricUnsigned),
   ("ASYMMETRIC_SIGNED", .asymmetricSigned)]

/-- The names under which clipping modes are given. -/
def clipNames : List (String × ClipTag) :=
  [("NONE", .none), ("AVG", .avg), ("N_STD", .nStd), ("GAUSS", .gauss), ("LAPLACE", .laplace)]

/-- **C138** (settings as configured): a created post-training quantizer has the settings given, modes and clipping modes given
by name are the ones of that name (different ones for activations and weights are kept apart), and whatever is not given has
its documented default. -/
theorem C138_as_configured (kw : Dict String QVal) (b : QBuilt) (h : construct .ptq kw = .ok b) :
    (∀ n v, kw.get? n = some v → n ≠ "mode" → n ≠ "clip_acts" → n ≠ "overrides" → b.settings n = v) ∧
    (∀ n v, kw.get? n = none → (n, v) ∈ ptqDefaults → b.settings n = v) ∧
    (∀ x y, kw.get? "mode" = some (.mode x y) → b.settings "mode" = .mode x y) ∧
    (∀ s t x y, kw.get? "mode" = some (.modeStr s t) → (s, x) ∈ modeNames → (t, y) ∈ modeNames → b.settings "mode" = .mode x y) ∧
    (∀ s x, kw.get? "mode" = some (.str s) → (s, x) ∈ modeNames → b.settings "mode" = .mode x x) ∧
    (∀ c, kw.get? "clip_acts" = some (.clip c) → b.settings "clip_acts" = .clip c) ∧
    (∀ s c, kw.get? "clip_acts" = some (.str s) → (s, c) ∈ clipNames → b.settings "clip_acts" = .clip c) ∧
    (∀ k, kw.get? "overrides" = some (.data k) → b.settings "overrides" = .data k) ∧
    (kw.get? "overrides" = some .none → b.settings "overrides" = .data 0) := by
  have pm : ∀ s x, (s, x) ∈ modeNames → QMode.parse s = .ok x := by
    intro s x hx
    simp only [modeNames, List.mem_cons, Prod.mk.injEq, List.not_mem_nil, or_false] at hx
    rcases hx with ⟨rfl, rfl⟩ | ⟨rfl, rfl⟩ | ⟨rfl, rfl⟩ | ⟨rfl, rfl⟩ <;> decide +kernel
  have pc : ∀ s x, (s, x) ∈ clipNames → ClipTag.parse s = .ok x := by
    intro s x hx
    simp only [clipNames, List.mem_cons, Prod.mk.injEq, List.not_mem_nil, or_false] at hx
    rcases hx with ⟨rfl, rfl⟩ | ⟨rfl, rfl⟩ | ⟨rfl, rfl⟩ | ⟨rfl, rfl⟩ | ⟨rfl, rfl⟩ <;> decide +kernel
  unfold construct at h
  cases hb : bindArgs .ptq kw with
  | error e => rw [hb] at h; cases h
  | ok a =>
    have ha : ∀ n, a n = (kw.get? n).getD ((QCls.ptq.optional.get? n).getD .none) := by
      unfold bindArgs at hb
      split at hb
      · cases hb
      · split at hb
        · cases hb
        · cases hb; intro n; rfl
    rw [hb] at h
    dsimp only at h
    rw [if_neg (by simp [QCls.trains])] at h
    unfold buildPtq at h
    split at h
    · cases h
    · split at h
      · cases h
      · rename_i m hm
        split at h
        · cases h
        · rename_i cl hcl
          split at h
          · cases h
          · cases h
            have sm : settingsPtq a m cl "mode" = .mode m.1 m.2 := rfl
            have sc : settingsPtq a m cl "clip_acts" = .clip cl := rfl
            have so : ∀ n, n ≠ "mode" → n ≠ "clip_acts" → n ≠ "overrides" → settingsPtq a m cl n = a n := by
              intro n h1 h2 h3
              unfold settingsPtq baseSettings
              rw [if_neg h1, if_neg h2, if_neg h3]
            have sov : settingsPtq a m cl "overrides" = ovOrEmpty (a "overrides") := rfl
            have dm : a "mode" = (kw.get? "mode").getD (.mode .symmetric .symmetric) := ha "mode"
            have dc : a "clip_acts" = (kw.get? "clip_acts").getD (.clip .none) := ha "clip_acts"
            have dov : a "overrides" = (kw.get? "overrides").getD .none := ha "overrides"
            refine ⟨?_, ?_, ?_, ?_, ?_, ?_, ?_, ?_, ?_⟩
            · intro n v hv h1 h2 h3
              show settingsPtq a m cl n = v
              rw [so n h1 h2 h3, ha, hv]; rfl
            · intro n v hv hd
              show settingsPtq a m cl n = v
              simp only [ptqDefaults, List.mem_cons, Prod.mk.injEq, List.not_mem_nil, or_false] at hd
              have keep : ∀ n v, kw.get? n = none → n ≠ "mode" → n ≠ "clip_acts" → n ≠ "overrides" →
                  (QCls.ptq.optional.get? n).getD .none = v → settingsPtq a m cl n = v := by
                intro n v hv h1 h2 h3 h4
                rw [so n h1 h2 h3, ha, hv]; exact h4
              rcases hd with ⟨rfl, rfl⟩ | ⟨rfl, rfl⟩ | ⟨rfl, rfl⟩ | ⟨rfl, rfl⟩ | ⟨rfl, rfl⟩ | ⟨rfl, rfl⟩ | ⟨rfl, rfl⟩ | ⟨rfl, rfl⟩ |
                ⟨rfl, rfl⟩ | ⟨rfl, rfl⟩ | ⟨rfl, rfl⟩ | ⟨rfl, rfl⟩ | ⟨rfl, rfl⟩ | ⟨rfl, rfl⟩ | ⟨rfl, rfl⟩ | ⟨rfl, rfl⟩
              on_goal 4 => rw [sov, dov, hv]; rfl
              on_goal 4 => rw [dm, hv] at hm; cases hm; rfl
              on_goal 4 => rw [dc, hv] at hcl; cases hcl; rfl
              all_goals exact keep _ _ hv (by decide) (by decide) (by decide) rfl
            · intro x y hv
              rw [dm, hv] at hm; cases hm; exact sm
            · intro s t x y hv hs ht
              rw [dm, hv] at hm
              have : verifyMode (.modeStr s t) = .ok (x, y) := by
                show (do let x ← QMode.parse s; let y ← QMode.parse t; return (x, y) : Except Err (QMode × QMode)) = _
                rw [pm s x hs, pm t y ht]; rfl
              rw [show verifyMode ((some (QVal.modeStr s t)).getD _) = verifyMode (.modeStr s t) from rfl, this] at hm
              cases hm; exact sm
            · intro s x hv hs
              rw [dm, hv] at hm
              have : verifyMode (.str s) = .ok (x, x) := by
                show (do let x ← QMode.parse s; return (x, x) : Except Err (QMode × QMode)) = _
                rw [pm s x hs]; rfl
              rw [show verifyMode ((some (QVal.str s)).getD _) = verifyMode (.str s) from rfl, this] at hm
              cases hm; exact sm
            · intro c hv
              rw [dc, hv] at hcl; cases hcl; exact sc
            · intro s c hv hs
              rw [dc, hv] at hcl
              have : verifyClip (.str s) = .ok c := pc s c hs
              rw [show verifyClip ((some (QVal.str s)).getD _) = verifyClip (.str s) from rfl, this] at hcl
              cases hcl; exact sc
            · intro k hv
              show ovOrEmpty (a "overrides") = _
              rw [dov, hv]; rfl
            · intro hv
              show ovOrEmpty (a "overrides") = _
              rw [dov, hv]; rfl

example : ∃ b, construct .ptq [("mode", .modeStr "ASYMMETRIC_SIGNED" "SYMMETRIC"), ("clip_acts", .str "AVG"), ("bits_activations", .num 6)] = .ok b ∧
    b.settings "mode" = .mode .asymmetricSigned .symmetric ∧ b.settings "clip_acts" = .clip .avg ∧ b.settings "bits_activations" = .num 6 ∧
    b.settings "bits_accum" = .num 32 := ⟨_, rfl, by decide +kernel, by decide +kernel, by decide +kernel, by decide +kernel⟩

/-! ## Half precision is lost -/

/-- **C138** is violated for `fp16`: a model computing in half precision is, after loading its checkpoint, a model of
quantized layers. -/
theorem C138_violated_fp16 (w a : ℕ) (stats pred : Bool) :
    ∃ b b', construct .ptq [("fp16", .bool true), ("bits_activations", .num a), ("bits_parameters", .num w)] = .ok b ∧
      reload .ptq b = .ok b' ∧
      ptqReplace b.env .layer {} ⟨some a, some w, some 32⟩ stats pred = .ok (.fp 16 true) ∧
      ptqReplace b'.env .layer {} ⟨some a, some w, some 32⟩ stats pred = .ok (.layer (some a) w (.symmetric, .symmetric) .none) :=
  ⟨_, _, rfl, rfl, rfl, rfl⟩

/-! ## The statistics in the checkpoint -/

/-- What a step of the fusion does to the entry under a key. -/
def stepUpd (nm kx : Name) (split : Bool) (o : Stats) (k : Name) (s : LStats) : LStats :=
  { inputs := if k = kx ∧ split = false then s.inputs.set 0 o else s.inputs, output := if k = nm then o else s.output }

/-- Does the module feed an activation (with the range of its statistics)? -/
def stepAct (mods : List PMod) (adj : PAdjMap) (m : PMod) (mx : ℚ) : Option ((Name × String) × (ℚ × ℚ)) :=
  match soleSucc adj m with
  | none => none
  | some succ => match effType adj succ with
    | .error _ => none
    | .ok ty => (actRange mods succ.1 ty mx).map fun r => (succ, r)

theorem clip_again (mods : List PMod) (n : Name) (ty : String) (s : Stats) (r : ℚ × ℚ) (h : actRange mods n ty s.max = some r) :
    ∃ r', actRange mods n ty (clipStats s r.1 r.2).max = some r' ∧ clipStats (clipStats s r.1 r.2) r'.1 r'.2 = clipStats s r.1 r.2 := by
  unfold actRange at h ⊢
  split at h
  · rename_i ht
    cases h
    refine ⟨_, if_pos ht, ?_⟩
    unfold clipStats
    dsimp only
    split
    · simp
    · rename_i h1
      split
      · rename_i h2
        have := not_lt.1 h1
        simp [this]
      · rename_i h2
        have a1 := not_lt.1 h1
        have a2 := not_lt.1 h2
        simp only [min_self]
        rw [if_neg h1, if_neg (not_lt.2 (max_le a1 a2))]
        simp
  · rename_i ht
    split at h
    · rename_i ht2
      have key : ∀ c : ℚ, 0 < c → clipStats (clipStats s (-c) c) (-c) c = clipStats s (-c) c := by
        intro c hc
        have hcc : -c ≤ c := by linarith
        unfold clipStats
        split
        · dsimp only
          rw [if_neg (lt_irrefl _), if_neg (not_lt.2 hcc)]
          simp [hcc]
        · rename_i h1
          have a1 := not_lt.1 h1
          split
          · simp [hcc, not_lt.2 hcc]
          · rename_i h2
            have a2 := not_lt.1 h2
            dsimp only
            rw [if_neg (not_lt.2 (le_min hcc a1)), if_neg (not_lt.2 (max_le hcc a2))]
            simp
      split at h
      · cases h
        rename_i ht3
        exact ⟨(-4, 4), by rw [if_neg ht, if_pos ht2, if_pos ht3], key 4 (by norm_num)⟩
      · cases h
        rename_i ht3
        exact ⟨(-6, 6), by rw [if_neg ht, if_pos ht2, if_neg ht3], key 6 (by norm_num)⟩
    · rename_i ht2
      split at h
      · rename_i ht3
        cases h
        refine ⟨_, by rw [if_neg ht, if_neg ht2, if_pos ht3], ?_⟩
        unfold clipStats
        dsimp only
        split
        · simp
        · rename_i h1
          have a1 := not_lt.1 h1
          have a6 : (0 : ℚ) ≤ min s.max 6 := le_min a1 (by norm_num)
          split
          · dsimp only
            rw [if_neg (not_lt.2 a6), if_neg (by simp)]
            simp [a1]
          · rename_i h2
            have a2 := not_lt.1 h2
            have e : min (min (min s.max 6) s.max) 6 = min s.max 6 := by
              rw [min_eq_left (a := min s.max 6) (b := s.max) (min_le_left _ _), min_eq_left (min_le_right _ _)]
            dsimp only
            rw [e, if_neg, if_neg (not_lt.2 (max_le a6 a2))]
            · simp
            · rw [not_lt]; exact le_min a6 a1
      · cases h

/-- A step in terms of lookups. -/
theorem step_get {mods : List PMod} {adj : PAdjMap} {m : PMod} {st st' : StatsMap} (h : fuseStatsStep mods adj st m = .ok st') :
    st'.map Prod.fst = st.map Prod.fst ∧
    ((soleSucc adj m = none ∧ st' = st) ∨
     ∃ succ ty s, soleSucc adj m = some succ ∧ effType adj succ = .ok ty ∧ st.get? (normalizeName m.name) = some s ∧
      ((actRange mods succ.1 ty s.output.max = none ∧ st' = st) ∨
       ∃ r, actRange mods succ.1 ty s.output.max = some r ∧ ∀ k, st'.get? k = (st.get? k).map
        (stepUpd (normalizeName m.name) (normalizeName succ.1) (succ.2 = "Split") (clipStats s.output r.1 r.2) k))) := by
  unfold fuseStatsStep at h
  split at h
  · rename_i h1
    cases h
    exact ⟨rfl, .inl ⟨h1, rfl⟩⟩
  · rename_i succ h1
    split at h
    · cases h
    · rename_i s hs
      cases he : effType adj succ with
      | error e => rw [he] at h; cases h
      | ok ty =>
        rw [he] at h
        simp only [Except.bind] at h
        split at h
        · rename_i h2
          cases h
          exact ⟨rfl, .inr ⟨succ, ty, s, h1, he, hs, .inl ⟨h2, rfl⟩⟩⟩
        · rename_i r h2
          cases h
          have hmem : normalizeName m.name ∈ st.map Prod.fst := (Dict.get?_isSome_iff _ _).1 (by rw [hs]; rfl)
          have e1 : (st.set (normalizeName m.name) { s with output := clipStats s.output r.1 r.2 }).map Prod.fst = st.map Prod.fst :=
            Dict.keys_set_of_mem _ _ _ hmem
          refine ⟨?_, .inr ⟨succ, ty, s, h1, he, hs, .inr ⟨r, h2, ?_⟩⟩⟩
          · unfold setInput0
            split
            · exact e1
            · split
              · exact e1
              · rename_i ss hss
                rw [Dict.keys_set_of_mem _ _ _ ((Dict.get?_isSome_iff _ _).1 (by rw [hss]; rfl)), e1]
          · intro k
            unfold setInput0
            by_cases hsp : succ.2 = "Split"
            · rw [if_pos hsp, Dict.get?_set]
              by_cases hk : normalizeName m.name = k
              · subst hk
                rw [if_pos rfl, hs]
                simp [stepUpd, hsp]
              · rw [if_neg hk]
                cases st.get? k with
                | none => rfl
                | some s' => simp [stepUpd, hsp, Ne.symm hk]
            · rw [if_neg hsp]
              split
              · rename_i hnone
                have hkx : k = normalizeName succ.1 → st.get? k = none ∧ normalizeName m.name ≠ k := by
                  rintro rfl
                  rw [Dict.get?_set] at hnone
                  split at hnone
                  · cases hnone
                  · rename_i hh; exact ⟨hnone, hh⟩
                rw [Dict.get?_set]
                by_cases hk : normalizeName m.name = k
                · rw [if_pos hk, ← hk, hs]
                  have : normalizeName m.name ≠ normalizeName succ.1 := fun e => (hkx (hk.symm.trans e)).2 hk
                  simp [stepUpd, hsp, this]
                · rw [if_neg hk]
                  by_cases hx : k = normalizeName succ.1
                  · rw [(hkx hx).1]; rfl
                  · cases st.get? k with
                    | none => rfl
                    | some s' => simp [stepUpd, hx, Ne.symm hk]
              · rename_i ss hss
                rw [Dict.get?_set]
                by_cases hx : normalizeName succ.1 = k
                · rw [if_pos hx]
                  rw [hx, Dict.get?_set] at hss
                  by_cases hk : normalizeName m.name = k
                  · rw [if_pos hk] at hss
                    cases hss
                    rw [← hk, hs]
                    simp [stepUpd, hsp, hx, hk]
                  · rw [if_neg hk] at hss
                    rw [hss]
                    simp [stepUpd, hsp, hx, Ne.symm hk]
                · rw [if_neg hx, Dict.get?_set]
                  by_cases hk : normalizeName m.name = k
                  · rw [if_pos hk, ← hk, hs]
                    have : normalizeName m.name ≠ normalizeName succ.1 := fun e => hx (e.symm.trans hk)
                    simp [stepUpd, this]
                  · rw [if_neg hk]
                    cases st.get? k with
                    | none => rfl
                    | some s' => simp [stepUpd, Ne.symm hx, Ne.symm hk]

/-- A step succeeds as soon as the module's entry exists, whatever is in it. -/
theorem step_total {mods : List PMod} {adj : PAdjMap} {m : PMod} {st st' st2 : StatsMap} (h : fuseStatsStep mods adj st m = .ok st')
    (hk : st2.map Prod.fst = st.map Prod.fst) : ∃ st2', fuseStatsStep mods adj st2 m = .ok st2' := by
  unfold fuseStatsStep at h ⊢
  split at h
  · rename_i h1
    exact ⟨_, rfl⟩
  · rename_i succ h1
    split at h
    · cases h
    · rename_i s hs
      have hmem : normalizeName m.name ∈ st2.map Prod.fst := by rw [hk]; exact (Dict.get?_isSome_iff _ _).1 (by rw [hs]; rfl)
      obtain ⟨s2, hs2⟩ := Option.isSome_iff_exists.1 ((Dict.get?_isSome_iff _ _).2 hmem)
      cases he : effType adj succ with
      | error e => rw [he] at h; cases h
      | ok ty =>
        simp only [hs2, Except.bind]
        split <;> exact ⟨_, rfl⟩

theorem actRange_none {mods : List PMod} {n : Name} {ty : String} {x y : ℚ} (h : actRange mods n ty x = none) : actRange mods n ty y = none := by
  unfold actRange at h ⊢
  split at h
  · cases h
  · rename_i h1
    split at h
    · split at h <;> cases h
    · rename_i h2
      split at h
      · cases h
      · rename_i h3
        rw [if_neg h1, if_neg h2, if_neg h3]

theorem upd_twice (nm kx : Name) (sp : Bool) (o : Stats) (k : Name) (v : LStats) :
    stepUpd nm kx sp o k (stepUpd nm kx sp o k v) = stepUpd nm kx sp o k v := by
  unfold stepUpd
  by_cases b1 : k = kx ∧ sp = false <;> by_cases b2 : k = nm
  · rw [if_pos b1, if_pos b2]; simp only; rw [if_pos b1, if_pos b2, set_set]
  · rw [if_pos b1, if_neg b2]; simp only; rw [if_pos b1, if_neg b2, set_set]
  · rw [if_neg b1, if_pos b2]; simp only; rw [if_neg b1, if_pos b2]
  · rw [if_neg b1, if_neg b2]; simp only; rw [if_neg b1, if_neg b2]

theorem upd_again (nm kx na ky : Name) (sp sq : Bool) (o p : Stats) (k : Name) (v : LStats) :
    stepUpd nm kx sp o k (stepUpd na ky sq p k (stepUpd nm kx sp o k v)) = stepUpd nm kx sp o k (stepUpd na ky sq p k v) := by
  have hh : ∀ (c d : Prop) [Decidable c] [Decidable d] (i : Dict ℕ Stats),
      (if c then Dict.set (if d then Dict.set (if c then Dict.set i 0 o else i) 0 p else (if c then Dict.set i 0 o else i)) 0 o
        else (if d then Dict.set (if c then Dict.set i 0 o else i) 0 p else (if c then Dict.set i 0 o else i))) =
      (if c then Dict.set (if d then Dict.set i 0 p else i) 0 o else (if d then Dict.set i 0 p else i)) := by
    intro c d _ _ i
    split
    · split
      · rw [set_set, set_set, set_set]
      · rw [set_set]
    · rfl
  have gg : ∀ (c d : Prop) [Decidable c] [Decidable d] (i : Stats),
      (if c then o else if d then p else if c then o else i) = (if c then o else if d then p else i) := by
    intro c d _ _ i
    split <;> rfl
  unfold stepUpd
  simp only [LStats.mk.injEq]
  exact ⟨hh _ _ _, gg _ _ _⟩

/-- Doing a step, then that of another module, then the first again, is the same as without the first time. -/
theorem step_again {mods : List PMod} {adj : PAdjMap} {m a : PMod} {st s1 s2 s3 t2 t3 : StatsMap} (hn : st.Nodup)
    (hne : normalizeName m.name ≠ normalizeName a.name)
    (h1 : fuseStatsStep mods adj st m = .ok s1) (h2 : fuseStatsStep mods adj s1 a = .ok s2) (h3 : fuseStatsStep mods adj s2 m = .ok s3)
    (g2 : fuseStatsStep mods adj st a = .ok t2) (g3 : fuseStatsStep mods adj t2 m = .ok t3) : s3 = t3 := by
  obtain ⟨k1, c1⟩ := step_get h1
  obtain ⟨k2, c2⟩ := step_get h2
  obtain ⟨k3, c3⟩ := step_get h3
  obtain ⟨l2, d2⟩ := step_get g2
  obtain ⟨l3, d3⟩ := step_get g3
  rcases c1 with ⟨e1, rfl⟩ | ⟨x, ty, s, e1, e2, e3, ⟨e4, rfl⟩ | ⟨r, e4, e5⟩⟩
  · rw [h2] at g2; cases g2; rw [h3] at g3; cases g3; rfl
  · rw [h2] at g2; cases g2; rw [h3] at g3; cases g3; rfl
  · rcases c3 with ⟨f1, _⟩ | ⟨x', ty', s', f1, f2, f3, f4⟩
    · rw [e1] at f1; cases f1
    rw [e1] at f1; cases f1
    rw [e2] at f2; cases f2
    rcases d3 with ⟨w1, _⟩ | ⟨x', ty', s'', w1, w2, w3, w4⟩
    · rw [e1] at w1; cases w1
    rw [e1] at w1; cases w1
    rw [e2] at w2; cases w2
    -- the second step leaves the output of the module alone
    have keep : ∀ {u v : StatsMap}, fuseStatsStep mods adj u a = .ok v → outStats v (normalizeName m.name) = outStats u (normalizeName m.name) :=
      fun hh => (fuseStatsStep_frame hh).1 _ hne
    have keepm : ∀ {u v : StatsMap}, fuseStatsStep mods adj u m = .ok v → outStats v (normalizeName a.name) = outStats u (normalizeName a.name) :=
      fun hh => (fuseStatsStep_frame hh).1 _ hne.symm
    have o1 : outStats s1 (normalizeName m.name) = some (clipStats s.output r.1 r.2) := by
      unfold outStats; rw [e5, e3]; simp [stepUpd]
    have os' : s'.output = clipStats s.output r.1 r.2 := by
      have := keep h2
      rw [o1] at this
      unfold outStats at this
      rw [f3] at this
      simpa using this
    have os'' : s''.output = s.output := by
      have := keep g2
      unfold outStats at this
      rw [w3, e3] at this
      simpa using this
    rcases w4 with ⟨w4, _⟩ | ⟨r'', w4, w5⟩
    · rw [os'', e4] at w4; cases w4
    rw [os'', e4] at w4; cases w4
    obtain ⟨r', z1, z2⟩ := clip_again mods x.1 ty s.output r e4
    rcases f4 with ⟨f4, _⟩ | ⟨r3, f4, f5⟩
    · rw [os', z1] at f4; cases f4
    rw [os', z1] at f4; cases f4
    rw [os', z2] at f5
    rw [os''] at w5
    refine dict_eq_of_get? ?_ ?_ ?_
    · show (s3.map Prod.fst).Nodup
      rw [k3, k2, k1]; exact hn
    · rw [k3, k2, k1, l3, l2]
    · intro k
      rw [f5, w5]
      generalize clipStats s.output r.1 r.2 = o at *
      rcases c2 with ⟨p1, hs2⟩ | ⟨y, ty2, sa, p1, p2, p3, p4⟩
      · rcases d2 with ⟨q1, ht2⟩ | ⟨y, _, _, q1, _⟩
        · rw [hs2, ht2, e5]
          cases Dict.get? st k with
          | none => rfl
          | some v => exact congrArg some (upd_twice _ _ _ _ _ _)
        · rw [p1] at q1; cases q1
      · rcases d2 with ⟨q1, _⟩ | ⟨y', ty2', sa', q1, q2, q3, q4⟩
        · rw [p1] at q1; cases q1
        rw [p1] at q1; cases q1
        rw [p2] at q2; cases q2
        have osa : sa.output = sa'.output := by
          have := keepm h1
          unfold outStats at this
          rw [p3, q3] at this
          simpa using this
        rw [osa] at p4
        rcases p4 with ⟨p4, hs2⟩ | ⟨ra, p4, p5⟩
        · rcases q4 with ⟨q4, ht2⟩ | ⟨ra', q4, _⟩
          · rw [hs2, ht2, e5]
            cases Dict.get? st k with
            | none => rfl
            | some v => exact congrArg some (upd_twice _ _ _ _ _ _)
          · rw [p4] at q4; cases q4
        · rcases q4 with ⟨q4, _⟩ | ⟨ra', q4, q5⟩
          · rw [p4] at q4; cases q4
          rw [p4] at q4; cases q4
          rw [p5, q5, e5]
          cases Dict.get? st k with
          | none => rfl
          | some v => exact congrArg some (upd_again _ _ _ _ _ _ _ _ _ _)

theorem step_nodup {mods : List PMod} {adj : PAdjMap} {m : PMod} {st st' : StatsMap} (h : fuseStatsStep mods adj st m = .ok st')
    (hn : st.Nodup) : st'.Nodup := by
  show (st'.map Prod.fst).Nodup
  rw [(step_get h).1]; exact hn

/-- The module's step first changes nothing if it is also done last. -/
theorem step_first {mods : List PMod} {adj : PAdjMap} {m : PMod} : ∀ (l : List PMod), (∀ a ∈ l, normalizeName m.name ≠ normalizeName a.name) →
    ∀ {st s1 s2 s3 : StatsMap}, st.Nodup → fuseStatsStep mods adj st m = .ok s1 → l.foldlM (fuseStatsStep mods adj) st = .ok s2 →
      fuseStatsStep mods adj s2 m = .ok s3 →
      ∃ t2, l.foldlM (fuseStatsStep mods adj) s1 = .ok t2 ∧ fuseStatsStep mods adj t2 m = .ok s3 := by
  intro l
  induction l with
  | nil =>
    intro _ st s1 s2 s3 hn h1 h2 h3
    cases h2
    rw [h1] at h3; cases h3
    refine ⟨_, rfl, ?_⟩
    -- a step twice
    obtain ⟨k1, c1⟩ := step_get h1
    obtain ⟨s', h'⟩ := step_total h1 k1
    rw [h']
    congr 1
    obtain ⟨k2, c2⟩ := step_get h'
    rcases c1 with ⟨e1, rfl⟩ | ⟨x, ty, s, e1, e2, e3, ⟨e4, rfl⟩ | ⟨r, e4, e5⟩⟩
    · rw [h1] at h'; cases h'; rfl
    · rw [h1] at h'; cases h'; rfl
    · rcases c2 with ⟨f1, _⟩ | ⟨x', ty', sb, f1, f2, f3, f4⟩
      · rw [e1] at f1; cases f1
      rw [e1] at f1; cases f1
      rw [e2] at f2; cases f2
      have os : sb.output = clipStats s.output r.1 r.2 := by
        rw [e5, e3] at f3
        simp only [Option.map_some, Option.some.injEq] at f3
        rw [← f3]; simp [stepUpd]
      obtain ⟨r', z1, z2⟩ := clip_again mods x.1 ty s.output r e4
      rcases f4 with ⟨f4, _⟩ | ⟨r3, f4, f5⟩
      · rw [os, z1] at f4; cases f4
      rw [os, z1] at f4; cases f4
      rw [os, z2] at f5
      refine dict_eq_of_get? ?_ k2 ?_
      · show (s'.map Prod.fst).Nodup
        rw [k2, k1]; exact hn
      · intro k
        rw [f5, e5]
        cases Dict.get? st k with
        | none => rfl
        | some v => exact congrArg some (upd_twice _ _ _ _ _ _)
  | cons a l ih =>
    intro hd st s1 s2 s3 hn h1 h2 h3
    rw [List.foldlM_cons] at h2
    obtain ⟨sa, ha, h2⟩ := ok_bind h2
    -- after `a` the step is possible, and without effect on the end
    obtain ⟨sam, hsam⟩ := step_total h1 (step_get ha).1
    obtain ⟨t2, ht2, ht3⟩ := ih (fun b hb => hd b (List.mem_cons_of_mem _ hb)) (step_nodup ha hn) hsam h2 h3
    -- the other way round
    obtain ⟨s1a, hs1a⟩ := step_total ha (step_get h1).1
    obtain ⟨s1am, hs1am⟩ := step_total h1 ((step_get hs1a).1.trans (step_get h1).1)
    have := step_again hn (hd a List.mem_cons_self) h1 hs1a hs1am ha hsam
    subst this
    -- run the rest from `s1a`
    have hrest : ∃ u, l.foldlM (fuseStatsStep mods adj) s1a = .ok u := by
      have gen : ∀ (l : List PMod) (p q u : StatsMap), l.foldlM (fuseStatsStep mods adj) p = .ok u → q.map Prod.fst = p.map Prod.fst →
          ∃ u', l.foldlM (fuseStatsStep mods adj) q = .ok u' ∧ u'.map Prod.fst = u.map Prod.fst := by
        intro l
        induction l with
        | nil => intro p q u h hk; cases h; exact ⟨_, rfl, hk⟩
        | cons b l ihl =>
          intro p q u h hk
          rw [List.foldlM_cons] at h
          obtain ⟨p1, hp1, h⟩ := ok_bind h
          obtain ⟨q1, hq1⟩ := step_total hp1 hk
          obtain ⟨u', hu', hk'⟩ := ihl p1 q1 u h (by rw [(step_get hq1).1, (step_get hp1).1, hk])
          refine ⟨u', ?_, hk'⟩
          rw [List.foldlM_cons, hq1]
          exact hu'
      obtain ⟨u, hu, _⟩ := gen l sa s1a s2 h2 (by rw [(step_get hs1a).1, (step_get h1).1, (step_get ha).1])
      exact ⟨u, hu⟩
    obtain ⟨u, hu⟩ := hrest
    have hkl : ∀ (l : List PMod) (p u : StatsMap), l.foldlM (fuseStatsStep mods adj) p = .ok u → u.map Prod.fst = p.map Prod.fst := by
      intro l
      induction l with
      | nil => intro p u h; cases h; rfl
      | cons b l ihl =>
        intro p u h
        rw [List.foldlM_cons] at h
        obtain ⟨p1, hp1, h⟩ := ok_bind h
        rw [ihl p1 u h, (step_get hp1).1]
    obtain ⟨u3, hu3⟩ := step_total h3 (show u.map Prod.fst = s2.map Prod.fst by
      rw [hkl l _ _ hu, hkl l _ _ h2, (step_get hs1a).1, (step_get h1).1, (step_get ha).1])
    obtain ⟨t4, ht4, ht5⟩ := ih (fun b hb => hd b (List.mem_cons_of_mem _ hb)) (step_nodup hs1a (step_nodup h1 hn)) hs1am hu hu3
    rw [ht2] at ht4
    cases ht4
    rw [ht3] at ht5
    cases ht5
    refine ⟨u, ?_, hu3⟩
    rw [List.foldlM_cons, hs1a]
    exact hu

/-- Fusing the statistics again changes nothing. -/
theorem fuse_again {mods : List PMod} {adj : PAdjMap} : ∀ (l : List PMod), (l.map fun m => normalizeName m.name).Nodup →
    ∀ {st st' : StatsMap}, st.Nodup → l.foldlM (fuseStatsStep mods adj) st = .ok st' → l.foldlM (fuseStatsStep mods adj) st' = .ok st' := by
  intro l
  induction l using List.reverseRecOn with
  | nil => intro _ st st' _ h; rfl
  | append_singleton l m ih =>
    intro hd st st' hn h
    rw [List.map_append, List.nodup_append] at hd
    rw [List.foldlM_append] at h
    obtain ⟨s1, h1, h⟩ := ok_bind h
    rw [List.foldlM_cons] at h
    obtain ⟨s2, h2, h⟩ := ok_bind h
    cases h
    have i1 := ih hd.1 hn h1
    have hn1 : s1.Nodup := by
      have : ∀ (l : List PMod) (p u : StatsMap), l.foldlM (fuseStatsStep mods adj) p = .ok u → p.Nodup → u.Nodup := by
        intro l
        induction l with
        | nil => intro p u h hp; cases h; exact hp
        | cons b l ihl =>
          intro p u h hp
          rw [List.foldlM_cons] at h
          obtain ⟨p1, hp1, h⟩ := ok_bind h
          exact ihl p1 u h (step_nodup hp1 hp)
      exact this l st s1 h1 hn
    obtain ⟨t2, ht2, ht3⟩ := step_first l (by
      intro a ha e
      exact hd.2.2 _ (List.mem_map_of_mem ha) _ (by simp) e.symm) hn1 h2 i1 h2
    rw [List.foldlM_append, ht2]
    show ([m].foldlM (fuseStatsStep mods adj) t2) = _
    rw [List.foldlM_cons, ht3]
    rfl

theorem bnStep_keys {st st' : StatsMap} {m : PMod} (h : bnStatsStep st m = .ok st') (hn : st.Nodup) :
    st'.Nodup ∧ (∀ k, st.get? k = none → st'.get? k = none) ∧ (∀ k, FoldedFrom m k → st'.get? k = none) ∧ m.fused ≠ some [] := by
  unfold bnStatsStep at h
  cases hf : m.fused with
  | none =>
    rw [hf] at h; cases h
    exact ⟨hn, fun _ h => h, fun k hb => (by obtain ⟨f, fs, h1, _⟩ := hb; rw [hf] at h1; cases h1), by simp⟩
  | some l =>
    cases l with
    | nil => rw [hf] at h; cases h
    | cons f fs =>
      rw [hf] at h
      dsimp only at h
      have huniq : ∀ bk, FoldedFrom m bk → bk = normalizeName f := by
        rintro bk ⟨f', fs', h1, h2⟩
        rw [hf] at h1; cases h1; exact h2.symm
      cases hb : st.get? (normalizeName f) with
      | none =>
        rw [hb] at h; cases h
        exact ⟨hn, fun _ h => h, fun k hk => (by rw [huniq k hk]; exact hb), by simp⟩
      | some bn =>
        rw [hb] at h
        dsimp only at h
        cases hs : (dropKey st (normalizeName f)).get? (normalizeName m.name) with
        | none => rw [hs] at h; cases h
        | some s =>
          rw [hs] at h
          cases h
          have hdn : (dropKey st (normalizeName f)).Nodup := by
            show ((st.filter fun kv => kv.1 ≠ normalizeName f).map Prod.fst).Nodup
            exact (List.filter_sublist.map _).nodup hn
          have hne : normalizeName m.name ≠ normalizeName f := by
            intro e
            rw [dropKey_get, if_pos e] at hs; cases hs
          refine ⟨Dict.nodup_set hdn _ _, ?_, ?_, by simp⟩
          · intro k hk
            rw [Dict.get?_set]
            split
            · rename_i e
              rw [dropKey_get, if_neg hne, e, hk] at hs; cases hs
            · rw [dropKey_get]
              split
              · rfl
              · exact hk
          · intro k hk
            rw [huniq k hk, Dict.get?_set, if_neg hne, dropKey_get, if_pos rfl]

theorem bn_keys : ∀ (l : List PMod) {st st' : StatsMap}, l.foldlM bnStatsStep st = .ok st' → st.Nodup →
    st'.Nodup ∧ (∀ k, st.get? k = none → st'.get? k = none) ∧ (∀ m ∈ l, m.fused ≠ some [] ∧ ∀ k, FoldedFrom m k → st'.get? k = none) := by
  intro l
  induction l with
  | nil => intro st st' h hn; cases h; exact ⟨hn, fun _ h => h, by simp⟩
  | cons m l ih =>
    intro st st' h hn
    rw [List.foldlM_cons] at h
    obtain ⟨s1, h1, h⟩ := ok_bind h
    obtain ⟨a1, a2, a3, a4⟩ := bnStep_keys h1 hn
    obtain ⟨b1, b2, b3⟩ := ih h a1
    refine ⟨b1, fun k hk => b2 k (a2 k hk), ?_⟩
    intro m' hm'
    rcases List.mem_cons.1 hm' with rfl | hm'
    · exact ⟨a4, fun k hk => b2 k (a3 k hk)⟩
    · exact b3 m' hm'

theorem bn_noop : ∀ (l : List PMod) (st : StatsMap), (∀ m ∈ l, m.fused ≠ some [] ∧ ∀ k, FoldedFrom m k → st.get? k = none) →
    l.foldlM bnStatsStep st = .ok st := by
  intro l
  induction l with
  | nil => intro st _; rfl
  | cons m l ih =>
    intro st h
    obtain ⟨h1, h2⟩ := h m List.mem_cons_self
    have : bnStatsStep st m = .ok st := by
      unfold bnStatsStep
      split
      · rfl
      · rename_i hf; exact absurd hf h1
      · rename_i f fs hf
        rw [h2 _ ⟨f, fs, hf, rfl⟩]
    rw [List.foldlM_cons, this]
    exact ih st fun m' hm' => h m' (List.mem_cons_of_mem _ hm')

theorem fuse_keys {mods : List PMod} {adj : PAdjMap} (l : List PMod) : ∀ (p u : StatsMap), l.foldlM (fuseStatsStep mods adj) p = .ok u →
    u.map Prod.fst = p.map Prod.fst := by
  induction l with
  | nil => intro p u h; cases h; rfl
  | cons b l ihl =>
    intro p u h
    rw [List.foldlM_cons] at h
    obtain ⟨p1, hp1, h⟩ := ok_bind h
    rw [ihl p1 u h, (step_get hp1).1]

/-- **C138** (statistics): the statistics that `prepare_model` has changed, which are the ones in the checkpoint, are left
as they are when the loaded model is prepared: batch-norms are not moved twice, and the ranges clipped for activations
are not clipped any further. -/
theorem C138_stats (mods : List PMod) (adj : PAdjMap) (st st1 : StatsMap) (hst : st.Nodup)
    (hn : (mods.map fun m => normalizeName m.name).Nodup) (h : prepStats mods adj st = .ok st1) : prepStats mods adj st1 = .ok st1 := by
  unfold prepStats at h ⊢
  obtain ⟨s1, h1, h2⟩ := ok_bind h
  unfold bnStats at h1
  obtain ⟨b1, _, b3⟩ := bn_keys mods h1 hst
  have hk : st1.map Prod.fst = s1.map Prod.fst ∧ fuseStats mods adj st1 = .ok st1 := by
    unfold fuseStats at h2 ⊢
    split at h2
    · rename_i e
      cases h2
      subst e
      exact ⟨rfl, by simp⟩
    · refine ⟨fuse_keys _ _ _ h2, ?_⟩
      rw [fuse_again mods hn b1 h2]
      split
      · rename_i e; rw [e]
      · rfl
  have hbn : bnStats mods st1 = .ok st1 := by
    refine bn_noop mods st1 fun m hm => ⟨(b3 m hm).1, fun k hk' => ?_⟩
    have := (b3 m hm).2 k hk'
    rw [Dict.get?_eq_none_iff] at this ⊢
    rw [hk.1]; exact this
  rw [hbn]
  exact hk.2

/-! ## Cases -/

/-- A quantizer and its loaded copy. -/
example : ∃ b b', construct .ptq [("clip_acts", .str "AVG"), ("mode", .str "ASYMMETRIC_UNSIGNED"), ("bits_activations", .num 6),
      ("also_clip_weights", .bool true), ("overrides", .data 7)] = .ok b ∧ reload .ptq b = .ok b' ∧
    b.settings "clip_acts" = .clip .avg ∧ b'.settings "clip_acts" = .clip .avg ∧
    b'.settings "mode" = .mode .asymmetricUnsigned .asymmetricUnsigned ∧ b'.settings "bits_activations" = .num 6 ∧
    b'.settings "overrides" = .data 7 ∧ b.settings "also_clip_weights" = .bool true ∧ b'.settings "also_clip_weights" = .bool false :=
  ⟨_, _, rfl, rfl, by decide +kernel⟩

example : ∃ b, construct .pact [("optimizer", .data 1), ("bits_weights", .num 4), ("act_clip_init_val", .num 5)] = .ok b ∧
    b.settings "act_clip_init_val" = .num 5 ∧ reload .pact b = .error .type := ⟨_, rfl, rfl, rfl⟩

example : ∃ b, construct .qat [("optimizer", .data 1), ("bits_weights", .num 4), ("num_bits_inputs", .num 5)] = .ok b ∧
    b.settings "num_bits_inputs" = .num 5 ∧ reload .qat b = .error .value := ⟨_, rfl, rfl, rfl⟩

example : construct .ptq [("clip_acts", .str "N_STD")] = .error .value ∧ construct .ptq [("clip_acts", .str "avg")] = .error .value ∧
    construct .ptq [("bits_weights", .num 8)] = .error .type ∧ construct .wrpn [] = .error .type ∧ construct .qat [] = .error .value ∧
    construct .ptq [("fp16", .bool true), ("fpq_module", .num 32)] = .error .value := ⟨rfl, rfl, rfl, rfl, rfl, rfl⟩

example : exStatMap.Nodup ∧ (exStatMods.map fun m => normalizeName m.name).Nodup ∧
    prepStats exStatMods (adjOf exStatOps) exStatMap = .ok
      [(["conv"], ⟨[(0, exStats)], ⟨0, 7, 0, 5, 1, 2, 1⟩⟩),
       (["relu"], ⟨[(0, ⟨0, 7, 0, 5, 1, 2, 1⟩)], ⟨0, 7, 0, 5, 1, 2, 1⟩⟩), (["fc"], ⟨[(0, ⟨0, 7, 0, 5, 1, 2, 1⟩)], ⟨-4, 3, -4, 2, 0, 1, 1⟩⟩)] :=
  ⟨by unfold Dict.Nodup; decide +kernel, by decide, by decide +kernel⟩

end Verif
