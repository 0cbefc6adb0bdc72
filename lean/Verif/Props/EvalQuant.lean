import Verif.Model.EvalQuant
/-!
# C150: evaluating with post-training quantization
-/
namespace Verif
variable {M Q S R : Type}

/-- **C150** (the statistics used) A quantized evaluation of a model that is not yet quantized, without dynamic quantization,
statistics or configuration file, collects statistics of that model on the requested part of the test set (5% if none is
requested) in batches of at most 128, quantizes with them and with the other arguments unchanged, and tests the outcome on the
requested test set.  The argument object then holds the statistics; nothing else in it changes. -/
theorem C150_collects (V : EvalEnv M Q S R) (m : M) (a : EvalArgs S) (hq : a.quantizeEval = true)
    (hm : V.quantType m ≠ some "PostTrainLinearQuantizer") (hd : a.dynamic = false) (hs : a.stats = none) (hc : a.configFile = false) :
    ∃ b, b ≤ 128 ∧ b ≤ a.batchSize ∧ (b = 128 ∨ b = a.batchSize) ∧
      (V.evaluate m a).1 = { a with stats := some (V.collect m (a.calibration.getD (1/20)) b) } ∧
      (a.convert = false → (V.evaluate m a).2 = (V.quantize m (V.evaluate m a).1).map (fun q => V.test q a.testSize)) ∧
      (a.convert = true → (V.evaluate m a).2 =
        ((V.quantize m (V.evaluate m a).1).bind V.convert).map (fun q => V.test q a.testSize)) := by
  have hset : V.hasSettings a = false := by simp [EvalEnv.hasSettings, hd, hs, hc]
  have hp : V.prepareArgs m a = { a with stats := some (V.collect m (a.calibration.getD (1/20)) (min 128 a.batchSize)) } := by
    unfold EvalEnv.prepareArgs EvalEnv.actsStats
    rw [hset]
    cases a.calibration <;> rfl
  have he : V.evaluate m a = (V.prepareArgs m a, do
      let q ← V.quantize m (V.prepareArgs m a)
      let q ← (if (V.prepareArgs m a).convert then V.convert q else .ok q)
      return V.test q (V.prepareArgs m a).testSize) := by
    unfold EvalEnv.evaluate EvalEnv.quantizeAndTest
    rw [if_pos hq, if_neg hm]
  refine ⟨min 128 a.batchSize, min_le_left _ _, min_le_right _ _, ?_, by rw [he]; exact hp, ?_, ?_⟩
  · rcases le_total 128 a.batchSize with h | h
    · exact Or.inl (min_eq_left h)
    · exact Or.inr (min_eq_right h)
  · intro hcv
    rw [he, hp]
    simp only [hcv]
    cases V.quantize m _ <;> rfl
  · intro hcv
    rw [he, hp]
    simp only [hcv, if_true]
    cases V.quantize m _ with
    | error e => rfl
    | ok q =>
      show ((V.convert q).bind fun q => Except.ok _) = (V.convert q).map _
      cases V.convert q <;> rfl

/-- **C150** (empty statistics) Statistics that are present but empty are treated as missing: they are collected. -/
theorem C150_empty_stats (V : EvalEnv M Q S R) (m : M) (a : EvalArgs S) (s : S) (hq : a.quantizeEval = true)
    (hm : V.quantType m ≠ some "PostTrainLinearQuantizer") (hd : a.dynamic = false) (hs : a.stats = some s) (he : V.falsy s = true)
    (hc : a.configFile = false) :
    (V.evaluate m a).1 = { a with stats := some (V.collect m (a.calibration.getD (1/20)) (min 128 a.batchSize)) } ∧
    (a.convert = false → (V.evaluate m a).2 = (V.quantize m (V.evaluate m a).1).map (fun q => V.test q a.testSize)) := by
  have hset : V.hasSettings a = false := by simp [EvalEnv.hasSettings, hd, hs, hc, he]
  have h1 : (V.evaluate m a).1 = { a with stats := some (V.collect m (a.calibration.getD (1/20)) (min 128 a.batchSize)) } := by
    unfold EvalEnv.evaluate EvalEnv.quantizeAndTest
    rw [if_pos hq, if_neg hm]
    unfold EvalEnv.prepareArgs
    rw [hset]
    cases a.calibration <;> rfl
  refine ⟨h1, fun hv => ?_⟩
  have h2 : (V.evaluate m a).2 = (V.quantize m (V.prepareArgs m a)).bind (fun q =>
      (if (V.prepareArgs m a).convert then V.convert q else .ok q).bind (fun q => .ok (V.test q (V.prepareArgs m a).testSize))) := by
    unfold EvalEnv.evaluate EvalEnv.quantizeAndTest
    rw [if_pos hq, if_neg hm]; rfl
  have h3 : V.prepareArgs m a = (V.evaluate m a).1 := by
    unfold EvalEnv.evaluate EvalEnv.quantizeAndTest
    rw [if_pos hq, if_neg hm]
  rw [h2, h3, h1]
  simp only [hv]
  cases V.quantize m _ <;> rfl

/-- **C150** (already quantized) A model that is already post-train quantized is refused, whatever the arguments, which are left
alone; without `--quantize-eval` it is tested as it is. -/
theorem C150_refused (V : EvalEnv M Q S R) (m : M) (a : EvalArgs S) (hm : V.quantType m = some "PostTrainLinearQuantizer") :
    (a.quantizeEval = true → V.evaluate m a = (a, .error .runtime)) ∧
    (a.quantizeEval = false → a.convert = false → V.evaluate m a = (a, .ok (V.test (V.asIs m) a.testSize))) := by
  refine ⟨fun h => ?_, fun h hc => ?_⟩
  · unfold EvalEnv.evaluate EvalEnv.quantizeAndTest; rw [if_pos h, if_pos hm]
  · unfold EvalEnv.evaluate; simp [h, hc]

/-- An evaluation with given settings does not change the arguments. -/
theorem evaluate_keeps (V : EvalEnv M Q S R) (m : M) (a : EvalArgs S)
    (h : a.quantizeEval = false ∨ V.hasSettings a = true) : (V.evaluate m a).1 = a := by
  unfold EvalEnv.evaluate
  by_cases hq : a.quantizeEval = true
  · rw [if_pos hq]
    unfold EvalEnv.quantizeAndTest
    split
    · rfl
    · rcases h with h | h
      · rw [hq] at h; cases h
      · simp [EvalEnv.prepareArgs, h]
  · rw [if_neg hq]

/-- **C150** (sessions, partial) With plain evaluation, dynamic quantization, a configuration file or non-empty statistics given by
the user, any sequence of evaluations with one argument object gives each model the result it gets when evaluated alone, and
leaves the arguments as they were.  Missing: quantized evaluation that collects its own statistics (`C150_violated_stale`). -/
theorem C150_session_partial (V : EvalEnv M Q S R) (ms : List M) (a : EvalArgs S)
    (h : a.quantizeEval = false ∨ a.dynamic = true ∨ a.configFile = true ∨ ∃ s, a.stats = some s ∧ V.falsy s = false) :
    V.session ms a = (a, ms.map (fun m => (V.evaluate m a).2)) := by
  have h' : a.quantizeEval = false ∨ V.hasSettings a = true := by
    rcases h with h | h | h | ⟨s, hs, hf⟩
    · exact Or.inl h
    · right; simp [EvalEnv.hasSettings, h]
    · right; simp [EvalEnv.hasSettings, h]
    · right; simp [EvalEnv.hasSettings, hs, hf]
  induction ms with
  | nil => rfl
  | cons m ms ih =>
    show ((V.session ms (V.evaluate m a).1).1, (V.evaluate m a).2 :: (V.session ms (V.evaluate m a).1).2) = _
    rw [evaluate_keeps V m a h', ih]
    rfl

/-- C150 is violated: in every session that collects its own statistics, all models after the first are quantized with the
statistics collected from the first one. -/
theorem C150_violated_stale (V : EvalEnv M Q S R) (m : M) (ms : List M) (a : EvalArgs S) (hq : a.quantizeEval = true)
    (hm : V.quantType m ≠ some "PostTrainLinearQuantizer") (hd : a.dynamic = false) (hs : a.stats = none) (hc : a.configFile = false)
    (hf : ∀ x y z, V.falsy (V.collect x y z) = false) :
    ∃ a', a'.stats = some (V.collect m (a.calibration.getD (1/20)) (min 128 a.batchSize)) ∧
      (V.session (m :: ms) a).2 = (V.evaluate m a).2 :: ms.map (fun x => (V.evaluate x a').2) := by
  obtain ⟨b, h1, h2, h3, h4, -⟩ := C150_collects V m a hq hm hd hs hc
  have hb : b = min 128 a.batchSize := by omega
  subst hb
  refine ⟨{ a with stats := some (V.collect m (a.calibration.getD (1/20)) (min 128 a.batchSize)) }, rfl, ?_⟩
  show (V.evaluate m a).2 :: (V.session ms (V.evaluate m a).1).2 = _
  rw [h4, C150_session_partial V ms _ (Or.inr (Or.inr (Or.inr ⟨_, rfl, hf _ _ _⟩)))]

/-! Instances: networks are numbers, statistics a range; the quantized network is the number clipped to the range. -/
def evEx : EvalEnv ℚ ℚ ℚ ℚ where
  quantType m := if m = 100 then some "PostTrainLinearQuantizer" else none
  collect m size _ := m * size
  falsy s := s = 0
  quantize m a := match a.stats with | some s => .ok (min m (20 * s)) | none => .error .value
  convert q := .ok q
  test q size := q * size
  asIs m := m

example : evEx.evaluate 7 {} = ({ stats := some (7/20) }, .ok 7) ∧ evEx.evaluate 100 {} = ({}, .error .runtime) ∧
    evEx.evaluate 100 { quantizeEval := false } = ({ quantizeEval := false }, .ok 100) := by decide +kernel

/-- A concrete session: alone, the second model scores 7; after the first one it scores 3. -/
theorem C150_violated_stale_instance : (evEx.evaluate 7 {}).2 = .ok 7 ∧ (evEx.session [3, 7] {}).2 = [.ok 3, .ok 3] := by
  decide +kernel

example : (evEx.session [3, 7] { stats := some 1 }).2 = [.ok 3, .ok 7] := by decide +kernel

end Verif
