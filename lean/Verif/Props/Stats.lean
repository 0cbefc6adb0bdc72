import Verif.Props.Quant
import Mathlib.Tactic.IntervalCases
/-!
# C83: activation ranges from calibration statistics
-/
namespace Verif

/-- Statistics as collected over at least one batch: the average extremes lie between the extremes
and around the mean, spreads are not negative. -/
structure Stats.Consistent (s : Stats) : Prop where
  h1 : s.min ≤ s.avgMin
  h2 : s.avgMin ≤ s.mean
  h3 : s.mean ≤ s.avgMax
  h4 : s.avgMax ≤ s.max
  h5 : 0 ≤ s.std
  h6 : 0 ≤ s.b

/-- Clipping modes and widths the library supports: a positive number of deviations; tables for 1 to
8 bits. -/
def ClipMode.Supported (b : ℕ) : ClipMode → Prop
  | .none => True
  | .avg => True
  | .nStd k => ∃ n, k = some n ∧ 0 < n
  | .gauss => 1 ≤ b ∧ b ≤ 8
  | .laplace => b ≤ 8

theorem alphaLaplace_ok (half : Bool) (b : ℕ) (h : b ≤ 8) : ∃ a, 0 < a ∧ alphaLaplace half b = .ok a := by
  interval_cases b <;> cases half <;> refine ⟨_, ?_, rfl⟩ <;> norm_num

theorem alphaGauss_ok (half : Bool) (b : ℕ) (h1 : 1 ≤ b) (h : b ≤ 8) : ∃ a, 0 < a ∧ alphaGauss half b = .ok a := by
  interval_cases b <;> cases half <;> refine ⟨_, ?_, rfl⟩ <;> norm_num

theorem alphaLaplace_err (half : Bool) (b : ℕ) (h : 8 < b) : alphaLaplace half b = .error .key := by
  unfold alphaLaplace
  dsimp only
  rw [List.getElem?_eq_none (by cases half <;> simp <;> omega)]

theorem alphaGauss_err (half : Bool) (b : ℕ) (h : b = 0 ∨ 8 < b) : alphaGauss half b = .error .key := by
  unfold alphaGauss
  dsimp only
  rcases h with h | h
  · rw [if_pos h]
  · rw [if_neg (by omega), List.getElem?_eq_none (by cases half <;> simp <;> omega)]

theorem aciqSym_ok (s : Stats) (hc : s.Consistent) (lap : Bool) (b : ℕ) (h1 : lap = false → 1 ≤ b) (h8 : b ≤ 8) :
    ∃ a, 0 ≤ a ∧ aciqSym s lap b = .ok (-(|s.mean| + a), |s.mean| + a) := by
  cases lap
  · obtain ⟨a, ha, e⟩ := alphaGauss_ok false b (h1 rfl) h8
    exact ⟨s.std * a, mul_nonneg hc.h5 ha.le, by unfold aciqSym; simp only [e]; rfl⟩
  · obtain ⟨a, ha, e⟩ := alphaLaplace_ok false b h8
    exact ⟨s.b * a, mul_nonneg hc.h6 ha.le, by unfold aciqSym; simp only [e]; rfl⟩

theorem aciqAsym_ok (s : Stats) (hc : s.Consistent) (lap half : Bool) (b : ℕ) (h1 : lap = false → 1 ≤ b) (h8 : b ≤ 8) :
    ∃ a, 0 ≤ a ∧ aciqAsym s lap half b = .ok (max s.avgMin (s.mean - a),
      max s.avgMin (s.mean - a) + (if half then a else 2 * a)) := by
  cases lap
  · obtain ⟨a, ha, e⟩ := alphaGauss_ok half b (h1 rfl) h8
    exact ⟨s.std * a, mul_nonneg hc.h5 ha.le, by unfold aciqAsym; simp only [e]; rfl⟩
  · obtain ⟨a, ha, e⟩ := alphaLaplace_ok half b h8
    exact ⟨s.b * a, mul_nonneg hc.h6 ha.le, by unfold aciqAsym; simp only [e]; rfl⟩

/-- **C83** (range) For every consistent statistics, supported clipping mode and quantization mode,
the chosen range is a proper interval (`lo ≤ hi`) that contains the mean. -/
theorem C83_range_contains_mean (s : Stats) (hc : s.Consistent) (b : ℕ) (mode : QMode) (clip : ClipMode) (half : Bool)
    (hs : clip.Supported b) :
    ∃ lo hi, satFromStats s b mode clip half = .ok (lo, hi) ∧ lo ≤ s.mean ∧ s.mean ≤ hi := by
  have habs : -|s.mean| ≤ s.mean ∧ s.mean ≤ |s.mean| := ⟨neg_abs_le _, le_abs_self _⟩
  obtain ⟨c1, c2, c3, c4, c5, c6⟩ := hc
  have aciq : ∀ lap : Bool, (lap = false → 1 ≤ b) → b ≤ 8 →
      ∃ lo hi, (if mode.isSym then aciqSym s lap b else aciqAsym s lap half b) = .ok (lo, hi) ∧
        lo ≤ s.mean ∧ s.mean ≤ hi := by
    intro lap h1 h8
    split
    · obtain ⟨a, ha, e⟩ := aciqSym_ok s ⟨c1, c2, c3, c4, c5, c6⟩ lap b h1 h8
      exact ⟨_, _, e, by linarith [habs.1], by linarith [habs.2]⟩
    · obtain ⟨a, ha, e⟩ := aciqAsym_ok s ⟨c1, c2, c3, c4, c5, c6⟩ lap half b h1 h8
      refine ⟨_, _, e, max_le c2 (by linarith), ?_⟩
      have := le_max_right s.avgMin (s.mean - a)
      split <;> linarith
  cases clip with
  | none => exact ⟨_, _, rfl, c1.trans c2, c3.trans c4⟩
  | avg => exact ⟨_, _, rfl, c2, c3⟩
  | nStd k =>
    obtain ⟨n, rfl, hn⟩ := hs
    refine ⟨max s.min (s.mean - n * s.std), min s.max (s.mean + n * s.std),
      by unfold satFromStats; simp only [not_le.2 hn, if_false], ?_, ?_⟩
    · have := mul_nonneg hn.le c5
      exact max_le (c1.trans c2) (by linarith)
    · have := mul_nonneg hn.le c5
      exact le_min (c3.trans c4) (by linarith)
  | gauss => exact aciq false (fun _ => hs.1) hs.2
  | laplace => exact aciq true (by simp) hs

/-- **C83** Without clipping, with averaged extremes or a number of deviations, the range never
extends beyond the observed one (and, for deviations, never beyond `mean ± n·std`). -/
theorem C83_within_observed (s : Stats) (hc : s.Consistent) (b : ℕ) (mode : QMode) (clip : ClipMode) (half : Bool)
    (hclip : clip ≠ .gauss ∧ clip ≠ .laplace) (lo hi : ℚ) (h : satFromStats s b mode clip half = .ok (lo, hi)) :
    s.min ≤ lo ∧ hi ≤ s.max ∧
    (clip = .none → lo = s.min ∧ hi = s.max) ∧ (clip = .avg → lo = s.avgMin ∧ hi = s.avgMax) ∧
    (∀ n, clip = .nStd (some n) → s.mean - n * s.std ≤ lo ∧ hi ≤ s.mean + n * s.std ∧
      (lo = s.min ∨ lo = s.mean - n * s.std) ∧ (hi = s.max ∨ hi = s.mean + n * s.std)) := by
  obtain ⟨c1, c2, c3, c4, c5, c6⟩ := hc
  cases clip with
  | none => cases h; simp
  | avg => cases h; exact ⟨c1, c4, by simp, by simp, by simp⟩
  | nStd k =>
    cases k with
    | none => cases h
    | some n =>
      unfold satFromStats at h
      by_cases hn : n ≤ 0
      · simp only [hn, if_true] at h; cases h
      · simp only [hn, if_false] at h
        cases h
        refine ⟨le_max_left _ _, min_le_left _ _, by simp, by simp, ?_⟩
        intro n' e
        cases e
        exact ⟨le_max_right _ _, min_le_right _ _, max_choice _ _, min_choice _ _⟩
  | gauss => exact absurd rfl hclip.1
  | laplace => exact absurd rfl hclip.2

/-- **C83** The analytical (ACIQ) modes: a symmetric mode gets a symmetric range; an asymmetric one a
range that starts at the averaged minimum or later and is `2α` wide (`α` if only the positive half
is used), `α` being a positive tabulated multiple of the spread. -/
theorem C83_aciq_range (s : Stats) (hc : s.Consistent) (b : ℕ) (mode : QMode) (half : Bool) (laplace : Bool)
    (hb : 1 ≤ b ∧ b ≤ 8) :
    ∃ a lo hi, 0 ≤ a ∧ satFromStats s b mode (if laplace then .laplace else .gauss) half = .ok (lo, hi) ∧
      (mode.isSym = true → lo = -hi ∧ hi = |s.mean| + a) ∧
      (mode.isSym = false → s.avgMin ≤ lo ∧ s.mean - a ≤ lo ∧ hi - lo = (if half then a else 2 * a)) := by
  have e : satFromStats s b mode (if laplace then .laplace else .gauss) half
      = if mode.isSym then aciqSym s laplace b else aciqAsym s laplace half b := by
    cases laplace <;> rfl
  rw [e]
  by_cases hm : mode.isSym = true
  · obtain ⟨a, ha, e⟩ := aciqSym_ok s hc laplace b (fun _ => hb.1) hb.2
    refine ⟨a, _, _, ha, by rw [if_pos hm]; exact e, by simp, by simp [hm]⟩
  · obtain ⟨a, ha, e⟩ := aciqAsym_ok s hc laplace half b (fun _ => hb.1) hb.2
    refine ⟨a, _, _, ha, by rw [if_neg hm]; exact e, by simp [hm], ?_⟩
    intro _
    exact ⟨le_max_left _ _, le_max_right _ _, by ring⟩

/-- **C83** (refusals) An unset or non-positive number of deviations is a `ValueError`; widths outside
the ACIQ tables are a `KeyError`. -/
theorem C83_refusals (s : Stats) (b : ℕ) (mode : QMode) (half : Bool) (approx : Option ℕ) :
    paramsFromStats s b mode (.nStd none) half approx = .error .value ∧
    (∀ n, n ≤ 0 → paramsFromStats s b mode (.nStd (some n)) half approx = .error .value) ∧
    (8 < b → paramsFromStats s b mode .laplace half approx = .error .key) ∧
    (b = 0 ∨ 8 < b → paramsFromStats s b mode .gauss half approx = .error .key) := by
  refine ⟨rfl, ?_, ?_, ?_⟩
  · intro n hn; unfold paramsFromStats satFromStats; simp only [hn, if_true]; rfl
  · intro h
    unfold paramsFromStats satFromStats aciqSym aciqAsym
    simp only [alphaLaplace_err _ b h]
    cases mode.isSym <;> rfl
  · intro h
    unfold paramsFromStats satFromStats aciqSym aciqAsym
    simp only [alphaGauss_err _ b h]
    cases mode.isSym <;> rfl

/-- **C83** (parameters) In every supported configuration parameters are obtained, the scale is
positive, and every value inside the chosen range is reproduced up to half a step while values
outside an asymmetric range saturate to within half a step of its nearest end. -/
theorem C83_params (s : Stats) (hc : s.Consistent) (b : ℕ) (hb : 2 ≤ b) (mode : QMode) (clip : ClipMode) (half : Bool)
    (hs : clip.Supported b) :
    ∃ lo hi scale zp, satFromStats s b mode clip half = .ok (lo, hi) ∧
      paramsFromStats s b mode clip half none = .ok (scale, zp) ∧ 0 < scale ∧
      (∀ x, lo ≤ x → x ≤ hi → |fakeQuant x scale zp (modeRange mode b) - x| ≤ 1 / (2 * scale)) ∧
      (lo ≠ 0 ∨ hi ≠ 0 → mode.isSym = false → ∀ x,
        (max hi 0 ≤ x → |fakeQuant x scale zp (modeRange mode b) - max hi 0| ≤ 1 / (2 * scale)) ∧
        (x ≤ min lo 0 → |fakeQuant x scale zp (modeRange mode b) - min lo 0| ≤ 1 / (2 * scale))) := by
  obtain ⟨lo, hi, e, h1, h2⟩ := C83_range_contains_mean s hc b mode clip half hs
  have hle : lo ≤ hi := h1.trans h2
  obtain ⟨scale, zp, hp⟩ : ∃ scale zp, modeParams mode b lo hi = .ok (scale, zp) := by
    unfold modeParams
    split
    · obtain ⟨s', _, e'⟩ := (C31_params_total b hb (mode = .symmetricRestricted) true true (max |lo| |hi|) lo hi).2.1
        (le_max_of_le_left (abs_nonneg _))
      exact ⟨_, _, e'⟩
    · obtain ⟨s', z', _, e'⟩ := (C31_params_total b hb true true (mode = .asymmetricSigned) 0 lo hi).2.2.2 hle
      exact ⟨_, _, e'⟩
  refine ⟨lo, hi, scale, zp, e, ?_, (modeParams_image mode b hb lo hi scale zp hp).1, ?_, ?_⟩
  · unfold paramsFromStats
    rw [e]
    show (modeParams mode b lo hi >>= _) = _
    rw [hp]; rfl
  · intro x hx1 hx2
    apply C28_error mode b hb lo hi scale zp hp
    split
    · rw [abs_le]
      have a1 := neg_abs_le lo
      have a2 := le_abs_self hi
      have a3 := le_max_left |lo| |hi|
      have a4 := le_max_right |lo| |hi|
      constructor <;> linarith
    · exact ⟨(min_le_left _ _).trans hx1, hx2.trans (le_max_left _ _)⟩
  · intro hne hm x
    have := C62_saturation mode b hb lo hi scale zp hne hp x
    exact ⟨fun h => this.1 ⟨h, hm⟩, fun h => this.2.1 ⟨h, hm⟩⟩

/-- **C83** (integer approximation of the scale) With `scale_approx_mult_bits ≥ 2` the scale is only
ever lowered, by a relative `2^-(m-1)` at most. -/
theorem C83_approx (s : Stats) (b : ℕ) (mode : QMode) (clip : ClipMode) (half : Bool) (m : ℕ) (hm : 2 ≤ m)
    (scale zp : ℚ) (h0 : 0 < scale) (h : paramsFromStats s b mode clip half none = .ok (scale, zp)) :
    ∃ scale', paramsFromStats s b mode clip half (some m) = .ok (scale', zp) ∧ 0 < scale' ∧ scale' ≤ scale ∧
      scale - scale' < scale / 2 ^ (m - 1) := by
  have H := C32_scale_approx scale h0 m hm false
  refine ⟨approxScale scale m false, ?_, (H.2.2.2.2.2.1 rfl).2, H.2.2.2.1, (H.2.2.2.2.2.1 rfl).1⟩
  unfold paramsFromStats at h ⊢
  cases h1 : satFromStats s b mode clip half with
  | error e => rw [h1] at h; cases h
  | ok r =>
    rw [h1] at h
    cases h2 : modeParams mode b r.1 r.2 with
    | error e => simp only [bind, Except.bind, h2] at h; cases h
    | ok p =>
      simp only [bind, Except.bind, h2] at h ⊢
      cases h
      rfl

def exStats : Stats := ⟨-1, 3, -1/2, 2, 1/2, 1, 3/4⟩

/-- Non-vacuity: consistent statistics and the ranges of all modes. -/
example : exStats.Consistent ∧ satFromStats exStats 4 .asymmetricSigned (.nStd (some 2)) false = .ok (-1, 5/2) ∧
    satFromStats exStats 4 .symmetric .gauss false = .ok (-61/20, 61/20) ∧
    satFromStats exStats 2 .asymmetricUnsigned .laplace true = .ok (-1/2, 967/400) ∧
    satFromStats exStats 4 .asymmetricUnsigned .avg true = .ok (-1/2, 2) :=
  ⟨by constructor <;> decide +kernel, by decide +kernel, by decide +kernel, by decide +kernel, by decide +kernel⟩

/-- **C83** is violated by the analytical modes: the "clipped" range can extend far beyond everything
that was observed, so that most of the grid is unused. -/
theorem C83_violated_aciq_wider_than_observed : ∃ (s : Stats) (lo hi : ℚ), s.Consistent ∧
    satFromStats s 8 .asymmetricUnsigned .laplace false = .ok (lo, hi) ∧ s.max < hi ∧ hi - lo > 3 * (s.max - s.min) :=
  ⟨exStats, -1/2, -1/2 + 2 * (3/4 * 9.89), by constructor <;> decide +kernel, by decide +kernel, by decide +kernel, by decide +kernel⟩

end Verif
