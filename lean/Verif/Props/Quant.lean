import Verif.Model.QUtils
import Verif.Lemmas.Structures
import Mathlib.Tactic.Ring
import Mathlib.Tactic.NormNum
import Mathlib.Data.Int.Interval
import Mathlib.Order.Interval.Finset.Basic
/-!
# C26 – C33: linear quantization
-/
namespace Verif

/-! ## C26 -/

theorem two_pow_pred {b : ℕ} (hb : 1 ≤ b) : (2 : ℤ) ^ b = 2 * 2 ^ (b - 1) := by
  obtain ⟨k, rfl⟩ : ∃ k, b = k + 1 := ⟨b - 1, by omega⟩
  rw [Nat.add_sub_cancel, pow_succ]; ring

theorem two_pow_pos_int (k : ℕ) : (1 : ℤ) ≤ 2 ^ k := one_le_pow₀ (by norm_num)

/-- **C26** For every bit width ≥ 1 the quantized range contains 0 and exactly `2^n` integers
(`2^n - 1` when signed and restricted, in which case it is symmetric about 0). -/
theorem C26_range (b : ℕ) (hb : 1 ≤ b) (signed restrict : Bool) :
    let r := quantizedRange b signed restrict
    r.1 ≤ 0 ∧ 0 ≤ r.2 ∧
    ((Finset.Icc r.1 r.2).card : ℤ) = (if signed ∧ restrict then 2 ^ b - 1 else 2 ^ b) ∧
    (signed = true → restrict = true → r.1 = -r.2) ∧ (signed = false → r.1 = 0) ∧
    (signed = true → restrict = false → r.1 = -r.2 - 1) := by
  intro r
  have h1 := two_pow_pred hb
  have h2 := two_pow_pos_int (b - 1)
  have h3 := two_pow_pos_int b
  have hr : r = quantizedRange b signed restrict := rfl
  unfold quantizedRange at hr
  cases signed <;> cases restrict <;> simp at hr <;> simp [hr, Int.card_Icc] <;> omega

example : quantizedRange 4 true false = (-8, 7) ∧ quantizedRange 4 true true = (-7, 7) ∧
    quantizedRange 4 false false = (0, 15) := by decide

/-! ## C27 -/

theorem clampQ_mem {x lo hi : ℚ} (h : lo ≤ hi) : lo ≤ clampQ x lo hi ∧ clampQ x lo hi ≤ hi := by
  unfold clampQ
  exact ⟨le_min (le_max_right _ _) h, min_le_right _ _⟩

theorem clampQ_int (n lo hi : ℤ) : clampQ (n : ℚ) lo hi = ((min (max n lo) hi : ℤ) : ℚ) := by
  unfold clampQ; push_cast; rfl

/-- **C27** Whatever the input, scale and zero-point, the clamped quantized value is an integer
of `[lo, hi]`; for a non-negative scale it is monotone in the input. -/
theorem C27_integer_in_range (scale zp : ℚ) (lo hi : ℤ) (h : lo ≤ hi) :
    (∀ x, ∃ n : ℤ, linearQuantizeClamp x scale zp lo hi = n ∧ lo ≤ n ∧ n ≤ hi) ∧
    (0 ≤ scale → ∀ x y, x ≤ y → linearQuantizeClamp x scale zp lo hi ≤ linearQuantizeClamp y scale zp lo hi) := by
  constructor
  · intro x
    refine ⟨min (max (roundHalfEven (scale * x - zp)) lo) hi, ?_, le_min (le_max_right _ _) h, min_le_right _ _⟩
    unfold linearQuantizeClamp linearQuantize
    exact clampQ_int _ _ _
  · intro hs x y hxy
    unfold linearQuantizeClamp linearQuantize clampQ
    have : roundHalfEven (scale * x - zp) ≤ roundHalfEven (scale * y - zp) :=
      round_mono (by have := mul_le_mul_of_nonneg_left hxy hs; linarith)
    have hq : (roundHalfEven (scale * x - zp) : ℚ) ≤ roundHalfEven (scale * y - zp) := by exact_mod_cast this
    exact min_le_min (max_le_max hq le_rfl) le_rfl

example : linearQuantizeClamp (7/3) 10 2 (-8) 7 = 7 ∧ linearQuantizeClamp (1/4) 10 2 (-8) 7 = 0 := by decide +kernel

/-! ## C31 -/

theorem pow_two_ge_one (k : ℕ) : (1 : ℚ) ≤ 2 ^ k := one_le_pow₀ (by norm_num)

theorem pow_two_gt_one {k : ℕ} (hk : 1 ≤ k) : (1 : ℚ) < 2 ^ k := by
  have := pow_two_ge_one (k - 1)
  obtain ⟨j, rfl⟩ : ∃ j, k = j + 1 := ⟨k - 1, by omega⟩
  rw [pow_succ]; rw [Nat.add_sub_cancel] at this; linarith

theorem symN_pos {b : ℕ} (hb : 2 ≤ b) (restrict : Bool) :
    (0 : ℚ) < (if restrict then 2 ^ (b - 1) - 1 else (2 ^ b - 1) / 2) := by
  have h1 := pow_two_gt_one (k := b - 1) (by omega)
  have h2 := pow_two_gt_one (k := b) (by omega)
  cases restrict <;> simp <;> linarith

/-- **C31** For bit widths above 1: symmetric parameters raise `ValueError` exactly for a negative
saturation value, asymmetric ones exactly when `min > max`; otherwise the scale is positive
(also for the all-zero range) and the symmetric zero-point is 0. -/
theorem C31_params_total (b : ℕ) (hb : 2 ≤ b) (restrict integral signed : Bool) (sat lo hi : ℚ) :
    (sat < 0 ↔ symParams b sat restrict = .error .value) ∧
    (0 ≤ sat → ∃ s, 0 < s ∧ symParams b sat restrict = .ok (s, 0)) ∧
    (hi < lo ↔ asymParams b lo hi integral signed = .error .value) ∧
    (lo ≤ hi → ∃ s z, 0 < s ∧ asymParams b lo hi integral signed = .ok (s, z)) := by
  have hn := symN_pos hb restrict
  have hn2 : (0 : ℚ) < 2 ^ b - 1 := by have := pow_two_gt_one (k := b) (by omega); linarith
  have A : 0 ≤ sat → ∃ s, 0 < s ∧ symParams b sat restrict = .ok (s, 0) := by
    intro h
    unfold symParams
    rw [if_neg (not_lt.2 h)]
    refine ⟨_, ?_, rfl⟩
    by_cases h0 : sat = 0
    · simp only [h0, if_true]; rw [div_self hn.ne']; norm_num
    · simp only [h0, if_false]; exact div_pos hn (lt_of_le_of_ne h (Ne.symm h0))
  have B : lo ≤ hi → ∃ s z, 0 < s ∧ asymParams b lo hi integral signed = .ok (s, z) := by
    intro h
    unfold asymParams
    rw [if_neg (not_lt.2 h)]
    refine ⟨_, _, ?_, rfl⟩
    have hd : 0 ≤ max hi 0 - min lo 0 := by
      have := le_max_right hi 0; have := min_le_right lo 0; linarith
    by_cases h0 : max hi 0 - min lo 0 = 0
    · simp only [h0, if_true]; rw [div_self hn2.ne']; norm_num
    · simp only [h0, if_false]; exact div_pos hn2 (lt_of_le_of_ne hd (Ne.symm h0))
  refine ⟨⟨?_, ?_⟩, A, ⟨?_, ?_⟩, B⟩
  · intro h; unfold symParams; rw [if_pos h]
  · intro h; by_contra hc
    obtain ⟨s, _, e⟩ := A (not_lt.1 hc); rw [e] at h; cases h
  · intro h; unfold asymParams; rw [if_pos h]
  · intro h; by_contra hc
    obtain ⟨s, z, _, e⟩ := B (not_lt.1 hc); rw [e] at h; cases h

example : symParams 8 0 false = .ok (1, 0) ∧ asymParams 8 0 0 true true = .ok (1, 128) ∧
    asymParams 8 (-1) (1/2) true false = .ok (170, -170) := by decide +kernel

/-! ## C28 – C30 -/

/-- Specification: quantize (with clamping) followed by de-quantize. -/
def fakeQuant (x scale zp : ℚ) (r : ℤ × ℤ) : ℚ :=
  linearDequantize (linearQuantizeClamp x scale zp r.1 r.2) scale zp

/-- Clamped rounding of `v` is within 1/2 of `v` if `v` is within 1/2 of the range. -/
theorem round_clamp_err (v : ℚ) (lo hi : ℤ) (hle : lo ≤ hi) (h1 : (lo : ℚ) - 1/2 ≤ v) (h2 : v ≤ hi + 1/2) :
    |clampQ (roundHalfEven v) lo hi - v| ≤ 1/2 := by
  obtain ⟨b1, b2⟩ := round_bounds v
  have hq : (lo : ℚ) ≤ hi := by exact_mod_cast hle
  unfold clampQ
  rw [abs_le]
  rcases le_or_gt (roundHalfEven v) lo with h | h
  · have hc : (roundHalfEven v : ℚ) ≤ lo := by exact_mod_cast h
    rw [max_eq_right hc, min_eq_left hq]
    have : v ≤ lo + 1/2 := by linarith
    constructor <;> linarith
  · have hc : (lo : ℚ) < roundHalfEven v := by exact_mod_cast h
    rw [max_eq_left hc.le]
    rcases le_or_gt (roundHalfEven v) hi with h' | h'
    · have hc' : (roundHalfEven v : ℚ) ≤ hi := by exact_mod_cast h'
      rw [min_eq_left hc']
      constructor <;> linarith
    · have hc' : (hi : ℚ) < roundHalfEven v := by exact_mod_cast h'
      rw [min_eq_right hc'.le]
      constructor <;> linarith

/-- De-quantized error in terms of the scaled value. -/
theorem fakeQuant_err (x scale zp : ℚ) (hs : 0 < scale) (r : ℤ × ℤ) (hle : r.1 ≤ r.2)
    (h1 : (r.1 : ℚ) - 1/2 ≤ scale * x - zp) (h2 : scale * x - zp ≤ r.2 + 1/2) :
    |fakeQuant x scale zp r - x| ≤ 1 / (2 * scale) := by
  have := round_clamp_err (scale * x - zp) r.1 r.2 hle h1 h2
  unfold fakeQuant linearDequantize linearQuantizeClamp linearQuantize
  have e : (clampQ (roundHalfEven (scale * x - zp)) r.1 r.2 + zp) / scale - x
      = (clampQ (roundHalfEven (scale * x - zp)) r.1 r.2 - (scale * x - zp)) / scale := by
    field_simp; ring
  rw [e, abs_div, abs_of_pos hs, div_le_div_iff₀ hs (by positivity)]
  nlinarith

/-- The parameters of a mode send the range `[min lo 0, max hi 0]` (`[-max|.|, max|.|]` for
symmetric modes) into the integer range widened by half a step, also if the scale is
under-estimated; the zero-point is an integer whose negation is in the range. -/
theorem modeParams_image (mode : QMode) (b : ℕ) (hb : 2 ≤ b) (lo hi scale zp : ℚ)
    (h : modeParams mode b lo hi = .ok (scale, zp)) :
    0 < scale ∧ (∃ z : ℤ, zp = z ∧ (modeRange mode b).1 ≤ -z ∧ -z ≤ (modeRange mode b).2) ∧
    (modeRange mode b).1 ≤ (modeRange mode b).2 ∧
    ∀ s', 0 ≤ s' → s' ≤ scale → ∀ x,
      (if mode.isSym then -(max |lo| |hi|) else min lo 0) ≤ x →
      x ≤ (if mode.isSym then max |lo| |hi| else max hi 0) →
      ((modeRange mode b).1 : ℚ) - 1/2 ≤ s' * x - zp ∧ s' * x - zp ≤ (modeRange mode b).2 + 1/2 := by
  have hb1 : 1 ≤ b := by omega
  have hp := two_pow_pred hb1
  have hp1 := two_pow_pos_int (b - 1)
  have hpq : (2 : ℚ) ^ b = 2 * 2 ^ (b - 1) := by exact_mod_cast hp
  have hgt := pow_two_gt_one (k := b - 1) (by omega)
  have hn2 : (0 : ℚ) < 2 ^ b - 1 := by rw [hpq]; linarith
  by_cases hsym : mode.isSym = true
  · -- symmetric modes
    unfold modeParams at h
    rw [if_pos hsym] at h
    have hsat : 0 ≤ max |lo| |hi| := le_max_of_le_left (abs_nonneg lo)
    simp only [hsym, if_true]
    set sat := max |lo| |hi| with hsatdef
    unfold symParams at h
    rw [if_neg (not_lt.2 hsat)] at h
    injection h with h
    have hz : zp = 0 := (congrArg Prod.snd h).symm
    have hs : scale = _ := (congrArg Prod.fst h).symm
    clear h
    dsimp only at hs
    set n : ℚ := (if decide (mode = QMode.symmetricRestricted) = true then 2 ^ (b - 1) - 1 else (2 ^ b - 1) / 2) with hn
    have hnpos : 0 < n := symN_pos hb _
    -- the scaled saturation value is at most n
    have hsc : 0 < scale ∧ scale * sat ≤ n := by
      by_cases h0 : sat = 0
      · rw [h0] at hs ⊢; rw [if_pos rfl, div_self hnpos.ne'] at hs
        rw [hs]; constructor <;> linarith
      · rw [if_neg h0] at hs
        have : 0 < sat := lt_of_le_of_ne hsat (Ne.symm h0)
        rw [hs]
        exact ⟨div_pos hnpos this, by rw [div_mul_cancel₀ _ h0]⟩
    have hrange : ((modeRange mode b).1 : ℚ) - 1/2 ≤ -n ∧ n ≤ (modeRange mode b).2 + 1/2 ∧
        (modeRange mode b).1 ≤ 0 ∧ 0 ≤ (modeRange mode b).2 := by
      cases mode <;> simp [QMode.isSym] at hsym
      · have e : modeRange .symmetric b = (-(2 ^ (b - 1) - 1) - 1, 2 ^ (b - 1) - 1) := by
          unfold modeRange quantizedRange; simp
        have e2 : n = (2 ^ b - 1) / 2 := by rw [hn]; simp
        rw [e, e2, hpq]; push_cast
        refine ⟨by linarith, by linarith, by omega, by omega⟩
      · have e : modeRange .symmetricRestricted b = (-(2 ^ (b - 1) - 1), 2 ^ (b - 1) - 1) := by
          unfold modeRange quantizedRange; simp
        have e2 : n = 2 ^ (b - 1) - 1 := by rw [hn]; simp
        rw [e, e2]; push_cast
        refine ⟨by linarith, by linarith, by omega, by omega⟩
    obtain ⟨r1, r2, r3, r4⟩ := hrange
    refine ⟨hsc.1, ⟨0, by simp [hz], by simpa using r3, by simpa using r4⟩, le_trans r3 r4, ?_⟩
    intro s' hs0 hs' x hx1 hx2
    rw [hz, sub_zero]
    have hss : s' * sat ≤ n := le_trans (mul_le_mul_of_nonneg_right hs' hsat) hsc.2
    have u1 : s' * x ≤ s' * sat := mul_le_mul_of_nonneg_left hx2 hs0
    have u2 : s' * (-sat) ≤ s' * x := mul_le_mul_of_nonneg_left hx1 hs0
    constructor <;> linarith
  · -- asymmetric modes
    have hsym' : mode.isSym = false := by simpa using hsym
    unfold modeParams at h
    rw [hsym'] at h
    simp only [Bool.false_eq_true, if_false] at h
    simp only [hsym', Bool.false_eq_true, if_false]
    unfold asymParams at h
    by_cases hlt : hi < lo
    · rw [if_pos hlt] at h; cases h
    rw [if_neg hlt] at h
    injection h with h
    have hz : _ = zp := congrArg Prod.snd h
    have hs : _ = scale := congrArg Prod.fst h
    clear h
    simp only [if_true] at hz
    dsimp only at hs hz
    rw [hs] at hz
    set a := min lo 0 with ha
    set c := max hi 0 with hc
    have ha0 : a ≤ 0 := min_le_right _ _
    have hc0 : 0 ≤ c := le_max_right _ _
    set n : ℚ := 2 ^ b - 1 with hn
    have hspos : 0 < scale ∧ scale * (c - a) ≤ n := by
      by_cases h0 : c - a = 0
      · rw [if_pos h0, div_self hn2.ne'] at hs
        rw [h0, ← hs]; constructor <;> linarith
      · rw [if_neg h0] at hs
        have : 0 < c - a := lt_of_le_of_ne (by linarith) (Ne.symm h0)
        rw [← hs]
        exact ⟨div_pos hn2 this, by rw [div_mul_cancel₀ _ h0]⟩
    obtain ⟨hspos, hscale⟩ := hspos
    set z0 := roundHalfEven (scale * a) with hz0
    obtain ⟨b1, b2⟩ := round_bounds (scale * a)
    rw [← hz0] at b1 b2
    have hsa : scale * a ≤ 0 := mul_nonpos_of_nonneg_of_nonpos hspos.le ha0
    have hz0n : z0 ≤ 0 := by
      have := round_mono hsa
      rw [← hz0] at this
      have e : roundHalfEven 0 = 0 := by have := round_int 0; simpa using this
      rw [e] at this; exact this
    have hz0l : -(2 ^ b - 1) ≤ z0 := by
      have h1 : (((-(2 ^ b - 1) : ℤ)) : ℚ) ≤ scale * a := by
        push_cast
        have : scale * c ≥ 0 := mul_nonneg hspos.le hc0
        have : scale * (c - a) = scale * c - scale * a := by ring
        linarith
      have := round_mono h1
      rw [round_int] at this; exact this
    -- offset of the signed mode
    obtain ⟨off, hoff, hr1, hr2⟩ : ∃ off : ℤ, zp = z0 + off ∧ (modeRange mode b).1 = -off ∧
        (modeRange mode b).2 = 2 ^ b - 1 - off := by
      cases mode <;> simp [QMode.isSym] at hsym'
      · refine ⟨0, ?_, ?_, ?_⟩
        · rw [← hz]; simp
        · unfold modeRange quantizedRange; simp
        · unfold modeRange quantizedRange; simp
      · refine ⟨2 ^ (b - 1), ?_, ?_, ?_⟩
        · rw [← hz]; push_cast; simp
        · unfold modeRange quantizedRange; simp
        · unfold modeRange quantizedRange; simp; omega
    rw [hr1, hr2]
    refine ⟨hspos, ⟨z0 + off, by rw [hoff]; push_cast; ring, by omega, by omega⟩, by omega, ?_⟩
    intro s' hs0 hs' x hx1 hx2
    rw [hoff]
    push_cast
    have u1 : s' * x ≤ s' * c := mul_le_mul_of_nonneg_left hx2 hs0
    have u2 : s' * a ≤ s' * x := mul_le_mul_of_nonneg_left hx1 hs0
    have u3 : s' * c ≤ scale * c := mul_le_mul_of_nonneg_right hs' hc0
    have u4 : scale * a ≤ s' * a := mul_le_mul_of_nonpos_right hs' ha0
    have u5 : scale * (c - a) = scale * c - scale * a := by ring
    constructor <;> linarith

/-- **C28** In every mode, with the parameters the library computes for the range `[lo, hi]`,
quantizing and de-quantizing any `x` of the represented range (the range extended to contain 0;
`[-max(|lo|,|hi|), max(|lo|,|hi|)]` in symmetric modes) changes it by at most half a step. -/
theorem C28_error (mode : QMode) (b : ℕ) (hb : 2 ≤ b) (lo hi scale zp : ℚ)
    (h : modeParams mode b lo hi = .ok (scale, zp)) (x : ℚ)
    (hx : if mode.isSym then |x| ≤ max |lo| |hi| else min lo 0 ≤ x ∧ x ≤ max hi 0) :
    |fakeQuant x scale zp (modeRange mode b) - x| ≤ 1 / (2 * scale) := by
  obtain ⟨hs, _, hle, himg⟩ := modeParams_image mode b hb lo hi scale zp h
  have hh := himg scale hs.le le_rfl x
  apply fakeQuant_err x scale zp hs _ hle
  · refine (hh ?_ ?_).1
    · split <;> rename_i hm <;> simp only [hm, if_true, if_false, Bool.false_eq_true] at hx
      · exact (abs_le.1 hx).1
      · exact hx.1
    · split <;> rename_i hm <;> simp only [hm, if_true, if_false, Bool.false_eq_true] at hx
      · exact (abs_le.1 hx).2
      · exact hx.2
  · refine (hh ?_ ?_).2
    · split <;> rename_i hm <;> simp only [hm, if_true, if_false, Bool.false_eq_true] at hx
      · exact (abs_le.1 hx).1
      · exact hx.1
    · split <;> rename_i hm <;> simp only [hm, if_true, if_false, Bool.false_eq_true] at hx
      · exact (abs_le.1 hx).2
      · exact hx.2

/-- **C29** Zero is quantized without saturation (to the negated zero-point, an integer of the
range) and de-quantizes to exactly 0, in every mode, for every range and any scale used with that
zero-point. -/
theorem C29_zero (mode : QMode) (b : ℕ) (hb : 2 ≤ b) (lo hi scale zp : ℚ)
    (h : modeParams mode b lo hi = .ok (scale, zp)) (s' : ℚ) :
    (∃ z : ℤ, linearQuantize 0 s' zp = z ∧ (modeRange mode b).1 ≤ z ∧ z ≤ (modeRange mode b).2) ∧
    fakeQuant 0 s' zp (modeRange mode b) = 0 := by
  obtain ⟨hs, ⟨z, hz, hz1, hz2⟩, hle, _⟩ := modeParams_image mode b hb lo hi scale zp h
  have e : linearQuantize 0 s' zp = ((-z : ℤ) : ℚ) := by
    unfold linearQuantize
    rw [hz, show s' * 0 - (z : ℚ) = ((-z : ℤ) : ℚ) by push_cast; ring, round_int]
  refine ⟨⟨-z, e, hz1, hz2⟩, ?_⟩
  unfold fakeQuant linearQuantizeClamp
  rw [e, clampQ_int, max_eq_left hz1, min_eq_left hz2]
  unfold linearDequantize
  rw [hz]; push_cast; simp

/-- **C30** Fake quantization with fixed parameters is idempotent (any zero-point, integral or
not), with and without clamping. -/
theorem C30_idempotent (x scale zp : ℚ) (hs : 0 < scale) (r : ℤ × ℤ) (hr : r.1 ≤ r.2) :
    fakeQuant (fakeQuant x scale zp r) scale zp r = fakeQuant x scale zp r ∧
    linearDequantize (linearQuantize (linearDequantize (linearQuantize x scale zp) scale zp) scale zp) scale zp
      = linearDequantize (linearQuantize x scale zp) scale zp := by
  have key : ∀ n : ℤ, linearQuantize (linearDequantize n scale zp) scale zp = n := by
    intro n
    unfold linearQuantize linearDequantize
    rw [show scale * (((n : ℚ) + zp) / scale) - zp = ((n : ℤ) : ℚ) by field_simp; ring, round_int]
  constructor
  · obtain ⟨n, hn, h1, h2⟩ := (C27_integer_in_range scale zp r.1 r.2 hr).1 x
    have e : fakeQuant x scale zp r = linearDequantize (n : ℚ) scale zp := by unfold fakeQuant; rw [hn]
    rw [e]
    unfold fakeQuant linearQuantizeClamp
    rw [key n, clampQ_int, max_eq_left h1, min_eq_left h2]
  · show linearDequantize (linearQuantize (linearDequantize ((roundHalfEven (scale * x - zp) : ℤ) : ℚ) scale zp) scale zp) scale zp = _
    rw [key]; rfl

/-- Non-vacuity of C28 / C29: an 8-bit signed-asymmetric range. -/
example : modeParams .asymmetricSigned 8 (-1) (1/2) = .ok (170, -42) ∧
    fakeQuant (3/10) 170 (-42) (modeRange .asymmetricSigned 8) = 3/10 ∧
    fakeQuant (1/3) 170 (-42) (modeRange .asymmetricSigned 8) = 57/170 := by decide +kernel

/-! ## C32 -/

/-- **C32** For every positive scale and multiplier width ≥ 2 the integer approximation
`mult / 2^shift` never exceeds the scale, is less than `2^-shift` below it, and `mult` fits in
`mult_bits` bits; without the limit the relative error is below `2^-(mult_bits - 1)` and the
approximated scale stays positive; with the limit the shift is at most `mult_bits`. -/
theorem C32_scale_approx (scale : ℚ) (hs : 0 < scale) (m : ℕ) (hm : 2 ≤ m) (limit : Bool) :
    let sh := shiftBits scale m limit
    let mult := approxMult scale sh
    approxScale scale m limit = mult / 2 ^ sh ∧
    0 ≤ mult ∧ mult ≤ 2 ^ m - 1 ∧
    approxScale scale m limit ≤ scale ∧ scale - approxScale scale m limit < 1 / 2 ^ sh ∧
    (limit = false → scale - approxScale scale m limit < scale / 2 ^ (m - 1) ∧ 0 < approxScale scale m limit) ∧
    (limit = true → sh ≤ m) := by
  intro sh mult
  have hn2 : (0 : ℚ) < 2 ^ m - 1 := by have := pow_two_gt_one (k := m) (by omega); linarith
  have hr : (0 : ℚ) < (2 ^ m - 1) / scale := div_pos hn2 hs
  set L := Int.log 2 (((2 : ℚ) ^ m - 1) / scale) with hL
  have hLle : (2 : ℚ) ^ L ≤ (2 ^ m - 1) / scale := Int.zpow_log_le_self (b := 2) (by norm_num) hr
  have hLlt : (2 ^ m - 1) / scale < (2 : ℚ) ^ (L + 1) := Int.lt_zpow_succ_log_self (b := 2) (by norm_num) _
  have hshL : sh ≤ L := by
    show shiftBits scale m limit ≤ L
    unfold shiftBits
    cases limit
    · simp [hL]
    · simp only [if_true]; exact min_le_right _ _
  have hpp : (0 : ℚ) < 2 ^ sh := zpow_pos (by norm_num) _
  have hle : (2 : ℚ) ^ sh ≤ 2 ^ L := zpow_le_zpow_right₀ (by norm_num) hshL
  have hy0 : 0 < scale * 2 ^ sh := mul_pos hs hpp
  have hy1 : scale * 2 ^ sh ≤ 2 ^ m - 1 := by
    have : (2 : ℚ) ^ sh ≤ (2 ^ m - 1) / scale := le_trans hle hLle
    rw [le_div_iff₀ hs] at this
    linarith
  have hfl := Int.floor_le (scale * 2 ^ sh)
  have hfl2 := Int.lt_floor_add_one (scale * 2 ^ sh)
  have hmult : mult = ⌊scale * 2 ^ sh⌋ := rfl
  rw [← hmult] at hfl hfl2
  have happ : approxScale scale m limit = mult / 2 ^ sh := rfl
  have hm0 : 0 ≤ mult := by rw [hmult]; exact Int.floor_nonneg.2 hy0.le
  refine ⟨happ, hm0, ?_, ?_, ?_, ?_, ?_⟩
  · have : (mult : ℚ) ≤ ((2 ^ m - 1 : ℤ) : ℚ) := by push_cast; linarith
    exact_mod_cast this
  · rw [happ, div_le_iff₀ hpp]; exact hfl
  · rw [happ]
    rw [lt_div_iff₀ hpp, sub_mul, div_mul_cancel₀ _ hpp.ne']; linarith
  · intro hl
    have hshe : sh = L := by
      show shiftBits scale m limit = L
      unfold shiftBits; rw [hl]; simp [hL]
    have hy2 : (2 ^ m - 1) / 2 < scale * 2 ^ sh := by
      rw [hshe]
      rw [zpow_add_one₀ (by norm_num), div_lt_iff₀ hs] at hLlt
      linarith
    have hpq : (2 : ℚ) ^ m = 2 * 2 ^ (m - 1) := by
      obtain ⟨k, rfl⟩ : ∃ k, m = k + 1 := ⟨m - 1, by omega⟩
      rw [Nat.add_sub_cancel, pow_succ]; ring
    set P : ℤ := 2 ^ (m - 1) with hP
    have hPq : (2 : ℚ) ^ (m - 1) = (P : ℚ) := by rw [hP]; push_cast; rfl
    have hPge : 2 ≤ P := by
      obtain ⟨k, rfl⟩ : ∃ k, m = k + 2 := ⟨m - 2, by omega⟩
      rw [hP, show k + 2 - 1 = k + 1 by omega, pow_succ]
      have := two_pow_pos_int k; omega
    have hPgeq : (2 : ℚ) ≤ P := by exact_mod_cast hPge
    rw [hpq, hPq] at hy2
    -- y > P - 1/2
    have hmge : P - 1 ≤ mult := by
      have : (P : ℚ) - 1 < (mult : ℚ) + 1 := by linarith
      have : P - 1 < mult + 1 := by exact_mod_cast this
      omega
    have hkey : (scale * 2 ^ sh - mult) * P < scale * 2 ^ sh := by
      rcases eq_or_lt_of_le hmge with he | hg
      · -- mult = P - 1, y < P
        have e : (mult : ℚ) = P - 1 := by rw [← he]; push_cast; ring
        rw [e] at hfl hfl2 ⊢
        nlinarith
      · have hmP : (P : ℚ) ≤ mult := by exact_mod_cast (by omega : P ≤ mult)
        nlinarith
    constructor
    · rw [happ, hPq, lt_div_iff₀ (by linarith : (0 : ℚ) < P)]
      have : (scale - mult / 2 ^ sh) * P = ((scale * 2 ^ sh - mult) * P) / 2 ^ sh := by field_simp
      rw [this, div_lt_iff₀ hpp]; exact hkey
    · rw [happ]
      have : (0 : ℚ) < mult := by exact_mod_cast (by omega : 0 < mult)
      positivity
  · intro hl
    show shiftBits scale m limit ≤ m
    unfold shiftBits; rw [hl]; simp

example : shiftBits (3/10) 4 false = 5 ∧ approxMult (3/10) 5 = 9 ∧ approxScale (3/10) 4 false = 9/32 := by
  decide +kernel

/-! ## C33 -/

/-- Closed form of the parameters for a non-degenerate range. -/
theorem modeParams_form (mode : QMode) (b : ℕ) (hb : 2 ≤ b) (lo hi scale zp : ℚ) (hne : lo ≠ 0 ∨ hi ≠ 0)
    (h : modeParams mode b lo hi = .ok (scale, zp)) :
    (mode.isSym = true → zp = 0 ∧
      scale * max |lo| |hi| = (if mode = .symmetricRestricted then 2 ^ (b - 1) - 1 else (2 ^ b - 1) / 2)) ∧
    (mode.isSym = false → scale * (max hi 0 - min lo 0) = 2 ^ b - 1 ∧
      zp = roundHalfEven (scale * min lo 0) + (if mode = .asymmetricSigned then 2 ^ (b - 1) else 0)) := by
  constructor
  · intro hsym
    have hsat : 0 < max |lo| |hi| := by
      rcases hne with h' | h'
      · exact lt_max_of_lt_left (abs_pos.2 h')
      · exact lt_max_of_lt_right (abs_pos.2 h')
    unfold modeParams at h
    rw [if_pos hsym] at h
    unfold symParams at h
    rw [if_neg (not_lt.2 hsat.le)] at h
    injection h with h
    have hz : _ = zp := congrArg Prod.snd h
    have hs : _ = scale := congrArg Prod.fst h
    dsimp only at hz hs
    rw [if_neg hsat.ne'] at hs
    refine ⟨hz.symm, ?_⟩
    rw [← hs, div_mul_cancel₀ _ hsat.ne']
    simp
  · intro hsym
    unfold modeParams at h
    rw [hsym] at h
    simp only [Bool.false_eq_true, if_false] at h
    unfold asymParams at h
    by_cases hlt : hi < lo
    · rw [if_pos hlt] at h; cases h
    rw [if_neg hlt] at h
    injection h with h
    have hz : _ = zp := congrArg Prod.snd h
    have hs : _ = scale := congrArg Prod.fst h
    simp only [if_true] at hz
    dsimp only at hz hs
    have hd : max hi 0 - min lo 0 ≠ 0 := by
      intro h0
      have h1 := le_max_left hi 0
      have h2 := le_max_right hi 0
      have h3 := min_le_left lo 0
      have h4 := min_le_right lo 0
      rcases hne with h' | h'
      · apply h'; linarith [not_lt.1 hlt]
      · apply h'; linarith [not_lt.1 hlt]
    rw [hs] at hz
    rw [if_neg hd] at hs
    refine ⟨by rw [← hs, div_mul_cancel₀ _ hd], ?_⟩
    rw [← hz]
    by_cases hm : mode = .asymmetricSigned <;> simp [hm]

theorem div_sub_abs_le (y s x : ℚ) (hs : 0 < s) (h : |y - s * x| ≤ 1/2) : |y / s - x| ≤ 1 / (2 * s) := by
  have e : y / s - x = (y - s * x) / s := by field_simp
  rw [e, abs_div, abs_of_pos hs, div_le_div_iff₀ hs (by positivity)]
  nlinarith

/-- **C33** (partial: symmetric and unsigned-asymmetric modes, non-degenerate range) The clipping
values reported for library-computed parameters are within half a step of the (zero-including)
range they were computed from. -/
theorem C33_clipping_partial (mode : QMode) (hm : mode = .symmetric ∨ mode = .asymmetricUnsigned) (b : ℕ)
    (hb : 2 ≤ b) (lo hi scale zp : ℚ) (hne : lo ≠ 0 ∨ hi ≠ 0) (h : modeParams mode b lo hi = .ok (scale, zp)) :
    |(clippingValues scale zp b mode).1 - (if mode.isSym then -(max |lo| |hi|) else min lo 0)| ≤ 1 / (2 * scale) ∧
    |(clippingValues scale zp b mode).2 - (if mode.isSym then max |lo| |hi| else max hi 0)| ≤ 1 / (2 * scale) := by
  obtain ⟨hs, _, _, _⟩ := modeParams_image mode b hb lo hi scale zp h
  obtain ⟨F1, F2⟩ := modeParams_form mode b hb lo hi scale zp hne h
  have hpq : (2 : ℚ) ^ b = 2 * 2 ^ (b - 1) := by exact_mod_cast two_pow_pred (by omega : 1 ≤ b)
  rcases hm with rfl | rfl
  · obtain ⟨hz, hsc⟩ := F1 rfl
    simp only [reduceCtorEq, if_false] at hsc
    simp only [QMode.isSym, if_true, clippingValues, linearDequantize, hz, add_zero]
    constructor
    · apply div_sub_abs_le _ _ _ hs
      rw [mul_neg, hsc, hpq, abs_le]; constructor <;> linarith
    · apply div_sub_abs_le _ _ _ hs
      rw [hsc, hpq, abs_le]; constructor <;> linarith
  · obtain ⟨hsc, hz⟩ := F2 rfl
    simp only [reduceCtorEq, if_false, add_zero] at hz
    have hb' := round_bounds (scale * min lo 0)
    rw [← hz] at hb'
    simp only [QMode.isSym, Bool.false_eq_true, if_false, clippingValues, linearDequantize]
    have e : scale * max hi 0 = 2 ^ b - 1 + scale * min lo 0 := by rw [← hsc]; ring
    constructor
    · apply div_sub_abs_le _ _ _ hs
      rw [abs_le]; constructor <;> linarith [hb'.1, hb'.2]
    · apply div_sub_abs_le _ _ _ hs
      rw [e, abs_le]; constructor <;> linarith [hb'.1, hb'.2]

/-- **C33** is violated for signed-asymmetric mode, for *every* non-degenerate range and bit width:
the reported range is shifted upwards by `2^(b-1)` steps (half the range), up to half a step. -/
theorem C33_violated_asymmetric_signed (b : ℕ) (hb : 2 ≤ b) (lo hi scale zp : ℚ) (hne : lo ≠ 0 ∨ hi ≠ 0)
    (h : modeParams .asymmetricSigned b lo hi = .ok (scale, zp)) :
    |(clippingValues scale zp b .asymmetricSigned).1 - (min lo 0 + 2 ^ (b - 1) / scale)| ≤ 1 / (2 * scale) ∧
    |(clippingValues scale zp b .asymmetricSigned).2 - (max hi 0 + 2 ^ (b - 1) / scale)| ≤ 1 / (2 * scale) := by
  obtain ⟨hs, _, _, _⟩ := modeParams_image _ b hb lo hi scale zp h
  obtain ⟨hsc, hz⟩ := (modeParams_form _ b hb lo hi scale zp hne h).2 rfl
  simp only [if_true] at hz
  have hb' := round_bounds (scale * min lo 0)
  simp only [QMode.isSym, Bool.false_eq_true, if_false, clippingValues, linearDequantize]
  have e : scale * max hi 0 = 2 ^ b - 1 + scale * min lo 0 := by rw [← hsc]; ring
  constructor
  · apply div_sub_abs_le _ _ _ hs
    rw [mul_add, mul_div_cancel₀ _ hs.ne', hz, abs_le]; constructor <;> linarith [hb'.1, hb'.2]
  · apply div_sub_abs_le _ _ _ hs
    rw [mul_add, mul_div_cancel₀ _ hs.ne', hz, e, abs_le]; constructor <;> linarith [hb'.1, hb'.2]

/-- **C33** (partial: symmetric and unsigned-asymmetric modes) The reported values are the saturation values: every
quantized and de-quantized value lies between them, everything at or below the first maps to the first and
everything at or above the second to the second. -/
theorem C33_saturation_partial (mode : QMode) (hm : mode = .symmetric ∨ mode = .asymmetricUnsigned) (b : ℕ) (hb : 2 ≤ b)
    (scale zp : ℚ) (hs : 0 < scale) (x : ℚ) :
    let c := clippingValues scale zp b mode
    let r := modeRange mode b
    let y := linearDequantize (linearQuantizeClamp x scale zp r.1 r.2) scale zp
    c.1 ≤ y ∧ y ≤ c.2 ∧ (x ≤ c.1 → y = c.1) ∧ (c.2 ≤ x → y = c.2) := by
  have hr : (clippingValues scale zp b mode).1 = linearDequantize ((modeRange mode b).1 : ℚ) scale zp ∧
      (clippingValues scale zp b mode).2 = linearDequantize ((modeRange mode b).2 : ℚ) scale zp := by
    rcases hm with rfl | rfl <;> simp [clippingValues, modeRange, quantizedRange, QMode.isSym]
  have hle : (modeRange mode b).1 ≤ (modeRange mode b).2 := by
    have := two_pow_pos_int (b - 1)
    have := two_pow_pos_int b
    rcases hm with rfl | rfl <;> simp [modeRange, quantizedRange] <;> omega
  dsimp only
  rw [hr.1, hr.2]
  generalize (modeRange mode b) = r at hle
  have hle' : (r.1 : ℚ) ≤ r.2 := by exact_mod_cast hle
  have hmem := clampQ_mem (x := linearQuantize x scale zp) hle'
  unfold linearDequantize linearQuantizeClamp
  refine ⟨?_, ?_, ?_, ?_⟩
  · apply (div_le_div_iff_of_pos_right hs).2; linarith [hmem.1]
  · apply (div_le_div_iff_of_pos_right hs).2; linarith [hmem.2]
  · intro h
    rw [le_div_iff₀ hs] at h
    have : (linearQuantize x scale zp) ≤ r.1 := by
      unfold linearQuantize
      have hb := round_bounds (scale * x - zp)
      have h1 : ((roundHalfEven (scale * x - zp) : ℤ) : ℚ) < r.1 + 1 := by linarith [hb.2]
      have : roundHalfEven (scale * x - zp) < r.1 + 1 := by exact_mod_cast h1
      exact_mod_cast (by omega : roundHalfEven (scale * x - zp) ≤ r.1)
    unfold clampQ
    rw [max_eq_right this, min_eq_left hle']
  · intro h
    rw [div_le_iff₀ hs] at h
    have : (r.2 : ℚ) ≤ (linearQuantize x scale zp) := by
      unfold linearQuantize
      have hb := round_bounds (scale * x - zp)
      have h1 : (r.2 : ℚ) - 1 < ((roundHalfEven (scale * x - zp) : ℤ) : ℚ) := by linarith [hb.1]
      have : r.2 - 1 < roundHalfEven (scale * x - zp) := by exact_mod_cast h1
      exact_mod_cast (by omega : r.2 ≤ roundHalfEven (scale * x - zp))
    unfold clampQ
    rw [max_eq_left (hle'.trans this), min_eq_right this]

/-- **C33** is violated for restricted-symmetric mode, for every non-degenerate range: the maximum
is exact but the reported minimum is a full step below the real one. -/
theorem C33_violated_restricted (b : ℕ) (hb : 2 ≤ b) (lo hi scale zp : ℚ) (hne : lo ≠ 0 ∨ hi ≠ 0)
    (h : modeParams .symmetricRestricted b lo hi = .ok (scale, zp)) :
    (clippingValues scale zp b .symmetricRestricted).2 = max |lo| |hi| ∧
    (clippingValues scale zp b .symmetricRestricted).1 = -(max |lo| |hi|) - 1 / scale := by
  obtain ⟨hs, _, _, _⟩ := modeParams_image _ b hb lo hi scale zp h
  obtain ⟨hz, hsc⟩ := (modeParams_form _ b hb lo hi scale zp hne h).1 rfl
  simp only [if_true] at hsc
  simp only [QMode.isSym, if_true, clippingValues, linearDequantize, hz, add_zero]
  constructor
  · rw [div_eq_iff hs.ne', mul_comm]; exact hsc.symm
  · rw [div_eq_iff hs.ne', sub_mul, div_mul_cancel₀ _ hs.ne', neg_mul, mul_comm (max _ _), hsc]; ring

example : modeParams .symmetric 8 (-1) (1/2) = .ok (255/2, 0) ∧
    clippingValues (255/2) 0 8 .symmetric = (-256/255, 254/255) ∧
    modeParams .asymmetricSigned 8 (-1) 1 = .ok (255/2, 0) ∧
    clippingValues (255/2) 0 8 .asymmetricSigned = (0, 2) := by decide +kernel

/-! ## C62: quantizing a tensor with its own parameters -/

theorem foldl_min_le (l : List ℚ) (a : ℚ) : l.foldl min a ≤ a ∧ ∀ x ∈ l, l.foldl min a ≤ x := by
  induction l generalizing a with
  | nil => simp
  | cons y l ih =>
    obtain ⟨h1, h2⟩ := ih (min a y)
    simp only [List.foldl_cons, List.forall_mem_cons]
    exact ⟨le_trans h1 (min_le_left _ _), le_trans h1 (min_le_right _ _), h2⟩

theorem le_foldl_max (l : List ℚ) (a : ℚ) : a ≤ l.foldl max a ∧ ∀ x ∈ l, x ≤ l.foldl max a := by
  induction l generalizing a with
  | nil => simp
  | cons y l ih =>
    obtain ⟨h1, h2⟩ := ih (max a y)
    simp only [List.foldl_cons, List.forall_mem_cons]
    exact ⟨le_trans (le_max_left _ _) h1, le_trans (le_max_right _ _) h1, h2⟩

theorem tensorMinMax_spec {t : Tensor} (h : t ≠ []) :
    ∃ lo hi, tensorMinMax t = .ok (lo, hi) ∧ ∀ x ∈ t, lo ≤ x ∧ x ≤ hi := by
  cases t with
  | nil => exact absurd rfl h
  | cons y t =>
    refine ⟨_, _, rfl, ?_⟩
    intro x hx
    rcases List.mem_cons.1 hx with rfl | hx
    · exact ⟨(foldl_min_le t x).1, (le_foldl_max t x).1⟩
    · exact ⟨(foldl_min_le t y).2 x hx, (le_foldl_max t y).2 x hx⟩

/-- `paramsFromTensor` without clipping is `modeParams` on the tensor's extrema. -/
theorem paramsFromTensor_none (rows : List Tensor) (b : ℕ) (mode : QMode) (approx : Option ℕ) {lo hi : ℚ}
    (h : tensorMinMax rows.flatten = .ok (lo, hi)) :
    paramsFromTensor rows b mode .none approx = (do
      let p ← modeParams mode b lo hi
      match approx with
      | none => return p
      | some m => return (approxScale p.1 m false, p.2)) := by
  unfold paramsFromTensor modeParams tensorMaxAbs
  by_cases hm : mode.isSym = true
  · simp only [hm, if_true, h]; rfl
  · simp only [hm, if_false, h, Bool.false_eq_true]; rfl

theorem mem_range_of {mode : QMode} {lo hi x : ℚ} (h1 : lo ≤ x) (h2 : x ≤ hi) :
    (if mode.isSym then -(max |lo| |hi|) else min lo 0) ≤ x ∧
    x ≤ (if mode.isSym then max |lo| |hi| else max hi 0) := by
  split
  · constructor
    · have : -|lo| ≤ lo := neg_abs_le lo
      have : |lo| ≤ max |lo| |hi| := le_max_left _ _
      linarith
    · have : hi ≤ |hi| := le_abs_self hi
      have : |hi| ≤ max |lo| |hi| := le_max_right _ _
      linarith
  · exact ⟨le_trans (min_le_left _ _) h1, le_trans h2 (le_max_left _ _)⟩

/-- **C62** For every non-empty tensor, mode and bit width ≥ 2, quantization parameters computed
from the tensor without clipping exist, the scale is positive, and fake-quantizing any element of
the tensor changes it by at most half a step – also when the scale is replaced by its
multiply-and-shift approximation. -/
theorem C62_tensor (rows : List Tensor) (hne : rows.flatten ≠ []) (b : ℕ) (hb : 2 ≤ b) (mode : QMode)
    (approx : Option ℕ) (ha : ∀ m ∈ approx, 2 ≤ m) :
    ∃ s zp, paramsFromTensor rows b mode .none approx = .ok (s, zp) ∧ 0 < s ∧
      fakeQuant 0 s zp (modeRange mode b) = 0 ∧
      ∀ x ∈ rows.flatten, |fakeQuant x s zp (modeRange mode b) - x| ≤ 1 / (2 * s) := by
  obtain ⟨lo, hi, hmm, hmem⟩ := tensorMinMax_spec hne
  have hlohi : lo ≤ hi := by
    obtain ⟨x, hx⟩ := List.exists_mem_of_ne_nil _ hne
    exact le_trans (hmem x hx).1 (hmem x hx).2
  obtain ⟨s, zp, hp⟩ : ∃ s zp, modeParams mode b lo hi = .ok (s, zp) := by
    unfold modeParams
    by_cases hm : mode.isSym = true
    · rw [if_pos hm]
      obtain ⟨s, _, e⟩ := (C31_params_total b hb (decide (mode = .symmetricRestricted)) true true (max |lo| |hi|) 0 0).2.1
        (le_max_of_le_left (abs_nonneg _))
      exact ⟨s, 0, e⟩
    · rw [if_neg hm]
      obtain ⟨s, z, _, e⟩ := (C31_params_total b hb true true (decide (mode = .asymmetricSigned)) 0 lo hi).2.2.2 hlohi
      exact ⟨s, z, e⟩
  obtain ⟨hs, _, hle, himg⟩ := modeParams_image mode b hb lo hi s zp hp
  rw [paramsFromTensor_none rows b mode approx hmm, hp]
  have fin : ∀ s', 0 < s' → s' ≤ s → ∀ x ∈ rows.flatten,
      |fakeQuant x s' zp (modeRange mode b) - x| ≤ 1 / (2 * s') := by
    intro s' h0 h1 x hx
    obtain ⟨m1, m2⟩ := mem_range_of (mode := mode) (hmem x hx).1 (hmem x hx).2
    obtain ⟨i1, i2⟩ := himg s' h0.le h1 x m1 m2
    exact fakeQuant_err x s' zp h0 _ hle i1 i2
  cases approx with
  | none => exact ⟨s, zp, rfl, hs, (C29_zero mode b hb lo hi s zp hp s).2, fin s hs le_rfl⟩
  | some m =>
    obtain ⟨_, _, _, a1, _, a2, _⟩ := C32_scale_approx s hs m (ha m rfl) false
    exact ⟨approxScale s m false, zp, rfl, (a2 rfl).2, (C29_zero mode b hb lo hi s zp hp _).2,
      fin _ (a2 rfl).2 a1⟩

/-- **C62** (per channel) With per-channel parameters the bound holds for every element of every
channel with that channel's own step. -/
theorem C62_per_channel (rows : List Tensor) (hne : ∀ r ∈ rows, r ≠ []) (b : ℕ) (hb : 2 ≤ b) (mode : QMode)
    (approx : Option ℕ) (ha : ∀ m ∈ approx, 2 ≤ m) :
    ∃ ps, paramsPerChannel rows b mode approx = .ok ps ∧ ps.length = rows.length ∧
      ∀ (i : ℕ) (r : Tensor) (p : ℚ × ℚ), rows[i]? = some r → ps[i]? = some p →
        0 < p.1 ∧ ∀ x ∈ r, |fakeQuant x p.1 p.2 (modeRange mode b) - x| ≤ 1 / (2 * p.1) := by
  unfold paramsPerChannel
  induction rows with
  | nil => exact ⟨[], rfl, rfl, by simp⟩
  | cons r rows ih =>
    obtain ⟨ps, e, hl, hps⟩ := ih (fun r hr => hne r (by simp [hr]))
    have hr : [r].flatten ≠ [] := by simpa using hne r (by simp)
    obtain ⟨s, zp, e1, hs, _, hx⟩ := C62_tensor [r] hr b hb mode approx ha
    refine ⟨(s, zp) :: ps, ?_, by simp [hl], ?_⟩
    · rw [List.mapM_cons, e1, e]; rfl
    · intro i r' p h1 h2
      cases i with
      | zero =>
        simp at h1 h2; subst h1; subst h2
        exact ⟨hs, fun x hx' => hx x (by simpa using hx')⟩
      | succ i => exact hps i r' p (by simpa using h1) (by simpa using h2)

example : paramsFromTensor [[1, -2], [1/2, 0]] 4 .asymmetricUnsigned .none none = .ok (5, -10) := by decide +kernel

/-- **C62** (saturation) Values outside a non-degenerate range are mapped to within half a step
of the nearest end of the range. -/
theorem C62_saturation (mode : QMode) (b : ℕ) (hb : 2 ≤ b) (lo hi scale zp : ℚ) (hne : lo ≠ 0 ∨ hi ≠ 0)
    (h : modeParams mode b lo hi = .ok (scale, zp)) (x : ℚ) :
    (max hi 0 ≤ x ∧ mode.isSym = false → |fakeQuant x scale zp (modeRange mode b) - max hi 0| ≤ 1 / (2 * scale)) ∧
    (x ≤ min lo 0 ∧ mode.isSym = false → |fakeQuant x scale zp (modeRange mode b) - min lo 0| ≤ 1 / (2 * scale)) ∧
    (max |lo| |hi| ≤ x ∧ mode.isSym = true → |fakeQuant x scale zp (modeRange mode b) - (max |lo| |hi|)| ≤ 1 / (2 * scale)) ∧
    (x ≤ -(max |lo| |hi|) ∧ mode.isSym = true →
      |fakeQuant x scale zp (modeRange mode b) - -(max |lo| |hi|)| ≤ 1 / (2 * scale)) := by
  obtain ⟨hs, _, hle, himg⟩ := modeParams_image mode b hb lo hi scale zp h
  obtain ⟨F1, F2⟩ := modeParams_form mode b hb lo hi scale zp hne h
  have hpq : (2 : ℚ) ^ b = 2 * 2 ^ (b - 1) := by exact_mod_cast two_pow_pred (by omega : 1 ≤ b)
  -- the ends of the integer range are within half a step of the scaled ends
  have ends : ∀ e : ℚ, (mode.isSym = false ∧ (e = max hi 0) ∨ mode.isSym = true ∧ e = max |lo| |hi|) →
      ((modeRange mode b).2 : ℚ) ≤ scale * e - zp + 1/2 := by
    rintro e (⟨hm, rfl⟩ | ⟨hm, rfl⟩)
    · obtain ⟨hsc, hz⟩ := F2 hm
      have hb' := round_bounds (scale * min lo 0)
      have e2 : scale * max hi 0 = 2 ^ b - 1 + scale * min lo 0 := by rw [← hsc]; ring
      rw [e2, hz]
      cases mode <;> simp [QMode.isSym] at hm <;> simp [modeRange, quantizedRange] <;> linarith [hb'.1, hb'.2]
    · obtain ⟨hz, hsc⟩ := F1 hm
      rw [hsc, hz]
      cases mode <;> simp [QMode.isSym] at hm <;> simp [modeRange, quantizedRange] <;> linarith
  have ends2 : ∀ e : ℚ, (mode.isSym = false ∧ (e = min lo 0) ∨ mode.isSym = true ∧ e = -(max |lo| |hi|)) →
      scale * e - zp - 1/2 ≤ ((modeRange mode b).1 : ℚ) := by
    rintro e (⟨hm, rfl⟩ | ⟨hm, rfl⟩)
    · obtain ⟨hsc, hz⟩ := F2 hm
      have hb' := round_bounds (scale * min lo 0)
      rw [hz]
      cases mode <;> simp [QMode.isSym] at hm <;> simp [modeRange, quantizedRange] <;> linarith [hb'.1, hb'.2]
    · obtain ⟨hz, hsc⟩ := F1 hm
      rw [mul_neg, hsc, hz]
      cases mode <;> simp [QMode.isSym] at hm <;> simp [modeRange, quantizedRange] <;> linarith
  have hmono := (C27_integer_in_range scale zp _ _ hle).2 hs.le
  have hmem : ∀ y, linearQuantizeClamp y scale zp (modeRange mode b).1 (modeRange mode b).2 ≤ (modeRange mode b).2 ∧
      ((modeRange mode b).1 : ℚ) ≤ linearQuantizeClamp y scale zp (modeRange mode b).1 (modeRange mode b).2 := by
    intro y
    obtain ⟨n, e, h1, h2⟩ := (C27_integer_in_range scale zp _ _ hle).1 y
    rw [e]; exact ⟨by exact_mod_cast h2, by exact_mod_cast h1⟩
  have up : ∀ e : ℚ, (mode.isSym = false ∧ (e = max hi 0) ∨ mode.isSym = true ∧ e = max |lo| |hi|) → e ≤ x →
      |fakeQuant x scale zp (modeRange mode b) - e| ≤ 1 / (2 * scale) := by
    intro e he hx
    have h1 := ends e he
    have h2 := hmono e x hx
    have h3 : |fakeQuant e scale zp (modeRange mode b) - e| ≤ 1 / (2 * scale) := by
      have himg' := himg scale hs.le le_rfl e
      have : (if mode.isSym then -(max |lo| |hi|) else min lo 0) ≤ e ∧ e ≤ (if mode.isSym then max |lo| |hi| else max hi 0) := by
        have g1 : min lo 0 ≤ 0 := min_le_right _ _
        have g2 : 0 ≤ max hi 0 := le_max_right _ _
        have g3 : 0 ≤ max |lo| |hi| := le_max_of_le_left (abs_nonneg _)
        rcases he with ⟨hm, rfl⟩ | ⟨hm, rfl⟩ <;> simp only [hm, if_true, if_false, Bool.false_eq_true]
        · exact ⟨by linarith, le_rfl⟩
        · exact ⟨by linarith, le_rfl⟩
      obtain ⟨i1, i2⟩ := himg' this.1 this.2
      exact fakeQuant_err e scale zp hs _ hle i1 i2
    unfold fakeQuant at h3 ⊢
    apply div_sub_abs_le _ _ _ hs
    have h4 : |linearQuantizeClamp e scale zp (modeRange mode b).1 (modeRange mode b).2 + zp - scale * e| ≤ 1/2 := by
      unfold linearDequantize at h3
      have e1 : (linearQuantizeClamp e scale zp (modeRange mode b).1 (modeRange mode b).2 + zp) / scale - e
        = (linearQuantizeClamp e scale zp (modeRange mode b).1 (modeRange mode b).2 + zp - scale * e) / scale := by field_simp
      rw [e1, abs_div, abs_of_pos hs, div_le_div_iff₀ hs (by positivity)] at h3
      nlinarith
    rw [abs_le] at h4 ⊢
    have h5 := (hmem x).1
    constructor <;> linarith [h4.1, h4.2]
  have down : ∀ e : ℚ, (mode.isSym = false ∧ (e = min lo 0) ∨ mode.isSym = true ∧ e = -(max |lo| |hi|)) → x ≤ e →
      |fakeQuant x scale zp (modeRange mode b) - e| ≤ 1 / (2 * scale) := by
    intro e he hx
    have h1 := ends2 e he
    have h2 := hmono x e hx
    have h3 : |fakeQuant e scale zp (modeRange mode b) - e| ≤ 1 / (2 * scale) := by
      have himg' := himg scale hs.le le_rfl e
      have : (if mode.isSym then -(max |lo| |hi|) else min lo 0) ≤ e ∧ e ≤ (if mode.isSym then max |lo| |hi| else max hi 0) := by
        have g1 : min lo 0 ≤ 0 := min_le_right _ _
        have g2 : 0 ≤ max hi 0 := le_max_right _ _
        have g3 : 0 ≤ max |lo| |hi| := le_max_of_le_left (abs_nonneg _)
        rcases he with ⟨hm, rfl⟩ | ⟨hm, rfl⟩ <;> simp only [hm, if_true, if_false, Bool.false_eq_true]
        · exact ⟨le_rfl, by linarith⟩
        · exact ⟨le_rfl, by linarith⟩
      obtain ⟨i1, i2⟩ := himg' this.1 this.2
      exact fakeQuant_err e scale zp hs _ hle i1 i2
    unfold fakeQuant at h3 ⊢
    apply div_sub_abs_le _ _ _ hs
    have h4 : |linearQuantizeClamp e scale zp (modeRange mode b).1 (modeRange mode b).2 + zp - scale * e| ≤ 1/2 := by
      unfold linearDequantize at h3
      have e1 : (linearQuantizeClamp e scale zp (modeRange mode b).1 (modeRange mode b).2 + zp) / scale - e
        = (linearQuantizeClamp e scale zp (modeRange mode b).1 (modeRange mode b).2 + zp - scale * e) / scale := by field_simp
      rw [e1, abs_div, abs_of_pos hs, div_le_div_iff₀ hs (by positivity)] at h3
      nlinarith
    rw [abs_le] at h4 ⊢
    have h5 := (hmem x).2
    constructor <;> linarith [h4.1, h4.2]
  exact ⟨fun ⟨a, b⟩ => up _ (Or.inl ⟨b, rfl⟩) a, fun ⟨a, b⟩ => down _ (Or.inl ⟨b, rfl⟩) a,
    fun ⟨a, b⟩ => up _ (Or.inr ⟨b, rfl⟩) a, fun ⟨a, b⟩ => down _ (Or.inr ⟨b, rfl⟩) a⟩

end Verif
