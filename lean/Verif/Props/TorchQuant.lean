import Verif.Model.TorchQuant
import Verif.Props.Quant
/-!
# C82: conversion to PyTorch quantization parameters and tensors
-/
namespace Verif

/-- Specification: PyTorch's `dequantize`: `(q - zero_point) * scale`. -/
def torchDequantize (q : ℤ) (scale : ℚ) (zp : ℤ) : ℚ := ((q : ℚ) - zp) * scale

/-- Specification: PyTorch's `quantize_per_tensor`: `clamp(round(x / scale) + zero_point)`. -/
def torchQuantize (x scale : ℚ) (zp : ℤ) (d : TDtype) : ℤ :=
  min (max (roundHalfEven (x / scale) + zp) d.range.1) d.range.2

theorem truncZ_int (n : ℤ) : truncZ (n : ℚ) = n := by
  unfold truncZ; split <;> simp

theorem castTo_in (d : TDtype) (n : ℤ) (h1 : d.range.1 ≤ n) (h2 : n ≤ d.range.2) : castTo d (n : ℚ) = n := by
  unfold castTo
  rw [truncZ_int]
  cases d <;> simp only [TDtype.range] at h1 h2 ⊢ <;> omega

theorem modeRange_sym (b : ℕ) : modeRange .symmetric b = (-(2 ^ (b - 1) - 1) - 1, 2 ^ (b - 1) - 1) := by
  unfold modeRange quantizedRange; simp
theorem modeRange_symR (b : ℕ) : modeRange .symmetricRestricted b = (-(2 ^ (b - 1) - 1), 2 ^ (b - 1) - 1) := by
  unfold modeRange quantizedRange; simp
theorem modeRange_unsigned (b : ℕ) : modeRange .asymmetricUnsigned b = (0, 2 ^ b - 1) := by
  unfold modeRange quantizedRange; simp
theorem modeRange_signed (b : ℕ) : modeRange .asymmetricSigned b = (-(2 ^ (b - 1) - 1) - 1, 2 ^ (b - 1) - 1) := by
  unfold modeRange quantizedRange; simp

theorem pow_le_128 {b : ℕ} (hb : b ≤ 8) : (2 : ℤ) ^ (b - 1) ≤ 128 := by
  have : (2 : ℤ) ^ (b - 1) ≤ 2 ^ 7 := pow_le_pow_right₀ (by norm_num) (by omega)
  simpa using this

/-- **C82** Quantized tensors keep their values: for every mode, bit width from 2 to 8, parameters
the library computes, destination dtype and every integer of the mode's range, the converted integer
fits the destination dtype (nothing wraps around) and PyTorch de-quantizes it to exactly what
Distiller does. -/
theorem C82_tensor_value_preserved (mode : QMode) (b : ℕ) (hb : 2 ≤ b) (hb8 : b ≤ 8) (lo hi scale zp : ℚ)
    (h : modeParams mode b lo hi = .ok (scale, zp)) (dest : TDtype) (q : ℤ)
    (h1 : (modeRange mode b).1 ≤ q) (h2 : q ≤ (modeRange mode b).2) :
    ∃ (n : ℤ) (st : ℚ) (zt : ℤ), tensorToTorch q scale zp b mode dest = .ok (n, st, zt) ∧
      dest.range.1 ≤ n ∧ n ≤ dest.range.2 ∧
      torchDequantize n st zt = linearDequantize q scale zp := by
  obtain ⟨hs, ⟨z, rfl, hz1, hz2⟩, -, -⟩ := modeParams_image mode b hb lo hi scale zp h
  have hp := two_pow_pred (b := b) (by omega)
  have hp1 := two_pow_pos_int (b - 1)
  have hp8 := pow_le_128 hb8
  have hz0 : mode.isSym = true → z = 0 := by
    intro hm
    unfold modeParams symParams at h
    rw [if_pos hm] at h
    split at h
    · cases h
    · injection h with h
      have := congrArg Prod.snd h
      dsimp only at this
      exact_mod_cast this.symm
  set zt := convertZp z b mode dest with hzt
  have hq : qparamsToTorch scale z b mode dest false = .ok (1 / scale, zt) := by
    unfold qparamsToTorch
    rw [truncZ_int]
    simp [hzt]
  have hfit : dest.range.1 ≤ q + zt + z ∧ q + zt + z ≤ dest.range.2 := by
    rw [hzt]
    unfold convertZp
    cases mode with
    | symmetric =>
      rw [modeRange_sym] at h1 h2
      have := hz0 rfl
      cases dest <;> simp [QMode.isSym, TDtype.range] at * <;> constructor <;> omega
    | symmetricRestricted =>
      rw [modeRange_symR] at h1 h2
      have := hz0 rfl
      cases dest <;> simp [QMode.isSym, TDtype.range] at * <;> constructor <;> omega
    | asymmetricUnsigned =>
      rw [modeRange_unsigned] at h1 h2
      cases dest <;> simp [QMode.isSym, TDtype.range] at * <;> constructor <;> omega
    | asymmetricSigned =>
      rw [modeRange_signed] at h1 h2
      cases dest <;> simp [QMode.isSym, TDtype.range] at * <;> constructor <;> omega
  refine ⟨q + zt + z, 1 / scale, zt, ?_, hfit.1, hfit.2, ?_⟩
  · unfold tensorToTorch
    rw [truncZ_int, if_neg (by simp), hq]
    show Except.ok (castTo dest ((q : ℚ) - (-(zt : ℚ) - z)), 1 / scale, zt) = _
    rw [show (q : ℚ) - (-(zt : ℚ) - z) = ((q + zt + z : ℤ) : ℚ) by push_cast; ring, castTo_in _ _ hfit.1 hfit.2]
  · unfold torchDequantize linearDequantize
    push_cast
    rw [mul_one_div]; congr 1; ring

theorem round_add_int_of_not_tie (v : ℚ) (k : ℤ) (h : Int.fract v ≠ 1/2) :
    roundHalfEven (v + k) = roundHalfEven v + k := by
  unfold roundHalfEven
  have hf : ⌊v + k⌋ = ⌊v⌋ + k := Int.floor_add_intCast v k
  have hd : v + k - (⌊v + (k : ℚ)⌋ : ℚ) = v - ⌊v⌋ := by rw [hf]; push_cast; ring
  have hne : v - (⌊v⌋ : ℚ) ≠ 1/2 := by
    intro h'; exact h (by unfold Int.fract; exact h')
  dsimp only
  rw [hd, hf]
  split_ifs <;> first | omega | (exfalso; apply hne; linarith)

theorem round_add_int_near (v : ℚ) (k : ℤ) : |(roundHalfEven (v + k) : ℚ) - (roundHalfEven v + k)| ≤ 1 := by
  obtain ⟨a1, a2⟩ := round_bounds (v + k)
  obtain ⟨b1, b2⟩ := round_bounds v
  rw [abs_le]; constructor <;> linarith

/-- The integers a PyTorch dtype and an 8-bit mode can hold differ by the converted zero-point
shift (except for the restricted symmetric mode). -/
theorem range_shift (mode : QMode) (hm : mode ≠ .symmetricRestricted) (z : ℤ) (hz : mode.isSym = true → z = 0)
    (dest : TDtype) :
    dest.range.1 = (modeRange mode 8).1 + convertZp z 8 mode dest + z ∧
    dest.range.2 = (modeRange mode 8).2 + convertZp z 8 mode dest + z := by
  unfold convertZp
  cases mode with
  | symmetric =>
    have := hz rfl
    cases dest <;> simp [QMode.isSym, TDtype.range, modeRange_sym, this]
  | symmetricRestricted => exact absurd rfl hm
  | asymmetricUnsigned =>
    cases dest <;> simp [QMode.isSym, TDtype.range, modeRange_unsigned] <;> omega
  | asymmetricSigned =>
    cases dest
    · simp [QMode.isSym, TDtype.range, modeRange_signed]
    · simp [QMode.isSym, TDtype.range, modeRange_signed]; omega

/-- **C82** Quantizing in PyTorch with the converted 8-bit parameters gives the value Distiller's
fake quantization gives, for every input that is not exactly half-way between two grid points;
half-way inputs differ by at most one step (the two libraries break ties differently because one
rounds before and the other after adding the zero-point).  Not for the restricted symmetric mode. -/
theorem C82_quantize_agrees (mode : QMode) (hm : mode ≠ .symmetricRestricted) (lo hi scale zp : ℚ)
    (h : modeParams mode 8 lo hi = .ok (scale, zp)) (dest : TDtype) (x : ℚ) :
    ∃ (st : ℚ) (zt : ℤ), qparamsToTorch scale zp 8 mode dest false = .ok (st, zt) ∧
      (Int.fract (scale * x) ≠ 1/2 →
        torchDequantize (torchQuantize x st zt dest) st zt = fakeQuant x scale zp (modeRange mode 8)) ∧
      |torchDequantize (torchQuantize x st zt dest) st zt - fakeQuant x scale zp (modeRange mode 8)| ≤ 1 / scale := by
  obtain ⟨hs, ⟨z, rfl, hz1, hz2⟩, hle, -⟩ := modeParams_image mode 8 (by norm_num) lo hi scale zp h
  have hz0 : mode.isSym = true → z = 0 := by
    intro hm
    unfold modeParams symParams at h
    rw [if_pos hm] at h
    split at h
    · cases h
    · injection h with h
      have := congrArg Prod.snd h
      dsimp only at this
      exact_mod_cast this.symm
  set zt := convertZp z 8 mode dest with hzt
  obtain ⟨e1, e2⟩ := range_shift mode hm z hz0 dest
  rw [← hzt] at e1 e2
  have hq : qparamsToTorch scale z 8 mode dest false = .ok (1 / scale, zt) := by
    unfold qparamsToTorch
    rw [truncZ_int]
    simp [hzt]
  -- both sides through the clamped integer
  have ht : torchDequantize (torchQuantize x (1 / scale) zt dest) (1 / scale) zt
      = ((min (max (roundHalfEven (scale * x) - z) (modeRange mode 8).1) (modeRange mode 8).2 : ℤ) + z : ℚ) / scale := by
    unfold torchDequantize torchQuantize
    rw [show x / (1 / scale) = scale * x by field_simp, e1, e2]
    rw [show roundHalfEven (scale * x) + zt = (roundHalfEven (scale * x) - z) + (zt + z) by ring,
      add_assoc, add_assoc, max_add_add_right, min_add_add_right]
    push_cast
    rw [mul_one_div]; congr 1; ring
  have hd : fakeQuant x scale z (modeRange mode 8)
      = ((min (max (roundHalfEven (scale * x - z)) (modeRange mode 8).1) (modeRange mode 8).2 : ℤ) + z : ℚ) / scale := by
    unfold fakeQuant linearDequantize linearQuantizeClamp linearQuantize
    rw [clampQ_int]
  refine ⟨1 / scale, zt, hq, ?_, ?_⟩
  · intro hf
    rw [ht, hd]
    have := round_add_int_of_not_tie (scale * x) (-z) hf
    push_cast at this
    rw [show scale * x - (z : ℚ) = scale * x + -(z : ℚ) by ring, this]
    rfl
  · rw [ht, hd, ← sub_div, abs_div, abs_of_pos hs]
    apply div_le_div_of_nonneg_right _ hs.le
    have hn := round_add_int_near (scale * x) (-z)
    push_cast at hn
    rw [← sub_eq_add_neg] at hn
    have hn' : |roundHalfEven (scale * x - z) - (roundHalfEven (scale * x) - z)| ≤ 1 := by
      have : (|roundHalfEven (scale * x - z) - (roundHalfEven (scale * x) - z)| : ℚ) ≤ 1 := by
        push_cast
        rw [show (roundHalfEven (scale * x) : ℚ) - z = roundHalfEven (scale * x) + -z by ring]; exact hn
      exact_mod_cast this
    set A := roundHalfEven (scale * x - z)
    set B := roundHalfEven (scale * x) - z
    have : |(min (max B (modeRange mode 8).1) (modeRange mode 8).2) - (min (max A (modeRange mode 8).1) (modeRange mode 8).2)| ≤ 1 := by
      rw [abs_le] at hn' ⊢
      omega
    have h' : (|((min (max B (modeRange mode 8).1) (modeRange mode 8).2 : ℤ) : ℚ) - ((min (max A (modeRange mode 8).1) (modeRange mode 8).2 : ℤ) : ℚ)|) ≤ 1 := by
      exact_mod_cast this
    rw [show ∀ a b c : ℚ, a + c - (b + c) = a - b by intros; ring]
    exact h'

/-- **C82** is violated for the restricted symmetric mode: PyTorch's `qint8` has one more negative
integer than Distiller used, so saturated negative values come out differently. -/
theorem C82_violated_restricted : ∃ (lo hi scale zp x st : ℚ) (zt : ℤ),
    modeParams .symmetricRestricted 8 lo hi = .ok (scale, zp) ∧
    qparamsToTorch scale zp 8 .symmetricRestricted .qint8 false = .ok (st, zt) ∧
    torchDequantize (torchQuantize x st zt .qint8) st zt = -128 ∧
    fakeQuant x scale zp (modeRange .symmetricRestricted 8) = -127 :=
  ⟨-127, 127, 1, 0, -200, 1, 0, by decide +kernel⟩

/-- Reduced zero-point is never a tie. -/
theorem ratio_not_tie (z : ℤ) : |(roundHalfEven ((z : ℚ) * (127 / 255)) : ℚ) - z * (127 / 255)| < 1/2 := by
  obtain ⟨h1, h2⟩ := round_bounds ((z : ℚ) * (127 / 255))
  rw [abs_lt]
  set r := roundHalfEven ((z : ℚ) * (127 / 255))
  constructor
  · rcases lt_or_eq_of_le h1 with h | h
    · linarith
    · exfalso
      have : (2 * (127 * z) - 255 : ℚ) = 2 * 255 * r := by linarith
      have : (2 * (127 * z) - 255 : ℤ) = 2 * 255 * r := by exact_mod_cast this
      omega
  · rcases lt_or_eq_of_le h2 with h | h
    · linarith
    · exfalso
      have : (2 * (127 * z) + 255 : ℚ) = 2 * 255 * r := by linarith
      have : (2 * (127 * z) + 255 : ℤ) = 2 * 255 * r := by exact_mod_cast this
      omega

theorem asym_zp_range (mode : QMode) (hm : mode.isSym = false) (lo hi scale zp : ℚ)
    (h : modeParams mode 8 lo hi = .ok (scale, zp)) :
    ∃ z0 : ℤ, zp = z0 + (if mode = .asymmetricSigned then 128 else 0) ∧ -255 ≤ z0 ∧ z0 ≤ 0 ∧ 0 < scale ∧
      ∀ x, min lo 0 ≤ x → x ≤ max hi 0 → (z0 : ℚ) - 1/2 ≤ scale * x ∧ scale * x ≤ z0 + 255 + 1/2 := by
  obtain ⟨hs, ⟨z, rfl, hz1, hz2⟩, hle, himg⟩ := modeParams_image mode 8 (by norm_num) lo hi scale zp h
  have hi' := himg scale hs.le le_rfl
  rw [hm] at hi'
  simp only [Bool.false_eq_true, if_false] at hi'
  cases mode with
  | symmetric => simp [QMode.isSym] at hm
  | symmetricRestricted => simp [QMode.isSym] at hm
  | asymmetricUnsigned =>
    rw [modeRange_unsigned] at hz1 hz2 hi'
    simp at hz1 hz2
    refine ⟨z, by simp, by omega, by omega, hs, ?_⟩
    intro x h1 h2
    have := hi' x h1 h2
    norm_num at this
    constructor <;> linarith
  | asymmetricSigned =>
    rw [modeRange_signed] at hz1 hz2 hi'
    simp at hz1 hz2
    refine ⟨z - 128, by push_cast; simp, by omega, by omega, hs, ?_⟩
    intro x h1 h2
    have := hi' x h1 h2
    norm_num at this
    push_cast
    constructor <;> linarith

/-- The parameters after `reduce_range`. -/
theorem reduce_zp (mode : QMode) (hm : mode.isSym = false) (scale : ℚ) (z0 : ℤ) (dest : TDtype) :
    qparamsToTorch scale (z0 + (if mode = .asymmetricSigned then 128 else 0)) 8 mode dest true
      = .ok (1 / (scale * (127 / 255)),
          (if dest = .quint8 then 0 else -64) - roundHalfEven ((z0 : ℚ) * (127 / 255))) := by
  have hfr : Int.fract ((z0 : ℚ) * (127 / 255)) ≠ 1/2 := by
    intro hf
    unfold Int.fract at hf
    have : (2 * (127 * z0) : ℚ) = 255 + 2 * 255 * (⌊(z0 : ℚ) * (127 / 255)⌋ : ℤ) := by linarith
    have : (2 * (127 * z0) : ℤ) = 255 + 2 * 255 * ⌊(z0 : ℚ) * (127 / 255)⌋ := by exact_mod_cast this
    omega
  have h64 := round_add_int_of_not_tie _ 64 hfr
  push_cast at h64
  unfold qparamsToTorch reduceParams convertZp
  cases mode with
  | symmetric => simp [QMode.isSym] at hm
  | symmetricRestricted => simp [QMode.isSym] at hm
  | asymmetricUnsigned =>
    cases dest <;> simp [QMode.isSym, truncZ_int] <;> omega
  | asymmetricSigned =>
    have e : (z0 + 128 - 128 : ℚ) * (127 / 255) + 128 / 2 = (z0 : ℚ) * (127 / 255) + 64 := by ring
    cases dest <;> simp only [QMode.isSym, Bool.false_eq_true, false_and, if_false, if_true, ne_eq,
      not_true_eq_false, e, h64, truncZ_int, reduceCtorEq, true_and, and_false, and_true, not_false_eq_true] <;>
      congr 2 <;> omega

/-- **C82** Reduced range, asymmetric 8-bit parameters: the converted zero-point lies in the 7-bit
range, zero stays exactly representable, and every value of the calibrated range comes back from
PyTorch within 3/4 of a (larger) step, using integers at most one outside the 7-bit range. -/
theorem C82_reduce_range (mode : QMode) (hm : mode.isSym = false) (lo hi scale zp : ℚ)
    (h : modeParams mode 8 lo hi = .ok (scale, zp)) (dest : TDtype) :
    ∃ (st : ℚ) (zt base : ℤ), qparamsToTorch scale zp 8 mode dest true = .ok (st, zt) ∧
      base = (if dest = .quint8 then 0 else -64) ∧ st = 255 / 127 / scale ∧
      base ≤ zt ∧ zt ≤ base + 127 ∧ torchDequantize (torchQuantize 0 st zt dest) st zt = 0 ∧
      ∀ x, min lo 0 ≤ x → x ≤ max hi 0 →
        base - 1 ≤ torchQuantize x st zt dest ∧ torchQuantize x st zt dest ≤ base + 128 ∧
        |torchDequantize (torchQuantize x st zt dest) st zt - x| ≤ 3 / 4 * st := by
  obtain ⟨z0, rfl, hz1, hz2, hs, himg⟩ := asym_zp_range mode hm lo hi scale zp h
  have hq := reduce_zp mode hm scale z0 dest
  set z := roundHalfEven ((z0 : ℚ) * (127 / 255)) with hz
  have hs' : 0 < scale * (127 / 255) := by positivity
  have hzr : -127 ≤ z ∧ z ≤ 0 := by
    have e0 : roundHalfEven 0 = 0 := by have := round_int 0; simpa using this
    have e1 : roundHalfEven (-127) = -127 := by have := round_int (-127); simpa using this
    have q1 : (-255 : ℚ) ≤ z0 := by exact_mod_cast hz1
    have q2 : (z0 : ℚ) ≤ 0 := by exact_mod_cast hz2
    constructor
    · rw [← e1]; apply round_mono; linarith
    · rw [← e0]; apply round_mono; linarith
  set base : ℤ := if dest = .quint8 then 0 else -64 with hb
  have hbase : dest.range.1 ≤ base ∧ base + 128 ≤ dest.range.2 ∧ (base = dest.range.1 ∨ dest.range.1 ≤ base - 1) := by
    rw [hb]; cases dest <;> simp [TDtype.range]
  have hst : 1 / (scale * (127 / 255)) = 255 / 127 / scale := by field_simp
  refine ⟨_, _, base, hq, rfl, hst, by omega, by omega, ?_, ?_⟩
  · unfold torchQuantize torchDequantize
    have e0 : roundHalfEven 0 = 0 := by have := round_int 0; simpa using this
    rw [zero_div, e0, zero_add, max_eq_left (by omega), min_eq_left (by omega)]
    simp
  · intro x hx1 hx2
    obtain ⟨i1, i2⟩ := himg x hx1 hx2
    set v := scale * (127 / 255) * x with hv
    have hv1 : (z0 : ℚ) * (127/255) - 1/4 ≤ v := by rw [hv]; linarith
    have hv2 : v ≤ (z0 : ℚ) * (127/255) + 127 + 1/4 := by rw [hv]; linarith
    have ht := abs_lt.1 (ratio_not_tie z0)
    rw [← hz] at ht
    obtain ⟨r1, r2⟩ := round_bounds v
    have b1 : -2 < roundHalfEven v - z := by
      have : (-2 : ℚ) < roundHalfEven v - z := by linarith [ht.1, ht.2]
      exact_mod_cast this
    have b2 : roundHalfEven v - z < 129 := by
      have : (roundHalfEven v - z : ℚ) < 129 := by linarith [ht.1, ht.2]
      exact_mod_cast this
    have hxs : x / (1 / (scale * (127 / 255))) = v := by rw [hv]; field_simp
    have hqv : torchQuantize x (1 / (scale * (127 / 255))) (base - z) dest
        = min (max (roundHalfEven v + (base - z)) dest.range.1) dest.range.2 := by
      unfold torchQuantize; rw [hxs]
    rw [hqv]
    refine ⟨by omega, by omega, ?_⟩
    set n := min (max (roundHalfEven v + (base - z)) dest.range.1) dest.range.2 with hn
    have herr : |(n : ℚ) - ((base - z : ℤ) : ℚ) - v| ≤ 3/4 := by
      rcases le_or_gt dest.range.1 (roundHalfEven v + (base - z)) with hc | hc
      · have : n = roundHalfEven v + (base - z) := by omega
        rw [this]; push_cast
        rw [abs_le]; constructor <;> linarith
      · -- saturated from below at the base
        have hb0 : base = dest.range.1 := by omega
        have : n = base := by omega
        have hrv : roundHalfEven v - z = -1 := by omega
        have hrv' : (roundHalfEven v : ℚ) - z = -1 := by exact_mod_cast hrv
        rw [this]; push_cast
        rw [abs_le]; constructor <;> linarith [ht.1, ht.2]
    unfold torchDequantize
    have e : ((n : ℚ) - ((base - z : ℤ) : ℚ)) * (1 / (scale * (127 / 255))) - x
        = ((n : ℚ) - ((base - z : ℤ) : ℚ) - v) * (1 / (scale * (127 / 255))) := by
      rw [hv]; field_simp
    rw [e, abs_mul, abs_of_pos (by positivity : (0:ℚ) < 1 / (scale * (127 / 255)))]
    exact mul_le_mul_of_nonneg_right herr (by positivity)

/-- **C82** Reduced range, symmetric 8-bit parameters converted to `qint8`: the zero-point stays 0, every value of the
calibrated range uses an integer of the 7-bit signed range and comes back within half a (larger) step. -/
theorem C82_reduce_range_symmetric (mode : QMode) (hm : mode.isSym = true) (lo hi scale zp : ℚ) (hne : lo ≠ 0 ∨ hi ≠ 0)
    (h : modeParams mode 8 lo hi = .ok (scale, zp)) :
    ∃ st : ℚ, qparamsToTorch scale zp 8 mode .qint8 true = .ok (st, 0) ∧ st = 127 / 63 / scale ∧
      ∀ x, |x| ≤ max |lo| |hi| → -64 ≤ torchQuantize x st 0 .qint8 ∧ torchQuantize x st 0 .qint8 ≤ 63 ∧
        |torchDequantize (torchQuantize x st 0 .qint8) st 0 - x| ≤ st / 2 := by
  obtain ⟨hs, -, -, -⟩ := modeParams_image mode 8 (by norm_num) lo hi scale zp h
  obtain ⟨hz, hsc⟩ := (modeParams_form mode 8 (by norm_num) lo hi scale zp hne h).1 hm
  subst hz
  refine ⟨127 / 63 / scale, ?_, rfl, ?_⟩
  · unfold qparamsToTorch reduceParams convertZp
    have := truncZ_int 0
    simp only [Int.cast_zero] at this
    simp [hm, this]
    field_simp
  · intro x hx
    have hsc' : scale * max |lo| |hi| ≤ 255 / 2 := by
      rw [hsc]; split <;> norm_num
    have hxs : |scale * x| ≤ 255 / 2 := by
      rw [abs_mul, abs_of_pos hs]
      exact (mul_le_mul_of_nonneg_left hx hs.le).trans hsc'
    have e : x / (127 / 63 / scale) = scale * x * (63 / 127) := by field_simp
    have hb := round_bounds (scale * x * (63 / 127))
    obtain ⟨x1, x2⟩ := abs_le.1 hxs
    unfold torchQuantize
    rw [e, add_zero]
    set r := roundHalfEven (scale * x * (63 / 127)) with hr
    have r1 : -64 ≤ r := by
      have : (-64 : ℚ) - 1 < r := by linarith [hb.1]
      have : (-64 : ℤ) - 1 < r := by exact_mod_cast this
      omega
    have r2 : r ≤ 63 := by
      have : (r : ℚ) < 64 := by linarith [hb.2]
      have : r < 64 := by exact_mod_cast this
      omega
    have hc : min (max r TDtype.qint8.range.1) TDtype.qint8.range.2 = r := by
      simp only [TDtype.range]; omega
    rw [hc]
    refine ⟨r1, r2, ?_⟩
    unfold torchDequantize
    have e2 : (((r : ℚ) - ((0 : ℤ) : ℚ)) * (127 / 63 / scale) - x) = (r - scale * x * (63 / 127)) * (127 / 63 / scale) := by
      push_cast; field_simp; ring
    rw [e2, abs_mul, abs_of_pos (by positivity : (0 : ℚ) < 127 / 63 / scale)]
    have : |(r : ℚ) - scale * x * (63 / 127)| ≤ 1 / 2 := by rw [abs_le]; constructor <;> linarith [hb.1, hb.2]
    have hp : (0 : ℚ) < 127 / 63 / scale := by positivity
    nlinarith

example : modeParams .symmetric 8 (-1) (1/2) = .ok (255/2, 0) ∧
    qparamsToTorch (255/2) 0 8 .symmetric .qint8 true = .ok (254/16065, 0) ∧
    torchQuantize (-1) (254/16065) 0 .qint8 = -63 := by decide +kernel

/-- **C82** `reduce_range` is refused (AssertionError) for widths other than 8, and is silently
ignored for symmetric parameters converted to `quint8`. -/
theorem C82_reduce_range_refusals (scale zp : ℚ) (b : ℕ) (mode : QMode) (dest : TDtype) :
    (mode.isSym = true → qparamsToTorch scale zp b mode .quint8 true = qparamsToTorch scale zp b mode .quint8 false) ∧
    (¬ (mode.isSym = true ∧ dest = .quint8) → b ≠ 8 → qparamsToTorch scale zp b mode dest true = .error .assertion) := by
  constructor
  · intro h; unfold qparamsToTorch; simp [h]
  · intro h hb; unfold qparamsToTorch
    simp only [h, if_false, if_true]; rw [if_pos hb]

/-- Non-vacuity: 8-bit signed asymmetric parameters converted to `quint8`, a converted tensor
element, and reduced-range parameters. -/
example : modeParams .asymmetricSigned 8 (-1) (1/2) = .ok (170, -42) ∧
    qparamsToTorch 170 (-42) 8 .asymmetricSigned .quint8 false = .ok (1/170, 170) ∧
    tensorToTorch (-100) 170 (-42) 8 .asymmetricSigned .quint8 = .ok (28, 1/170, 170) ∧
    torchDequantize 28 (1/170) 170 = linearDequantize (-100) 170 (-42) ∧
    qparamsToTorch 170 (-42) 8 .asymmetricSigned .quint8 true = .ok (3/254, 85) := by decide +kernel

/-- **C82** is violated in one respect: with `reduce_range` a calibrated value may use the integer
128, which does not fit the 7 bits the option promises. -/
theorem C82_violated_reduce_range : ∃ (lo hi scale zp st x : ℚ) (zt : ℤ),
    modeParams .asymmetricUnsigned 8 lo hi = .ok (scale, zp) ∧ lo ≤ x ∧ x ≤ hi ∧
    qparamsToTorch scale zp 8 .asymmetricUnsigned .quint8 true = .ok (st, zt) ∧
    torchQuantize x st zt .quint8 = 128 :=
  ⟨-13151/100, 12349/100, 1, -132, 255/127, 12349/100, 66, by decide +kernel⟩

end Verif
