import Verif.Model.Pruners
import Verif.Lemmas.Kth
import Verif.Lemmas.Fold
import Mathlib.Tactic.Linarith
import Mathlib.Tactic.Ring
import Mathlib.Tactic.Positivity
import Mathlib.Tactic.FieldSimp
/-!
# C13–C19: the element-wise pruners
-/
namespace Verif
open Dict

/-! ## C13: threshold pruning -/

/-- **C13** (mask) The mask has the tensor's size and holds `1` exactly where `|w| > thr`, `0`
elsewhere. -/
theorem C13_mask_exact (t : Tensor) (thr : ℚ) :
    (createMaskThreshold t thr).length = t.length ∧
    ∀ (i : ℕ) (x : ℚ), t[i]? = some x →
      ((|x| > thr → (createMaskThreshold t thr)[i]? = some 1) ∧
       (|x| ≤ thr → (createMaskThreshold t thr)[i]? = some 0)) := by
  refine ⟨by simp [createMaskThreshold], ?_⟩
  intro i x hx
  constructor
  · intro h; simp [createMaskThreshold, hx, h]
  · intro h; simp [createMaskThreshold, hx, not_lt.2 h]

/-- **C13** (monotone) Raising the threshold never un-prunes a weight. -/
theorem C13_monotone (t : Tensor) {a b : ℚ} (hab : a ≤ b) (i : ℕ)
    (h : (createMaskThreshold t a)[i]? = some 0) : (createMaskThreshold t b)[i]? = some 0 := by
  simp only [createMaskThreshold, List.getElem?_map, Option.map_eq_some_iff] at h ⊢
  obtain ⟨x, hx, h⟩ := h
  refine ⟨x, hx, ?_⟩
  split at h
  · norm_num at h
  · next hn => rw [if_neg]; exact fun hb => hn (lt_of_le_of_lt hab hb)

/-- **C13** (idempotent) Masking with a non-negative threshold, then pruning again with the same
threshold gives the same mask, and masking again changes nothing. -/
theorem C13_idempotent (t : Tensor) {thr : ℚ} (h0 : 0 ≤ thr) :
    createMaskThreshold (tmul t (createMaskThreshold t thr)) thr = createMaskThreshold t thr ∧
    tmul (tmul t (createMaskThreshold t thr)) (createMaskThreshold t thr)
      = tmul t (createMaskThreshold t thr) := by
  constructor
  · unfold createMaskThreshold tmul
    induction t with
    | nil => rfl
    | cons x t ih =>
      simp only [List.map_cons, List.zipWith_cons_cons]
      rw [ih]
      by_cases h : |x| > thr
      · simp [h]
      · have : ¬ (0 : ℚ) > thr := not_lt.2 h0
        simp [h, this]
  · unfold createMaskThreshold tmul
    induction t with
    | nil => rfl
    | cons x t ih =>
      simp only [List.map_cons, List.zipWith_cons_cons]
      rw [ih]
      by_cases h : |x| > thr <;> simp [h]

/-- Non-vacuity and the reason for the sign condition: with a negative threshold nothing is
pruned. -/
example : createMaskThreshold [3, -1, 2, -4] 2 = [1, 0, 0, 1] := by decide +kernel
example : createMaskThreshold [3, 0, 2, -4] (-1) = [1, 1, 1, 1] := by decide +kernel

/-! ## C14: level pruning -/

/-- The number of elements the user asks to remove: `int(s * numel)`. -/
def requested (t : Tensor) (s : ℚ) : Int := pyInt (s * t.length)

/-- **C14** (when it works) A mask is returned exactly when the requested count is between 1 and
the number of elements; a count of 0 raises `IndexError`, any other count is refused by `topk`. -/
theorem C14_accepts_iff (t : Tensor) (s : ℚ) :
    ((∃ m, createMaskLevel t s = .ok m) ↔ 1 ≤ requested t s ∧ requested t s ≤ t.length) ∧
    (requested t s = 0 → createMaskLevel t s = .error .index) ∧
    ((requested t s < 0 ∨ t.length < requested t s) → createMaskLevel t s = .error .runtime) := by
  have key : ∀ k : Int, requested t s = k → 1 ≤ k → k ≤ t.length →
      ∃ m, createMaskLevel t s = .ok m := by
    intro k hk h1 h2
    unfold requested at hk
    have hlen : ((List.insertionSort (· ≤ ·) (t.map fun x => |x|)).take k.toNat).length = k.toNat := by
      rw [List.length_take, (List.perm_insertionSort (· ≤ ·) _).length_eq, List.length_map]; omega
    cases hg : ((List.insertionSort (· ≤ ·) (t.map fun x => |x|)).take k.toNat).getLast? with
    | none =>
      rw [List.getLast?_eq_none_iff] at hg
      rw [hg] at hlen; simp at hlen; omega
    | some thr =>
      refine ⟨createMaskThreshold t thr, ?_⟩
      have : bottomK (t.map fun x => |x|) (pyInt (s * t.length)) =
          .ok ((List.insertionSort (· ≤ ·) (t.map fun x => |x|)).take k.toNat) := by
        unfold bottomK
        rw [hk, if_pos (by rw [List.length_map]; omega)]
      unfold createMaskLevel
      rw [this]
      show (match ((List.insertionSort (· ≤ ·) (t.map fun x => |x|)).take k.toNat).getLast? with
        | none => Except.error Err.index
        | some thr => (return createMaskThreshold t thr : Except Err Tensor)) = _
      rw [hg]; rfl
  have zero : requested t s = 0 → createMaskLevel t s = .error .index := by
    intro h
    unfold requested at h
    unfold createMaskLevel bottomK
    rw [h, if_pos (by omega)]
    rfl
  have out : (requested t s < 0 ∨ t.length < requested t s) →
      createMaskLevel t s = .error .runtime := by
    intro h
    unfold requested at h
    unfold createMaskLevel bottomK
    rw [if_neg (by rw [List.length_map]; omega)]
    rfl
  refine ⟨⟨?_, fun h => key _ rfl h.1 h.2⟩, zero, out⟩
  rintro ⟨m, hm⟩
  by_contra hc
  by_cases h0 : requested t s = 0
  · rw [zero h0] at hm; cases hm
  · rw [out (by omega)] at hm; cases hm

/-- **C14** (result) The mask returned is binary and of the tensor's size, masks at least the
requested number of elements, never masks an element of larger or equal magnitude than a kept
one, and masks exactly the requested number when the magnitudes are distinct. -/
theorem C14_level_mask (t : Tensor) (s : ℚ) (m : Tensor) (h : createMaskLevel t s = .ok m) :
    m.length = t.length ∧
    (∀ x ∈ m, x = 0 ∨ x = 1) ∧
    requested t s ≤ m.count 0 ∧
    (∀ (i j : ℕ) (x y : ℚ), m[i]? = some 0 → m[j]? = some 1 → t[i]? = some x → t[j]? = some y → |x| < |y|) ∧
    ((t.map fun x => |x|).Nodup → (m.count 0 : Int) = requested t s) := by
  unfold createMaskLevel at h
  obtain ⟨b, hb, h⟩ := ok_bind h
  unfold bottomK at hb
  split at hb
  swap; · cases hb
  next hk =>
  injection hb with hb
  cases hg : b.getLast? with
  | none => rw [hg] at h; cases h
  | some thr =>
    rw [hg] at h
    injection h with h
    subst h; subst hb
    rw [List.length_map] at hk
    have hcount : (createMaskThreshold t thr).count 0 = (t.map fun x => |x|).countP (fun x => x ≤ thr) := by
      unfold createMaskThreshold
      rw [List.count_eq_countP, List.countP_map, List.countP_map]
      apply List.countP_congr
      intro x _
      by_cases hx : |x| > thr
      · simp [hx]
      · simp [hx, not_lt.1 hx]
    have hle : (pyInt (s * t.length)).toNat ≤ (t.map fun x => |x|).length := by
      rw [List.length_map]; omega
    refine ⟨by simp [createMaskThreshold], ?_, ?_, ?_, ?_⟩
    · intro x hx
      simp only [createMaskThreshold, List.mem_map] at hx
      obtain ⟨y, _, rfl⟩ := hx
      split <;> simp
    · have := kth_count_ge hle hg
      rw [hcount]; unfold requested; omega
    · intro i j x y hi hj hx hy
      simp only [createMaskThreshold, List.getElem?_map, hx, hy, Option.map_some, Option.some.injEq] at hi hj
      split at hi
      · norm_num at hi
      · next h1 =>
        split at hj
        · next h2 => exact lt_of_le_of_lt (not_lt.1 h1) h2
        · norm_num at hj
    · intro hn
      have := kth_count_eq hn hle hg
      rw [hcount, this]; unfold requested; omega

/-- Non-vacuity: half of six distinct weights. -/
example : createMaskLevel [3, -1, 2, -4, 5, 6] (1/2) = .ok [0, 0, 0, 1, 1, 1] := by decide +kernel
/-- The documented weakness: equal magnitudes are pruned together. -/
example : createMaskLevel [1, 1, 1, 1] (1/4) = .ok [0, 0, 0, 0] := by decide +kernel
/-- A small positive level on a small tensor raises. -/
example : createMaskLevel [1, 2, 3] (1/4) = .error .index := by decide +kernel

/-! ## C15: per-parameter settings -/

/-- Specification: the setting a user expects for a parameter. -/
def SettingFor (d : Dict Name ℚ) (n : Name) (v : Option ℚ) : Prop :=
  (n ∈ d.map Prod.fst → v = d.get? n) ∧
  (n ∉ d.map Prod.fst → star ∈ d.map Prod.fst → v = d.get? star) ∧
  (n ∉ d.map Prod.fst → star ∉ d.map Prod.fst → v = none)

theorem settingFor_iff (d : Dict Name ℚ) (n : Name) (v : Option ℚ) :
    SettingFor d n v ↔ v = sensLookup d n := by
  unfold SettingFor sensLookup
  cases h1 : d.get? n with
  | some a =>
    have hm : n ∈ d.map Prod.fst := by rw [← get?_isSome_iff, h1]; rfl
    simp only [hm, forall_true_left, not_true_eq_false, false_implies, and_true]
  | none =>
    have hm : n ∉ d.map Prod.fst := (get?_eq_none_iff d n).1 h1
    cases h2 : d.get? star with
    | some b =>
      have hs : star ∈ d.map Prod.fst := by rw [← get?_isSome_iff, h2]; rfl
      simp [hm, hs]
    | none =>
      have hs : star ∉ d.map Prod.fst := (get?_eq_none_iff d star).1 h2
      simp [hm, hs]

/-- **C15** (magnitude) Construction needs a `'*'` entry; a constructed pruner then uses the
expected threshold for every parameter. -/
theorem C15_magnitude (d : Dict Name ℚ) :
    ((magnitudeCtor d = .ok d) ↔ star ∈ d.map Prod.fst) ∧
    (star ∉ d.map Prod.fst → magnitudeCtor d = .error .assertion) ∧
    (magnitudeCtor d = .ok d → ∀ n w old, ∃ v, SettingFor d n (some v) ∧
      magnitudeSetMask d n w old = .ok (some (createMaskThreshold w v))) := by
  have hiff : (magnitudeCtor d = .ok d) ↔ star ∈ d.map Prod.fst := by
    unfold magnitudeCtor has
    rw [← get?_isSome_iff]
    split <;> simp_all
  refine ⟨hiff, ?_, ?_⟩
  · intro h
    unfold magnitudeCtor has
    rw [(get?_eq_none_iff d star).2 h]; rfl
  · intro hc n w old
    have hs := hiff.1 hc
    rw [← get?_isSome_iff] at hs
    obtain ⟨b, hb⟩ := Option.isSome_iff_exists.1 hs
    cases hn : d.get? n with
    | some a =>
      refine ⟨a, (settingFor_iff d n _).2 (by simp [sensLookup, hn]), ?_⟩
      simp [magnitudeSetMask, getE, hb, hn]
    | none =>
      refine ⟨b, (settingFor_iff d n _).2 (by simp [sensLookup, hn, hb]), ?_⟩
      simp [magnitudeSetMask, getE, hb, hn]

/-- **C15** (level) The expected level is used; a missing or zero level leaves the mask alone. -/
theorem C15_level (d : Dict Name ℚ) (n : Name) (w : Tensor) (old : Option Tensor) :
    (∀ v, v ≠ 0 → SettingFor d n (some v) →
      levelSetMask d n w old = (createMaskLevel w v).map some) ∧
    (SettingFor d n none ∨ SettingFor d n (some 0) → levelSetMask d n w old = .ok old) := by
  have hd : (d.get? n).getD ((d.get? star).getD 0) = (sensLookup d n).getD 0 := by
    unfold sensLookup
    cases d.get? n <;> simp
  constructor
  · intro v hv hs
    rw [settingFor_iff] at hs
    unfold levelSetMask
    rw [hd, ← hs]
    simp only [Option.getD_some, if_neg hv]
    cases createMaskLevel w v <;> rfl
  · intro hs
    unfold levelSetMask
    rw [hd]
    rcases hs with hs | hs <;> rw [settingFor_iff] at hs <;> rw [← hs] <;> simp

/-- **C15** (sensitivity) -/
theorem C15_sensitivity (std : Tensor → ℚ) (d : Dict Name ℚ) (n : Name) (p : PObj)
    (old : Option Tensor) :
    (∀ v, SettingFor d n (some v) →
      (sensitivitySetMask std d n p old).2 = some (createMaskSensitivity std p v).2) ∧
    (SettingFor d n none → sensitivitySetMask std d n p old = (p, old)) := by
  constructor
  · intro v hs
    rw [settingFor_iff] at hs
    simp [sensitivitySetMask, ← hs]
  · intro hs
    rw [settingFor_iff] at hs
    simp [sensitivitySetMask, ← hs]

/-- **C15** (splicing), for a constant sensitivity. -/
theorem C15_splicing (std : Tensor → ℚ) (cfg : SplicingCfg) (h0 : cfg.sensMult = 0) (n : Name)
    (p : PObj) (st cur : Int) (old : Tensor) :
    (∀ v, SettingFor cfg.sensitivities n (some v) →
      (splicingSetMask std cfg n p st cur (some old)).2
        = some (splicingCreateMask std p old v cfg.lowMult cfg.hiMult).2) ∧
    (SettingFor cfg.sensitivities n none →
      splicingSetMask std cfg n p st cur (some old) = (p, some old)) := by
  constructor
  · intro v hs
    rw [settingFor_iff] at hs
    simp [splicingSetMask, ← hs, h0]
  · intro hs
    rw [settingFor_iff] at hs
    simp [splicingSetMask, ← hs]

/-- Non-vacuity: a specific entry, a default, and neither. -/
example : SettingFor [(["a"], 1), (star, 2)] ["a"] (some 1) ∧
    SettingFor [(["a"], 1), (star, 2)] ["b"] (some 2) ∧ SettingFor [(["a"], 1)] ["b"] none := by
  simp only [settingFor_iff]; decide +kernel

/-! ## C16: AGP -/

/-- Epoch `e` is one of the epochs on which a policy with this range schedule runs (see C01). -/
def ScheduledEpoch (st en f e : Int) : Prop := st ≤ e ∧ e < en ∧ f ∣ e - st

/-- The last scheduled epoch. -/
def IsLastEpoch (st en f e : Int) : Prop :=
  ScheduledEpoch st en f e ∧ ∀ e', ScheduledEpoch st en f e' → e' ≤ e

theorem isLast_eq {st en f e : Int} (hf : 0 < f) (h : IsLastEpoch st en f e) :
    e - st = ((en - st - 1).fdiv f) * f := by
  obtain ⟨⟨h1, h2, c, hc⟩, hmax⟩ := h
  rw [Int.fdiv_eq_ediv_of_nonneg _ hf.le]
  have hd := Int.emod_add_mul_ediv (en - st - 1) f
  have hm := Int.emod_lt_of_pos (en - st - 1) hf
  have hm0 := Int.emod_nonneg (en - st - 1) hf.ne'
  set d := (en - st - 1) / f with hdd
  have := hmax (st + f * d) ⟨?_, ?_, ⟨d, by ring⟩⟩
  · have hcd : c ≤ d := by
      rw [hdd]
      apply (Int.le_ediv_iff_mul_le hf).2
      have : c * f = f * c := by ring
      omega
    have hdc : d ≤ c := by
      have h3 : f * d ≤ f * c := by omega
      exact le_of_mul_le_mul_left h3 hf
    have : c = d := le_antisymm hcd hdc
    rw [hc, this]; ring
  · have : 0 ≤ d := by
      rw [hdd]; exact Int.ediv_nonneg (by omega) hf.le
    have := mul_nonneg hf.le this
    omega
  · omega

/-- **C16** (rejection) The ramp is refused exactly when the schedule has a single epoch; with the
list form of `add_policy` (no frequency) it raises `TypeError`. -/
theorem C16_single_step_rejected (i f : ℚ) (st en fr e : Int) (hfr : 0 < fr) (hse : st < en) :
    ((∃ v, agpStep i f e st en (some fr) = .ok v) ↔
        ∃ e1 e2, e1 ≠ e2 ∧ ScheduledEpoch st en fr e1 ∧ ScheduledEpoch st en fr e2) ∧
    agpStep i f e st en none = .error .type := by
  refine ⟨?_, rfl⟩
  have hspan : (0 < ((en - st - 1).fdiv fr) * fr) ↔ fr ≤ en - st - 1 := by
    rw [Int.fdiv_eq_ediv_of_nonneg _ hfr.le]
    constructor
    · intro h
      have : 0 < (en - st - 1) / fr := by
        by_contra hc
        have := mul_nonpos_of_nonpos_of_nonneg (not_lt.1 hc) hfr.le
        omega
      have : 1 ≤ (en - st - 1) / fr := this
      rw [Int.le_ediv_iff_mul_le hfr] at this
      omega
    · intro h
      have : 1 ≤ (en - st - 1) / fr := by rw [Int.le_ediv_iff_mul_le hfr]; omega
      exact mul_pos (by omega) hfr
  constructor
  · rintro ⟨v, hv⟩
    unfold agpStep at hv
    simp only [hfr.ne', if_false] at hv
    split at hv
    · next h =>
      rw [hspan] at h
      exact ⟨st, st + fr, by omega, ⟨by omega, hse, 0, by ring⟩, ⟨by omega, by omega, 1, by ring⟩⟩
    · cases hv
  · rintro ⟨e1, e2, hne, ⟨h1, h2, c, hc⟩, ⟨h3, h4, d, hd⟩⟩
    have : fr ≤ en - st - 1 := by
      rcases lt_or_gt_of_ne hne with h | h
      · have : 0 < d := by
          by_contra hh
          have := mul_nonpos_of_nonneg_of_nonpos hfr.le (not_lt.1 hh)
          omega
        have := le_mul_of_one_le_right hfr.le (show (1:Int) ≤ d by omega)
        omega
      · have : 0 < c := by
          by_contra hh
          have := mul_nonpos_of_nonneg_of_nonpos hfr.le (not_lt.1 hh)
          omega
        have := le_mul_of_one_le_right hfr.le (show (1:Int) ≤ c by omega)
        omega
    unfold agpStep
    simp only [hfr.ne', if_false, hspan, this, if_true]
    exact ⟨_, rfl⟩

/-- **C16** (ramp) For an accepted ramp (`initial < final`): first epoch `initial`, last epoch
`final`, in between within bounds and non-decreasing. -/
theorem C16_ramp (i f : ℚ) (hif : agpCtor i f = .ok (i, f)) (st en fr : Int) (hfr : 0 < fr) :
    (∀ v, agpStep i f st st en (some fr) = .ok v → v = i) ∧
    (∀ e v, IsLastEpoch st en fr e → agpStep i f e st en (some fr) = .ok v → v = f) ∧
    (∀ e v, ScheduledEpoch st en fr e → agpStep i f e st en (some fr) = .ok v → i ≤ v ∧ v ≤ f) ∧
    (∀ e e' v v', ScheduledEpoch st en fr e → ScheduledEpoch st en fr e' → e ≤ e' →
        agpStep i f e st en (some fr) = .ok v → agpStep i f e' st en (some fr) = .ok v' → v ≤ v') := by
  have hif' : i < f := by
    unfold agpCtor at hif; split at hif
    · assumption
    · cases hif
  set span : Int := ((en - st - 1).fdiv fr) * fr with hspan
  have hstep : ∀ e v, agpStep i f e st en (some fr) = .ok v →
      0 < span ∧ v = f + (i - f) * (1 - (((e - st : Int) : ℚ) / (span : ℚ))) ^ 3 := by
    intro e v hv
    unfold agpStep at hv
    simp only [hfr.ne', if_false] at hv
    split at hv
    · next h => injection hv with hv; exact ⟨h, hv.symm⟩
    · cases hv
  have hlast : ∀ e, ScheduledEpoch st en fr e → e - st ≤ span := by
    rintro e ⟨h1, h2, c, hc⟩
    have hcd : c ≤ (en - st - 1) / fr := by
      apply (Int.le_ediv_iff_mul_le hfr).2
      have : c * fr = fr * c := by ring
      omega
    rw [hspan, Int.fdiv_eq_ediv_of_nonneg _ hfr.le, hc, mul_comm]
    exact mul_le_mul_of_nonneg_right hcd hfr.le
  have hr : ∀ e, ScheduledEpoch st en fr e → 0 < span →
      0 ≤ 1 - ((e - st : Int) : ℚ) / (span : ℚ) ∧ 1 - ((e - st : Int) : ℚ) / (span : ℚ) ≤ 1 := by
    intro e he hsp
    have hspq : (0 : ℚ) < span := by exact_mod_cast hsp
    constructor
    · rw [sub_nonneg, div_le_one hspq]
      exact_mod_cast hlast e he
    · rw [sub_le_self_iff]
      apply div_nonneg _ hspq.le
      have := he.1
      exact_mod_cast (by omega : 0 ≤ e - st)
  refine ⟨?_, ?_, ?_, ?_⟩
  · intro v hv
    obtain ⟨_, rfl⟩ := hstep _ _ hv
    simp
  · intro e v he hv
    obtain ⟨hs, rfl⟩ := hstep _ _ hv
    have hspq : (span : ℚ) ≠ 0 := by exact_mod_cast hs.ne'
    have : ((e - st : Int) : ℚ) = (span : ℚ) := by exact_mod_cast isLast_eq hfr he
    rw [this, div_self hspq]; ring
  · intro e v he hv
    obtain ⟨hs, rfl⟩ := hstep _ _ hv
    obtain ⟨h0, h1⟩ := hr e he hs
    have c0 := pow_nonneg h0 3
    have c1 := pow_le_one₀ (n := 3) h0 h1
    constructor <;> nlinarith
  · intro e e' v v' he he' hle hv hv'
    obtain ⟨hs, rfl⟩ := hstep _ _ hv
    obtain ⟨_, rfl⟩ := hstep _ _ hv'
    obtain ⟨h0', _⟩ := hr e' he' hs
    have hspq : (0 : ℚ) < span := by exact_mod_cast hs
    have hle2 : 1 - ((e' - st : Int) : ℚ) / (span : ℚ) ≤ 1 - ((e - st : Int) : ℚ) / (span : ℚ) := by
      apply sub_le_sub_left
      apply div_le_div_of_nonneg_right _ hspq.le
      exact_mod_cast (by omega : e - st ≤ e' - st)
    have := pow_le_pow_left₀ h0' hle2 3
    nlinarith

/-- Non-vacuity: the ramp 0.1 → 0.9 over epochs 0, 2, 4 of a schedule ending at 6. -/
example : agpStep (1/10) (9/10) 0 0 6 (some 2) = .ok (1/10) ∧
    agpStep (1/10) (9/10) 2 0 6 (some 2) = .ok (4/5) ∧
    agpStep (1/10) (9/10) 4 0 6 (some 2) = .ok (9/10) := by decide +kernel
example : IsLastEpoch 0 6 2 4 :=
  ⟨⟨by decide, by decide, by decide⟩, fun e' h => by obtain ⟨h1, h2, h3⟩ := h; omega⟩

/-! ## C17: the RNN pruner -/

/-- The configuration C17 speaks about. -/
structure BaiduOK (b : Baidu) (st en fr : Int) : Prop where
  q0 : 0 ≤ b.q
  m0 : 0 ≤ b.slopeMult
  r0 : 0 ≤ b.rampOffset
  ramp : b.rampOffset + st ≤ en
  sched : st < en
  freq : 0 < fr
  fresh : b.slopes = none

/-- Thresholds of a whole run: one `set_param_mask` call per epoch in `es`. -/
def baiduRun (b : Baidu) (st en fr : Int) : List Int → List (Except Err ℚ)
  | [] => []
  | e :: es => (baiduEps b e st en fr).2 :: baiduRun (baiduEps b e st en fr).1 st en fr es

theorem baidu_cached (b : Baidu) (s : ℚ × ℚ) (h : b.slopes = some s) (e st en fr : Int) :
    (baiduEps b e st en fr).1 = b := by
  unfold baiduEps; simp [h]; split <;> (try split) <;> rfl

/-- Threshold at epoch `e` as a formula. -/
def baiduFormula (b : Baidu) (st en fr e : Int) : ℚ :=
  let ss := (2 * b.q * fr) / ((2 * b.rampOffset + 3 * (en - (b.rampOffset + st)) : Int) : ℚ)
  if e < b.rampOffset + st then ss * ((e - st + 1 : Int) : ℚ) / fr
  else (ss * ((b.rampOffset + 1 : Int) : ℚ) + ss * b.slopeMult * ((e - (b.rampOffset + st) + 1 : Int) : ℚ)) / fr

theorem baiduEps_fresh {b : Baidu} {st en fr : Int} (h : BaiduOK b st en fr) (e : Int) :
    (baiduEps b e st en fr).2 = .ok (baiduFormula b st en fr e) ∧
    (baiduEps b e st en fr).1.slopes.isSome ∧
    ∀ e', (baiduEps (baiduEps b e st en fr).1 e' st en fr).2 = .ok (baiduFormula b st en fr e') := by
  have hden : ¬ (2 * (b.rampOffset + st - st) + 3 * (en - (b.rampOffset + st)) = 0) := by
    have := h.r0; have := h.ramp; have := h.sched; omega
  have e1 : b.rampOffset + st - st = b.rampOffset := by ring
  rw [e1] at hden
  have hfr := h.freq.ne'
  refine ⟨?_, ?_, ?_⟩
  · unfold baiduEps baiduFormula
    simp only [h.fresh, e1, hden, and_false, if_false, hfr, Option.getD_some]
    split <;> rfl
  · unfold baiduEps
    simp only [h.fresh, e1, hden, and_false, if_false, hfr, Option.getD_some]
    split <;> rfl
  · intro e'
    have : (baiduEps b e st en fr).1 = (⟨b.q, b.rampOffset, b.slopeMult, some
        ((2 * b.q * fr) / ((2 * b.rampOffset + 3 * (en - (b.rampOffset + st)) : Int) : ℚ),
         (2 * b.q * fr) / ((2 * b.rampOffset + 3 * (en - (b.rampOffset + st)) : Int) : ℚ) * b.slopeMult)⟩ : Baidu) := by
      unfold baiduEps
      simp only [h.fresh, e1, hden, and_false, if_false, hfr, Option.getD_some]
      split <;> rfl
    rw [this]
    unfold baiduEps baiduFormula
    simp only [e1, reduceCtorEq, false_and, if_false, hfr, Option.getD_some]
    split <;> rfl

theorem baiduFormula_mono {b : Baidu} {st en fr : Int} (h : BaiduOK b st en fr) {e e' : Int}
    (h0 : st ≤ e) (hle : e ≤ e') :
    0 ≤ baiduFormula b st en fr e ∧ baiduFormula b st en fr e ≤ baiduFormula b st en fr e' := by
  have hden : (0 : ℚ) < ((2 * b.rampOffset + 3 * (en - (b.rampOffset + st)) : Int) : ℚ) := by
    have := h.r0; have := h.ramp; have := h.sched
    exact_mod_cast (by omega : 0 < 2 * b.rampOffset + 3 * (en - (b.rampOffset + st)))
  have hfr : (0 : ℚ) < fr := by exact_mod_cast h.freq
  have hss : 0 ≤ (2 * b.q * fr) / ((2 * b.rampOffset + 3 * (en - (b.rampOffset + st)) : Int) : ℚ) := by
    have := h.q0
    positivity
  unfold baiduFormula
  set ss := (2 * b.q * fr) / ((2 * b.rampOffset + 3 * (en - (b.rampOffset + st)) : Int) : ℚ)
  have hsr : 0 ≤ ss * b.slopeMult := mul_nonneg hss h.m0
  have c : ∀ {x y : Int}, x ≤ y → ((x : Int) : ℚ) ≤ ((y : Int) : ℚ) := fun hxy => by exact_mod_cast hxy
  have hr0 := h.r0
  have nn : ∀ {x : Int}, 0 ≤ x → (0 : ℚ) ≤ ((x : Int) : ℚ) := fun hx => by exact_mod_cast hx
  dsimp only
  constructor
  · split
    · exact div_nonneg (mul_nonneg hss (nn (by omega))) hfr.le
    · exact div_nonneg (add_nonneg (mul_nonneg hss (nn (by omega))) (mul_nonneg hsr (nn (by omega)))) hfr.le
  · split
    · split
      · apply div_le_div_of_nonneg_right _ hfr.le
        exact mul_le_mul_of_nonneg_left (c (by omega)) hss
      · apply div_le_div_of_nonneg_right _ hfr.le
        have a1 : ss * ((e - st + 1 : Int) : ℚ) ≤ ss * ((b.rampOffset + 1 : Int) : ℚ) :=
          mul_le_mul_of_nonneg_left (c (by omega)) hss
        have a2 : 0 ≤ ss * b.slopeMult * ((e' - (b.rampOffset + st) + 1 : Int) : ℚ) :=
          mul_nonneg hsr (nn (by omega))
        linarith
    · rw [if_neg (by omega)]
      apply div_le_div_of_nonneg_right _ hfr.le
      have : ss * b.slopeMult * ((e - (b.rampOffset + st) + 1 : Int) : ℚ)
          ≤ ss * b.slopeMult * ((e' - (b.rampOffset + st) + 1 : Int) : ℚ) :=
        mul_le_mul_of_nonneg_left (c (by omega)) hsr
      linarith

theorem baiduRun_cached (b : Baidu) (st en fr : Int) (g : Int → ℚ) (hs : b.slopes.isSome)
    (h : ∀ e, (baiduEps b e st en fr).2 = .ok (g e)) (es : List Int) :
    baiduRun b st en fr es = es.map fun e => .ok (g e) := by
  induction es with
  | nil => rfl
  | cons e es ih =>
    obtain ⟨s, hs'⟩ := Option.isSome_iff_exists.1 hs
    simp only [baiduRun, List.map_cons, h, baidu_cached b s hs', ih]

/-- **C17** Over any ascending run of epochs starting no earlier than `starting_epoch`, all
thresholds are computed, non-negative and non-decreasing. -/
theorem C17_threshold_monotone (b : Baidu) (st en fr : Int) (h : BaiduOK b st en fr)
    (es : List Int) (hes : es.Pairwise (· ≤ ·)) (hst : ∀ e ∈ es, st ≤ e) :
    ∃ ts : List ℚ, baiduRun b st en fr es = ts.map .ok ∧
      (∀ t ∈ ts, 0 ≤ t) ∧ ts.Pairwise (· ≤ ·) := by
  refine ⟨es.map (baiduFormula b st en fr), ?_, ?_, ?_⟩
  · cases es with
    | nil => rfl
    | cons e es =>
      obtain ⟨h1, h2, h3⟩ := baiduEps_fresh h e
      simp only [baiduRun, List.map_cons, h1]
      rw [baiduRun_cached _ st en fr _ h2 h3, List.map_map]
      rfl
  · intro t ht
    obtain ⟨e, he, rfl⟩ := List.mem_map.1 ht
    exact (baiduFormula_mono h (hst e he) le_rfl).1
  · rw [List.pairwise_map]
    refine hes.imp_of_mem ?_
    intro a b' ha _ hab
    exact (baiduFormula_mono h (hst a ha) hab).2

/-- **C17** (consequence) A weight that was pruned and is unchanged stays pruned. -/
theorem C17_pruned_stays_pruned (b : Baidu) (st en fr : Int) (h : BaiduOK b st en fr)
    (e e' : Int) (h0 : st ≤ e) (hle : e ≤ e') (w w' m m' : Tensor) (i : ℕ) (hi : w[i]? = w'[i]?)
    (hm : (baiduSetMask b w e st en fr).2 = .ok m)
    (hm' : (baiduSetMask (baiduSetMask b w e st en fr).1 w' e' st en fr).2 = .ok m')
    (hz : m[i]? = some 0) : m'[i]? = some 0 := by
  obtain ⟨h1, _, h3⟩ := baiduEps_fresh h e
  unfold baiduSetMask at hm hm'
  simp only [h1, h3, Except.map] at hm hm'
  injection hm with hm
  injection hm' with hm'
  subst hm; subst hm'
  have : (createMaskThreshold w (baiduFormula b st en fr e'))[i]? = some 0 :=
    C13_monotone w (baiduFormula_mono h h0 hle).2 i hz
  simpa [createMaskThreshold, hi] using this

/-- Non-vacuity: ramp in the middle of a ten-epoch schedule. -/
example : BaiduOK ⟨1, 4, 2, none⟩ 0 10 1 := by
  constructor <;> first | rfl | decide +kernel
example : baiduRun ⟨13, 4, 2, none⟩ 0 10 1 [0, 3, 4, 9] = [.ok 1, .ok 4, .ok 7, .ok 17] := by decide +kernel
/-- Outside C17's hypotheses: a ramp offset three times the schedule length divides by zero, a
larger one gives negative thresholds, i.e. no pruning at all. -/
example : baiduRun ⟨1, 30, 2, none⟩ 0 10 1 [0] = [.error .zeroDiv] ∧
    baiduRun ⟨1, 31, 2, none⟩ 0 10 1 [0] = [.ok (-2)] := by decide +kernel

/-! ## C18: splicing -/

/-- Specification: equation (3) of "Dynamic Network Surgery" on one weight. -/
def Surgery (a b old w new : ℚ) : Prop :=
  (|w| < a → |w| < b → new = 0) ∧ (b ≤ |w| → new = 1) ∧ (a ≤ |w| → |w| < b → new = old)

/-- One call of the pruner in a history: the weights at that moment and the epoch. -/
structure SpliceCall where
  weights : Tensor
  epoch : Int

/-- A training history seen by the splicing pruner: the parameter object keeps its cached
statistics while its data changes arbitrarily between calls. -/
def spliceRun (std : Tensor → ℚ) (cfg : SplicingCfg) (n : Name) (st : Int) :
    PObj × Option Tensor → List SpliceCall → PObj × Option Tensor
  | s, [] => s
  | s, c :: cs =>
    spliceRun std cfg n st (splicingSetMask std cfg n { s.1 with data := c.weights } st c.epoch s.2) cs

/-- The low/high thresholds of a call, given the statistics of the *first* call's weights. -/
def spliceBase (std : Tensor → ℚ) (cfg : SplicingCfg) (sens : ℚ) (st : Int) (first : Tensor)
    (epoch : Int) : ℚ :=
  let s := if cfg.sensMult > 0 then sens * (((epoch - st : Int) : ℚ) * cfg.sensMult + 1) else sens
  (first.map fun x => |x|).sum / first.length + std (first.map fun x => |x|) * s

theorem zipWith_getElem {f : ℚ → ℚ → ℚ} {a b : Tensor} {i : ℕ} {x y : ℚ} (hx : a[i]? = some x)
    (hy : b[i]? = some y) : (List.zipWith f a b)[i]? = some (f x y) := by
  simp [List.getElem?_zipWith, hx, hy]

/-- One call: every bit follows the surgery rule with thresholds from the cached statistics of
the first call. -/
theorem splice_step (std : Tensor → ℚ) (cfg : SplicingCfg) (n : Name) (st : Int) (sens : ℚ)
    (hs : SettingFor cfg.sensitivities n (some sens)) (first : Tensor) (p : PObj) (old : Option Tensor)
    (epoch : Int)
    (hp : (p.meanStd = none ∧ first = p.data) ∨
          p.meanStd = some (meanAbs first, std (first.map fun x => |x|))) :
    ∃ m, (splicingSetMask std cfg n p st epoch old).2 = some m ∧
      (splicingSetMask std cfg n p st epoch old).1.meanStd =
        some (meanAbs first, std (first.map fun x => |x|)) ∧
      (splicingSetMask std cfg n p st epoch old).1.data = p.data ∧
      (∀ (i : ℕ) (o w : ℚ), (old.getD (p.data.map fun _ => 1))[i]? = some o → p.data[i]? = some w →
        ∃ b, m[i]? = some b ∧
          Surgery (spliceBase std cfg sens st first epoch * cfg.lowMult)
            (spliceBase std cfg sens st first epoch * cfg.hiMult) o w b) ∧
      ((old.getD (p.data.map fun _ => 1)).length = p.data.length → m.length = p.data.length) := by
  rw [settingFor_iff] at hs
  unfold splicingSetMask
  rw [← hs]
  have hbase : spliceBase std cfg sens st first epoch = meanAbs first + std (first.map fun x => |x|) *
      (if cfg.sensMult > 0 then sens * (((epoch - st : Int) : ℚ) * cfg.sensMult + 1) else sens) := rfl
  have main : ∀ p' : PObj, p'.data = p.data →
      p'.meanStd = some (meanAbs first, std (first.map fun x => |x|)) →
      ∀ cur : Tensor,
      let ms := p'.meanStd.getD (0, 0)
      let S := (if cfg.sensMult > 0 then sens * (((epoch - st : Int) : ℚ) * cfg.sensMult + 1) else sens)
      let m2 := List.zipWith (fun c x => if (ms.1 + ms.2 * S) * cfg.hiMult ≤ |x| then (1:ℚ) else c)
        (List.zipWith (fun c x => if (ms.1 + ms.2 * S) * cfg.lowMult > |x| then (0:ℚ) else c) cur p'.data) p'.data
      (∀ (i : ℕ) (o w : ℚ), cur[i]? = some o → p.data[i]? = some w → ∃ b, m2[i]? = some b ∧
          Surgery (spliceBase std cfg sens st first epoch * cfg.lowMult)
            (spliceBase std cfg sens st first epoch * cfg.hiMult) o w b) ∧
        (cur.length = p.data.length → m2.length = p.data.length) := by
    intro p' hd hms cur
    simp only [hms, Option.getD_some, ← hbase, hd]
    refine ⟨?_, ?_⟩
    · intro i o w ho hw
      refine ⟨_, zipWith_getElem (zipWith_getElem ho hw) hw, ?_⟩
      unfold Surgery
      refine ⟨?_, ?_, ?_⟩
      · intro h1 h2
        rw [if_neg (not_le.2 h2), if_pos h1]
      · intro h; rw [if_pos h]
      · intro h1 h2
        rw [if_neg (not_le.2 h2), if_neg (not_lt.2 h1)]
    · intro h; simp [h]
  rcases hp with ⟨hnone, hfirst⟩ | hsome
  · have := main { p with meanStd := some (meanAbs p.data, std (p.data.map fun x => |x|)) } rfl (by rw [hfirst])
      (old.getD (p.data.map fun _ => 1))
    refine ⟨_, rfl, ?_, ?_, ?_⟩
    · simp only [splicingCreateMask, hnone]; rw [hfirst]
    · simp only [splicingCreateMask, hnone]
    · simp only [splicingCreateMask, hnone]; exact this
  · have := main p rfl hsome (old.getD (p.data.map fun _ => 1))
    refine ⟨_, rfl, ?_, ?_, ?_⟩
    · simp only [splicingCreateMask, hsome]
    · simp only [splicingCreateMask, hsome]
    · simp only [splicingCreateMask, hsome] at this ⊢; exact this

/-- The thresholds depend only on the weights at the first call: state invariant of a history. -/
theorem spliceRun_meanStd (std : Tensor → ℚ) (cfg : SplicingCfg) (n : Name) (st : Int) (sens : ℚ)
    (hs : SettingFor cfg.sensitivities n (some sens)) (first : Tensor) :
    ∀ (cs : List SpliceCall) (s : PObj × Option Tensor),
      s.1.meanStd = some (meanAbs first, std (first.map fun x => |x|)) →
      (spliceRun std cfg n st s cs).1.meanStd = some (meanAbs first, std (first.map fun x => |x|)) := by
  intro cs
  induction cs with
  | nil => intro s h; exact h
  | cons c cs ih =>
    intro s h
    obtain ⟨m, _, h2, _⟩ := splice_step std cfg n st sens hs first { s.1 with data := c.weights } s.2
      c.epoch (Or.inr h)
    exact ih _ h2

/-- **C18** (rule) At every call of a training history, whatever the weights have become, each bit
of the new mask is obtained from the bit of the mask before the call by the network-surgery rule,
with thresholds computed from the weights at the *first* call. -/
theorem C18_surgery (std : Tensor → ℚ) (cfg : SplicingCfg) (n : Name) (st : Int) (sens : ℚ)
    (hs : SettingFor cfg.sensitivities n (some sens)) (p0 : PObj) (hp0 : p0.meanStd = none)
    (c0 : SpliceCall) (cs : List SpliceCall) (c : SpliceCall) (old : Tensor)
    (hold : (spliceRun std cfg n st (p0, none) (c0 :: cs)).2 = some old) :
    ∃ m, (spliceRun std cfg n st (p0, none) (c0 :: cs ++ [c])).2 = some m ∧
      ∀ (i : ℕ) (o w : ℚ), old[i]? = some o → c.weights[i]? = some w → ∃ b, m[i]? = some b ∧
        Surgery (spliceBase std cfg sens st c0.weights c.epoch * cfg.lowMult)
          (spliceBase std cfg sens st c0.weights c.epoch * cfg.hiMult) o w b := by
  have happ : ∀ (cs : List SpliceCall) (s : PObj × Option Tensor),
      spliceRun std cfg n st s (cs ++ [c]) =
        splicingSetMask std cfg n { (spliceRun std cfg n st s cs).1 with data := c.weights } st c.epoch
          (spliceRun std cfg n st s cs).2 := by
    intro cs
    induction cs with
    | nil => intro s; rfl
    | cons d cs ih => intro s; exact ih _
  rw [happ, hold]
  have hms : (spliceRun std cfg n st (p0, none) (c0 :: cs)).1.meanStd
      = some (meanAbs c0.weights, std (c0.weights.map fun x => |x|)) := by
    obtain ⟨m, _, h2, _⟩ := splice_step std cfg n st sens hs c0.weights { p0 with data := c0.weights } none
      c0.epoch (Or.inl ⟨hp0, rfl⟩)
    exact spliceRun_meanStd std cfg n st sens hs c0.weights cs _ h2
  obtain ⟨m, h1, _, _, h4, _⟩ := splice_step std cfg n st sens hs c0.weights
    { (spliceRun std cfg n st (p0, none) (c0 :: cs)).1 with data := c.weights } (some old) c.epoch
    (Or.inr hms)
  exact ⟨m, h1, fun i o w ho hw => h4 i o w ho hw⟩

theorem ite_bit {a b : ℚ} (c : Prop) [Decidable c] (ha : a = 0 ∨ a = 1) (hb : b = 0 ∨ b = 1) :
    (if c then a else b) = 0 ∨ (if c then a else b) = 1 := by split <;> assumption

/-- **C18** (binary) Through any history of weights of a fixed size, the mask stays binary. -/
theorem C18_binary (std : Tensor → ℚ) (cfg : SplicingCfg) (n : Name) (st : Int)
    (p0 : PObj) (cs : List SpliceCall) (m : Tensor)
    (hm : (spliceRun std cfg n st (p0, none) cs).2 = some m) : ∀ x ∈ m, x = 0 ∨ x = 1 := by
  suffices H : ∀ (cs : List SpliceCall) (s : PObj × Option Tensor),
      (∀ m, s.2 = some m → ∀ x ∈ m, x = 0 ∨ x = 1) →
      ∀ m, (spliceRun std cfg n st s cs).2 = some m → ∀ x ∈ m, x = 0 ∨ x = 1 from
    H cs (p0, none) (by simp) m hm
  intro cs
  induction cs with
  | nil => intro s h; exact h
  | cons c cs ih =>
    intro s h
    apply ih
    intro m hm x hx
    unfold splicingSetMask at hm
    split at hm
    · exact h m hm x hx
    · simp only [splicingCreateMask, Option.some.injEq] at hm
      subst hm
      have zw : ∀ (f : ℚ → ℚ → ℚ) (a b : Tensor) (P : ℚ → Prop), (∀ u ∈ a, P u) →
          (∀ u v, P u → P (f u v)) → ∀ y ∈ List.zipWith f a b, P y := by
        intro f a
        induction a with
        | nil => intro b P _ _ y hy; simp at hy
        | cons u a iha =>
          intro b P ha hf y hy
          cases b with
          | nil => simp at hy
          | cons v b =>
            simp only [List.zipWith_cons_cons, List.mem_cons] at hy
            rcases hy with rfl | hy
            · exact hf u v (ha u (by simp))
            · exact iha b P (fun u hu => ha u (by simp [hu])) hf y hy
      refine zw _ _ _ (fun y => y = 0 ∨ y = 1) (zw _ _ _ (fun y => y = 0 ∨ y = 1) ?_ ?_) ?_ x hx
      · intro u hu
        cases hs2 : s.2 with
        | none => simp [hs2] at hu; exact Or.inr hu.2
        | some m0 => rw [hs2] at hu; exact h m0 hs2 u hu
      · intro u v hu; exact ite_bit _ (Or.inl rfl) hu
      · intro u v hu; exact ite_bit _ (Or.inr rfl) hu

/-- Non-vacuity: mean of |w| is 3, thresholds 2.7 and 3.3; the weights then change, and the bit
between the thresholds is kept. -/
def exSplice : SplicingCfg := { sensitivities := [(star, 1)], lowMult := 9/10, hiMult := 11/10 }
example : (spliceRun (fun _ => 0) exSplice ["w"] 0 (⟨[], none, none⟩, none)
    [⟨[1, 3, -5], 0⟩, ⟨[3, 1, 3], 1⟩, ⟨[3, 3, 4], 1⟩]).2 = some [0, 0, 1] := by decide +kernel

/-! ## C19: sensitivity pruning -/

/-- A history of invocations on one parameter object whose data changes in between. -/
def sensRun (std : Tensor → ℚ) (d : Dict Name ℚ) (n : Name) :
    PObj × Option Tensor → List Tensor → PObj × Option Tensor
  | s, [] => s
  | s, w :: ws => sensRun std d n (sensitivitySetMask std d n { s.1 with data := w } s.2) ws

/-- **C19** After any number of invocations the mask is the threshold mask of the *current*
weights with threshold `sensitivity * std(weights at the first invocation)`. -/
theorem C19_threshold_fixed (std : Tensor → ℚ) (d : Dict Name ℚ) (n : Name) (v : ℚ)
    (hs : SettingFor d n (some v)) (p0 : PObj) (hp : p0.stddev = none) (old : Option Tensor)
    (w0 : Tensor) (ws : List Tensor) (w : Tensor) (hw : (w0 :: ws).getLast? = some w) :
    (sensRun std d n (p0, old) (w0 :: ws)).2 = some (createMaskThreshold w (v * std w0)) := by
  rw [settingFor_iff] at hs
  have step : ∀ (s : PObj × Option Tensor) (w : Tensor), s.1.stddev = some (std w0) →
      (sensitivitySetMask std d n { s.1 with data := w } s.2).1.stddev = some (std w0) ∧
      (sensitivitySetMask std d n { s.1 with data := w } s.2).2 = some (createMaskThreshold w (v * std w0)) := by
    intro s w h
    simp [sensitivitySetMask, ← hs, createMaskSensitivity, h, mul_comm]
  have H : ∀ (ws : List Tensor) (s : PObj × Option Tensor), s.1.stddev = some (std w0) →
      ∀ w', ws.getLast? = some w' →
      (sensRun std d n s ws).2 = some (createMaskThreshold w' (v * std w0)) := by
    intro ws
    induction ws with
    | nil => intro s _ w' h; simp at h
    | cons w1 ws ih =>
      intro s h w' hw'
      obtain ⟨a, b⟩ := step s w1 h
      cases ws with
      | nil => simp at hw'; subst hw'; exact b
      | cons w2 ws => exact ih _ a w' (by rw [List.getLast?_cons_cons] at hw'; exact hw')
  have first : (sensitivitySetMask std d n { p0 with data := w0 } old).1.stddev = some (std w0) ∧
      (sensitivitySetMask std d n { p0 with data := w0 } old).2 = some (createMaskThreshold w0 (v * std w0)) := by
    simp [sensitivitySetMask, ← hs, createMaskSensitivity, hp, mul_comm]
  cases ws with
  | nil => simp at hw; subst hw; exact first.2
  | cons w2 ws =>
    exact H _ _ first.1 w (by rw [List.getLast?_cons_cons] at hw; exact hw)

example : (sensRun (fun t => t.sum) [(star, 1/2)] ["w"] (⟨[], none, none⟩, none)
    [[1, 3], [9, 1], [2, 3]]).2 = some [0, 1] := by decide +kernel

end Verif
