import Verif.Model.Scheduler
import Mathlib.Data.List.Nodup
import Mathlib.Data.List.Count
import Mathlib.Tactic.Linarith
import Mathlib.Tactic.Ring
/-! Helper lemmas about `add_policy` and `range`. -/
namespace Verif

theorem mem_pyRange {a b f e : Int} (hf : 0 < f) :
    e ∈ pyRange a b f ↔ a ≤ e ∧ e < b ∧ f ∣ e - a := by
  unfold pyRange
  simp only [List.mem_map, List.mem_range]
  constructor
  · rintro ⟨i, hi, rfl⟩
    have h1 : (i : Int) < (b - a + f - 1) / f := by omega
    have h2 : ((i : Int) + 1) * f ≤ b - a + f - 1 := by
      have : (i : Int) + 1 ≤ (b - a + f - 1) / f := by omega
      exact (Int.le_ediv_iff_mul_le hf).1 this
    refine ⟨?_, ?_, ?_⟩
    · have : 0 ≤ f * (i : Int) := Int.mul_nonneg hf.le (by omega)
      omega
    · nlinarith
    · exact ⟨i, by ring⟩
  · rintro ⟨h1, h2, k, hk⟩
    have hk0 : 0 ≤ k := by
      by_contra h
      have : f * k ≤ f * (-1) := by apply mul_le_mul_of_nonneg_left <;> omega
      omega
    refine ⟨k.toNat, ?_, ?_⟩
    · have : k + 1 ≤ (b - a + f - 1) / f := by
        rw [Int.le_ediv_iff_mul_le hf]; nlinarith
      omega
    · rw [Int.toNat_of_nonneg hk0]; omega

theorem nodup_pyRange {a b f : Int} (hf : 0 < f) : (pyRange a b f).Nodup := by
  unfold pyRange
  apply List.Nodup.map _ List.nodup_range
  intro i j h
  have : f * (i : Int) = f * (j : Int) := by simpa using h
  have := Int.eq_of_mul_eq_mul_left (by omega) this
  exact_mod_cast this

theorem count_pyRange {a b f e : Int} (hf : 0 < f) :
    (pyRange a b f).count e = if a ≤ e ∧ e < b ∧ f ∣ e - a then 1 else 0 := by
  split
  · next h => exact List.count_eq_one_of_mem (nodup_pyRange hf) ((mem_pyRange hf).2 h)
  · next h => exact List.count_eq_zero.2 fun h' => h ((mem_pyRange hf).1 h')

theorem active_foldl_append (p : Nat) (es : List Int) (d : Dict Int (List Nat)) (e : Int) :
    ((es.foldl (appendPolicy p) d).get? e).getD [] =
      (d.get? e).getD [] ++ List.replicate (es.count e) p := by
  induction es generalizing d with
  | nil => simp
  | cons x es ih =>
    rw [List.foldl_cons, ih]
    have : ((appendPolicy p d x).get? e).getD [] =
        (d.get? e).getD [] ++ (if x = e then [p] else []) := by
      unfold appendPolicy
      cases hx : d.get? x with
      | none =>
        simp only [Dict.get?_set]
        by_cases h : x = e
        · subst h; simp [hx]
        · simp [h]
      | some l =>
        simp only [Dict.get?_set]
        by_cases h : x = e
        · subst h; simp [hx]
        · simp [h]
    rw [this, List.count_cons]
    by_cases h : x = e
    · subst h
      simp [List.replicate_succ]
    · simp [h]

end Verif
