import Mathlib.Data.Rat.Floor
import Mathlib.Data.List.Sort
import Mathlib.Algebra.Order.Ring.Rat
/-! Counting lemmas about the k-th smallest element of a list. -/
namespace Verif

variable {α : Type} [LinearOrder α]

/-- In an ascending list, element number `k-1` dominates the first `k` and is dominated by
the rest. -/
theorem sorted_take_le {s : List α} (hs : s.Pairwise (· ≤ ·)) {k : Nat} {thr : α}
    (h : (s.take k).getLast? = some thr) :
    (∀ x ∈ s.take k, x ≤ thr) ∧ (∀ x ∈ s.drop k, thr ≤ x) := by
  obtain ⟨l, hl⟩ := List.getLast?_eq_some_iff.1 h
  have hs' : (s.take k ++ s.drop k).Pairwise (· ≤ ·) := by rw [List.take_append_drop]; exact hs
  rw [List.pairwise_append] at hs'
  obtain ⟨h1, _, h3⟩ := hs'
  refine ⟨?_, fun x hx => h3 thr (by rw [hl]; simp) x hx⟩
  intro x hx
  rw [hl] at hx h1
  rw [List.pairwise_append] at h1
  rcases List.mem_append.1 hx with hx | hx
  · exact h1.2.2 x hx thr (by simp)
  · simp at hx; exact hx.le

/-- At least `k` elements are `≤` the k-th smallest. -/
theorem kth_count_ge {l : List α} {k : Nat} {thr : α} (hk : k ≤ l.length)
    (h : ((l.insertionSort (· ≤ ·)).take k).getLast? = some thr) :
    k ≤ l.countP (fun x => x ≤ thr) := by
  have hp := List.perm_insertionSort (· ≤ ·) l
  rw [← hp.countP_eq]
  have hs := List.pairwise_insertionSort (· ≤ ·) l
  have := (sorted_take_le hs h).1
  rw [← List.take_append_drop k (l.insertionSort (· ≤ ·)), List.countP_append]
  have h2 : (List.take k (List.insertionSort (· ≤ ·) l)).countP (fun x => decide (x ≤ thr)) = k := by
    rw [List.countP_eq_length.2 (by intro a ha; simpa using this a ha)]
    rw [List.length_take, hp.length_eq]; omega
  omega

/-- Exactly `k` when the elements are distinct. -/
theorem kth_count_eq {l : List α} (hn : l.Nodup) {k : Nat} {thr : α} (hk : k ≤ l.length)
    (h : ((l.insertionSort (· ≤ ·)).take k).getLast? = some thr) :
    l.countP (fun x => x ≤ thr) = k := by
  have hp := List.perm_insertionSort (· ≤ ·) l
  have hn' := hp.nodup_iff.2 hn
  rw [← hp.countP_eq]
  have hs := List.pairwise_insertionSort (· ≤ ·) l
  obtain ⟨h1, h2⟩ := sorted_take_le hs h
  rw [← List.take_append_drop k (l.insertionSort (· ≤ ·))] at hn' ⊢
  rw [List.countP_append]
  have e1 : (List.take k (List.insertionSort (· ≤ ·) l)).countP (fun x => decide (x ≤ thr)) = k := by
    rw [List.countP_eq_length.2 (by intro a ha; simpa using h1 a ha)]
    rw [List.length_take, hp.length_eq]; omega
  have e2 : (List.drop k (List.insertionSort (· ≤ ·) l)).countP (fun x => decide (x ≤ thr)) = 0 := by
    rw [List.countP_eq_zero]
    intro a ha
    have hne : a ≠ thr := by
      rintro rfl
      rw [List.nodup_append] at hn'
      obtain ⟨l', hl'⟩ := List.getLast?_eq_some_iff.1 h
      exact hn'.2.2 a (by rw [hl']; simp) a ha rfl
    simp only [decide_eq_true_eq, not_le]
    exact lt_of_le_of_ne (h2 a ha) hne.symm
  omega

/-- Fewer than `k` elements are strictly below the k-th smallest. -/
theorem kth_count_lt {l : List α} {k : Nat} {thr : α} (hk : k ≤ l.length)
    (h : ((l.insertionSort (· ≤ ·)).take k).getLast? = some thr) :
    l.countP (fun x => x < thr) < k := by
  have hp := List.perm_insertionSort (· ≤ ·) l
  rw [← hp.countP_eq]
  have hs := List.pairwise_insertionSort (· ≤ ·) l
  obtain ⟨h1, h2⟩ := sorted_take_le hs h
  rw [← List.take_append_drop k (l.insertionSort (· ≤ ·)), List.countP_append]
  have e2 : (List.drop k (List.insertionSort (· ≤ ·) l)).countP (fun x => decide (x < thr)) = 0 := by
    rw [List.countP_eq_zero]
    intro a ha
    simpa using h2 a ha
  have e1 : (List.take k (List.insertionSort (· ≤ ·) l)).countP (fun x => decide (x < thr)) < k := by
    obtain ⟨l', hl'⟩ := List.getLast?_eq_some_iff.1 h
    have hlen : (List.take k (List.insertionSort (· ≤ ·) l)).length = k := by
      rw [List.length_take, hp.length_eq]; omega
    rw [hl'] at hlen ⊢
    rw [List.countP_append]
    have := List.countP_le_length (p := fun x => decide (x < thr)) (l := l')
    simp at hlen ⊢
    omega
  omega

end Verif
