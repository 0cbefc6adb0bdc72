import Verif.Model.DatasetSummary
import Mathlib.Tactic.NormNum
import Mathlib.Algebra.BigOperators.Group.List.Basic
/-!
# C182: the data set summary
-/
namespace Verif

theorem foldl_append_flatten (b : List ℤ) (bs : List (List ℤ)) : bs.foldl (· ++ ·) b = (b :: bs).flatten := by
  induction bs generalizing b with
  | nil => simp
  | cons c bs ih => rw [List.foldl_cons, ih]; simp

/-- **C182** (sizes) For labels between 0 and 999 the size logged for class `c` is the number of samples with this label, however the samples are divided into
batches; the classes are logged in order. -/
theorem C182_sizes_partial (batches : List (List ℤ)) (h : batches ≠ []) (hl : ∀ b ∈ batches, ∀ x ∈ b, 0 ≤ x ∧ x < 1000) :
    ∃ log, datasetSummary batches = .ok log ∧ log.sizes.length = 1000 ∧
      ∀ c : ℕ, c < 1000 → log.sizes[c]? = some (c, (batches.flatten.filter fun x => x = (c : ℤ)).length) := by
  cases batches with
  | nil => exact absurd rfl h
  | cons b bs =>
    refine ⟨_, rfl, by simp [npHist1000], ?_⟩
    intro c hc
    dsimp only
    rw [List.getElem?_map, List.getElem?_zipIdx, foldl_append_flatten]
    unfold npHist1000
    rw [List.getElem?_map, List.getElem?_range hc]
    simp only [Option.map_some, Nat.zero_add, Option.some.injEq, Prod.mk.injEq, true_and]
    congr 1
    apply List.filter_congr
    intro x hx
    obtain ⟨l, hm, hx⟩ := List.mem_flatten.1 hx
    have := hl l hm x hx
    have h1 : x ≠ 1000 := by omega
    simp [h1]

/-- **C182** (batches) The summary depends on the samples only, not on their division into batches. -/
theorem C182_batches (a b : List (List ℤ)) (ha : a ≠ []) (hb : b ≠ []) (h : a.flatten = b.flatten) : datasetSummary a = datasetSummary b := by
  cases a with
  | nil => exact absurd rfl ha
  | cons a as =>
    cases b with
    | nil => exact absurd rfl hb
    | cons b bs =>
      unfold datasetSummary
      simp only [foldl_append_flatten]
      rw [h]

/-- **C182** (consistency) Without batches nothing is logged but an exception raised; otherwise the average logged is the sum of the sizes logged divided by the number of
classes logged, which is the number of sizes. -/
theorem C182_consistent : datasetSummary [] = .error .name ∧ ∀ b bs, ∃ log, datasetSummary (b :: bs) = .ok log ∧ log.classes = log.sizes.length ∧
    log.average * log.classes = ((log.sizes.map Prod.snd).sum : ℚ) := by
  refine ⟨rfl, fun b bs => ⟨_, rfl, by simp, ?_⟩⟩
  dsimp only
  have e : (((npHist1000 (bs.foldl (· ++ ·) b)).zipIdx.map fun x => (x.2, x.1)).map Prod.snd) = npHist1000 (bs.foldl (· ++ ·) b) := by
    rw [List.map_map]
    have : (Prod.snd ∘ fun x : ℕ × ℕ => (x.2, x.1)) = Prod.fst := rfl
    rw [this, List.zipIdx_map_fst]
  have hl : (npHist1000 (bs.foldl (· ++ ·) b)).length = 1000 := by simp [npHist1000]
  rw [e, hl]
  exact div_mul_cancel₀ _ (by norm_num)

/-- **C182, violated** (number of classes): whatever the data set, 1000 classes are reported, and the average is the number of samples divided by 1000. -/
theorem C182_violated_classes (b : List ℤ) (bs : List (List ℤ)) : ∃ log, datasetSummary (b :: bs) = .ok log ∧ log.classes = 1000 ∧
    log.average = ((log.sizes.map Prod.snd).sum : ℚ) / 1000 := by
  refine ⟨_, rfl, by simp [npHist1000], ?_⟩
  dsimp only
  have e : (((npHist1000 (bs.foldl (· ++ ·) b)).zipIdx.map fun x => (x.2, x.1)).map Prod.snd) = npHist1000 (bs.foldl (· ++ ·) b) := by
    rw [List.map_map]
    have : (Prod.snd ∘ fun x : ℕ × ℕ => (x.2, x.1)) = Prod.fst := rfl
    rw [this, List.zipIdx_map_fst]
  have hl : (npHist1000 (bs.foldl (· ++ ·) b)).length = 1000 := by simp [npHist1000]
  rw [e, hl]
  push_cast
  rfl

/-- **C182, violated** (labels of 1000 and more): label 1000 is counted for class 999, larger labels are not counted at all. -/
theorem C182_violated_labels (l : List ℤ) (h : ∀ x ∈ l, 1000 ≤ x) (c : ℕ) (hc : c < 1000) :
    (npHist1000 l)[c]? = some (if c = 999 then (l.filter fun x => x = 1000).length else 0) := by
  unfold npHist1000
  rw [List.getElem?_map, List.getElem?_range hc]
  simp only [Option.map_some, Option.some.injEq]
  by_cases h9 : c = 999
  · rw [if_pos h9]
    congr 1
    apply List.filter_congr
    intro x hx
    have := h x hx
    simp only [decide_eq_decide]
    omega
  · rw [if_neg h9, List.length_eq_zero_iff, List.filter_eq_nil_iff]
    intro x hx
    have := h x hx
    simp only [decide_eq_true_eq]
    omega

example : ∃ log, datasetSummary [[3, 4], [3]] = .ok log ∧ log.sizes[3]? = some (3, 2) :=
  let ⟨log, h, _, h2⟩ := C182_sizes_partial [[3, 4], [3]] (by simp) (by decide)
  ⟨log, h, h2 3 (by decide)⟩

end Verif
