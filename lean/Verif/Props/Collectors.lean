import Verif.Model.Collectors
import Mathlib.Tactic.Ring
import Mathlib.Tactic.Linarith
import Mathlib.Tactic.FieldSimp
import Mathlib.Algebra.BigOperators.Group.List.Basic
import Mathlib.Data.List.Induction
/-!
# C45, C46, C47, C70, C71: collected statistics
-/
namespace Verif

/-! ## Specification -/

/-- `m` is the least element of `l`. -/
def IsLeastOf (m : ℚ) (l : List ℚ) : Prop := m ∈ l ∧ ∀ x ∈ l, m ≤ x
/-- `m` is the greatest element of `l`. -/
def IsGreatestOf (m : ℚ) (l : List ℚ) : Prop := m ∈ l ∧ ∀ x ∈ l, x ≤ m
/-- Arithmetic mean. -/
def collMean (l : List ℚ) : ℚ := l.sum / l.length
/-- All values of all samples of all batches. -/
def allValues (bs : List Batch) : List ℚ := bs.flatten.flatten
/-- A batch a layer can produce: at least one sample, all samples of one positive size, values in
the range of floating-point numbers. -/
structure GoodBatch (x : Batch) : Prop where
  nonempty : x ≠ []
  size : ∃ k, 0 < k ∧ ∀ s ∈ x, s.length = k
  range : ∀ s ∈ x, ∀ v ∈ s, -fltMax ≤ v ∧ v ≤ fltMax

/-! ## Lemmas -/

theorem coll_foldl_min_le (l : List ℚ) (a : ℚ) : l.foldl min a ≤ a ∧ (∀ x ∈ l, l.foldl min a ≤ x) ∧ (l.foldl min a = a ∨ l.foldl min a ∈ l) := by
  induction l generalizing a with
  | nil => simp
  | cons y l ih =>
    obtain ⟨h1, h2, h3⟩ := ih (min a y)
    simp only [List.foldl_cons]
    refine ⟨le_trans h1 (min_le_left _ _), ?_, ?_⟩
    · intro x hx
      rcases List.mem_cons.1 hx with rfl | hx
      · exact le_trans h1 (min_le_right _ _)
      · exact h2 x hx
    · rcases h3 with h3 | h3
      · rw [h3]; rcases min_choice a y with h | h <;> simp [h]
      · right; simp [h3]

theorem foldl_max_le (l : List ℚ) (a : ℚ) : a ≤ l.foldl max a ∧ (∀ x ∈ l, x ≤ l.foldl max a) ∧ (l.foldl max a = a ∨ l.foldl max a ∈ l) := by
  induction l generalizing a with
  | nil => simp
  | cons y l ih =>
    obtain ⟨h1, h2, h3⟩ := ih (max a y)
    simp only [List.foldl_cons]
    refine ⟨le_trans (le_max_left _ _) h1, ?_, ?_⟩
    · intro x hx
      rcases List.mem_cons.1 hx with rfl | hx
      · exact le_trans (le_max_right _ _) h1
      · exact h2 x hx
    · rcases h3 with h3 | h3
      · rw [h3]; rcases max_choice a y with h | h <;> simp [h]
      · right; simp [h3]

theorem minL_least {l : List ℚ} (h : l ≠ []) : IsLeastOf (minL l) l := by
  cases l with
  | nil => exact absurd rfl h
  | cons a l =>
    obtain ⟨h1, h2, h3⟩ := coll_foldl_min_le l a
    refine ⟨?_, ?_⟩
    · rcases h3 with h3 | h3 <;> simp [minL, h3]
    · intro x hx
      rcases List.mem_cons.1 hx with rfl | hx
      · exact h1
      · exact h2 x hx

theorem maxL_greatest {l : List ℚ} (h : l ≠ []) : IsGreatestOf (maxL l) l := by
  cases l with
  | nil => exact absurd rfl h
  | cons a l =>
    obtain ⟨h1, h2, h3⟩ := foldl_max_le l a
    refine ⟨?_, ?_⟩
    · rcases h3 with h3 | h3 <;> simp [maxL, h3]
    · intro x hx
      rcases List.mem_cons.1 hx with rfl | hx
      · exact h1
      · exact h2 x hx

theorem isLeast_unique {a b : ℚ} {l : List ℚ} (h1 : IsLeastOf a l) (h2 : IsLeastOf b l) : a = b :=
  le_antisymm (h1.2 b h2.1) (h2.2 a h1.1)

theorem isGreatest_unique {a b : ℚ} {l : List ℚ} (h1 : IsGreatestOf a l) (h2 : IsGreatestOf b l) : a = b :=
  le_antisymm (h2.2 a h1.1) (h1.2 b h2.1)

theorem GoodBatch.flat_ne {x : Batch} (h : GoodBatch x) : x.flatten ≠ [] := by
  obtain ⟨k, hk, hs⟩ := h.size
  cases x with
  | nil => exact absurd rfl h.nonempty
  | cons s x =>
    intro e
    have := hs s (by simp)
    simp at e
    rw [e.1] at this; simp at this; omega

theorem GoodBatch.row_ne {x : Batch} (h : GoodBatch x) {s : Tensor} (hs : s ∈ x) : s ≠ [] := by
  obtain ⟨k, hk, h2⟩ := h.size
  rintro rfl
  have := h2 [] hs; simp at this; omega

/-- The batch minimum. -/
theorem minL_minPerSample {x : Batch} (h : GoodBatch x) : IsLeastOf (minL (minPerSample x)) x.flatten := by
  unfold minPerSample
  split
  · exact minL_least h.flat_ne
  · have hne : x.map minL ≠ [] := by simp [h.nonempty]
    obtain ⟨h1, h2⟩ := minL_least hne
    obtain ⟨s, hs, e⟩ := List.mem_map.1 h1
    refine ⟨?_, ?_⟩
    · rw [← e]; exact List.mem_flatten.2 ⟨s, hs, (minL_least (h.row_ne hs)).1⟩
    · intro v hv
      obtain ⟨s', hs', hv⟩ := List.mem_flatten.1 hv
      exact le_trans (h2 _ (List.mem_map.2 ⟨s', hs', rfl⟩)) ((minL_least (h.row_ne hs')).2 v hv)

theorem maxL_maxPerSample {x : Batch} (h : GoodBatch x) : IsGreatestOf (maxL (maxPerSample x)) x.flatten := by
  unfold maxPerSample
  split
  · exact maxL_greatest h.flat_ne
  · have hne : x.map maxL ≠ [] := by simp [h.nonempty]
    obtain ⟨h1, h2⟩ := maxL_greatest hne
    obtain ⟨s, hs, e⟩ := List.mem_map.1 h1
    refine ⟨?_, ?_⟩
    · rw [← e]; exact List.mem_flatten.2 ⟨s, hs, (maxL_greatest (h.row_ne hs)).1⟩
    · intro v hv
      obtain ⟨s', hs', hv⟩ := List.mem_flatten.1 hv
      exact le_trans ((maxL_greatest (h.row_ne hs')).2 v hv) (h2 _ (List.mem_map.2 ⟨s', hs', rfl⟩))

theorem runMean_spec {l : Tensor} {prev : ℚ} {n : ℕ} {S : ℚ} (hl : l ≠ []) (h : n * prev = S) :
    ((n + l.length : ℕ) : ℚ) * runMean l prev n = S + l.sum := by
  unfold runMean
  have hp : ((n : ℚ) + l.length) ≠ 0 := by
    have : 0 < l.length := List.length_pos_iff.2 hl
    have h2 : (0 : ℚ) < l.length := by exact_mod_cast this
    positivity
  push_cast
  rw [mul_div_cancel₀ _ hp, h]

/-- What the first pass maintains. -/
theorem first_pass {bs : List Batch} (hg : ∀ x ∈ bs, GoodBatch x) :
    let r := bs.foldl QRec.update1 QRec.init
    r.total = (allValues bs).length ∧ (r.total : ℚ) * r.mean = (allValues bs).sum ∧
    (bs ≠ [] → IsLeastOf r.min (allValues bs) ∧ IsGreatestOf r.max (allValues bs)) ∧ r.var = 0 ∧ r.b = 0 := by
  induction bs using List.reverseRecOn with
  | nil => simp [QRec.init, allValues]
  | append_singleton bs x ih =>
    have hx : GoodBatch x := hg x (by simp)
    obtain ⟨i1, i2, i3, i4, i5⟩ := ih fun y hy => hg y (by simp [hy])
    simp only [List.foldl_append, List.foldl_cons, List.foldl_nil]
    generalize hr : bs.foldl QRec.update1 QRec.init = r at *
    have hall : allValues (bs ++ [x]) = allValues bs ++ x.flatten := by simp [allValues]
    refine ⟨by simp [QRec.update1, hall, i1], ?_, ?_, i4, i5⟩
    · simp only [QRec.update1, hall, List.sum_append]
      exact runMean_spec hx.flat_ne i2
    · intro _
      have m1 := minL_minPerSample hx
      have m2 := maxL_maxPerSample hx
      simp only [QRec.update1, hall]
      by_cases hb : bs = []
      · subst hb
        simp only [List.foldl_nil] at hr; subst hr
        have hm : ∀ v ∈ x.flatten, -fltMax ≤ v ∧ v ≤ fltMax := by
          intro v hv
          obtain ⟨s, hs, hv⟩ := List.mem_flatten.1 hv
          exact hx.range s hs v hv
        have e1 : min QRec.init.min (minL (minPerSample x)) = minL (minPerSample x) := min_eq_right (hm _ m1.1).2
        have e2 : max QRec.init.max (maxL (maxPerSample x)) = maxL (maxPerSample x) := max_eq_right (hm _ m2.1).1
        rw [e1, e2]
        simpa [allValues] using ⟨m1, m2⟩
      · obtain ⟨⟨a1, a2⟩, b1, b2⟩ := i3 hb
        refine ⟨⟨?_, ?_⟩, ?_, ?_⟩
        · rcases min_choice r.min (minL (minPerSample x)) with h | h <;> rw [h] <;> simp [a1, m1.1]
        · intro v hv
          rcases List.mem_append.1 hv with hv | hv
          · exact le_trans (min_le_left _ _) (a2 v hv)
          · exact le_trans (min_le_right _ _) (m1.2 v hv)
        · rcases max_choice r.max (maxL (maxPerSample x)) with h | h <;> rw [h] <;> simp [b1, m2.1]
        · intro v hv
          rcases List.mem_append.1 hv with hv | hv
          · exact le_trans (b2 v hv) (le_max_left _ _)
          · exact le_trans (m2.2 v hv) (le_max_right _ _)

theorem allValues_ne {bs : List Batch} (hg : ∀ x ∈ bs, GoodBatch x) (hb : bs ≠ []) : allValues bs ≠ [] := by
  cases bs with
  | nil => exact absurd rfl hb
  | cons x bs =>
    have := (hg x (by simp)).flat_ne
    simp only [allValues, List.flatten_cons, List.flatten_append]
    simp [this]

/-- **C45** (min, max, mean) For every non-empty sequence of batches, the recorded minimum, maximum and mean are those of the
collection of all values, whatever the sizes of the batches. -/
theorem C45_min_max_mean (bs : List Batch) (hg : ∀ x ∈ bs, GoodBatch x) (hb : bs ≠ []) :
    IsLeastOf (bs.foldl QRec.update1 QRec.init).min (allValues bs) ∧
    IsGreatestOf (bs.foldl QRec.update1 QRec.init).max (allValues bs) ∧
    (bs.foldl QRec.update1 QRec.init).mean = collMean (allValues bs) := by
  obtain ⟨h1, h2, h3, _⟩ := first_pass hg
  refine ⟨(h3 hb).1, (h3 hb).2, ?_⟩
  have hp : ((allValues bs).length : ℚ) ≠ 0 := by
    have := List.length_pos_iff.2 (allValues_ne hg hb)
    exact_mod_cast this.ne'
  rw [h1] at h2
  unfold collMean
  rw [← h2]; field_simp

theorem second_pass (r : QRec) {bs : List Batch} (hg : ∀ x ∈ bs, GoodBatch x) :
    let r' := bs.foldl QRec.update2 r.second
    r'.total = (allValues bs).length ∧ r'.mean = r.mean ∧ r'.min = r.min ∧ r'.max = r.max ∧
    r'.avgMin = r.avgMin ∧ r'.avgMax = r.avgMax ∧
    (r'.total : ℚ) * r'.var = ((allValues bs).map fun v => (v - r.mean) ^ 2).sum ∧
    (r'.total : ℚ) * r'.b = ((allValues bs).map fun v => |v - r.mean|).sum := by
  induction bs using List.reverseRecOn with
  | nil => simp [QRec.second, allValues]
  | append_singleton bs x ih =>
    have hx : GoodBatch x := hg x (by simp)
    obtain ⟨i1, i2, i3, i4, i5, i6, i7, i8⟩ := ih fun y hy => hg y (by simp [hy])
    simp only [List.foldl_append, List.foldl_cons, List.foldl_nil]
    generalize bs.foldl QRec.update2 r.second = s at *
    have hall : allValues (bs ++ [x]) = allValues bs ++ x.flatten := by simp [allValues]
    refine ⟨by simp [QRec.update2, hall, i1], i2, i3, i4, i5, i6, ?_, ?_⟩
    · simp only [QRec.update2, hall, List.map_append, List.sum_append, i2]
      have := runMean_spec (l := x.flatten.map fun v => (v - r.mean) ^ 2) (by rw [Ne, List.map_eq_nil_iff]; exact hx.flat_ne) i7
      rwa [List.length_map] at this
    · simp only [QRec.update2, hall, List.map_append, List.sum_append, i2]
      have := runMean_spec (l := x.flatten.map fun v => |v - r.mean|) (by rw [Ne, List.map_eq_nil_iff]; exact hx.flat_ne) i8
      rwa [List.length_map] at this

/-- **C45** (single precision) In particular for all values representable in single precision (magnitude below `2 ^ 128`). -/
theorem C45_single_precision (bs : List Batch) (hb : bs ≠ []) (hne : ∀ x ∈ bs, x ≠ [])
    (hs : ∀ x ∈ bs, ∃ k, 0 < k ∧ ∀ s ∈ x, s.length = k) (hr : ∀ x ∈ bs, ∀ s ∈ x, ∀ v ∈ s, |v| < 2 ^ 128) :
    IsLeastOf (bs.foldl QRec.update1 QRec.init).min (allValues bs) ∧
    IsGreatestOf (bs.foldl QRec.update1 QRec.init).max (allValues bs) ∧
    (bs.foldl QRec.update1 QRec.init).mean = collMean (allValues bs) := by
  have hf : (2 : ℚ) ^ 128 ≤ fltMax := by decide +kernel
  refine C45_min_max_mean bs (fun x hx => ⟨hne x hx, hs x hx, fun s hs v hv => ?_⟩) hb
  have := abs_lt.1 (hr x hx s hs v hv)
  exact ⟨by linarith [this.1], by linarith [this.2]⟩

/-- **C45** (std and Laplace `b`) A second pass, over any sequence of batches, records exactly the
mean squared and mean absolute distance of all its values from the mean recorded in the first pass; it
changes no other statistic; and the result does not depend on values left by earlier second passes. -/
theorem C45_second_pass (r : QRec) (bs : List Batch) (hg : ∀ x ∈ bs, GoodBatch x) (hb : bs ≠ []) :
    (bs.foldl QRec.update2 r.second).var = collMean ((allValues bs).map fun v => (v - r.mean) ^ 2) ∧
    (bs.foldl QRec.update2 r.second).b = collMean ((allValues bs).map fun v => |v - r.mean|) ∧
    (bs.foldl QRec.update2 r.second).mean = r.mean ∧ (bs.foldl QRec.update2 r.second).min = r.min ∧
    (bs.foldl QRec.update2 r.second).max = r.max := by
  obtain ⟨h1, h2, h3, h4, _, _, h7, h8⟩ := second_pass r hg
  have hp : ((allValues bs).length : ℚ) ≠ 0 := by
    have := List.length_pos_iff.2 (allValues_ne hg hb)
    exact_mod_cast this.ne'
  rw [h1] at h7 h8
  refine ⟨?_, ?_, h2, h3, h4⟩
  · unfold collMean; rw [← h7, List.length_map]; field_simp
  · unfold collMean; rw [← h8, List.length_map]; field_simp

/-- **C45** Independence of the batching: if the same values are presented in two runs, split into
batches (and ordered) differently – in the first pass and in the second – every one of minimum,
maximum, mean, standard deviation and `b` is the same. -/
theorem C45_batching_irrelevant (bs cs bs2 cs2 : List Batch) (hg : ∀ x ∈ bs ++ cs ++ bs2 ++ cs2, GoodBatch x)
    (hb : bs ≠ []) (hb2 : bs2 ≠ []) (hp : (allValues bs).Perm (allValues cs)) (hp2 : (allValues bs2).Perm (allValues cs2)) :
    (bs2.foldl QRec.update2 (bs.foldl QRec.update1 QRec.init).second).min = (cs2.foldl QRec.update2 (cs.foldl QRec.update1 QRec.init).second).min ∧
    (bs2.foldl QRec.update2 (bs.foldl QRec.update1 QRec.init).second).max = (cs2.foldl QRec.update2 (cs.foldl QRec.update1 QRec.init).second).max ∧
    (bs2.foldl QRec.update2 (bs.foldl QRec.update1 QRec.init).second).mean = (cs2.foldl QRec.update2 (cs.foldl QRec.update1 QRec.init).second).mean ∧
    (bs2.foldl QRec.update2 (bs.foldl QRec.update1 QRec.init).second).var = (cs2.foldl QRec.update2 (cs.foldl QRec.update1 QRec.init).second).var ∧
    (bs2.foldl QRec.update2 (bs.foldl QRec.update1 QRec.init).second).b = (cs2.foldl QRec.update2 (cs.foldl QRec.update1 QRec.init).second).b := by
  have gb : ∀ x ∈ bs, GoodBatch x := fun x hx => hg x (by simp [hx])
  have gc : ∀ x ∈ cs, GoodBatch x := fun x hx => hg x (by simp [hx])
  have gb2 : ∀ x ∈ bs2, GoodBatch x := fun x hx => hg x (by simp [hx])
  have gc2 : ∀ x ∈ cs2, GoodBatch x := fun x hx => hg x (by simp [hx])
  have ne : ∀ {l l' : List Batch}, (∀ x ∈ l, GoodBatch x) → l ≠ [] → (allValues l).Perm (allValues l') → l' ≠ [] := by
    rintro l l' g h p rfl
    have h1 := allValues_ne g h
    have h2 : allValues l = [] := by
      have : allValues ([] : List Batch) = [] := rfl
      rw [this] at p; exact p.eq_nil
    exact h1 h2
  have hc : cs ≠ [] := ne gb hb hp
  have hc2 : cs2 ≠ [] := ne gb2 hb2 hp2
  obtain ⟨a1, a2, a3⟩ := C45_min_max_mean bs gb hb
  obtain ⟨c1, c2, c3⟩ := C45_min_max_mean cs gc hc
  generalize bs.foldl QRec.update1 QRec.init = r at *
  generalize cs.foldl QRec.update1 QRec.init = q at *
  have emin : r.min = q.min := isLeast_unique a1 ⟨hp.mem_iff.2 c1.1, fun x hx => c1.2 x (hp.mem_iff.1 hx)⟩
  have emax : r.max = q.max := isGreatest_unique a2 ⟨hp.mem_iff.2 c2.1, fun x hx => c2.2 x (hp.mem_iff.1 hx)⟩
  have em : ∀ {l l' : List ℚ}, l.Perm l' → collMean l = collMean l' := by
    intro l l' p; unfold collMean; rw [p.sum_eq, p.length_eq]
  have emean : r.mean = q.mean := by rw [a3, c3, em hp]
  obtain ⟨x1, x2, x3, x4, x5⟩ := C45_second_pass r bs2 gb2 hb2
  obtain ⟨y1, y2, y3, y4, y5⟩ := C45_second_pass q cs2 gc2 hc2
  refine ⟨by rw [x4, y4, emin], by rw [x5, y5, emax], by rw [x3, y3, emean], ?_, ?_⟩
  · rw [x1, y1, emean]; exact em (hp2.map _)
  · rw [x2, y2, emean]; exact em (hp2.map _)

/-- Two batches of different sizes. -/
def exBatches : List Batch := [[[1, 2], [3, 6]], [[-1, 7]]]
example : ∀ x ∈ exBatches, GoodBatch x := by
  intro x hx
  simp [exBatches] at hx
  rcases hx with rfl | rfl
  · exact ⟨by simp, ⟨2, by simp⟩, by decide +kernel⟩
  · exact ⟨by simp, ⟨2, by simp⟩, by decide +kernel⟩
example : (exBatches.foldl QRec.update1 QRec.init) = ⟨-1, 7, 7/5, 23/5, 3, 0, 0, 6⟩ := by decide +kernel
example : (exBatches.foldl QRec.update2 (exBatches.foldl QRec.update1 QRec.init).second) =
    ⟨-1, 7, 7/5, 23/5, 3, 23/3, 7/3, 6⟩ := by decide +kernel

/-! ## C46: average minimum and maximum -/

/-- The minimum of every sample, over all batches (specification). -/
def sampleMins (bs : List Batch) : List ℚ := bs.flatten.map minL
def sampleMaxs (bs : List Batch) : List ℚ := bs.flatten.map maxL

/-- **C46** is violated: after two batches `avg_min` is not the average of the per-sample minima (the
running mean is weighted with the number of values seen so far instead of the number of samples). -/
theorem C46_violated_two_batches : ∃ bs : List Batch, (∀ x ∈ bs, GoodBatch x) ∧
    (bs.foldl QRec.update1 QRec.init).avgMin ≠ collMean (sampleMins bs) ∧
    (bs.foldl QRec.update1 QRec.init).avgMax ≠ collMean (sampleMaxs bs) := by
  refine ⟨exBatches, ?_, by decide +kernel⟩
  intro x hx
  simp [exBatches] at hx
  rcases hx with rfl | rfl
  · exact ⟨by simp, ⟨2, by simp⟩, by decide +kernel⟩
  · exact ⟨by simp, ⟨2, by simp⟩, by decide +kernel⟩

/-- **C46** holds for a single batch (of samples with more than one value). -/
theorem C46_single_batch_partial (x : Batch) (hm : x.flatten.length ≠ x.length) :
    (QRec.init.update1 x).avgMin = collMean (sampleMins [x]) ∧ (QRec.init.update1 x).avgMax = collMean (sampleMaxs [x]) := by
  have e1 : minPerSample x = x.map minL := if_neg hm
  have e2 : maxPerSample x = x.map maxL := if_neg hm
  simp [QRec.update1, e1, e2, runMean, QRec.init, collMean, sampleMins, sampleMaxs]

example : ([[1, 2], [3, 6]] : Batch).flatten.length ≠ ([[1, 2], [3, 6]] : Batch).length := by decide

theorem runMean_between {l : Tensor} {prev lo hi : ℚ} {n : ℕ} (hl : l ≠ []) (h1 : ∀ v ∈ l, lo ≤ v ∧ v ≤ hi)
    (hp : n = 0 ∨ (lo ≤ prev ∧ prev ≤ hi)) : lo ≤ runMean l prev n ∧ runMean l prev n ≤ hi := by
  have hlen : (0 : ℚ) < l.length := by exact_mod_cast List.length_pos_iff.2 hl
  have hs : lo * l.length ≤ l.sum ∧ l.sum ≤ hi * l.length := by
    clear hl hlen hp
    induction l with
    | nil => simp
    | cons a l ih =>
      obtain ⟨i1, i2⟩ := ih fun v hv => h1 v (by simp [hv])
      obtain ⟨j1, j2⟩ := h1 a (by simp)
      simp only [List.sum_cons, List.length_cons]; push_cast
      constructor <;> linarith
  have hn : (0 : ℚ) ≤ n := by positivity
  have hpos : (0 : ℚ) < n + l.length := by linarith
  unfold runMean
  rw [le_div_iff₀ hpos, div_le_iff₀ hpos]
  rcases hp with rfl | ⟨p1, p2⟩
  · simp; exact hs
  · have q1 := mul_le_mul_of_nonneg_left p1 hn
    have q2 := mul_le_mul_of_nonneg_left p2 hn
    constructor <;> linarith [hs.1, hs.2]

theorem minPerSample_ne {x : Batch} (h : x ≠ []) : minPerSample x ≠ [] := by
  unfold minPerSample; split <;> simp [h]
theorem maxPerSample_ne {x : Batch} (h : x ≠ []) : maxPerSample x ≠ [] := by
  unfold maxPerSample; split <;> simp [h]
theorem mem_minPerSample {x : Batch} (h : GoodBatch x) {v : ℚ} (hv : v ∈ minPerSample x) : v ∈ x.flatten := by
  unfold minPerSample at hv; split at hv
  · simp at hv; rw [hv]; exact (minL_least h.flat_ne).1
  · obtain ⟨s, hs, rfl⟩ := List.mem_map.1 hv
    exact List.mem_flatten.2 ⟨s, hs, (minL_least (h.row_ne hs)).1⟩
theorem mem_maxPerSample {x : Batch} (h : GoodBatch x) {v : ℚ} (hv : v ∈ maxPerSample x) : v ∈ x.flatten := by
  unfold maxPerSample at hv; split at hv
  · simp at hv; rw [hv]; exact (maxL_greatest h.flat_ne).1
  · obtain ⟨s, hs, rfl⟩ := List.mem_map.1 hv
    exact List.mem_flatten.2 ⟨s, hs, (maxL_greatest (h.row_ne hs)).1⟩

/-- **C46** (what does hold after any number of batches) The recorded average minimum and average
maximum always lie between the recorded overall minimum and maximum – so clipping to them never
widens the range. -/
theorem C46_within_range_partial (bs : List Batch) (hg : ∀ x ∈ bs, GoodBatch x) (hb : bs ≠ []) :
    (bs.foldl QRec.update1 QRec.init).min ≤ (bs.foldl QRec.update1 QRec.init).avgMin ∧
    (bs.foldl QRec.update1 QRec.init).avgMin ≤ (bs.foldl QRec.update1 QRec.init).max ∧
    (bs.foldl QRec.update1 QRec.init).min ≤ (bs.foldl QRec.update1 QRec.init).avgMax ∧
    (bs.foldl QRec.update1 QRec.init).avgMax ≤ (bs.foldl QRec.update1 QRec.init).max := by
  induction bs using List.reverseRecOn with
  | nil => exact absurd rfl hb
  | append_singleton bs x ih =>
    have hx : GoodBatch x := hg x (by simp)
    have ih' := ih fun y hy => hg y (by simp [hy])
    obtain ⟨⟨_, m2⟩, ⟨_, m4⟩, _⟩ := C45_min_max_mean (bs ++ [x]) hg hb
    have fp := first_pass (bs := bs) fun y hy => hg y (by simp [hy])
    simp only [List.foldl_append, List.foldl_cons, List.foldl_nil] at m2 m4 ⊢
    generalize hr : bs.foldl QRec.update1 QRec.init = r at *
    have hin : ∀ v ∈ x.flatten, (r.update1 x).min ≤ v ∧ v ≤ (r.update1 x).max := by
      intro v hv
      have : v ∈ allValues (bs ++ [x]) := by
        have : allValues (bs ++ [x]) = allValues bs ++ x.flatten := by simp [allValues]
        rw [this]; exact List.mem_append_right _ hv
      exact ⟨m2 v this, m4 v this⟩
    have hprev : r.total = 0 ∨ (((r.update1 x).min ≤ r.avgMin ∧ r.avgMin ≤ (r.update1 x).max) ∧
        ((r.update1 x).min ≤ r.avgMax ∧ r.avgMax ≤ (r.update1 x).max)) := by
      by_cases hbs : bs = []
      · left; subst hbs; simp [fp.1, allValues]
      · right
        obtain ⟨j1, j2, j3, j4⟩ := ih' hbs
        have k1 : (r.update1 x).min ≤ r.min := min_le_left _ _
        have k2 : r.max ≤ (r.update1 x).max := le_max_left _ _
        exact ⟨⟨le_trans k1 j1, le_trans j2 k2⟩, ⟨le_trans k1 j3, le_trans j4 k2⟩⟩
    obtain ⟨a1, a2⟩ := runMean_between (prev := r.avgMin) (n := r.total) (minPerSample_ne hx.nonempty)
      (fun v hv => hin v (mem_minPerSample hx hv)) (hprev.imp id (·.1))
    obtain ⟨b1, b2⟩ := runMean_between (prev := r.avgMax) (n := r.total) (maxPerSample_ne hx.nonempty)
      (fun v hv => hin v (mem_maxPerSample hx hv)) (hprev.imp id (·.2))
    exact ⟨a1, a2, b1, b2⟩

/-! ## C47: the weighted meter -/

/-- Weighted sum of squared distances (specification). -/
def wsq (l : List (ℚ × ℚ)) (c : ℚ) : ℚ := (l.map fun vn => vn.2 * (vn.1 - c) ^ 2).sum
def wtot (l : List (ℚ × ℚ)) : ℚ := (l.map fun vn => vn.2).sum
def wsum (l : List (ℚ × ℚ)) : ℚ := (l.map fun vn => vn.2 * vn.1).sum

/-- `add` called for every (value, weight). -/
def meterAddAll (l : List (ℚ × ℚ)) : WMeter := l.foldl (fun m vn => (m.add vn.1 vn.2).1) WMeter.init

theorem wtot_pos {l : List (ℚ × ℚ)} (h : ∀ vn ∈ l, 0 < vn.2) (hl : l ≠ []) : 0 < wtot l := by
  induction l with
  | nil => exact absurd rfl hl
  | cons a l ih =>
    have ha := h a (by simp)
    unfold wtot at *
    simp only [List.map_cons, List.sum_cons]
    by_cases c : l = []
    · subst c; simpa using ha
    · have := ih (fun vn hv => h vn (by simp [hv])) c
      linarith

theorem wsq_shift (l : List (ℚ × ℚ)) (c : ℚ) : wsq l c = (l.map fun vn => vn.2 * vn.1 ^ 2).sum - 2 * c * wsum l + c ^ 2 * wtot l := by
  unfold wsq wsum wtot
  induction l with
  | nil => simp
  | cons a l ih => simp only [List.map_cons, List.sum_cons]; rw [ih]; ring

theorem meter_inv {l : List (ℚ × ℚ)} (h : ∀ vn ∈ l, 0 < vn.2) :
    (meterAddAll l).n = wtot l ∧ (meterAddAll l).sum = wsum l ∧ (l ≠ [] → wtot l * (meterAddAll l).mean = wsum l ∧ (meterAddAll l).ms = wsq l (meterAddAll l).mean) ∧
    (2 ≤ l.length → (meterAddAll l).var = some ((meterAddAll l).ms / (wtot l - 1))) := by
  induction l using List.reverseRecOn with
  | nil => simp [meterAddAll, WMeter.init, wtot, wsum]
  | append_singleton l x ih =>
    have hx : 0 < x.2 := h x (by simp)
    obtain ⟨i1, i2, i3, i4⟩ := ih fun y hy => h y (by simp [hy])
    have e : meterAddAll (l ++ [x]) = ((meterAddAll l).add x.1 x.2).1 := by simp [meterAddAll]
    have w1 : wtot (l ++ [x]) = wtot l + x.2 := by simp [wtot]
    have w2 : wsum (l ++ [x]) = wsum l + x.2 * x.1 := by simp [wsum]
    have w3 : ∀ c, wsq (l ++ [x]) c = wsq l c + x.2 * (x.1 - c) ^ 2 := by intro c; simp [wsq]
    rw [e]
    by_cases hl : l = []
    · subst hl
      have : (meterAddAll []) = WMeter.init := rfl
      rw [this]
      simp [WMeter.add, not_le.2 hx, WMeter.init, wtot, wsum, wsq]
      ring
    · have hpos := wtot_pos (fun y hy => h y (by simp [hy])) hl
      obtain ⟨j1, j2⟩ := i3 hl
      generalize meterAddAll l = m at *
      have hn : ¬ m.n = 0 := by rw [i1]; exact hpos.ne'
      have hp : wtot l + x.2 ≠ 0 := by linarith
      have key : (wtot l + x.2) * (m.mean + x.2 * (x.1 - m.mean) / (wtot l + x.2)) = wsum l + x.2 * x.1 := by
        field_simp; linarith
      have hn' : ¬ wtot l = 0 := hpos.ne'
      simp only [WMeter.add, not_le.2 hx, if_false, w1, w2, i1, i2, hn']
      refine ⟨trivial, by ring, ?_, ?_⟩
      · intro _
        refine ⟨key, ?_⟩
        rw [w3, j2, wsq_shift l m.mean, wsq_shift l (m.mean + _), ← j1]
        field_simp
        ring
      · intro _; trivial

/-- **C47** After any non-empty sequence of additions with positive weights the meter's mean is the
weighted mean; its sum the weighted sum; and, from the second addition on, its variance is the
weighted sum of squared distances from that mean divided by (total weight − 1). -/
theorem C47_meter (l : List (ℚ × ℚ)) (hpos : ∀ vn ∈ l, 0 < vn.2) (hl : l ≠ []) :
    (meterAddAll l).mean = wsum l / wtot l ∧ (meterAddAll l).sum = wsum l ∧ (meterAddAll l).n = wtot l ∧
    (2 ≤ l.length → (meterAddAll l).var = some (wsq l (wsum l / wtot l) / (wtot l - 1))) := by
  obtain ⟨h1, h2, h3, h4⟩ := meter_inv hpos
  obtain ⟨j1, j2⟩ := h3 hl
  have hp := (wtot_pos hpos hl).ne'
  have hm : (meterAddAll l).mean = wsum l / wtot l := by rw [← j1]; field_simp
  exact ⟨hm, h2, h1, fun h => by rw [h4 h, j2, hm]⟩

example : meterAddAll [(1, 2), (4, 1)] = ⟨3, 6, 2, 6, some 3⟩ := by decide +kernel

/-- A non-positive weight raises `ValueError` and leaves mean, count and variance alone. -/
theorem C47_rejects_nonpositive (m : WMeter) (v n : ℚ) :
    ((m.add v n).2 = .error .value ↔ n ≤ 0) ∧
    (n ≤ 0 → (m.add v n).1.mean = m.mean ∧ (m.add v n).1.n = m.n ∧ (m.add v n).1.var = m.var) := by
  unfold WMeter.add
  by_cases h : n ≤ 0
  · simp [h]
  · by_cases h2 : m.n = 0 <;> simp [h, h2]

/-- **C47** is violated by a rejected addition: it still changes the meter's `sum`, which afterwards
disagrees with mean × count. -/
theorem C47_violated_sum_after_rejection : ∃ (m : WMeter) (v n : ℚ), m = meterAddAll [(1, 2), (4, 1)] ∧
    (m.add v n).2 = .error .value ∧ (m.add v n).1.sum ≠ (m.add v n).1.mean * (m.add v n).1.n :=
  ⟨_, 5, -1, rfl, by decide +kernel⟩

end Verif
