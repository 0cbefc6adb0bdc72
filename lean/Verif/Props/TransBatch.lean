import Verif.Props.TransData
/-!
# C184: the sentence pairs of the translator and their batches
-/
namespace Verif

/-- The lines that are read: the first `max_size` ones if it is given and not 0. -/
def firstLines {α : Type} (maxSize : Option ℕ) (lines : List α) : List α :=
  match maxSize with
  | some (m + 1) => lines.take (m + 1)
  | _ => lines

theorem processData_all (vocab : List (List Char)) (maxSize : Option ℕ) (hm : maxSize.getD 0 = 0) (lines : List (List Char)) : ∀ (t : Tokenizer) (i : ℕ), TokOk vocab t →
    (processData t maxSize i lines).1 = lines.map (lineNumbers vocab) ∧ TokOk vocab (processData t maxSize i lines).2 := by
  induction lines with
  | nil => intro t i h; exact ⟨rfl, h⟩
  | cons l ls ih =>
    intro t i h
    obtain ⟨h1, h2⟩ := segment_ok vocab t h l
    obtain ⟨i1, i2⟩ := ih _ (i + 1) h2
    unfold processData
    rw [if_neg (fun hh => hh.1 hm)]
    exact ⟨by simp only; rw [h1, i1, List.map_cons], i2⟩

theorem processData_some (vocab : List (List Char)) (m : ℕ) (lines : List (List Char)) : ∀ (t : Tokenizer) (i : ℕ), i ≤ m + 1 → TokOk vocab t →
    (processData t (some (m + 1)) i lines).1 = (lines.take (m + 1 - i)).map (lineNumbers vocab) ∧ TokOk vocab (processData t (some (m + 1)) i lines).2 := by
  induction lines with
  | nil => intro t i _ h; exact ⟨by simp [processData], h⟩
  | cons l ls ih =>
    intro t i hi h
    unfold processData
    by_cases e : m + 1 = i
    · rw [if_pos ⟨by simp, by rw [e]⟩, e, Nat.sub_self]
      exact ⟨rfl, h⟩
    · rw [if_neg (fun hh => e (Option.some.inj hh.2))]
      obtain ⟨h1, h2⟩ := segment_ok vocab t h l
      obtain ⟨i1, i2⟩ := ih _ (i + 1) (by omega) h2
      refine ⟨?_, i2⟩
      simp only
      rw [h1, i1, show m + 1 - i = (m + 1 - (i + 1)) + 1 by omega, List.take_succ_cons, List.map_cons]

theorem processData_ok (vocab : List (List Char)) (maxSize : Option ℕ) (lines : List (List Char)) (t : Tokenizer) (h : TokOk vocab t) :
    (processData t maxSize 0 lines).1 = (firstLines maxSize lines).map (lineNumbers vocab) ∧ TokOk vocab (processData t maxSize 0 lines).2 := by
  match maxSize with
  | none => exact processData_all vocab none rfl lines t 0 h
  | some 0 => exact processData_all vocab (some 0) rfl lines t 0 h
  | some (m + 1) => exact processData_some vocab m lines t 0 (by omega) h

theorem filterData_ok (minLen maxLen : ℕ) : ∀ (ss ts : List (List ℕ)), ss.length = ts.length →
    List.zip (filterData minLen maxLen ss ts).1 (filterData minLen maxLen ss ts).2 = (List.zip ss ts).filter (fun p =>
      (minLen ≤ p.1.length ∧ p.1.length ≤ maxLen) ∧ minLen ≤ p.2.length ∧ p.2.length ≤ maxLen) ∧
    (filterData minLen maxLen ss ts).1.length = (filterData minLen maxLen ss ts).2.length := by
  intro ss
  induction ss with
  | nil => intro ts _; simp [filterData]
  | cons s ss ih =>
    intro ts hl
    cases ts with
    | nil => cases hl
    | cons t ts =>
      obtain ⟨h1, h2⟩ := ih ts (by simpa using hl)
      unfold filterData
      simp only
      rw [List.zip_cons_cons]
      by_cases hc : (minLen ≤ s.length ∧ s.length ≤ maxLen) ∧ minLen ≤ t.length ∧ t.length ≤ maxLen
      · rw [if_pos hc, List.filter_cons_of_pos (by simpa using hc), List.zip_cons_cons, h1]
        exact ⟨rfl, by simp [h2]⟩
      · rw [if_neg hc, List.filter_cons_of_neg (by simpa using hc)]
        exact ⟨h1, h2⟩

/-- The pairs of numbered sentences that belong to the data: line by line, with both lengths, counted with `BOS` and `EOS`, within the bounds. -/
def pairsOf (vocab : List (List Char)) (minLen maxLen : ℕ) (maxSize : Option ℕ) (srcFile tgtFile : List (List Char)) : List (List ℕ × List ℕ) :=
  ((List.zip (firstLines maxSize srcFile) (firstLines maxSize tgtFile)).map fun p => (lineNumbers vocab p.1, lineNumbers vocab p.2)).filter fun p =>
    (minLen ≤ p.1.length ∧ p.1.length ≤ maxLen) ∧ minLen ≤ p.2.length ∧ p.2.length ≤ maxLen

/-- **C184** (the data) Files of which different numbers of lines are read are refused; otherwise the data are the pairs of corresponding
lines, in the order of the files, that are within the bounds, with the sum of their lengths. -/
theorem C184_pairs (lines : List (List Char)) (sep : List Char) (argsort : List ℕ → List ℕ) (minLen maxLen : ℕ) (maxSize : Option ℕ)
    (srcFile tgtFile : List (List Char)) :
    ((firstLines maxSize srcFile).length ≠ (firstLines maxSize tgtFile).length →
      ∀ b, ParallelData.new (Tokenizer.new lines sep) argsort minLen maxLen b maxSize srcFile tgtFile = .error .assertion) ∧
    ((firstLines maxSize srcFile).length = (firstLines maxSize tgtFile).length → ∃ d,
      ParallelData.new (Tokenizer.new lines sep) argsort minLen maxLen false maxSize srcFile tgtFile = .ok d ∧
      ParallelData.new (Tokenizer.new lines sep) argsort minLen maxLen true maxSize srcFile tgtFile = .ok (sortByLength argsort d) ∧
      d.src = (pairsOf (vocabList lines) minLen maxLen maxSize srcFile tgtFile).map Prod.fst ∧
      d.tgt = (pairsOf (vocabList lines) minLen maxLen maxSize srcFile tgtFile).map Prod.snd ∧
      d.lengths = (pairsOf (vocabList lines) minLen maxLen maxSize srcFile tgtFile).map fun p => p.1.length + p.2.length) := by
  obtain ⟨s1, s2⟩ := processData_ok _ maxSize srcFile _ (tokOk_new lines sep)
  obtain ⟨t1, -⟩ := processData_ok _ maxSize tgtFile _ s2
  unfold ParallelData.new
  simp only
  rw [t1, s1, List.length_map, List.length_map]
  constructor
  · intro hn b
    rw [if_pos hn]
  · intro he
    simp only [if_neg (fun hh : (firstLines maxSize srcFile).length ≠ (firstLines maxSize tgtFile).length => hh he)]
    obtain ⟨f1, f2⟩ := filterData_ok minLen maxLen ((firstLines maxSize srcFile).map (lineNumbers (vocabList lines)))
      ((firstLines maxSize tgtFile).map (lineNumbers (vocabList lines))) (by simpa using he)
    have hp : List.zip (filterData minLen maxLen ((firstLines maxSize srcFile).map (lineNumbers (vocabList lines)))
      ((firstLines maxSize tgtFile).map (lineNumbers (vocabList lines)))).1 (filterData minLen maxLen ((firstLines maxSize srcFile).map (lineNumbers (vocabList lines)))
      ((firstLines maxSize tgtFile).map (lineNumbers (vocabList lines)))).2 = pairsOf (vocabList lines) minLen maxLen maxSize srcFile tgtFile := by
      rw [f1]
      unfold pairsOf
      rw [List.zip_map]
      rfl
    refine ⟨_, rfl, ?_, ?_, ?_, ?_⟩
    · simp
    · simp only [Bool.false_eq_true, if_false]
      rw [← hp, List.map_fst_zip (by omega)]
    · simp only [Bool.false_eq_true, if_false]
      rw [← hp, List.map_snd_zip (by omega)]
    · simp only [Bool.false_eq_true, if_false]
      rw [← hp, List.zip_eq_zipWith, List.map_zipWith]

/-- **C184** (sorting) With `sort=True` the same pairs and sums come, together, in order of decreasing sums. -/
theorem C184_sorted (argsort : List ℕ → List ℕ) (hperm : ∀ l, (argsort l).Perm (List.range l.length))
    (hdesc : ∀ l, ((argsort l).map (l.getD · 0)).Pairwise (· ≥ ·)) (d : ParallelData) (pairs : List (List ℕ × List ℕ))
    (hs : d.src = pairs.map Prod.fst) (ht : d.tgt = pairs.map Prod.snd) (hl : d.lengths = pairs.map fun p => p.1.length + p.2.length) :
    ∃ pairs' : List (List ℕ × List ℕ), pairs'.Perm pairs ∧ (sortByLength argsort d).src = pairs'.map Prod.fst ∧ (sortByLength argsort d).tgt = pairs'.map Prod.snd ∧
      (sortByLength argsort d).lengths = (pairs'.map fun p => p.1.length + p.2.length) ∧
      (pairs'.map fun p => p.1.length + p.2.length).Pairwise (· ≥ ·) := by
  have hlen : d.lengths.length = pairs.length := by rw [hl, List.length_map]
  have hb : ∀ i ∈ argsort d.lengths, i < pairs.length := by
    intro i hi
    rw [← hlen]
    exact List.mem_range.1 ((hperm d.lengths).mem_iff.1 hi)
  have hL : (argsort d.lengths).map (d.lengths.getD · 0) = ((argsort d.lengths).map (pairs.getD · ([], []))).map fun p => p.1.length + p.2.length := by
    rw [List.map_map]
    apply List.map_congr_left
    intro i hi
    have := hb i hi
    rw [hl]
    simp [List.getD_eq_getElem?_getD, this]
  refine ⟨(argsort d.lengths).map (pairs.getD · ([], [])), ?_, ?_, ?_, hL, by rw [← hL]; exact hdesc _⟩
  · have h1 := (hperm d.lengths).map (pairs.getD · ([], []))
    rw [hlen] at h1
    have h2 : (List.range pairs.length).map (pairs.getD · ([], [])) = pairs := by
      apply List.ext_getElem (by simp)
      intro i h1 h2
      simp [List.getD_eq_getElem?_getD, h2]
    rwa [h2] at h1
  · show (argsort d.lengths).map (d.src.getD · []) = _
    rw [List.map_map]
    apply List.map_congr_left
    intro i hi
    have := hb i hi
    rw [hs]
    simp [List.getD_eq_getElem?_getD, this]
  · show (argsort d.lengths).map (d.tgt.getD · []) = _
    rw [List.map_map]
    apply List.map_congr_left
    intro i hi
    have := hb i hi
    rw [ht]
    simp [List.getD_eq_getElem?_getD, this]

/-! ## Batches -/

/-- Entry `(r, i)` of a tensor. -/
def entry (t : List (List ℕ)) (r i : ℕ) : Option ℕ := t[r]?.bind (·[i]?)

theorem entry_setColumn (t : List (List ℕ)) (s : List ℕ) (col r i : ℕ) :
    entry (setColumn t (List.range s.length) s col) r i = (entry t r i).map fun v => if i = col then s.getD r v else v := by
  have e : s = (List.range s.length).map (s.getD · 0) := by
    apply List.ext_getElem (by simp)
    intro j h1 h2
    simp [List.getD_eq_getElem?_getD, h1]
  unfold entry
  rw [show setColumn t (List.range s.length) s col = setColumn t (List.range s.length) ((List.range s.length).map (s.getD · 0)) col by rw [← e],
    getElem?_setColumn col _ _ _ _ List.nodup_range]
  by_cases hr : r < s.length
  · rw [if_pos (List.mem_range.2 hr)]
    cases t[r]? with
    | none => rfl
    | some row =>
      simp only [Option.map_some, Option.bind_some]
      rw [List.getElem?_set]
      by_cases hi : col = i
      · subst hi
        by_cases hc : col < row.length
        · simp [hc, List.getD_eq_getElem?_getD, hr]
        · simp [hc]
      · rw [if_neg hi]
        have : ¬ i = col := fun h => hi h.symm
        simp [this]
  · rw [if_neg (fun h => hr (List.mem_range.1 h))]
    have : s[r]? = none := List.getElem?_eq_none_iff.2 (by omega)
    simp [List.getD_eq_getElem?_getD, this]

theorem entry_fold (seqs : List (List ℕ)) : ∀ (k : ℕ) (t : List (List ℕ)) (r i : ℕ),
    entry ((seqs.zipIdx k).foldl (fun t x => setColumn t (List.range x.1.length) x.1 x.2) t) r i =
      (entry t r i).map fun v => if k ≤ i then (seqs.getD (i - k) []).getD r v else v := by
  induction seqs with
  | nil =>
    intro k t r i
    simp
  | cons s ss ih =>
    intro k t r i
    rw [List.zipIdx_cons, List.foldl_cons, ih, entry_setColumn, Option.map_map]
    congr 1
    funext v
    simp only [Function.comp_apply]
    rcases lt_trichotomy i k with h | h | h
    · rw [if_neg (by omega), if_neg (by omega), if_neg (by omega)]
    · subst h
      rw [if_neg (by omega), if_pos rfl, if_pos (le_refl _), Nat.sub_self]; rfl
    · rw [if_pos (by omega), if_neg (by omega), if_pos (by omega), show i - k = (i - (k + 1)) + 1 by omega]; rfl

theorem length_fold (seqs : List (List ℕ × ℕ)) : ∀ t : List (List ℕ),
    (seqs.foldl (fun t x => setColumn t (List.range x.1.length) x.1 x.2) t).length = t.length := by
  induction seqs with
  | nil => intro t; rfl
  | cons s ss ih => intro t; rw [List.foldl_cons, ih, length_setColumn]

theorem foldl_max (l : List ℕ) : ∀ a, (∀ x ∈ l, x ≤ l.foldl max a) ∧ a ≤ l.foldl max a ∧ (l.foldl max a = a ∨ l.foldl max a ∈ l) := by
  induction l with
  | nil => intro a; simp
  | cons x l ih =>
    intro a
    obtain ⟨h1, h2, h3⟩ := ih (max a x)
    rw [List.foldl_cons]
    refine ⟨?_, le_trans (le_max_left _ _) h2, ?_⟩
    · intro y hy
      rcases List.mem_cons.1 hy with rfl | hy
      · exact le_trans (le_max_right _ _) h2
      · exact h1 y hy
    · rcases h3 with h3 | h3
      · rcases le_total a x with hax | hax
        · right; rw [h3, max_eq_right hax]; exact List.mem_cons_self
        · left; rw [h3, max_eq_left hax]
      · right; exact List.mem_cons_of_mem _ h3

/-- The columns of a padded tensor are the sequences `seqs`: column `i` is sentence `i` followed by padding, and the lengths are stored; there are as many rows as the longest
sentence needs. -/
structure Padded (x : List (List ℕ) × List ℕ) (seqs : List (List ℕ)) : Prop where
  lengths : x.2 = seqs.map List.length
  entries : ∀ i s, seqs[i]? = some s → ∀ r < x.1.length, entry x.1 r i = some (if h : r < s.length then s[r] else tokPAD)
  none : ∀ i r, seqs.length ≤ i → entry x.1 r i = none
  fits : ∀ s ∈ seqs, s.length ≤ x.1.length
  tight : seqs ≠ [] → ∃ s ∈ seqs, s.length = x.1.length

theorem collateSeq_ok (seqs : List (List ℕ)) : Padded (collateSeq seqs) seqs := by
  have hlen : (collateSeq seqs).1.length = (seqs.map List.length).foldl max 0 := by
    unfold collateSeq
    simp only
    rw [length_fold, List.length_replicate]
  obtain ⟨m1, m2, m3⟩ := foldl_max (seqs.map List.length) 0
  have hent : ∀ r i, entry (collateSeq seqs).1 r i = if r < (collateSeq seqs).1.length ∧ i < seqs.length then some ((seqs.getD i []).getD r tokPAD) else none := by
    intro r i
    rw [hlen]
    unfold collateSeq
    simp only
    rw [entry_fold]
    unfold entry
    rw [List.getElem?_replicate]
    by_cases hr : r < (seqs.map List.length).foldl max 0
    · rw [if_pos hr, Option.bind_some, List.getElem?_replicate]
      by_cases hi : i < seqs.length
      · simp [hi, hr]
      · simp [hi]
    · simp [hr]
  refine ⟨rfl, ?_, ?_, ?_, ?_⟩
  · intro i s hs r hr
    have hi : i < seqs.length := (List.getElem?_eq_some_iff.1 hs).1
    rw [hent, if_pos ⟨hr, hi⟩, List.getD_eq_getElem?_getD (l := seqs), hs]
    by_cases h : r < s.length
    · simp [h, List.getD_eq_getElem?_getD]
    · have : s[r]? = Option.none := List.getElem?_eq_none_iff.2 (by omega)
      simp [h, List.getD_eq_getElem?_getD, this]
  · intro i r hi
    rw [hent, if_neg (by omega)]
  · intro s hs
    rw [hlen]
    exact m1 _ (List.mem_map.2 ⟨s, hs, rfl⟩)
  · intro hne
    rw [hlen]
    rcases m3 with h | h
    · obtain ⟨s, ss, rfl⟩ := List.exists_cons_of_ne_nil hne
      refine ⟨s, List.mem_cons_self, ?_⟩
      have := m1 s.length (by simp)
      omega
    · obtain ⟨s, hs, e⟩ := List.mem_map.1 h
      exact ⟨s, hs, e⟩

theorem stable_insert (a : List ℕ × ℕ) (l : List (List ℕ × ℕ)) (ha : ∀ b ∈ l, a.2 < b.2)
    (h : l.Pairwise fun a b => b.1.length < a.1.length ∨ b.1.length = a.1.length ∧ a.2 < b.2) :
    (l.orderedInsert (fun a b => b.1.length ≤ a.1.length) a).Pairwise fun a b => b.1.length < a.1.length ∨ b.1.length = a.1.length ∧ a.2 < b.2 := by
  induction l with
  | nil => simp
  | cons b l ih =>
    obtain ⟨h1, h2⟩ := List.pairwise_cons.1 h
    rw [List.orderedInsert]
    have hab := ha b List.mem_cons_self
    by_cases hc : b.1.length ≤ a.1.length
    · rw [if_pos hc]
      refine List.pairwise_cons.2 ⟨?_, h⟩
      intro x hx
      have hax := ha x hx
      rcases List.mem_cons.1 hx with rfl | hx
      · rcases Nat.lt_or_ge x.1.length a.1.length with h | h
        · exact Or.inl h
        · exact Or.inr ⟨by omega, hax⟩
      · rcases h1 x hx with h | h
        · exact Or.inl (by omega)
        · rcases Nat.lt_or_ge x.1.length a.1.length with h' | h'
          · exact Or.inl h'
          · exact Or.inr ⟨by omega, hax⟩
    · rw [if_neg hc]
      refine List.pairwise_cons.2 ⟨?_, ih (fun b hb => ha b (List.mem_cons_of_mem _ hb)) h2⟩
      intro x hx
      rcases (List.mem_orderedInsert _).1 hx with rfl | hx
      · exact Or.inl (by omega)
      · exact h1 x hx

theorem stable_sort (l : List (List ℕ × ℕ)) (h : l.Pairwise fun a b => a.2 < b.2) :
    (l.insertionSort fun a b => b.1.length ≤ a.1.length).Pairwise fun a b => b.1.length < a.1.length ∨ b.1.length = a.1.length ∧ a.2 < b.2 := by
  induction l with
  | nil => simp
  | cons a l ih =>
    obtain ⟨h1, h2⟩ := List.pairwise_cons.1 h
    rw [List.insertionSort_cons]
    exact stable_insert a _ (fun b hb => h1 b ((List.mem_insertionSort _).1 hb)) (ih h2)

/-- **C184** (batches) A batch holds every one of its pairs exactly once: with `j` the number at place `i` of the indices, column `i` of both tensors is pair `j`, padded to the
longest sentence of its side; source lengths do not increase, and equally long sources stay in order. -/
theorem C184_collate (seqs : List (List ℕ × List ℕ)) (hne : seqs ≠ []) :
    ∃ src tgt indices, collate seqs = .ok (src, tgt, indices) ∧ indices.Perm (List.range seqs.length) ∧
      Padded src (indices.map fun j => (seqs.getD j ([], [])).1) ∧ Padded tgt (indices.map fun j => (seqs.getD j ([], [])).2) ∧
      indices.Pairwise (fun a b => (seqs.getD b ([], [])).1.length < (seqs.getD a ([], [])).1.length ∨
        (seqs.getD b ([], [])).1.length = (seqs.getD a ([], [])).1.length ∧ a < b) := by
  obtain ⟨srt, hsrt⟩ : ∃ srt, srt = (seqs.map Prod.fst).zipIdx.insertionSort fun a b => b.1.length ≤ a.1.length := ⟨_, rfl⟩
  have hperm : srt.Perm (seqs.map Prod.fst).zipIdx := by rw [hsrt]; exact List.perm_insertionSort _ _
  have hmem : ∀ x ∈ srt, x.2 < seqs.length ∧ x.1 = (seqs.getD x.2 ([], [])).1 := by
    intro x hx
    have := hperm.mem_iff.1 hx
    rw [List.mem_zipIdx_iff_getElem?, List.getElem?_map] at this
    obtain ⟨p, hp, e⟩ := Option.map_eq_some_iff.1 this
    refine ⟨(List.getElem?_eq_some_iff.1 hp).1, ?_⟩
    rw [List.getD_eq_getElem?_getD, hp]
    exact e.symm
  have h1 : srt.map Prod.fst = (srt.map Prod.snd).map fun j => (seqs.getD j ([], [])).1 := by
    rw [List.map_map]
    exact List.map_congr_left fun x hx => (hmem x hx).2
  have h2 : (srt.map Prod.snd).map ((seqs.map Prod.snd).getD · []) = (srt.map Prod.snd).map fun j => (seqs.getD j ([], [])).2 := by
    apply List.map_congr_left
    intro j hj
    obtain ⟨x, hx, rfl⟩ := List.mem_map.1 hj
    have := (hmem x hx).1
    simp [List.getD_eq_getElem?_getD, this]
  refine ⟨collateSeq (srt.map Prod.fst), collateSeq ((srt.map Prod.snd).map ((seqs.map Prod.snd).getD · [])), srt.map Prod.snd, ?_, ?_, ?_, ?_, ?_⟩
  · obtain ⟨s, ss, rfl⟩ := List.exists_cons_of_ne_nil hne
    rw [hsrt]; rfl
  · have := hperm.map Prod.snd
    rw [List.zipIdx_map_snd, ← List.range_eq_range'] at this
    simpa using this
  · rw [← h1]; exact collateSeq_ok _
  · rw [h2]; exact collateSeq_ok _
  · have := stable_sort (seqs.map Prod.fst).zipIdx (by
      have h : ((seqs.map Prod.fst).zipIdx.map Prod.snd).Pairwise (· < ·) := by
        rw [List.zipIdx_map_snd]; exact List.pairwise_lt_range'
      exact List.pairwise_map.1 h)
    rw [← hsrt] at this
    rw [List.pairwise_map]
    refine List.Pairwise.imp_of_mem ?_ this
    intro a b ha hb hab
    rwa [← (hmem a ha).2, ← (hmem b hb).2]

example : collate [([2, 7, 3], [2, 8, 9, 3]), ([2, 5, 6, 3], [2, 3]), ([2, 4, 3], [2, 3])] =
    .ok (([[2, 2, 2], [5, 7, 4], [6, 3, 3], [3, 0, 0]], [4, 3, 3]), ([[2, 2, 2], [3, 8, 3], [0, 9, 0], [0, 3, 0]], [2, 4, 2]), [1, 0, 2]) := by decide +kernel

example :
    let t := Tokenizer.new [['a'], ['b']]
    ParallelData.new t (fun l => ((List.range l.length).insertionSort fun i j => l.getD j 0 ≤ l.getD i 0)) 3 4 true (some 3)
      [['a'], ['a', ' ', 'b'], ['a', ' ', 'a', ' ', 'a']] [['b'], ['b'], ['b'], ['b']] = .ok ⟨[[2, 4, 5, 3], [2, 4, 3]], [[2, 5, 3], [2, 5, 3]], [7, 6]⟩ ∧
    ParallelData.new t id 0 9 false (some 4) [['a']] [['b'], ['b']] = .error .assertion := by decide +kernel

end Verif
