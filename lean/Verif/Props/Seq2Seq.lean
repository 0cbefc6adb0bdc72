import Verif.Model.Seq2Seq
import Verif.Lemmas.Fold
/-!
# C173: translating a batch of sentences is translating each sentence
-/
namespace Verif

variable {A B H : Type}

/-! ## Specification -/

/-- Decoding one sentence alone: at most `n` words, starting from word `w` and hidden state `h`, up to and including EOS. -/
def decodeOne (gen : ℕ → A → B → H → ℕ × H) (a : A) (b : B) : ℕ → ℕ → H → List ℕ
  | 0, _, _ => []
  | n + 1, w, h => (gen w a b h).1 :: if (gen w a b h).1 = tokEOS then [] else decodeOne gen a b n (gen w a b h).1 (gen w a b h).2

/-- The word and the hidden state after `n` words, not stopping at EOS. -/
def soloRun (gen : ℕ → A → B → H → ℕ × H) (a : A) (b : B) (w : ℕ) (h : H) : ℕ → ℕ × H
  | 0 => (w, h)
  | n + 1 => gen (soloRun gen a b w h n).1 a b (soloRun gen a b w h n).2

theorem soloRun_shift (gen : ℕ → A → B → H → ℕ × H) (a : A) (b : B) : ∀ (n : ℕ) (w : ℕ) (h : H),
    soloRun gen a b w h (n + 1) = soloRun gen a b (gen w a b h).1 (gen w a b h).2 n := by
  intro n
  induction n with
  | zero => intro w h; rfl
  | succ n ih => intro w h; rw [soloRun, ih]; rfl

theorem decodeOne_succ (gen : ℕ → A → B → H → ℕ × H) (a : A) (b : B) : ∀ (n : ℕ) (w : ℕ) (h : H),
    decodeOne gen a b (n + 1) w h = decodeOne gen a b n w h ++
      if tokEOS ∈ decodeOne gen a b n w h then [] else [(soloRun gen a b w h (n + 1)).1] := by
  intro n
  induction n with
  | zero => intro w h; simp [decodeOne, soloRun]
  | succ n ih =>
    intro w h
    rw [decodeOne, soloRun_shift]
    by_cases he : (gen w a b h).1 = tokEOS
    · rw [if_pos he]
      conv_rhs => rw [decodeOne]
      rw [if_pos he]
      simp [he]
    · rw [if_neg he, ih]
      conv_rhs => rw [decodeOne]
      rw [if_neg he]
      have : ∀ l : List ℕ, tokEOS ∈ (gen w a b h).1 :: l ↔ tokEOS ∈ l := by
        intro l
        rw [List.mem_cons]
        exact ⟨fun h => h.resolve_left (fun e => he e.symm), Or.inr⟩
      simp only [this, List.cons_append]

theorem decodeOne_length (gen : ℕ → A → B → H → ℕ × H) (a : A) (b : B) : ∀ (n : ℕ) (w : ℕ) (h : H),
    (decodeOne gen a b n w h).length ≤ n ∧ (tokEOS ∉ decodeOne gen a b n w h → (decodeOne gen a b n w h).length = n) := by
  intro n
  induction n with
  | zero => intro w h; simp [decodeOne]
  | succ n ih =>
    intro w h
    rw [decodeOne]
    by_cases he : (gen w a b h).1 = tokEOS
    · rw [if_pos he]; simp [he]
    · rw [if_neg he]
      obtain ⟨h1, h2⟩ := ih (gen w a b h).1 (gen w a b h).2
      refine ⟨by simp only [List.length_cons]; omega, fun hm => ?_⟩
      simp only [List.length_cons]
      rw [h2 (fun c => hm (List.mem_cons_of_mem _ c))]

/-! ## Lists -/

theorem maskedSelect_map {α β : Type} (f : α → β) (p : α → Bool) (l : List α) :
    maskedSelect (l.map f) (l.map p) = (l.filter p).map f := by
  unfold maskedSelect
  induction l with
  | nil => rfl
  | cons x l ih =>
    simp only [List.map_cons, List.zip_cons_cons, List.filter_cons]
    cases hp : p x <;> simp [ih]

theorem indexSelect_mask {α : Type} (l : List α) (m : List Bool) (h : m.length = l.length) :
    indexSelect l (maskedSelect (List.range l.length) m) = maskedSelect l m := by
  have : ∀ (l pre : List α) (m : List Bool), m.length = l.length →
      indexSelect (pre ++ l) (maskedSelect (List.range' pre.length l.length) m) = maskedSelect l m := by
    intro l
    induction l with
    | nil => intro pre m h; simp [maskedSelect, indexSelect]
    | cons x l ih =>
      intro pre m h
      cases m with
      | nil => simp at h
      | cons b m =>
        simp only [List.length_cons, Nat.add_right_cancel_iff] at h
        have e := ih (pre ++ [x]) m h
        simp only [List.append_assoc, List.singleton_append, List.length_append, List.length_singleton] at e
        simp only [List.length_cons, List.range'_succ]
        unfold maskedSelect indexSelect at e ⊢
        cases b with
        | false => simpa using e
        | true =>
          simp only [List.zip_cons_cons, List.filter_cons, if_true, List.map_cons, List.filterMap_cons]
          rw [List.getElem?_append_right (le_refl _), Nat.sub_self, List.getElem?_cons_zero]
          simp only [e]
  have := this l [] m h
  rwa [List.nil_append, List.length_nil, ← List.range_eq_range'] at this

theorem getElem?_setColumn (col : ℕ) (g : ℕ → ℕ) : ∀ (rows : List ℕ) (t : List (List ℕ)) (r : ℕ), rows.Nodup →
    (setColumn t rows (rows.map g) col)[r]? = if r ∈ rows then t[r]?.map (fun row => row.set col (g r)) else t[r]? := by
  intro rows
  induction rows with
  | nil => intro t r _; rfl
  | cons x rows ih =>
    intro t r hn
    rw [List.nodup_cons] at hn
    have e : setColumn t (x :: rows) ((x :: rows).map g) col = setColumn (t.modify x fun row => row.set col (g x)) rows (rows.map g) col := rfl
    rw [e, ih _ _ hn.2, List.getElem?_modify]
    by_cases hx : x = r
    · subst hx
      simp [hn.1]
    · have hx' : r ≠ x := fun e => hx e.symm
      simp only [if_neg hx, List.mem_cons, hx', false_or]
      cases t[r]? <;> rfl

theorem length_setColumn (col : ℕ) : ∀ (rows ws : List ℕ) (t : List (List ℕ)), (setColumn t rows ws col).length = t.length := by
  intro rows
  unfold setColumn
  induction rows with
  | nil => intro ws t; rfl
  | cons x rows ih =>
    intro ws t
    cases ws with
    | nil => rfl
    | cons w ws => rw [List.zip_cons_cons, List.foldl_cons, ih]; simp

theorem getElem?_incRows : ∀ (rows : List ℕ) (l : List ℕ) (r : ℕ), rows.Nodup →
    (incRows l rows)[r]? = if r ∈ rows then l[r]?.map (· + 1) else l[r]? := by
  intro rows
  induction rows with
  | nil => intro l r _; rfl
  | cons x rows ih =>
    intro l r hn
    rw [List.nodup_cons] at hn
    have e : incRows l (x :: rows) = incRows (l.modify x (· + 1)) rows := rfl
    rw [e, ih _ _ hn.2, List.getElem?_modify]
    by_cases hx : x = r
    · subst hx
      simp [hn.1]
    · have hx' : r ≠ x := fun e => hx e.symm
      simp only [if_neg hx, List.mem_cons, hx', false_or]
      cases l[r]? <;> rfl

theorem length_incRows : ∀ (rows l : List ℕ), (incRows l rows).length = l.length := by
  intro rows
  unfold incRows
  induction rows with
  | nil => intro l; rfl
  | cons x rows ih => intro l; rw [List.foldl_cons, ih]; simp

theorem generate1_map (gen : ℕ → A → B → H → ℕ × H) (w : ℕ → ℕ) (a : ℕ → A) (b : ℕ → B) (h : ℕ → H) (l : List ℕ) :
    generate1 gen (l.map w) (l.map a) (l.map b) (l.map h) = l.map fun r => gen (w r) (a r) (b r) (h r) := by
  induction l with
  | nil => rfl
  | cons x l ih => simp [generate1, ih]

/-! ## The invariant of the loop -/

section
variable (gen : ℕ → A → B → H → ℕ × H) (w0 : ℕ → ℕ) (a : ℕ → A) (b : ℕ → B) (h0 : ℕ → H)

/-- The words of sentence `r` after `k` steps. -/
def rowWords (k r : ℕ) : List ℕ := decodeOne gen (a r) (b r) k (w0 r) (h0 r)

/-- The row of `translation` for the words `d`. -/
def rowOf (maxLen : ℕ) (d : List ℕ) : List ℕ := tokBOS :: d ++ List.replicate (maxLen - 1 - d.length) 0

/-- The sentences not finished after `k` steps. -/
def rowsActive (batch k : ℕ) : List ℕ := (List.range batch).filter fun r => decide (tokEOS ∉ rowWords gen w0 a b h0 k r)

/-- The state after `k` steps. -/
structure GInv (maxLen batch k : ℕ) (s : GState A B H) : Prop where
  tr : s.translation = (List.range batch).map fun r => rowOf maxLen (rowWords gen w0 a b h0 k r)
  ln : s.lengths = (List.range batch).map fun r => 1 + (rowWords gen w0 a b h0 k r).length
  active : s.active = rowsActive gen w0 a b h0 batch k
  words : s.words = (rowsActive gen w0 a b h0 batch k).map fun r => (soloRun gen (a r) (b r) (w0 r) (h0 r) k).1
  c0 : s.c0 = (rowsActive gen w0 a b h0 batch k).map a
  c1 : s.c1 = (rowsActive gen w0 a b h0 batch k).map b
  c2 : s.c2 = (rowsActive gen w0 a b h0 batch k).map fun r => (soloRun gen (a r) (b r) (w0 r) (h0 r) k).2

theorem rowWords_succ (k r : ℕ) : rowWords gen w0 a b h0 (k + 1) r = rowWords gen w0 a b h0 k r ++
    if tokEOS ∈ rowWords gen w0 a b h0 k r then [] else [(soloRun gen (a r) (b r) (w0 r) (h0 r) (k + 1)).1] :=
  decodeOne_succ gen (a r) (b r) k (w0 r) (h0 r)

theorem rowsActive_succ (batch k : ℕ) : rowsActive gen w0 a b h0 batch (k + 1) =
    (rowsActive gen w0 a b h0 batch k).filter fun r => !((soloRun gen (a r) (b r) (w0 r) (h0 r) (k + 1)).1 == tokEOS) := by
  unfold rowsActive
  rw [List.filter_filter]
  apply List.filter_congr
  intro r _
  rw [rowWords_succ]
  by_cases h : tokEOS ∈ rowWords gen w0 a b h0 k r
  · simp [h]
  · simp only [h, if_false, List.mem_append, List.mem_singleton, false_or, not_false_eq_true, decide_true, Bool.and_true]
    by_cases e : (soloRun gen (a r) (b r) (w0 r) (h0 r) (k + 1)).1 = tokEOS
    · simp [e]
    · have : ¬ tokEOS = (soloRun gen (a r) (b r) (w0 r) (h0 r) (k + 1)).1 := fun c => e c.symm
      simp [e, this]

theorem rowOf_set (maxLen : ℕ) (d : List ℕ) (w : ℕ) (h : d.length + 1 < maxLen) :
    (rowOf maxLen d).set (d.length + 1) w = rowOf maxLen (d ++ [w]) := by
  unfold rowOf
  rw [List.cons_append, List.set_cons_succ, List.set_append_right _ _ (le_refl _), Nat.sub_self]
  obtain ⟨m, hm⟩ : ∃ m, maxLen - 1 - d.length = m + 1 := ⟨maxLen - 1 - d.length - 1, by omega⟩
  rw [hm, List.replicate_succ, List.set_cons_zero]
  simp only [List.length_append, List.length_singleton, List.cons_append, List.append_assoc, List.nil_append]
  rw [show maxLen - 1 - (d.length + 1) = m by omega]

theorem greedyStep_inv {maxLen batch k : ℕ} {s : GState A B H} (I : GInv gen w0 a b h0 maxLen batch k s) (hk : k + 1 < maxLen) :
    GInv gen w0 a b h0 maxLen batch (k + 1) (greedyStep gen batch s (k + 1)) := by
  obtain ⟨i1, i2, i3, i4, i5, i6, i7⟩ := I
  have hnd : (rowsActive gen w0 a b h0 batch k).Nodup := List.Nodup.filter _ List.nodup_range
  have hmem : ∀ r, r ∈ rowsActive gen w0 a b h0 batch k ↔ r < batch ∧ tokEOS ∉ rowWords gen w0 a b h0 k r := by
    intro r; simp [rowsActive]
  have hout : generate1 gen s.words s.c0 s.c1 s.c2 =
      (rowsActive gen w0 a b h0 batch k).map fun r => soloRun gen (a r) (b r) (w0 r) (h0 r) (k + 1) := by
    rw [i4, i5, i6, i7, generate1_map]
    rfl
  have htr : setColumn s.translation s.active ((generate1 gen s.words s.c0 s.c1 s.c2).map Prod.fst) (k + 1) =
      (List.range batch).map fun r => rowOf maxLen (rowWords gen w0 a b h0 (k + 1) r) := by
    rw [hout, i1, i3, List.map_map]
    apply List.ext_getElem?
    intro r
    rw [getElem?_setColumn (k + 1) (Prod.fst ∘ fun r => soloRun gen (a r) (b r) (w0 r) (h0 r) (k + 1)) _ _ r hnd]
    simp only [List.getElem?_map]
    by_cases hr : r < batch
    · rw [List.getElem?_range hr]
      simp only [Option.map_some, hmem, hr, true_and]
      rw [rowWords_succ]
      by_cases he : tokEOS ∈ rowWords gen w0 a b h0 k r
      · simp [he]
      · have hl : (rowWords gen w0 a b h0 k r).length = k := (decodeOne_length gen (a r) (b r) k (w0 r) (h0 r)).2 he
        simp only [he, not_false_eq_true, if_true, if_false, Function.comp]
        congr 1
        have := rowOf_set maxLen (rowWords gen w0 a b h0 k r) (soloRun gen (a r) (b r) (w0 r) (h0 r) (k + 1)).1 (by omega)
        rw [hl] at this
        exact this
    · rw [List.getElem?_eq_none (by simpa using hr)]
      simp
  have hln : incRows s.lengths s.active = (List.range batch).map fun r => 1 + (rowWords gen w0 a b h0 (k + 1) r).length := by
    rw [i2, i3]
    apply List.ext_getElem?
    intro r
    rw [getElem?_incRows _ _ r hnd]
    simp only [List.getElem?_map]
    by_cases hr : r < batch
    · rw [List.getElem?_range hr]
      simp only [Option.map_some, hmem, hr, true_and]
      rw [rowWords_succ]
      by_cases he : tokEOS ∈ rowWords gen w0 a b h0 k r
      · simp [he]
      · simp [he]; omega
    · rw [List.getElem?_eq_none (by simpa using hr)]
      simp
  unfold greedyStep
  by_cases h0' : s.active.length = 0
  · rw [if_pos h0']
    have hempty : rowsActive gen w0 a b h0 batch k = [] := by rw [← i3]; exact List.eq_nil_of_length_eq_zero h0'
    have hall : ∀ r < batch, rowWords gen w0 a b h0 (k + 1) r = rowWords gen w0 a b h0 k r := by
      intro r hr
      have : tokEOS ∈ rowWords gen w0 a b h0 k r := by
        by_contra c
        have := (hmem r).2 ⟨hr, c⟩
        rw [hempty] at this
        cases this
      rw [rowWords_succ, if_pos this, List.append_nil]
    have hempty' : rowsActive gen w0 a b h0 batch (k + 1) = [] := by rw [rowsActive_succ, hempty]; rfl
    refine ⟨?_, ?_, ?_, ?_, ?_, ?_, ?_⟩
    · rw [i1]; exact List.map_congr_left fun r hr => by rw [hall r (by simpa using hr)]
    · rw [i2]; exact List.map_congr_left fun r hr => by rw [hall r (by simpa using hr)]
    · rw [i3, hempty, hempty']
    · rw [i4, hempty, hempty']; rfl
    · rw [i5, hempty, hempty']
    · rw [i6, hempty, hempty']
    · rw [i7, hempty, hempty']; rfl
  rw [if_neg h0']
  simp only
  have hT : ((generate1 gen s.words s.c0 s.c1 s.c2).map Prod.fst).map (· == tokEOS) =
      (rowsActive gen w0 a b h0 batch k).map fun r => (soloRun gen (a r) (b r) (w0 r) (h0 r) (k + 1)).1 == tokEOS := by
    rw [hout, List.map_map, List.map_map]; rfl
  have hlen : s.active.length = (rowsActive gen w0 a b h0 batch k).length := by rw [i3]
  have hle : (rowsActive gen w0 a b h0 batch k).length ≤ batch := by
    have := List.length_filter_le (fun r => decide (tokEOS ∉ rowWords gen w0 a b h0 k r)) (List.range batch)
    rwa [List.length_range] at this
  have hsel : ∀ {α : Type} (f : ℕ → α), indexSelect ((rowsActive gen w0 a b h0 batch k).map f)
      (maskedSelect ((List.range batch).take s.active.length)
        ((((generate1 gen s.words s.c0 s.c1 s.c2).map Prod.fst).map (· == tokEOS)).map (!·))) =
      (rowsActive gen w0 a b h0 batch (k + 1)).map f := by
    intro α f
    rw [hlen, List.take_range, Nat.min_eq_left hle, hT, List.map_map, rowsActive_succ]
    have := indexSelect_mask ((rowsActive gen w0 a b h0 batch k).map f)
      ((rowsActive gen w0 a b h0 batch k).map ((fun x => !x) ∘ fun r => (soloRun gen (a r) (b r) (w0 r) (h0 r) (k + 1)).1 == tokEOS)) (by simp)
    rw [List.length_map] at this
    rw [this, maskedSelect_map]
    rfl
  by_cases hany : (((generate1 gen s.words s.c0 s.c1 s.c2).map Prod.fst).map (· == tokEOS)).any id = true
  · rw [if_pos hany]
    refine ⟨htr, hln, ?_, ?_, ?_, ?_, ?_⟩
    · dsimp only
      rw [hT, i3, List.map_map, rowsActive_succ]
      have := maskedSelect_map (fun r : ℕ => r) ((fun x => !x) ∘ fun r => (soloRun gen (a r) (b r) (w0 r) (h0 r) (k + 1)).1 == tokEOS)
        (rowsActive gen w0 a b h0 batch k)
      simp only [List.map_id'] at this
      exact this
    · dsimp only
      conv_lhs => arg 1; rw [hout, List.map_map]
      rw [hsel]
      rfl
    · dsimp only; conv_lhs => arg 1; rw [i5]
      exact hsel _
    · dsimp only; conv_lhs => arg 1; rw [i6]
      exact hsel _
    · dsimp only
      conv_lhs => arg 1; rw [hout, List.map_map]
      rw [hsel]
      rfl
  · rw [if_neg hany]
    have hsame : rowsActive gen w0 a b h0 batch (k + 1) = rowsActive gen w0 a b h0 batch k := by
      rw [rowsActive_succ, List.filter_eq_self]
      intro r hr
      rw [hT] at hany
      simp only [List.any_map, List.any_eq_true, not_exists, not_and] at hany
      have := hany r hr
      simpa using this
    refine ⟨htr, hln, ?_, ?_, ?_, ?_, ?_⟩
    · rw [hsame]; exact i3
    · dsimp only; rw [hsame, hout, List.map_map]; rfl
    · rw [hsame]; exact i5
    · rw [hsame]; exact i6
    · dsimp only; rw [hsame, hout, List.map_map]; rfl

theorem greedy_fold {maxLen batch : ℕ} : ∀ (n k : ℕ) (s : GState A B H), GInv gen w0 a b h0 maxLen batch k s → k + n < maxLen →
    GInv gen w0 a b h0 maxLen batch (k + n) ((List.range' (k + 1) n).foldl (greedyStep gen batch) s) := by
  intro n
  induction n with
  | zero => intro k s I _; exact I
  | succ n ih =>
    intro k s I hk
    rw [List.range'_succ, List.foldl_cons]
    have := ih (k + 1) _ (greedyStep_inv gen w0 a b h0 I (by omega)) (by omega)
    rwa [show k + 1 + n = k + (n + 1) by omega] at this

/-- **C173** (greedy search) For every decoder, batch and length limit: row `r` of the result is BOS, then the words of sentence `r` decoded
alone, then padding; its length counts BOS and these words.  The other sentences of the batch have no influence. -/
theorem C173_greedy (maxLen batch : ℕ) (hm : 0 < maxLen) :
    ∃ n, greedySearch gen maxLen batch ((List.range batch).map w0) ((List.range batch).map a) ((List.range batch).map b)
        ((List.range batch).map h0) =
      .ok ((List.range batch).map (fun r => tokBOS :: decodeOne gen (a r) (b r) (maxLen - 1) (w0 r) (h0 r) ++
            List.replicate (maxLen - 1 - (decodeOne gen (a r) (b r) (maxLen - 1) (w0 r) (h0 r)).length) 0),
        (List.range batch).map (fun r => 1 + (decodeOne gen (a r) (b r) (maxLen - 1) (w0 r) (h0 r)).length), n) := by
  unfold greedySearch
  rw [if_neg (by omega)]
  have h1 : rowsActive gen w0 a b h0 batch 0 = List.range batch := by
    unfold rowsActive rowWords
    simp [decodeOne]
  have I : GInv gen w0 a b h0 maxLen batch 0 ⟨List.replicate batch ((List.replicate maxLen 0).set 0 tokBOS), List.replicate batch 1,
      List.range batch, (List.range batch).map w0, (List.range batch).map a, (List.range batch).map b, (List.range batch).map h0, 0⟩ := by
    refine ⟨?_, ?_, h1.symm, by rw [h1]; rfl, by rw [h1], by rw [h1], by rw [h1]; rfl⟩
    · have e : (fun r => rowOf maxLen (rowWords gen w0 a b h0 0 r)) = fun _ => (List.replicate maxLen 0).set 0 tokBOS := by
        funext r
        obtain ⟨m, rfl⟩ : ∃ m, maxLen = m + 1 := ⟨maxLen - 1, by omega⟩
        simp [rowOf, rowWords, decodeOne, List.replicate_succ]
      rw [e]
      simp [List.map_const']
    · have e : (fun r => 1 + (rowWords gen w0 a b h0 0 r).length) = fun _ => 1 := by
        funext r; simp [rowWords, decodeOne]
      rw [e]
      simp [List.map_const']
  have J := greedy_fold gen w0 a b h0 (maxLen - 1) 0 _ I (by omega)
  rw [Nat.zero_add, Nat.zero_add] at J
  refine ⟨((List.range' 1 (maxLen - 1)).foldl (greedyStep gen batch)
    ⟨List.replicate batch ((List.replicate maxLen 0).set 0 tokBOS), List.replicate batch 1, List.range batch, (List.range batch).map w0,
      (List.range batch).map a, (List.range batch).map b, (List.range batch).map h0, 0⟩).counter, ?_⟩
  simp only
  rw [J.tr, J.ln]
  rfl

end

/-! ## Sorting and restoring -/

theorem restore_sorted {α : Type} (l : List (ℕ × List ℕ)) (seqs : List (List ℕ)) (hp : l.Perm (seqs.zipIdx.map fun x => (x.2, x.1)))
    (f : List ℕ → α) : restoreOrder (l.map fun x => f x.2) (l.map Prod.fst) = seqs.map f := by
  have hlen : l.length = seqs.length := by rw [hp.length_eq]; simp
  have hnd : (l.map Prod.fst).Nodup := by
    rw [(hp.map Prod.fst).nodup_iff, List.map_map]
    have : (Prod.fst ∘ fun x : List ℕ × ℕ => (x.2, x.1)) = Prod.snd := rfl
    rw [this]
    simp only [List.zipIdx_map_snd]
    exact List.nodup_range'
  unfold restoreOrder
  rw [List.length_map, hlen]
  have key : ∀ i (hi : i < seqs.length), (l.map fun x => f x.2)[(l.map Prod.fst).idxOf i]? = some (f seqs[i]) := by
    intro i hi
    have hm : (i, seqs[i]) ∈ l := by
      rw [hp.mem_iff, List.mem_map]
      exact ⟨(seqs[i], i), List.mem_zipIdx_iff_getElem?.2 (by simp [hi]), rfl⟩
    obtain ⟨j, hj, e⟩ := List.getElem_of_mem hm
    have e1 : (l.map Prod.fst)[j]'(by simpa using hj) = i := by simp [e]
    have : (l.map Prod.fst).idxOf i = j := by
      conv_lhs => rw [← e1]
      exact hnd.idxOf_getElem j (by simpa using hj)
    rw [this]
    simp [hj, e]
  apply List.ext_getElem?
  intro i
  have e2 : (List.range seqs.length).filterMap (fun i => (l.map fun x => f x.2)[(l.map Prod.fst).idxOf i]?) =
      (List.range seqs.length).map fun i => f (seqs.getD i []) := by
    have e3 : (List.range seqs.length).filterMap (fun i => (l.map fun x => f x.2)[(l.map Prod.fst).idxOf i]?) =
        (List.range seqs.length).filterMap (some ∘ fun i => f (seqs.getD i [])) := by
      apply List.filterMap_congr
      intro i hi
      have hi' : i < seqs.length := by simpa using hi
      rw [key i hi']
      simp [List.getD, hi']
    rw [e3, List.filterMap_eq_map]
  rw [e2]
  by_cases hi : i < seqs.length
  · simp [hi]
  · simp [hi]

/-- **C173** (sorting) The sentences are sorted by decreasing length, those of equal length keeping their order. -/
theorem C173_sorted (seqs : List (List ℕ)) : ((sortByLen seqs).Pairwise fun x y => y.2.length ≤ x.2.length) ∧
    (sortByLen seqs).Perm (seqs.zipIdx.map fun x => (x.2, x.1)) := by
  unfold sortByLen
  refine ⟨?_, List.perm_insertionSort _ _⟩
  haveI : Std.Total (fun a b : ℕ × List ℕ => b.2.length ≤ a.2.length) := ⟨fun a b => Nat.le_total _ _⟩
  haveI : IsTrans (ℕ × List ℕ) (fun a b : ℕ × List ℕ => b.2.length ≤ a.2.length) := ⟨fun a b c h1 h2 => Nat.le_trans h2 h1⟩
  exact List.pairwise_insertionSort _ _

/-- **C173** (translation) The translations come back in the order of the sentences given, each being that of its sentence alone: the
words decoded after BOS, without the last one.  The encoder is assumed not to look at padding (`enc` is its value on a sentence). -/
theorem C173_translate (gen : ℕ → A → ℕ → H → ℕ × H) (encode : List ℕ → ℕ → A) (h0 : H) (maxLen : ℕ) (hm : 0 < maxLen)
    (enc : List ℕ → A) (henc : ∀ (s : List ℕ) (n : ℕ), encode (s ++ List.replicate n tokPAD) s.length = enc s)
    (segs : List (List ℕ)) (hne : segs ≠ []) :
    translateGreedy gen encode h0 maxLen segs =
      .ok (segs.map fun s => (decodeOne gen (enc s) s.length (maxLen - 1) tokBOS h0).dropLast) := by
  have hp := (C173_sorted segs).2
  have hlen : (sortByLen segs).length = segs.length := by rw [hp.length_eq]; simp
  have hb : batchPadded segs = .ok ((sortByLen segs).map (fun x => padTo (((sortByLen segs).map fun x => x.2.length).foldl max 0) x.2),
      (sortByLen segs).map fun x => x.2.length, (sortByLen segs).map Prod.fst) := by
    unfold batchPadded
    cases hs : sortByLen segs with
    | nil =>
      rw [hs] at hlen
      exact absurd (List.eq_nil_of_length_eq_zero hlen.symm) hne
    | cons x l => rfl
  unfold translateGreedy
  rw [hb]
  simp only [bind, Except.bind, pure, Except.pure]
  generalize hL : sortByLen segs = L at hp hlen
  have hrange : ∀ {α : Type} (f : ℕ × List ℕ → α), (List.range segs.length).map (fun r => f (L.getD r (0, []))) = L.map f := by
    intro α f
    apply List.ext_getElem?
    intro i
    rw [← hlen]
    by_cases hi : i < L.length
    · simp [hi]
    · simp [hi]
  have e0 : List.zipWith encode (L.map fun x => padTo ((L.map fun x => x.2.length).foldl max 0) x.2) (L.map fun x => x.2.length) =
      L.map fun x => enc x.2 := by
    rw [List.zipWith_map]
    have : ∀ l : List (ℕ × List ℕ), List.zipWith (fun x y : ℕ × List ℕ => encode (padTo ((L.map fun x => x.2.length).foldl max 0) x.2) y.2.length) l l =
        l.map fun x => enc x.2 := by
      intro l
      induction l with
      | nil => rfl
      | cons y l ih => simp only [List.zipWith_cons_cons, List.map_cons, ih]; rw [padTo, henc]
    exact this L
  have g := C173_greedy gen (fun _ => tokBOS) (fun r => enc (L.getD r (0, [])).2) (fun r => (L.getD r (0, [])).2.length) (fun _ => h0)
    maxLen segs.length hm
  obtain ⟨n, g⟩ := g
  rw [hrange fun x => enc x.2, hrange fun x => x.2.length, hrange (fun x => 1 + (decodeOne gen (enc x.2) x.2.length (maxLen - 1) tokBOS h0).length),
    hrange (fun x => tokBOS :: decodeOne gen (enc x.2) x.2.length (maxLen - 1) tokBOS h0 ++
      List.replicate (maxLen - 1 - (decodeOne gen (enc x.2) x.2.length (maxLen - 1) tokBOS h0).length) 0)] at g
  simp only [List.map_const', List.length_range] at g
  rw [e0, g]
  simp only
  congr 1
  rw [← restore_sorted L segs hp (fun s => (decodeOne gen (enc s) s.length (maxLen - 1) tokBOS h0).dropLast)]
  congr 1
  rw [List.zipWith_map]
  have : ∀ l : List (ℕ × List ℕ), List.zipWith (fun x y : ℕ × List ℕ => cutPred (tokBOS :: decodeOne gen (enc x.2) x.2.length (maxLen - 1) tokBOS h0 ++
      List.replicate (maxLen - 1 - (decodeOne gen (enc x.2) x.2.length (maxLen - 1) tokBOS h0).length) 0)
        (1 + (decodeOne gen (enc y.2) y.2.length (maxLen - 1) tokBOS h0).length)) l l =
      l.map fun x => (decodeOne gen (enc x.2) x.2.length (maxLen - 1) tokBOS h0).dropLast := by
    intro l
    induction l with
    | nil => rfl
    | cons y l ih =>
      simp only [List.zipWith_cons_cons, List.map_cons, ih]
      congr 1
      unfold cutPred
      generalize decodeOne gen (enc y.2) y.2.length (maxLen - 1) tokBOS h0 = D
      rw [show 1 + D.length - 1 = D.length by omega, List.cons_append]
      cases D with
      | nil => rfl
      | cons d D =>
        rw [List.length_cons, List.take_succ_cons, List.drop_succ_cons, List.drop_zero, List.take_append_of_le_length (by simp),
          List.dropLast_eq_take]
        rfl
  exact this L

/-- **C173** (finished sentences) A decoding that reaches EOS is its words without EOS, and EOS: then the translation is exactly these words. -/
theorem C173_finished (gen : ℕ → A → B → H → ℕ × H) (a : A) (b : B) : ∀ (n : ℕ) (w : ℕ) (h : H), tokEOS ∈ decodeOne gen a b n w h →
    ∃ ws, decodeOne gen a b n w h = ws ++ [tokEOS] ∧ tokEOS ∉ ws ∧ (decodeOne gen a b n w h).dropLast = ws := by
  intro n
  induction n with
  | zero => intro w h hm; simp [decodeOne] at hm
  | succ n ih =>
    intro w h hm
    rw [decodeOne] at hm ⊢
    by_cases he : (gen w a b h).1 = tokEOS
    · rw [if_pos he, he]
      exact ⟨[], rfl, by simp, rfl⟩
    · rw [if_neg he] at hm ⊢
      rw [List.mem_cons] at hm
      obtain ⟨ws, e1, e2, -⟩ := ih _ _ (hm.resolve_left fun c => he c.symm)
      rw [e1]
      refine ⟨(gen w a b h).1 :: ws, rfl, ?_, by rw [← List.cons_append, List.dropLast_concat]⟩
      rw [List.mem_cons]
      rintro (c | c)
      · exact he c.symm
      · exact e2 c

/-- **C173** is violated for translations that reach the length limit: the last word decoded is dropped as if it were EOS: `maxLen - 1` words
other than EOS were decoded, `maxLen - 2` are returned. -/
theorem C173_violated_truncated (gen : ℕ → A → B → H → ℕ × H) (a : A) (b : B) (maxLen : ℕ) (h : H) (hm : 1 < maxLen)
    (he : tokEOS ∉ decodeOne gen a b (maxLen - 1) tokBOS h) :
    (decodeOne gen a b (maxLen - 1) tokBOS h).length = maxLen - 1 ∧ (decodeOne gen a b (maxLen - 1) tokBOS h).dropLast.length = maxLen - 2 := by
  have := (decodeOne_length gen a b (maxLen - 1) tokBOS h).2 he
  refine ⟨this, ?_⟩
  rw [List.length_dropLast, this]
  omega

example : translateGreedy (fun w (a : ℕ) _ (h : ℕ) => (if a ≤ h then tokEOS else w + 10, h + 1)) (fun _ n => n) 0 4 [[2, 3], [2, 7, 3], [2, 7, 8, 3]] =
    .ok [[12, 22], [12, 22], [12, 22]] := by decide +kernel
example : translateGreedy (fun w (a : ℕ) _ (h : ℕ) => (if a ≤ h + 1 then tokEOS else w + 10, h + 1)) (fun _ n => n) 0 9 [[2, 3], [2, 7, 8, 9, 3], [2, 7, 3]] =
    .ok [[12], [12, 22, 32, 42], [12, 22]] := by decide +kernel
example : tokEOS ∉ decodeOne (fun w (_ : ℕ) (_ : ℕ) (h : ℕ) => (w + 10, h + 1)) 0 0 3 tokBOS 0 := by decide +kernel

end Verif
