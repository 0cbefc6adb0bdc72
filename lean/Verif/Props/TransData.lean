import Verif.Model.TransData
import Verif.Props.Seq2Seq
import Mathlib.Data.List.Induction
/-!
# C183: tokenizer and data of the translator
-/
namespace Verif

/-! ## Vocabulary -/

theorem foldl_set_append {α β γ : Type} [DecidableEq α] (f : γ → α) (g : γ → β) (l : List γ) : ∀ d : Dict α β,
    (d.map Prod.fst ++ l.map f).Nodup → l.foldl (fun d x => Dict.set d (f x) (g x)) d = d ++ l.map fun x => (f x, g x) := by
  induction l with
  | nil => intro d _; simp
  | cons x l ih =>
    intro d h
    have hx : f x ∉ d.map Prod.fst := by
      intro hm
      exact (List.nodup_append.1 h).2.2 _ hm _ (List.mem_map.2 ⟨x, List.mem_cons_self, rfl⟩) rfl
    rw [List.foldl_cons, Dict.keys_set_of_not_mem _ _ _ hx, ih]
    · simp
    · simpa [List.append_assoc] using h

theorem zipIdx_nodup_fst {α : Type} (l : List α) (h : l.Nodup) : (l.zipIdx.map Prod.fst).Nodup := by
  rwa [List.zipIdx_map_fst]

/-- `n` is the number of the word `w`: its last place in the list `vocab`, and `UNK` if it is not in the list. -/
def IsNumber (vocab : List (List Char)) (w : List Char) (n : ℕ) : Prop :=
  (vocab[n]? = some w ∧ ∀ m, n < m → vocab[m]? ≠ some w) ∨ (w ∉ vocab ∧ n = tokUNK)

/-- A function for `IsNumber`. -/
def wordNumber (vocab : List (List Char)) (w : List Char) : ℕ := if w ∈ vocab then vocab.length - 1 - vocab.reverse.idxOf w else tokUNK

theorem wordNumber_append (vocab : List (List Char)) (x w : List Char) :
    wordNumber (vocab ++ [x]) w = if x = w then vocab.length else wordNumber vocab w := by
  unfold wordNumber
  by_cases e : x = w
  · subst e
    simp
  · have e' : ¬ w = x := fun h => e h.symm
    rw [if_neg e]
    by_cases hw : w ∈ vocab
    · rw [if_pos (List.mem_append_left _ hw), if_pos hw, List.reverse_append, List.reverse_singleton, List.singleton_append, List.idxOf_cons_ne _ e,
        List.length_append, List.length_singleton]
      omega
    · rw [if_neg (by simp [hw, e']), if_neg hw]

theorem isNumber_wordNumber (vocab : List (List Char)) (w : List Char) : IsNumber vocab w (wordNumber vocab w) := by
  induction vocab using List.reverseRecOn with
  | nil => exact Or.inr ⟨by simp, rfl⟩
  | append_singleton l x ih =>
    rw [wordNumber_append]
    by_cases e : x = w
    · subst e
      rw [if_pos rfl]
      refine Or.inl ⟨by simp, fun m hm h => ?_⟩
      have := (List.getElem?_eq_some_iff.1 h).1
      rw [List.length_append, List.length_singleton] at this
      omega
    · rw [if_neg e]
      rcases ih with ⟨h1, h2⟩ | ⟨h1, h2⟩
      · have hlt := (List.getElem?_eq_some_iff.1 h1).1
        refine Or.inl ⟨by rw [List.getElem?_append_left hlt]; exact h1, fun m hm h => ?_⟩
        rcases Nat.lt_or_ge m l.length with hml | hml
        · rw [List.getElem?_append_left hml] at h
          exact h2 m hm h
        · rw [List.getElem?_append_right hml] at h
          obtain ⟨g1, g2⟩ := List.getElem?_eq_some_iff.1 h
          simp at g1 g2
          exact e (by simpa [g1] using g2)
      · refine Or.inr ⟨?_, h2⟩
        have e' : ¬ w = x := fun h => e h.symm
        simp [h1, e']

theorem get?_vocab (vocab : List (List Char)) (w : List Char) :
    Dict.get? (vocab.zipIdx.foldl (fun d x => Dict.set d x.1 x.2) []) w = if w ∈ vocab then some (wordNumber vocab w) else none := by
  induction vocab using List.reverseRecOn with
  | nil => rfl
  | append_singleton l x ih =>
    rw [List.zipIdx_append, List.foldl_append, wordNumber_append]
    show Dict.get? (Dict.set _ x (0 + l.length)) w = _
    rw [Nat.zero_add, Dict.get?_set, ih]
    by_cases e : x = w
    · subst e; simp
    · have e' : ¬ w = x := fun h => e h.symm
      simp [e, e']

theorem nodup_foldl_set (l : List (List Char × ℕ)) : ∀ d : Dict (List Char) ℕ, Dict.Nodup d → Dict.Nodup (l.foldl (fun d x => Dict.set d x.1 x.2) d) := by
  induction l with
  | nil => intro d h; exact h
  | cons x l ih =>
    intro d h
    apply ih
    unfold Dict.Nodup at h ⊢
    show (List.map Prod.fst (Dict.set d x.1 x.2)).Nodup
    by_cases hx : x.1 ∈ d.map Prod.fst
    · rwa [Dict.keys_set_of_mem _ _ _ hx]
    · rw [Dict.keys_set_of_not_mem _ _ _ hx, List.map_append, List.nodup_append]
      refine ⟨h, by simp, ?_⟩
      intro a ha b hb e
      simp only [List.map_cons, List.map_nil, List.mem_singleton] at hb
      exact hx (by rw [← hb, ← e]; exact ha)

theorem mem_tok2idx (lines : List (List Char)) (sep w : List Char) (n : ℕ) : (w, n) ∈ (Tokenizer.new lines sep).tok2idx ↔
    (vocabList lines)[n]? = some w ∧ ∀ m, n < m → (vocabList lines)[m]? ≠ some w := by
  have hn : Dict.Nodup (Tokenizer.new lines sep).tok2idx := nodup_foldl_set _ [] List.nodup_nil
  have hg : Dict.get? (Tokenizer.new lines sep).tok2idx w = _ := get?_vocab (vocabList lines) w
  have hw := isNumber_wordNumber (vocabList lines) w
  constructor
  · intro h
    rw [Dict.get?_of_mem hn h] at hg
    split at hg
    · rename_i hm
      rw [Option.some.injEq] at hg
      rw [← hg] at hw
      rcases hw with hw | hw
      · exact hw
      · exact absurd hm hw.1
    · cases hg
  · rintro ⟨h1, h2⟩
    have hm : w ∈ vocabList lines := List.mem_of_getElem? h1
    rw [if_pos hm] at hg
    rcases hw with ⟨g1, g2⟩ | hw
    · have : wordNumber (vocabList lines) w = n := by
        rcases Nat.lt_trichotomy (wordNumber (vocabList lines) w) n with h | h | h
        · exact absurd h1 (g2 n h)
        · exact h
        · exact absurd g1 (h2 _ h)
      rw [this] at hg
      exact Dict.mem_of_get? hg
    · exact absurd hm hw.1

theorem get?_idx2tok (lines : List (List Char)) (sep w : List Char) (n : ℕ) : Dict.get? (Tokenizer.new lines sep).idx2tok n = some w ↔
    (vocabList lines)[n]? = some w ∧ ∀ m, n < m → (vocabList lines)[m]? ≠ some w := by
  rw [← mem_tok2idx lines sep]
  have hnd : (((Tokenizer.new lines sep).tok2idx).map Prod.snd).Nodup := by
    have hn : Dict.Nodup (Tokenizer.new lines sep).tok2idx := nodup_foldl_set _ [] List.nodup_nil
    rw [List.nodup_map_iff_inj_on (List.Nodup.of_map _ hn)]
    rintro ⟨a, x⟩ ha ⟨b, y⟩ hb (rfl : x = y)
    have h1 := ((mem_tok2idx lines sep a x).1 ha).1
    have h2 := ((mem_tok2idx lines sep b x).1 hb).1
    rw [h1, Option.some.injEq] at h2
    rw [h2]
  have e : (Tokenizer.new lines sep).idx2tok = (Tokenizer.new lines sep).tok2idx.map fun x => (x.2, x.1) := by
    show (Tokenizer.new lines sep).tok2idx.foldl (fun d x => Dict.set d x.2 x.1) [] = _
    rw [foldl_set_append Prod.snd Prod.fst _ _ (by simpa using hnd)]
    simp
  rw [e]
  have hn2 : Dict.Nodup ((Tokenizer.new lines sep).tok2idx.map fun x => (x.2, x.1)) := by
    unfold Dict.Nodup
    rw [List.map_map]
    exact hnd
  constructor
  · intro h
    obtain ⟨⟨a, x⟩, ha, he⟩ := List.mem_map.1 (Dict.mem_of_get? h)
    cases he
    exact ha
  · intro h
    exact Dict.get?_of_mem hn2 (List.mem_map.2 ⟨(w, n), h, rfl⟩)

/-- What unknown words met before leave behind does not change any number. -/
def TokOk (vocab : List (List Char)) (t : Tokenizer) : Prop := ∀ w, (Dict.get? t.tok2idx w).getD tokUNK = wordNumber vocab w

theorem tokOk_new (lines : List (List Char)) (sep : List Char) : TokOk (vocabList lines) (Tokenizer.new lines sep) := by
  intro w
  have hg : Dict.get? (Tokenizer.new lines sep).tok2idx w = _ := get?_vocab (vocabList lines) w
  rw [hg]
  by_cases hw : w ∈ vocabList lines
  · rw [if_pos hw]; rfl
  · rw [if_neg hw]; unfold wordNumber; rw [if_neg hw]; rfl

theorem index_ok (vocab : List (List Char)) (t : Tokenizer) (h : TokOk vocab t) (w : List Char) :
    (t.index w).1 = wordNumber vocab w ∧ TokOk vocab (t.index w).2 := by
  have hw := h w
  unfold Tokenizer.index
  cases hg : Dict.get? t.tok2idx w with
  | some i => rw [hg] at hw; exact ⟨hw, h⟩
  | none =>
    rw [hg] at hw
    refine ⟨hw, ?_⟩
    intro v
    simp only
    rw [Dict.get?_set]
    by_cases e : w = v
    · subst e; rw [if_pos rfl]; exact hw
    · rw [if_neg e]; exact h v

theorem indices_ok (vocab : List (List Char)) (ws : List (List Char)) : ∀ t : Tokenizer, TokOk vocab t →
    (t.indices ws).1 = ws.map (wordNumber vocab) ∧ TokOk vocab (t.indices ws).2 := by
  induction ws with
  | nil => intro t h; exact ⟨rfl, h⟩
  | cons w ws ih =>
    intro t h
    obtain ⟨h1, h2⟩ := index_ok vocab t h w
    obtain ⟨i1, i2⟩ := ih _ h2
    unfold Tokenizer.indices
    exact ⟨by simp only; rw [h1, i1, List.map_cons], i2⟩

/-- The numbers of a line. -/
def lineNumbers (vocab : List (List Char)) (line : List Char) : List ℕ := tokBOS :: (pySplit line).map (wordNumber vocab) ++ [tokEOS]

theorem pySplit_strip (l : List Char) : pySplit (pyStrip l) = pySplit l := by
  have hd : ∀ l : List Char, pySplit (l.dropWhile Char.isWhitespace) = pySplit l := by
    intro l
    induction l with
    | nil => rfl
    | cons c l ih =>
      cases hc : c.isWhitespace with
      | false => rw [List.dropWhile_cons_of_neg (by simp [hc])]
      | true =>
        rw [List.dropWhile_cons_of_pos hc, ih]
        unfold pySplit
        rw [List.splitOnP_cons_eq_if_modifyHead, if_pos hc]
        simp
  have ht : ∀ l : List Char, pySplit ((l.reverse.dropWhile Char.isWhitespace).reverse) = pySplit l := by
    intro l
    induction l using List.reverseRecOn with
    | nil => rfl
    | append_singleton l c ih =>
      rw [List.reverse_append, List.reverse_singleton, List.singleton_append]
      cases hc : c.isWhitespace with
      | false => rw [List.dropWhile_cons_of_neg (by simp [hc])]; simp
      | true =>
        rw [List.dropWhile_cons_of_pos hc, ih]
        unfold pySplit
        have : ∀ l : List Char, (l ++ [c]).splitOnP Char.isWhitespace = l.splitOnP Char.isWhitespace ++ [[]] := by
          intro l
          induction l with
          | nil => simp [List.splitOnP_cons_eq_if_modifyHead, hc]
          | cons d l ih2 =>
            rw [List.cons_append, List.splitOnP_cons_eq_if_modifyHead, List.splitOnP_cons_eq_if_modifyHead, ih2]
            cases hdw : d.isWhitespace with
            | true => simp
            | false =>
              simp only [Bool.false_eq_true, if_false]
              cases hs : l.splitOnP Char.isWhitespace with
              | nil => exact absurd hs (List.splitOnP_ne_nil _ _)
              | cons a as => rfl
        rw [this]
        simp
  unfold pyStrip
  rw [ht, hd]

theorem segment_ok (vocab : List (List Char)) (t : Tokenizer) (h : TokOk vocab t) (line : List Char) :
    (t.segment line).1 = lineNumbers vocab line ∧ TokOk vocab (t.segment line).2 := by
  obtain ⟨h1, h2⟩ := indices_ok vocab (pySplit (pyStrip line)) t h
  refine ⟨?_, h2⟩
  unfold Tokenizer.segment lineNumbers
  simp only
  rw [h1, pySplit_strip]
  rfl

/-- **C183** (segmentation) After whatever lines `hist` have been segmented before, a line becomes `BOS`, the numbers of its words and `EOS`: the number of a special
token or of a listed token is its (last) place, that of any other word `UNK`. -/
theorem C183_segment (lines hist : List (List Char)) (sep line : List Char) :
    ∃ ns, ((hist.foldl (fun t l => (t.segment l).2) (Tokenizer.new lines sep)).segment line).1 = tokBOS :: ns ++ [tokEOS] ∧
      List.Forall₂ (IsNumber (specialTokens ++ lines.map pyStrip)) (pySplit line) ns := by
  have : ∀ (hist : List (List Char)) (t : Tokenizer), TokOk (vocabList lines) t → TokOk (vocabList lines) (hist.foldl (fun t l => (t.segment l).2) t) := by
    intro hist
    induction hist with
    | nil => intro t h; exact h
    | cons l hist ih => intro t h; exact ih _ (segment_ok _ t h l).2
  refine ⟨_, (segment_ok _ _ (this hist _ (tokOk_new lines sep)) line).1, ?_⟩
  rw [List.forall₂_map_right_iff]
  exact List.forall₂_same.2 fun w _ => isNumber_wordNumber _ w

theorem splitOnP_word (w : List Char) (hw : ∀ c ∈ w, c.isWhitespace = false) (c : Char) (hc : c.isWhitespace = true) (l : List Char) :
    (w ++ c :: l).splitOnP Char.isWhitespace = w :: l.splitOnP Char.isWhitespace := by
  induction w with
  | nil => rw [List.nil_append, List.splitOnP_cons_eq_if_modifyHead, if_pos hc]
  | cons d w ih =>
    rw [List.cons_append, List.splitOnP_cons_eq_if_modifyHead, hw d List.mem_cons_self, ih fun c h => hw c (List.mem_cons_of_mem _ h)]
    rfl

theorem splitOnP_last (w : List Char) (hw : ∀ c ∈ w, c.isWhitespace = false) : w.splitOnP Char.isWhitespace = [w] := by
  induction w with
  | nil => rfl
  | cons d w ih =>
    rw [List.splitOnP_cons_eq_if_modifyHead, hw d List.mem_cons_self, ih fun c h => hw c (List.mem_cons_of_mem _ h)]
    rfl

theorem pySplit_blank (ws l : List Char) (hws : ∀ c ∈ ws, c.isWhitespace = true) : pySplit (ws ++ l) = pySplit l := by
  induction ws with
  | nil => rfl
  | cons c ws ih =>
    rw [← ih fun c h => hws c (List.mem_cons_of_mem _ h)]
    unfold pySplit
    rw [List.cons_append, List.splitOnP_cons_eq_if_modifyHead, if_pos (hws c List.mem_cons_self)]
    simp

/-- **C183** (words) The words of a line are what stands between white space: the line being white space, words each followed by white space, and perhaps a last word, exactly
these words are found. -/
theorem C183_words (lead last : List Char) (ps : List (List Char × List Char)) (hlead : ∀ c ∈ lead, c.isWhitespace = true)
    (hlast : ∀ c ∈ last, c.isWhitespace = false) (hps : ∀ p ∈ ps, p.1 ≠ [] ∧ (∀ c ∈ p.1, c.isWhitespace = false) ∧ p.2 ≠ [] ∧ ∀ c ∈ p.2, c.isWhitespace = true) :
    pySplit (lead ++ (ps.flatMap fun p => p.1 ++ p.2) ++ last) = ps.map Prod.fst ++ if last = [] then [] else [last] := by
  rw [List.append_assoc, pySplit_blank _ _ hlead]
  induction ps with
  | nil =>
    unfold pySplit
    rw [List.flatMap_nil, List.nil_append, splitOnP_last _ hlast]
    cases last <;> rfl
  | cons p ps ih =>
    obtain ⟨h1, h2, h3, h4⟩ := hps p List.mem_cons_self
    obtain ⟨c, cs, hc⟩ := List.exists_cons_of_ne_nil h3
    rw [List.map_cons, List.cons_append, ← ih fun p h => hps p (List.mem_cons_of_mem _ h), List.flatMap_cons, hc]
    rw [hc] at h4
    have hb := pySplit_blank cs (ps.flatMap (fun p => p.1 ++ p.2) ++ last) fun c h => h4 c (List.mem_cons_of_mem _ h)
    rw [← hb, List.append_assoc, List.append_assoc, List.cons_append]
    unfold pySplit
    rw [splitOnP_word _ h2 c (h4 c List.mem_cons_self), List.filter_cons_of_pos (by simpa using h1)]

/-! ## Back to text -/

/-- A token of the byte-pair encoding: the stem, and whether the word goes on (`@@`). -/
def pieceToken (p : List Char × Bool) : List Char := p.1 ++ if p.2 then ['@', '@'] else []

/-- The text of pieces: a blank after every piece that ends its word. -/
def glue : List (List Char × Bool) → List Char
  | [] => []
  | [p] => p.1
  | p :: ps => p.1 ++ (if p.2 then [] else [' ']) ++ glue ps

theorem strRemove_stem (pat : List Char) (w rest : List Char) (hp : pat.head? = some '@') (hw : '@' ∉ w) :
    strRemove pat 0 (w ++ rest) = w ++ strRemove pat 0 rest := by
  induction w with
  | nil => rfl
  | cons c w ih =>
    rw [List.cons_append]
    have hc : c ≠ '@' := fun e => hw (by rw [e]; exact List.mem_cons_self)
    obtain ⟨p, rfl⟩ : ∃ p, pat = '@' :: p := by
      cases pat with
      | nil => cases hp
      | cons a p => simp at hp; exact ⟨p, by rw [hp]⟩
    rw [strRemove, if_neg, ih (fun h => hw (List.mem_cons_of_mem _ h)), List.cons_append]
    rintro ⟨-, h⟩
    rw [List.isPrefixOf_cons_cons] at h
    simp at h
    exact hc h.1.symm

/-- The text before the second `replace`: a last piece that goes on keeps its mark. -/
def glue' : List (List Char × Bool) → List Char
  | [] => []
  | [p] => pieceToken p
  | p :: ps => p.1 ++ (if p.2 then [] else [' ']) ++ glue' ps

theorem remove_first (ps : List (List Char × Bool)) (h : ∀ p ∈ ps, '@' ∉ p.1) :
    strRemove ['@', '@', ' '] 0 (joinBlank (ps.map pieceToken)) = glue' ps := by
  induction ps with
  | nil => rfl
  | cons p ps ih =>
    have hp := h p List.mem_cons_self
    cases ps with
    | nil =>
      show strRemove _ 0 (p.1 ++ _) = p.1 ++ _
      rw [strRemove_stem _ _ _ rfl hp]
      cases p.2 <;> rfl
    | cons q qs =>
      have ih' := ih fun x hx => h x (List.mem_cons_of_mem _ hx)
      show strRemove _ 0 ((p.1 ++ _) ++ ' ' :: joinBlank ((q :: qs).map pieceToken)) = p.1 ++ _ ++ glue' (q :: qs)
      rw [List.append_assoc, strRemove_stem _ _ _ rfl hp, ← ih', List.append_assoc]
      congr 1
      cases p.2 with
      | true => simp [strRemove]
      | false =>
        simp [strRemove]

theorem remove_second (ps : List (List Char × Bool)) (h : ∀ p ∈ ps, '@' ∉ p.1) : strRemove ['@', '@'] 0 (glue' ps) = glue ps := by
  induction ps with
  | nil => rfl
  | cons p ps ih =>
    have hp := h p List.mem_cons_self
    cases ps with
    | nil =>
      show strRemove _ 0 (p.1 ++ _) = p.1
      rw [strRemove_stem _ _ _ rfl hp]
      cases p.2 <;> simp [strRemove]
    | cons q qs =>
      have ih' := ih fun x hx => h x (List.mem_cons_of_mem _ hx)
      show strRemove _ 0 (p.1 ++ _ ++ glue' (q :: qs)) = p.1 ++ _ ++ glue (q :: qs)
      rw [List.append_assoc, strRemove_stem _ _ _ rfl hp, ← ih', List.append_assoc]
      congr 1
      cases p.2 with
      | true => simp
      | false => simp [strRemove]

theorem mapM_getE {d : Dict ℕ (List Char)} {is : List ℕ} {ws : List (List Char)} (h : List.Forall₂ (fun i w => Dict.get? d i = some w) is ws) :
    is.mapM (fun i => Dict.getE d i) = .ok ws := by
  induction h with
  | nil => rfl
  | cons h1 _ ih =>
    rw [List.mapM_cons, ih]
    unfold Dict.getE
    rw [h1]; rfl

/-- **C183** (text of numbers) The text of any numbers, each the last place of a token, is that of their tokens, pieces of the same word being put together. -/
theorem C183_text_partial (lines : List (List Char)) (inputs : List ℕ) (ps : List (List Char × Bool)) (hps : ∀ p ∈ ps, '@' ∉ p.1)
    (hin : List.Forall₂ (fun n p => (specialTokens ++ lines.map pyStrip)[n]? = some (p.1 ++ if p.2 then ['@', '@'] else []) ∧
      ∀ m, n < m → (specialTokens ++ lines.map pyStrip)[m]? ≠ some (p.1 ++ if p.2 then ['@', '@'] else [])) inputs ps) :
    (Tokenizer.new lines).detokenize inputs = .ok (glue ps) := by
  unfold Tokenizer.detokenize
  rw [mapM_getE (ws := ps.map pieceToken)]
  · show Except.ok (strRemove ['@', '@'] 0 (strRemove ['@', '@', ' '] 0 (joinBlank (ps.map pieceToken)))) = _
    rw [remove_first ps hps, remove_second ps hps]
  · rw [List.forall₂_map_right_iff]
    exact hin.imp fun n p h => (get?_idx2tok lines _ (pieceToken p) n).2 h

/-- **C183** (numbers without a text) A number that is not the last place of a token is a `KeyError`: those from the size of the vocabulary on, in particular. -/
theorem C183_text_error (lines : List (List Char)) (sep : List Char) (i : ℕ)
    (hi : ∀ w, (specialTokens ++ lines.map pyStrip)[i]? = some w → ∃ m, i < m ∧ (specialTokens ++ lines.map pyStrip)[m]? = some w) (before after : List ℕ) :
    (Tokenizer.new lines sep).detokenize (before ++ i :: after) = .error .key := by
  have hnone : ∀ n, Dict.getE (Tokenizer.new lines sep).idx2tok n = .error .key ∨ ∃ w, Dict.getE (Tokenizer.new lines sep).idx2tok n = .ok w := by
    intro n
    unfold Dict.getE
    cases Dict.get? (Tokenizer.new lines sep).idx2tok n with
    | none => exact Or.inl rfl
    | some w => exact Or.inr ⟨w, rfl⟩
  have hbad : Dict.getE (Tokenizer.new lines sep).idx2tok i = .error .key := by
    unfold Dict.getE
    cases hg : Dict.get? (Tokenizer.new lines sep).idx2tok i with
    | none => rfl
    | some w =>
      obtain ⟨h1, h2⟩ := (get?_idx2tok lines sep w i).1 hg
      obtain ⟨m, hm, h3⟩ := hi w h1
      exact absurd h3 (h2 m hm)
  have : ∀ l : List ℕ, (l ++ i :: after).mapM (fun i => Dict.getE (Tokenizer.new lines sep).idx2tok i) = .error .key := by
    intro l
    induction l with
    | nil => rw [List.nil_append, List.mapM_cons, hbad]; rfl
    | cons n l ih =>
      rw [List.cons_append, List.mapM_cons, ih]
      rcases hnone n with h | ⟨w, h⟩ <;> rw [h] <;> rfl
  unfold Tokenizer.detokenize
  rw [this]
  rfl

/-- **C183** (size of the vocabulary) The special tokens and one token for every line; all larger numbers are a `KeyError`. -/
theorem C183_size (lines : List (List Char)) (sep : List Char) : (Tokenizer.new lines sep).vocabSize = 4 + lines.length ∧
    ∀ i, (Tokenizer.new lines sep).vocabSize ≤ i → ∀ before after, (Tokenizer.new lines sep).detokenize (before ++ i :: after) = .error .key := by
  have h : (Tokenizer.new lines sep).vocabSize = 4 + lines.length := by
    show (specialTokens ++ lines.map pyStrip).length = _
    rw [List.length_append, List.length_map]; rfl
  refine ⟨h, fun i hi before after => C183_text_error lines sep i (fun w hw => ?_) before after⟩
  have := (List.getElem?_eq_some_iff.1 hw).1
  rw [h] at hi
  rw [List.length_append, List.length_map] at this
  have h4 : specialTokens.length = 4 := rfl
  omega

/-- **C183** (round trip) A line all of whose words are listed comes back, the pieces put together. -/
theorem C183_roundtrip_partial (lines : List (List Char)) (line : List Char) (ps : List (List Char × Bool))
    (hps : ∀ p ∈ ps, '@' ∉ p.1) (hw : pySplit line = ps.map fun p => p.1 ++ if p.2 then ['@', '@'] else [])
    (hin : ∀ w ∈ pySplit line, w ∈ specialTokens ++ lines.map pyStrip) :
    (Tokenizer.new lines).detokenize (((Tokenizer.new lines).segment line).1.tail.dropLast) = .ok (glue ps) := by
  rw [(segment_ok _ _ (tokOk_new lines _) line).1]
  unfold lineNumbers
  rw [List.cons_append, List.tail_cons, List.dropLast_concat]
  apply C183_text_partial lines _ ps hps
  rw [hw] at hin ⊢
  rw [List.map_map, List.forall₂_map_left_iff]
  apply List.forall₂_same.2
  intro p hp
  rcases isNumber_wordNumber (vocabList lines) (p.1 ++ if p.2 then ['@', '@'] else []) with h | h
  · exact h
  · exact absurd (hin _ (List.mem_map.2 ⟨p, hp, rfl⟩)) h.1

/-- **C183, violated** (double lines): a token listed twice has the later number; the earlier one is counted in the size of the vocabulary, so that the network may say it,
but has no text. -/
theorem C183_violated_double :
    let t := Tokenizer.new [['a'], ['b', '\n'], ['a', '\n']]
    t.vocabSize = 7 ∧ (t.segment ['a', ' ', 'b']).1 = [2, 6, 5, 3] ∧ t.detokenize [5, 6] = .ok ['b', ' ', 'a'] ∧ t.detokenize [4] = .error .key := by decide +kernel

/-- **C183, violated** (the mark in a word): a listed token with the mark inside loses it. -/
theorem C183_violated_mark :
    let t := Tokenizer.new [['a', '@', '@', 'b']]
    (t.segment ['a', '@', '@', 'b']).1 = [2, 4, 3] ∧ t.detokenize [4] = .ok ['a', 'b'] := by decide +kernel

example :
    let lines := [['l', 'o', '@', '@', '\n'], ['w', '\n'], ['i', 's', '\n']]
    ((Tokenizer.new lines).segment "lo@@ w  is x\n".toList).1 = [2, 4, 5, 6, 1, 3] ∧
    (Tokenizer.new lines).detokenize [4, 5, 6, 1] = .ok "low is <unk>".toList ∧ glue [(['l', 'o'], true), (['w'], false), (['i', 's'], false)] = "low is".toList := by
  decide +kernel

end Verif
