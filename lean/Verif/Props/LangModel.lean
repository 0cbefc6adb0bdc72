import Verif.Model.LangModel
import Verif.Props.Sampler
import Verif.Lemmas.Fold
import Mathlib.Tactic.FieldSimp
import Mathlib.Tactic.Ring
import Mathlib.Tactic.Linarith
import Mathlib.Tactic.Positivity
/-!
# C176: the word language model example
-/
namespace Verif

/-! ## Dictionary -/

/-- The two parts of a dictionary are inverse to each other. -/
def Vocab.OK (d : Vocab) : Prop := ∀ w i, Dict.get? d.word2idx w = some i ↔ d.idx2word[i]? = some w

theorem addWord_ok {d : Vocab} (h : d.OK) (w : String) :
    (d.addWord w).OK ∧ d.idx2word <+: (d.addWord w).idx2word ∧ ∀ v, v ∈ (d.addWord w).idx2word ↔ v ∈ d.idx2word ∨ v = w := by
  unfold Vocab.addWord
  split
  · rename_i hw
    refine ⟨h, List.prefix_refl _, fun v => ⟨Or.inl, ?_⟩⟩
    rintro (hv | rfl)
    · exact hv
    · unfold Dict.has at hw
      obtain ⟨i, hi⟩ := Option.isSome_iff_exists.1 hw
      exact List.mem_of_getElem? ((h _ _).1 hi)
  · rename_i hw
    have hnone : Dict.get? d.word2idx w = none := by
      unfold Dict.has at hw
      simpa using hw
    have hnot : ∀ i, d.idx2word[i]? ≠ some w := fun i hi => by
      have := (h w i).2 hi
      rw [hnone] at this; cases this
    refine ⟨?_, List.prefix_append _ _, fun v => by simp⟩
    intro v i
    dsimp only
    rw [List.length_append, List.length_singleton, Nat.add_sub_cancel]
    by_cases hv : w = v
    · subst hv
      rw [Dict.get?_set_self]
      constructor
      · intro e
        cases e
        rw [List.getElem?_append_right (Nat.le_refl _), Nat.sub_self]; rfl
      · intro e
        by_cases hi : i < d.idx2word.length
        · rw [List.getElem?_append_left hi] at e
          exact absurd e (hnot i)
        · rw [List.getElem?_append_right (by omega)] at e
          have := (List.getElem?_eq_some_iff.1 e).1
          simp at this
          congr 1; omega
    · rw [Dict.get?_set_ne _ _ hv, h]
      constructor
      · intro e
        rw [List.getElem?_append_left (List.getElem?_eq_some_iff.1 e).1]; exact e
      · intro e
        by_cases hi : i < d.idx2word.length
        · rwa [List.getElem?_append_left hi] at e
        · rw [List.getElem?_append_right (by omega)] at e
          obtain ⟨hlt, e'⟩ := List.getElem?_eq_some_iff.1 e
          exfalso
          simp only [List.length_singleton, Nat.lt_one_iff] at hlt
          simp only [hlt, List.getElem_cons_zero] at e'
          exact hv e'

theorem addWords_ok : ∀ (l : List String) {d : Vocab}, d.OK →
    (l.foldl Vocab.addWord d).OK ∧ d.idx2word <+: (l.foldl Vocab.addWord d).idx2word ∧
      ∀ v, v ∈ (l.foldl Vocab.addWord d).idx2word ↔ v ∈ d.idx2word ∨ v ∈ l := by
  intro l
  induction l with
  | nil => intro d h; exact ⟨h, List.prefix_refl _, by simp⟩
  | cons w l ih =>
    intro d h
    obtain ⟨a1, a2, a3⟩ := addWord_ok h w
    obtain ⟨b1, b2, b3⟩ := ih a1
    refine ⟨b1, a2.trans b2, fun v => ?_⟩
    rw [List.foldl_cons, b3, a3, List.mem_cons]
    tauto

theorem lookupAll {d : Vocab} (h : d.OK) : ∀ l : List String, (∀ w ∈ l, w ∈ d.idx2word) →
    ∃ ids, (l.mapM fun w => Dict.getE d.word2idx w) = .ok ids ∧ ids.map (d.idx2word[·]?) = l.map some := by
  intro l
  induction l with
  | nil => intro _; exact ⟨[], rfl, rfl⟩
  | cons w l ih =>
    intro hl
    obtain ⟨ids, h1, h2⟩ := ih fun v hv => hl v (List.mem_cons_of_mem _ hv)
    obtain ⟨i, hi, e⟩ := List.mem_iff_getElem.1 (hl w (by simp))
    have hi' : d.idx2word[i]? = some w := by rw [List.getElem?_eq_getElem hi, e]
    refine ⟨i :: ids, ?_, by rw [List.map_cons, List.map_cons, h2, hi']⟩
    rw [List.mapM_cons, h1]
    unfold Dict.getE
    rw [(h w i).2 hi']
    rfl

theorem tokenize_ok {d : Vocab} (h : d.OK) (lines : List (List String)) : ∃ d' ids, d.tokenize lines = .ok (d', ids) ∧ d'.OK ∧
    d.idx2word <+: d'.idx2word ∧ ids.map (d'.idx2word[·]?) = (fileWords lines).map some ∧
      ∀ v, v ∈ d'.idx2word ↔ v ∈ d.idx2word ∨ v ∈ fileWords lines := by
  obtain ⟨a1, a2, a3⟩ := addWords_ok (fileWords lines) h
  obtain ⟨ids, b1, b2⟩ := lookupAll a1 (fileWords lines) fun w hw => (a3 w).2 (Or.inr hw)
  refine ⟨_, ids, ?_, a1, a2, b2, a3⟩
  unfold Vocab.tokenize
  simp only [bind, Except.bind, b1, pure, Except.pure]

/-- A number that decodes stays decoded in a longer dictionary. -/
theorem decode_prefix {a b : List String} (h : a <+: b) {ids : List ℕ} {l : List String} (hd : ids.map (a[·]?) = l.map some) :
    ids.map (b[·]?) = l.map some := by
  rw [← hd]
  apply List.map_congr_left
  intro i hi
  have : a[i]? ∈ l.map some := by rw [← hd]; exact List.mem_map.2 ⟨i, hi, rfl⟩
  obtain ⟨w, -, e⟩ := List.mem_map.1 this
  obtain ⟨c, rfl⟩ := h
  rw [List.getElem?_append_left (List.getElem?_eq_some_iff.1 e.symm).1]

/-- **C176** (corpus) Reading a corpus succeeds; the dictionary lists every word of the three files and the end-of-line mark once; the numbers of each file
stand for its words, in order; word and number determine each other. -/
theorem C176_corpus (train valid test : List (List String)) : ∃ (d : Vocab) (a b c : List ℕ), corpusOf train valid test = .ok (d, a, b, c) ∧
    a.map (d.idx2word[·]?) = (train.flatMap (· ++ ["<eos>"])).map some ∧
    b.map (d.idx2word[·]?) = (valid.flatMap (· ++ ["<eos>"])).map some ∧
    c.map (d.idx2word[·]?) = (test.flatMap (· ++ ["<eos>"])).map some ∧
    d.idx2word.Nodup ∧ (∀ v, v ∈ d.idx2word ↔ v ∈ (train ++ valid ++ test).flatMap (· ++ ["<eos>"])) ∧
    ∀ w i, Dict.get? d.word2idx w = some i ↔ d.idx2word[i]? = some w := by
  have h0 : Vocab.empty.OK := by
    intro w i
    simp [Vocab.empty]
  obtain ⟨d1, a, e1, o1, p1, q1, m1⟩ := tokenize_ok h0 train
  obtain ⟨d2, b, e2, o2, p2, q2, m2⟩ := tokenize_ok o1 valid
  obtain ⟨d3, c, e3, o3, p3, q3, m3⟩ := tokenize_ok o2 test
  refine ⟨d3, a, b, c, ?_, decode_prefix (p2.trans p3) q1, decode_prefix p3 q2, q3, ?_, ?_, o3⟩
  · unfold corpusOf
    simp only [bind, Except.bind, e1, e2, e3, pure, Except.pure]
  · rw [List.nodup_iff_getElem?_ne_getElem?]
    intro i j hij hj e
    rw [List.getElem?_eq_getElem hj] at e
    have h1 := (o3 _ _).2 e
    have h2 := (o3 _ _).2 (List.getElem?_eq_getElem hj)
    rw [h1] at h2
    cases h2
    omega
  · intro v
    rw [m3, m2, m1, List.flatMap_append, List.flatMap_append, List.mem_append, List.mem_append]
    simp [Vocab.empty, fileWords]

example : corpusOf [["a", "b"], ["a"]] [["c", "b"]] [] =
    .ok (⟨[("a", 0), ("b", 1), ("<eos>", 2), ("c", 3)], ["a", "b", "<eos>", "c"]⟩, [0, 1, 2, 0, 2], [3, 1, 2], []) := by decide +kernel

/-! ## Batches -/

/-- **C176** (columns) `batchify` lays the data out in `bsz` columns of equal length: column `j` is the `j`-th piece of the data, fewer than `bsz` words
at the end are left out. -/
theorem C176_columns (data : List ℕ) (bsz : ℕ) (hb : 0 < bsz) : ∃ rows, batchify data bsz = .ok rows ∧ rows.length = data.length / bsz ∧
    (∀ row ∈ rows, row.length = bsz) ∧ data.length < rows.length * bsz + bsz ∧
    ∀ t < rows.length, ∀ j < bsz, (rows[t]?).bind (·[j]?) = data[j * rows.length + t]? := by
  obtain ⟨nb, hnb⟩ : ∃ nb, nb = data.length / bsz := ⟨_, rfl⟩
  have hle : nb * bsz ≤ data.length := by rw [hnb]; exact Nat.div_mul_le_self _ _
  have hrow : ∀ t < nb, (rowsOf nb bsz (data.take (nb * bsz))).filterMap (·[t]?) = (List.range bsz).map fun j => data.getD (j * nb + t) 0 := by
    intro t ht
    rw [rowsOf_eq, List.filterMap_map]
    have : (List.range bsz).filterMap ((fun x : List ℕ => x[t]?) ∘ fun j => ((data.take (nb * bsz)).drop (j * nb)).take nb) =
        (List.range bsz).filterMap (some ∘ fun j => data.getD (j * nb + t) 0) := by
      apply List.filterMap_congr
      intro j hj
      have hj' : j < bsz := by simpa using hj
      have h1 : (j + 1) * nb ≤ bsz * nb := Nat.mul_le_mul_right _ hj'
      rw [Nat.succ_mul, Nat.mul_comm bsz nb] at h1
      simp only [Function.comp]
      rw [List.getElem?_take_of_lt ht, List.getElem?_drop, List.getElem?_take_of_lt (by omega), List.getD_eq_getElem?_getD,
        List.getElem?_eq_getElem (by omega)]
      rfl
    rw [this, List.filterMap_eq_map]
  refine ⟨(List.range nb).map fun t => (rowsOf nb bsz (data.take (nb * bsz))).filterMap (·[t]?), ?_, ?_, ?_, ?_, ?_⟩
  · unfold batchify
    rw [if_neg (by omega), hnb]
  · simp [hnb]
  · intro row hr
    obtain ⟨t, ht, rfl⟩ := List.mem_map.1 hr
    rw [hrow t (by simpa using ht)]
    simp
  · rw [List.length_map, List.length_range, hnb]
    have := Nat.div_add_mod data.length bsz
    have h2 := Nat.mod_lt data.length hb
    rw [Nat.mul_comm] at this
    omega
  · intro t ht j hj
    rw [List.length_map, List.length_range] at ht ⊢
    rw [List.getElem?_map, List.getElem?_range ht]
    simp only [Option.map_some, Option.bind_some]
    rw [hrow t ht, List.getElem?_map, List.getElem?_range hj]
    have h1 : (j + 1) * nb ≤ bsz * nb := Nat.mul_le_mul_right _ hj
    rw [Nat.succ_mul, Nat.mul_comm bsz nb] at h1
    simp only [Option.map_some]
    rw [List.getD_eq_getElem?_getD, List.getElem?_eq_getElem (by omega)]
    rfl

example : batchify [0, 1, 2, 3, 4, 5, 6] 2 = .ok [[0, 3], [1, 4], [2, 5]] := by decide +kernel

theorem getBatch_zip (bptt : ℕ) (source : List (List ℕ)) (i : ℕ) :
    (getBatch bptt source i).1.zip (getBatch bptt source i).2 = ((source.zip source.tail).drop i).take bptt := by
  unfold getBatch
  simp only
  rw [List.zip_eq_zipWith, ← List.take_zipWith, List.zip_eq_zipWith, List.drop_zipWith, List.drop_tail]
  generalize hZ : List.zipWith Prod.mk (source.drop i) (source.drop (i + 1)) = Z
  have hl : Z.length = source.length - 1 - i := by
    rw [← hZ, List.length_zipWith, List.length_drop, List.length_drop]; omega
  rw [← List.take_take, ← hl, List.take_length]

theorem flatMap_drop_take {α : Type} (Z : List α) (b K : ℕ) (h : Z.length ≤ K * b) :
    (List.range K).flatMap (fun k => (Z.drop (k * b)).take b) = Z := by
  rw [List.flatMap_def, ← rowsOf_eq, flatten_rowsOf _ _ _ h]

theorem bpttRange_cover (n b : ℕ) (hb : 0 < b) : n ≤ (n + b - 1) / b * b := by
  have h2 := Nat.div_add_mod (n + b - 1) b
  have h3 := Nat.mod_lt (n + b - 1) hb
  rw [Nat.mul_comm] at h2
  omega

theorem bpttRange_lt (n b k : ℕ) (hb : 0 < b) (hk : k < (n + b - 1) / b) : k * b ≤ n - 1 ∧ 0 < n := by
  have h1 : (k + 1) * b ≤ n + b - 1 := le_trans (Nat.mul_le_mul_right _ hk) (Nat.div_mul_le_self _ _)
  rw [Nat.succ_mul] at h1
  omega

/-- **C176** (pairs) The batches of an epoch contain every row with the row after it as target, once, in order. -/
theorem C176_pairs (bptt : ℕ) (hb : 0 < bptt) (source : List (List ℕ)) :
    (bpttRange source.length bptt).flatMap (fun i => (getBatch bptt source i).1.zip (getBatch bptt source i).2) = source.zip source.tail := by
  unfold bpttRange
  rw [List.flatMap_map]
  simp only [getBatch_zip]
  apply flatMap_drop_take
  rw [List.length_zip, List.length_tail]
  exact le_trans (by omega) (bpttRange_cover source.length bptt hb)

/-! ## Evaluation -/

variable {H : Type}

theorem rnnChunk_cons (net : H → List ℕ → H × (List ℕ → List ℚ)) (h : H) (x y : List ℕ) (l : List (List ℕ × List ℕ)) :
    rnnChunk net h ((x, y) :: l) = ((rnnChunk net (net h x).1 l).1, (net h x).2 y ++ (rnnChunk net (net h x).1 l).2) := rfl

theorem rnnChunk_append (net : H → List ℕ → H × (List ℕ → List ℚ)) : ∀ (A B : List (List ℕ × List ℕ)) (h : H),
    rnnChunk net h (A ++ B) = ((rnnChunk net (rnnChunk net h A).1 B).1, (rnnChunk net h A).2 ++ (rnnChunk net (rnnChunk net h A).1 B).2) := by
  intro A
  induction A with
  | nil => intro B h; rfl
  | cons x A ih =>
    intro B h
    obtain ⟨x, y⟩ := x
    rw [List.cons_append, rnnChunk_cons, rnnChunk_cons, ih, List.append_assoc]

theorem rnnChunk_length (net : H → List ℕ → H × (List ℕ → List ℚ)) (bsz : ℕ) (hn : ∀ h x y, ((net h x).2 y).length = y.length) :
    ∀ (A : List (List ℕ × List ℕ)) (h : H), (∀ p ∈ A, p.2.length = bsz) → (rnnChunk net h A).2.length = A.length * bsz := by
  intro A
  induction A with
  | nil => intro h _; simp [rnnChunk]
  | cons x A ih =>
    intro h hA
    obtain ⟨x, y⟩ := x
    rw [rnnChunk_cons, List.length_append, hn, ih _ fun p hp => hA p (List.mem_cons_of_mem _ hp), List.length_cons, Nat.succ_mul]
    have := hA (x, y) (by simp)
    dsimp only at this
    omega

theorem evalLoop (net : H → List ℕ → H × (List ℕ → List ℚ)) (h0 : H) (bptt bsz : ℕ) (hb : 0 < bptt) (hz : 0 < bsz) (source : List (List ℕ))
    (hn : ∀ h x y, ((net h x).2 y).length = y.length) (hr : ∀ row ∈ source, row.length = bsz) : ∀ K : ℕ,
    (∀ k < K, k * bptt < source.length - 1) →
    ((List.range K).map (· * bptt)).foldlM (evalStep net bptt source) (h0, 0) =
      .ok ((rnnChunk net h0 ((source.zip source.tail).take (K * bptt))).1,
        (rnnChunk net h0 ((source.zip source.tail).take (K * bptt))).2.sum / bsz) := by
  intro K
  induction K with
  | zero => intro _; simp [rnnChunk, pure, Except.pure]
  | succ K ih =>
    intro hK
    have hZ : (source.zip source.tail).length = source.length - 1 := by
      rw [List.length_zip, List.length_tail]; omega
    rw [List.range_succ, List.map_append, List.foldlM_append, ih fun k hk => hK k (by omega)]
    have hlt := hK K (by omega)
    have hsplit : (source.zip source.tail).take ((K + 1) * bptt) =
        (source.zip source.tail).take (K * bptt) ++ ((source.zip source.tail).drop (K * bptt)).take bptt := by
      rw [Nat.succ_mul, List.take_add]
    have hmem : ∀ p ∈ ((source.zip source.tail).drop (K * bptt)).take bptt, p.2.length = bsz := by
      intro p hp
      have := List.mem_of_mem_drop (List.mem_of_mem_take hp)
      exact hr _ (List.mem_of_mem_tail (List.of_mem_zip this).2)
    have hlen : (getBatch bptt source (K * bptt)).1.length = (((source.zip source.tail).drop (K * bptt)).take bptt).length := by
      unfold getBatch
      simp only
      rw [List.length_take, List.length_drop, List.length_take, List.length_drop, hZ]
      omega
    have hpos : 0 < (((source.zip source.tail).drop (K * bptt)).take bptt).length := by
      rw [List.length_take, List.length_drop, hZ]; omega
    simp only [List.map_cons, List.map_nil, List.foldlM_cons, List.foldlM_nil, bind, Except.bind, pure, Except.pure]
    unfold evalStep
    simp only
    rw [if_neg (by omega), getBatch_zip, hsplit, rnnChunk_append, hlen, rnnChunk_length net bsz hn _ _ hmem]
    generalize (((source.zip source.tail).drop (K * bptt)).take bptt).length = c at hpos
    have hc : (c : ℚ) ≠ 0 := by exact_mod_cast hpos.ne'
    have hz' : (bsz : ℚ) ≠ 0 := by exact_mod_cast hz.ne'
    simp only [List.sum_append]
    congr 2
    push_cast
    field_simp

theorem evalLoop_all (net : H → List ℕ → H × (List ℕ → List ℚ)) (h0 : H) (bptt bsz : ℕ) (hb : 0 < bptt) (hz : 0 < bsz) (source : List (List ℕ))
    (hn : ∀ h x y, ((net h x).2 y).length = y.length) (hr : ∀ row ∈ source, row.length = bsz) (hd : ¬ bptt ∣ source.length - 1) :
    (bpttRange source.length bptt).foldlM (evalStep net bptt source) (h0, 0) =
      .ok ((rnnChunk net h0 (source.zip source.tail)).1, (rnnChunk net h0 (source.zip source.tail)).2.sum / bsz) := by
  unfold bpttRange
  rw [evalLoop net h0 bptt bsz hb hz source hn hr, List.take_of_length_le]
  · rw [List.length_zip, List.length_tail]
    exact le_trans (by omega) (bpttRange_cover source.length bptt hb)
  · intro k hk
    obtain ⟨h1, h2⟩ := bpttRange_lt _ _ _ hb hk
    refine lt_of_le_of_ne h1 fun e => hd ⟨k, ?_⟩
    rw [Nat.mul_comm]; exact e.symm

/-- **C176** (evaluation) Unless a chunk of length zero arises, the evaluation gives, whatever the chunk length `bptt`, the mean cross-entropy of the words of all
rows but the first, each predicted from all rows before it, times `(n - 1) / n` for `n` rows.  (The factor should be one: the sum
over `n - 1` rows is divided by `n`.) -/
theorem C176_evaluate_partial (net : H → List ℕ → H × (List ℕ → List ℚ)) (h0 : H) (bptt bsz : ℕ) (hb : 0 < bptt) (hz : 0 < bsz)
    (source : List (List ℕ)) (hn : ∀ h x y, ((net h x).2 y).length = y.length) (hr : ∀ row ∈ source, row.length = bsz)
    (hd : ¬ bptt ∣ source.length - 1) :
    evaluateLM net h0 bptt source = .ok ((source.length - 1 : ℚ) / source.length *
      ((rnnChunk net h0 (source.zip source.tail)).2.sum / (rnnChunk net h0 (source.zip source.tail)).2.length)) := by
  have h2 : 2 ≤ source.length := by
    by_contra c
    apply hd
    rw [show source.length - 1 = 0 by omega]
    exact dvd_zero _
  unfold evaluateLM
  rw [evalLoop_all net h0 bptt bsz hb hz source hn hr hd]
  simp only [bind, Except.bind, pure, Except.pure, if_neg (show ¬ bptt = 0 by omega), if_neg (show ¬ source.length = 0 by omega)]
  rw [rnnChunk_length net bsz hn _ _ fun p hp => hr _ (List.mem_of_mem_tail (List.of_mem_zip hp).2), List.length_zip, List.length_tail,
    show min source.length (source.length - 1) = source.length - 1 by omega]
  have hz' : (bsz : ℚ) ≠ 0 := by exact_mod_cast hz.ne'
  have h3 : ((source.length - 1 : ℕ) : ℚ) = (source.length : ℚ) - 1 := by
    rw [Nat.cast_sub (by omega)]; norm_num
  have h4 : (source.length : ℚ) - 1 ≠ 0 := by
    rw [← h3]; exact_mod_cast (by omega : source.length - 1 ≠ 0)
  have h5 : (source.length : ℚ) ≠ 0 := by exact_mod_cast (by omega : source.length ≠ 0)
  congr 1
  push_cast [h3]
  field_simp

/-- **C176, violated** (the loss is too small): whenever the mean cross-entropy is positive, the evaluation reports less. -/
theorem C176_violated_loss (net : H → List ℕ → H × (List ℕ → List ℚ)) (h0 : H) (bptt bsz : ℕ) (hb : 0 < bptt) (hz : 0 < bsz)
    (source : List (List ℕ)) (hn : ∀ h x y, ((net h x).2 y).length = y.length) (hr : ∀ row ∈ source, row.length = bsz)
    (hd : ¬ bptt ∣ source.length - 1)
    (hpos : 0 < (rnnChunk net h0 (source.zip source.tail)).2.sum / (rnnChunk net h0 (source.zip source.tail)).2.length) :
    ∃ x, evaluateLM net h0 bptt source = .ok x ∧
      x < (rnnChunk net h0 (source.zip source.tail)).2.sum / (rnnChunk net h0 (source.zip source.tail)).2.length := by
  refine ⟨_, C176_evaluate_partial net h0 bptt bsz hb hz source hn hr hd, ?_⟩
  have h2 : 0 < source.length := by
    by_contra c
    apply hd
    rw [show source.length - 1 = 0 by omega]
    exact dvd_zero _
  have h3 : (0 : ℚ) < source.length := by exact_mod_cast h2
  have : ((source.length : ℚ) - 1) / source.length < 1 := by
    rw [div_lt_one h3]; linarith
  nlinarith

/-- **C176, violated** (an empty chunk): if `bptt` divides the number of rows minus one, the evaluation ends in a RuntimeError. -/
theorem C176_violated_empty_chunk (net : H → List ℕ → H × (List ℕ → List ℚ)) (h0 : H) (bptt bsz : ℕ) (hb : 0 < bptt) (hz : 0 < bsz)
    (source : List (List ℕ)) (hn : ∀ h x y, ((net h x).2 y).length = y.length) (hr : ∀ row ∈ source, row.length = bsz)
    (h1 : 0 < source.length) (hd : bptt ∣ source.length - 1) : evaluateLM net h0 bptt source = .error .runtime := by
  obtain ⟨q, hq⟩ := hd
  have hK : (source.length + bptt - 1) / bptt = q + 1 := by
    rw [show source.length + bptt - 1 = bptt * q + bptt by omega, ← Nat.mul_succ, Nat.mul_div_cancel_left _ hb]
  unfold evaluateLM bpttRange
  rw [hK, List.range_succ, List.map_append, List.foldlM_append, evalLoop net h0 bptt bsz hb hz source hn hr]
  · simp only [bind, Except.bind, pure, Except.pure, if_neg (show ¬ bptt = 0 by omega), List.map_cons, List.map_nil, List.foldlM_cons,
      List.foldlM_nil]
    have : (getBatch bptt source (q * bptt)).1.length = 0 := by
      unfold getBatch
      simp only
      rw [List.length_take, Nat.mul_comm q bptt, ← hq]
      omega
    unfold evalStep
    simp only
    rw [if_pos this]
  · intro k hk
    rw [hq, Nat.mul_comm bptt q]
    exact Nat.mul_lt_mul_of_pos_right hk hb

/-- A network for the examples: the loss of a word is its distance to the last sum. -/
def toyNet (h : ℕ) (x : List ℕ) : ℕ × (List ℕ → List ℚ) := (h + x.sum, fun y => y.map fun w => (w : ℚ) + h)

example : evaluateLM toyNet 0 2 [[1, 2], [3, 4], [5, 6], [7, 8]] = .ok (59 / 8) ∧ evaluateLM toyNet 0 7 [[1, 2], [3, 4], [5, 6], [7, 8]] = .ok (59 / 8) ∧
    evaluateLM toyNet 0 3 [[1, 2], [3, 4], [5, 6], [7, 8]] = .error .runtime := by decide +kernel

/-! ## Training reports and saved models -/

/-- **C176** (reports) With `log_interval = L` the losses reported are: after the minibatch `(k + 1) * L`, the sum of all losses since the report before,
divided by `L`.  From the second on these are the means of `L` losses. -/
theorem C176_reports_partial (L : ℕ) (hL : 0 < L) (losses : List ℚ) :
    trainReports L losses = (List.range ((losses.length - 1) / L)).map fun k =>
      ((losses.take ((k + 1) * L + 1)).drop (if k = 0 then 0 else k * L + 1)).sum / L := by
  have key : ∀ l : List ℚ, ((l.zipIdx.map fun x => (x.2, x.1)).foldl (trainReport L) (0, [])) =
      ((l.drop (if (l.length - 1) / L = 0 then 0 else (l.length - 1) / L * L + 1)).sum,
        (List.range ((l.length - 1) / L)).map fun k => ((l.take ((k + 1) * L + 1)).drop (if k = 0 then 0 else k * L + 1)).sum / (L : ℚ)) := by
    intro l
    induction l using List.reverseRecOn with
    | nil => simp
    | append_singleton l x ih =>
      rw [List.zipIdx_append, List.map_append, List.foldl_append, ih]
      simp only [List.zipIdx_singleton, List.map_cons, List.map_nil, List.foldl_cons, List.foldl_nil, Nat.zero_add, List.length_append,
        List.length_singleton, Nat.add_sub_cancel]
      obtain ⟨n, hn⟩ : ∃ n, n = l.length := ⟨_, rfl⟩
      rw [← hn]
      have hold : ∀ q, q * L ≤ n - 1 → 0 < n → (List.range q).map (fun k => ((l.take ((k + 1) * L + 1)).drop (if k = 0 then 0 else k * L + 1)).sum / (L : ℚ)) =
          (List.range q).map (fun k => (((l ++ [x]).take ((k + 1) * L + 1)).drop (if k = 0 then 0 else k * L + 1)).sum / (L : ℚ)) := by
        intro q hq h0
        apply List.map_congr_left
        intro k hk
        have hk' : k < q := by simpa using hk
        have : (k + 1) * L ≤ q * L := Nat.mul_le_mul_right _ hk'
        rw [List.take_append_of_le_length (by omega)]
      unfold trainReport
      simp only
      rcases Nat.eq_zero_or_pos n with h0 | h0
      · have : l = [] := List.eq_nil_of_length_eq_zero (by omega)
        subst this
        simp [h0]
      · have hq := Nat.div_mul_le_self (n - 1) L
        by_cases hm : n % L = 0
        · obtain ⟨c, hc⟩ := Nat.dvd_of_mod_eq_zero hm
          have hcpos : 0 < c := by
            rcases Nat.eq_zero_or_pos c with h | h
            · subst h; omega
            · exact h
          obtain ⟨d, rfl⟩ : ∃ d, c = d + 1 := ⟨c - 1, by omega⟩
          have hdiv : n / L = d + 1 := by rw [hc, Nat.mul_div_cancel_left _ hL]
          have hdL : n = d * L + L := by rw [hc, Nat.mul_succ, Nat.mul_comm]
          have hdiv2 : (n - 1) / L = d := by
            rw [show n - 1 = (L - 1) + d * L by omega, Nat.add_mul_div_right _ _ hL, Nat.div_eq_of_lt (by omega), Nat.zero_add]
          have e1 : (d + 1) * L + 1 = l.length + 1 := by rw [Nat.succ_mul]; omega
          have e2 : (((l ++ [x]).take (l.length + 1)).drop (if d = 0 then 0 else d * L + 1)).sum =
              (l.drop (if d = 0 then 0 else d * L + 1)).sum + x := by
            rw [List.take_of_length_le (by simp), List.drop_append_of_le_length (by split <;> omega), List.sum_append, List.sum_singleton]
          have e3 : ((l ++ [x]).drop (l.length + 1)).sum = 0 := by rw [List.drop_eq_nil_of_le (by simp)]; rfl
          rw [if_pos ⟨hm, h0⟩, hdiv, hdiv2, if_neg (show ¬ d + 1 = 0 by omega), e1, e3, List.range_succ (n := d),
            List.map_append, ← hold d (by rw [← hdiv2]; exact hq) h0, List.map_cons, List.map_nil, e1, e2]
        · rw [if_neg (by tauto)]
          have hdiv : n / L = (n - 1) / L := by
            have h1 := Nat.div_add_mod n L
            have h3 : 0 < n % L := Nat.pos_of_ne_zero hm
            have h2 : n - 1 = (n % L - 1) + L * (n / L) := by omega
            conv_rhs => rw [h2]
            rw [Nat.add_mul_div_left _ _ hL, Nat.div_eq_of_lt (show n % L - 1 < L by have := Nat.mod_lt n hL; omega), Nat.zero_add]
          rw [hdiv, hold _ hq h0]
          congr 1
          rw [List.drop_append_of_le_length, List.sum_append]
          · simp
          · split
            · omega
            · omega
  unfold trainReports
  rw [key]

/-- **C176, violated** (the first report): it is the sum of `L + 1` losses divided by `L`. -/
theorem C176_violated_first_report (L : ℕ) (hL : 0 < L) (losses : List ℚ) (h : L < losses.length) :
    (trainReports L losses)[0]? = some ((losses.take (L + 1)).sum / L) := by
  rw [C176_reports_partial L hL]
  have : 0 < (losses.length - 1) / L := Nat.div_pos (by omega) hL
  rw [List.getElem?_map, List.getElem?_range this]
  simp

example : trainReports 2 [1, 2, 3, 10, 20, 5] = [3, 15] := by decide +kernel

/-- **C176** (saved models) After the epochs the model saved last is that of the last epoch, the best one that of the first epoch of least validation loss. -/
theorem C176_saved {M : Type} (l : List (M × ℚ)) (hl : l ≠ []) : ∃ b last l1 l2, l.foldl lmSave (none, none) = (some last, some b) ∧
    (l.getLast?).map Prod.fst = some last ∧ l = l1 ++ b :: l2 ∧ (∀ x ∈ l1, b.2 < x.2) ∧ ∀ x ∈ l2, b.2 ≤ x.2 := by
  induction l using List.reverseRecOn with
  | nil => exact absurd rfl hl
  | append_singleton l x ih =>
    rw [List.foldl_append]
    by_cases h : l = []
    · subst h
      exact ⟨x, x.1, [], [], rfl, by simp, rfl, by simp, by simp⟩
    · obtain ⟨b, last, l1, l2, e, -, e2, h1, h2⟩ := ih h
      rw [e]
      simp only [List.foldl_cons, List.foldl_nil, lmSave]
      by_cases hx : x.2 < b.2
      · refine ⟨x, x.1, l, [], by rw [if_pos hx], by simp, by simp, ?_, by simp⟩
        intro y hy
        rw [e2] at hy
        rcases List.mem_append.1 hy with hy | hy
        · exact hx.trans (h1 y hy)
        · rcases List.mem_cons.1 hy with rfl | hy
          · exact hx
          · exact lt_of_lt_of_le hx (h2 y hy)
      · refine ⟨b, x.1, l1, l2 ++ [x], by rw [if_neg hx], by simp, by rw [e2]; simp, h1, ?_⟩
        intro y hy
        rcases List.mem_append.1 hy with hy | hy
        · exact h2 y hy
        · simp only [List.mem_singleton] at hy
          subst hy
          exact not_lt.1 hx

example : [(1, 3), (2, 2), (3, 2), (4, 5)].foldl (lmSave (M := ℕ)) (none, none) = (some 4, some (2, 2)) := by decide +kernel

end Verif
