import Verif.Model.Beam
import Mathlib.Tactic.Linarith
import Mathlib.Data.Finset.Card
import Mathlib.Data.Fintype.Basic
/-!
# C180: beam search
-/
namespace Verif

variable {C : Type}

/-- What a hypothesis is: words after `BOS`, the sum of their log-probabilities under the network, and its hidden state.  After `EOS` only `EOS` follows,
at no cost. -/
inductive Hypo (gen : ℕ → C → (ℕ → ℕ × ℚ) × List ℚ × C) (k : ℕ) (c0 : C) : List ℕ → ℚ → C → Prop
  | start : Hypo gen k c0 [] 0 c0
  | word (ws : List ℕ) (s : ℚ) (c : C) (i : ℕ) : Hypo gen k c0 ws s c → tokEOS ∉ ws → i < k →
      Hypo gen k c0 (ws ++ [((gen (ws.getLastD tokBOS) c).1 i).1]) (s + ((gen (ws.getLastD tokBOS) c).1 i).2)
        (gen (ws.getLastD tokBOS) c).2.2
  | eos (ws : List ℕ) (s : ℚ) (c : C) : Hypo gen k c0 ws s c → tokEOS ∈ ws → Hypo gen k c0 (ws ++ [tokEOS]) s (gen tokEOS c).2.2

/-- The number of tokens with `BOS` up to the first `EOS`. -/
def hypoLen (ws : List ℕ) : ℕ := 1 + min (ws.idxOf tokEOS + 1) ws.length

/-- What `topk(k)` promises for `k * k` entries: different places holding the largest values. -/
structure IsTopK (k : ℕ) (topk : (ℕ → WithBot ℚ) → ℕ → ℕ) : Prop where
  lt : ∀ f j, j < k → topk f j < k * k
  inj : ∀ f i j, i < k → j < k → topk f i = topk f j → i = j
  best : ∀ f j i, j < k → i < k * k → (∀ j' < k, topk f j' ≠ i) → f i ≤ f (topk f j)

/-- What `max` promises. -/
def IsArgmax (k : ℕ) (argmax : (ℕ → WithBot ℚ) → ℕ) : Prop := ∀ f, argmax f < k ∧ ∀ j < k, f j ≤ f (argmax f)

theorem hypo_last {gen : ℕ → C → (ℕ → ℕ × ℚ) × List ℚ × C} {k : ℕ} {c0 : C} {ws : List ℕ} {s : ℚ} {c : C} (h : Hypo gen k c0 ws s c) :
    ws.getLastD tokBOS = tokEOS ↔ tokEOS ∈ ws := by
  induction h with
  | start => simp [tokBOS, tokEOS]
  | word ws s c i h hn hi ih =>
    rw [List.mem_append, List.mem_singleton]
    rw [List.getLastD_concat]
    constructor
    · intro e; exact Or.inr e.symm
    · rintro (e | e)
      · exact absurd e hn
      · exact e.symm
  | eos ws s c h hm ih => simp

/-- If at least `k` of the entries are finite, `topk` selects finite ones only. -/
theorem topk_finite {k : ℕ} {topk : (ℕ → WithBot ℚ) → ℕ → ℕ} (ht : IsTopK k topk) (f : ℕ → WithBot ℚ) (g : ℕ → ℕ) (hg : ∀ r < k, g r < k * k)
    (hgi : ∀ r < k, ∀ r' < k, g r = g r' → r = r') (hf : ∀ r < k, f (g r) ≠ ⊥) (j : ℕ) (hj : j < k) : f (topk f j) ≠ ⊥ := by
  intro hb
  have hsub : ∀ r < k, ∃ j' < k, topk f j' = g r := by
    intro r hr
    by_contra hn
    have := ht.best f j (g r) hj (hg r hr) (fun j' h' e => hn ⟨j', h', e⟩)
    rw [hb] at this
    exact hf r hr (le_bot_iff.1 this)
  -- the images of `g` lie in those of `topk` other than place `j`
  have hinc : (Finset.range k).image g ⊆ ((Finset.range k).erase j).image (topk f) := by
    intro x hx
    obtain ⟨r, hr, rfl⟩ := Finset.mem_image.1 hx
    obtain ⟨j', hj', e⟩ := hsub r (Finset.mem_range.1 hr)
    refine Finset.mem_image.2 ⟨j', Finset.mem_erase.2 ⟨?_, Finset.mem_range.2 hj'⟩, e⟩
    rintro rfl
    exact hf r (Finset.mem_range.1 hr) (e ▸ hb)
  have h1 := Finset.card_le_card hinc
  rw [Finset.card_image_of_injOn (fun a ha b hb e => hgi a (Finset.mem_range.1 (Finset.mem_coe.1 ha)) b (Finset.mem_range.1 (Finset.mem_coe.1 hb)) e),
    Finset.card_range] at h1
  have h2 := (Finset.card_image_le (s := (Finset.range k).erase j) (f := topk f)).trans_eq
    (Finset.card_erase_of_mem (Finset.mem_range.2 hj))
  rw [Finset.card_range] at h2
  omega

/-- What is known of row `j` after `idx` passes, with the words `ws` and the sum `s`. -/
structure RowOk (gen : ℕ → C → (ℕ → ℕ × ℚ) × List ℚ × C) (k maxLen : ℕ) (c0 : C) (idx : ℕ) (b : Beam C) (ws : List ℕ) (s : ℚ) : Prop where
  hypo : Hypo gen k c0 ws s b.ctx
  length : ws.length = idx
  score : b.score = (s : WithBot ℚ)
  word : b.word = ws.getLastD tokBOS
  tr : b.tr = tokBOS :: ws ++ List.replicate (maxLen - 1 - idx) 0
  len : b.len = hypoLen ws

theorem init_ok (gen : ℕ → C → (ℕ → ℕ × ℚ) × List ℚ × C) (k maxLen srcLen : ℕ) (hm : 0 < maxLen) (c0 : C) (j : ℕ) :
    RowOk gen k maxLen c0 0 (beamInit maxLen srcLen c0 j) [] 0 := by
  refine ⟨.start, rfl, rfl, rfl, ?_, rfl⟩
  obtain ⟨n, rfl⟩ := Nat.exists_eq_succ_of_ne_zero (Nat.pos_iff_ne_zero.1 hm)
  simp [beamInit, List.replicate_succ]

/-- The words of a hypothesis with one more candidate. -/
def extend (gen : ℕ → C → (ℕ → ℕ × ℚ) × List ℚ × C) (b : Beam C) (ws : List ℕ) (c : ℕ) : List ℕ :=
  ws ++ [if b.word = tokEOS then tokEOS else ((gen b.word b.ctx).1 c).1]

/-- A selected entry of finite score gives a row of the next pass. -/
theorem step_ok (gen : ℕ → C → (ℕ → ℕ × ℚ) × List ℚ × C) (topk : (ℕ → WithBot ℚ) → ℕ → ℕ) (k maxLen : ℕ) (c0 : C) (idx : ℕ) (hidx : 0 < idx)
    (him : idx < maxLen) (b : ℕ → Beam C) (j : ℕ) (hk : 0 < k) (W : ℕ → List ℕ) (S : ℕ → ℚ)
    (i : ℕ) (hi : i = topk (fun i => (beamCell gen k idx b i).2) j)
    (hb : RowOk gen k maxLen c0 (idx - 1) (b (i / k)) (W (i / k)) (S (i / k))) (hf : (beamCell gen k idx b i).2 ≠ ⊥) :
    ∃ s, RowOk gen k maxLen c0 idx (beamStep gen topk k idx b j) (extend gen (b (i / k)) (W (i / k)) (i % k)) s := by
  obtain ⟨ws, hws⟩ : ∃ ws, ws = W (i / k) := ⟨_, rfl⟩
  rw [← hws] at hb ⊢
  obtain ⟨h1, h2, h3, h4, h5, h6⟩ := hb
  have hl := hypo_last h1
  rw [← h4] at hl
  have hset : (b (i / k)).tr.set idx (beamCell gen k idx b i).1 =
      tokBOS :: (ws ++ [(beamCell gen k idx b i).1]) ++ List.replicate (maxLen - 1 - idx) 0 := by
    rw [h5]
    have e : maxLen - 1 - (idx - 1) = (maxLen - 1 - idx) + 1 := by omega
    rw [e, List.replicate_succ, List.cons_append, List.cons_append]
    obtain ⟨n, rfl⟩ := Nat.exists_eq_succ_of_ne_zero (Nat.pos_iff_ne_zero.1 hidx)
    rw [List.set_cons_succ, List.set_append, if_neg (by simp at h2 ⊢; omega)]
    have : n - ws.length = 0 := by simp at h2; omega
    rw [this, List.set_cons_zero, List.append_assoc, List.singleton_append]
  unfold extend
  by_cases he : (b (i / k)).word = tokEOS
  · have hm := hl.1 he
    have hcell1 : (beamCell gen k idx b i).1 = tokEOS := by unfold beamCell; simp only; rw [if_pos he]
    have hcell2 : (beamCell gen k idx b i).2 = (S (i / k) : WithBot ℚ) := by
      unfold beamCell at hf ⊢
      simp only [he, if_true] at hf ⊢
      by_cases hc : idx = 1 ∧ 0 < i / k
      · simp [hc] at hf
      · rw [if_neg hc] at hf ⊢
        by_cases h0 : i % k = 0
        · rw [if_pos h0, h3]; rw [← WithBot.coe_add]; simp
        · simp [h0] at hf
    refine ⟨S (i / k), ?_⟩
    rw [if_pos he]
    refine ⟨?_, ?_, ?_, ?_, ?_, ?_⟩
    · unfold beamStep; simp only [← hi, he]
      exact .eos ws _ _ h1 hm
    · rw [List.length_append, h2]; simp; omega
    · unfold beamStep; simp only [← hi]; exact hcell2
    · unfold beamStep; simp only [← hi]; rw [hcell1]; simp
    · unfold beamStep; simp only [← hi]; rw [hset, hcell1]
    · unfold beamStep; simp only [← hi]; rw [if_pos he, h6]
      unfold hypoLen
      have : ws.idxOf tokEOS < ws.length := List.idxOf_lt_length_iff.2 hm
      rw [List.idxOf_append, if_pos hm, List.length_append]
      omega
  · have hm : tokEOS ∉ ws := fun h => he (hl.2 h)
    have hcell1 : (beamCell gen k idx b i).1 = ((gen (b (i / k)).word (b (i / k)).ctx).1 (i % k)).1 := by unfold beamCell; simp only; rw [if_neg he]
    have hcell2 : (beamCell gen k idx b i).2 = ((S (i / k) + ((gen (b (i / k)).word (b (i / k)).ctx).1 (i % k)).2 : ℚ) : WithBot ℚ) := by
      unfold beamCell at hf ⊢
      simp only [he, if_false] at hf ⊢
      by_cases hc : idx = 1 ∧ 0 < i / k
      · simp [hc] at hf
      · rw [if_neg hc, h3, ← WithBot.coe_add]
    refine ⟨S (i / k) + ((gen (b (i / k)).word (b (i / k)).ctx).1 (i % k)).2, ?_⟩
    · rw [if_neg he]
      refine ⟨?_, ?_, ?_, ?_, ?_, ?_⟩
      · unfold beamStep; simp only [← hi]
        rw [h4]
        exact .word ws _ _ (i % k) h1 hm (Nat.mod_lt _ hk)
      · rw [List.length_append, h2]; simp; omega
      · unfold beamStep; simp only [← hi]; rw [hcell2, h4]
      · unfold beamStep; simp only [← hi]; rw [hcell1]; simp
      · unfold beamStep; simp only [← hi]; rw [hset, hcell1]
      · unfold beamStep; simp only [← hi]; rw [if_neg he, h6]
        unfold hypoLen
        have e : ws.idxOf tokEOS = ws.length := List.idxOf_eq_length_iff.2 hm
        rw [List.idxOf_append, if_neg hm, e, List.length_append, List.length_singleton]
        omega

/-- Different selected entries of finite score give different words. -/
theorem extend_inj (gen : ℕ → C → (ℕ → ℕ × ℚ) × List ℚ × C) (k idx : ℕ) (b : ℕ → Beam C) (W : ℕ → List ℕ)
    (hgen : ∀ w c, ∀ i < k, ∀ i' < k, ((gen w c).1 i).1 = ((gen w c).1 i').1 → i = i')
    (hlen : ∀ r < k, (W r).length = idx - 1) (hW : idx ≠ 1 → ∀ r < k, ∀ r' < k, W r = W r' → r = r')
    (i i' : ℕ) (hi : i < k * k) (hi' : i' < k * k) (hf : (beamCell gen k idx b i).2 ≠ ⊥) (hf' : (beamCell gen k idx b i').2 ≠ ⊥)
    (he : extend gen (b (i / k)) (W (i / k)) (i % k) = extend gen (b (i' / k)) (W (i' / k)) (i' % k)) : i = i' := by
  have hk : 0 < k := by
    rcases Nat.eq_zero_or_pos k with rfl | h
    · omega
    · exact h
  have hr : i / k < k := (Nat.div_lt_iff_lt_mul hk).2 hi
  have hr' : i' / k < k := (Nat.div_lt_iff_lt_mul hk).2 hi'
  unfold extend at he
  obtain ⟨e1, e2⟩ := List.append_inj he (by rw [hlen _ hr, hlen _ hr'])
  have hrow : i / k = i' / k := by
    by_cases h1 : idx = 1
    · have z : ∀ x, (beamCell gen k idx b x).2 ≠ ⊥ → x / k = 0 := by
        intro x hx
        by_contra hn
        apply hx
        unfold beamCell
        simp only
        rw [if_pos ⟨h1, Nat.pos_of_ne_zero hn⟩]
      rw [z i hf, z i' hf']
    · exact hW h1 _ hr _ hr' e1
  have hcol : i % k = i' % k := by
    rw [← hrow] at e2
    by_cases hw : (b (i / k)).word = tokEOS
    · have z : ∀ x, x / k = i / k → (beamCell gen k idx b x).2 ≠ ⊥ → x % k = 0 := by
        intro x hx hx2
        by_contra hn
        apply hx2
        unfold beamCell
        simp only
        rw [hx, if_pos hw, if_neg hn]
        split <;> simp
      rw [z i rfl hf, z i' hrow.symm hf']
    · rw [if_neg hw, if_neg hw] at e2
      exact hgen _ _ _ (Nat.mod_lt _ hk) _ (Nat.mod_lt _ hk) (List.singleton_inj.1 e2)
  rw [← Nat.div_add_mod i k, ← Nat.div_add_mod i' k, hrow, hcol]

/-- The state after `idx` passes of a sentence that is not finished. -/
structure BeamsOk (gen : ℕ → C → (ℕ → ℕ × ℚ) × List ℚ × C) (k maxLen : ℕ) (c0 : C) (idx : ℕ) (b : ℕ → Beam C) (W : ℕ → List ℕ) (S : ℕ → ℚ) : Prop where
  rows : ∀ j < k, RowOk gen k maxLen c0 idx (b j) (W j) (S j)
  inj : (∀ w c, ∀ i < k, ∀ i' < k, ((gen w c).1 i).1 = ((gen w c).1 i').1 → i = i') → 0 < idx → ∀ r < k, ∀ r' < k, W r = W r' → r = r'

/-- All selected entries are finite. -/
theorem selected_finite (gen : ℕ → C → (ℕ → ℕ × ℚ) × List ℚ × C) (topk : (ℕ → WithBot ℚ) → ℕ → ℕ) (k maxLen : ℕ) (c0 : C) (hk : 0 < k)
    (ht : IsTopK k topk) (idx : ℕ) (b : ℕ → Beam C) (W : ℕ → List ℕ) (S : ℕ → ℚ)
    (hb : ∀ j < k, RowOk gen k maxLen c0 (idx - 1) (b j) (W j) (S j)) (j : ℕ) (hj : j < k) :
    (beamCell gen k idx b (topk (fun i => (beamCell gen k idx b i).2) j)).2 ≠ ⊥ := by
  by_cases h1 : idx = 1
  · refine topk_finite ht (fun i => (beamCell gen k idx b i).2) (fun r => r) ?_ (fun _ _ _ _ e => e) ?_ j hj
    · intro r hr
      exact lt_of_lt_of_le hr (Nat.le_mul_of_pos_left k hk)
    · intro r hr
      have h0 : r / k = 0 := Nat.div_eq_of_lt hr
      obtain ⟨a1, a2, a3, a4, -, -⟩ := hb 0 hk
      have hw : W 0 = [] := List.eq_nil_of_length_eq_zero (by omega)
      have hne : (b 0).word ≠ tokEOS := by rw [a4]; simp [hw, tokBOS, tokEOS]
      unfold beamCell
      simp only
      rw [h0, if_neg (by omega), if_neg hne, a3, ← WithBot.coe_add]
      exact WithBot.coe_ne_bot
  · refine topk_finite ht (fun i => (beamCell gen k idx b i).2) (fun r => r * k) ?_ ?_ ?_ j hj
    · intro r hr
      exact (Nat.mul_lt_mul_right hk).2 hr
    · intro r _ r' _ e
      exact Nat.eq_of_mul_eq_mul_right hk e
    · intro r hr
      obtain ⟨a1, a2, a3, a4, -, -⟩ := hb r hr
      unfold beamCell
      simp only
      rw [Nat.mul_div_cancel _ hk, Nat.mul_mod_left, if_neg (by omega), a3, if_pos rfl]
      split
      · rw [← WithBot.coe_add]; exact WithBot.coe_ne_bot
      · rw [← WithBot.coe_add]; exact WithBot.coe_ne_bot

/-- **C180** (one pass) From `k` hypotheses with their sums, hidden states and lengths one pass makes `k` hypotheses of one more word, each with its own sum, words,
length and hidden state; no one-word extension of the former hypotheses that is not among the new ones has a larger sum than a new one; and
if the network's candidates are different words, the new hypotheses are different. -/
theorem C180_step (gen : ℕ → C → (ℕ → ℕ × ℚ) × List ℚ × C) (topk : (ℕ → WithBot ℚ) → ℕ → ℕ) (k maxLen : ℕ) (c0 : C) (hk : 0 < k)
    (ht : IsTopK k topk) (idx : ℕ) (hidx : 0 < idx) (him : idx < maxLen) (b : ℕ → Beam C) (W : ℕ → List ℕ) (S : ℕ → ℚ)
    (hb : BeamsOk gen k maxLen c0 (idx - 1) b W S) :
    ∃ W' S', BeamsOk gen k maxLen c0 idx (beamStep gen topk k idx b) W' S' ∧
      (∀ r < k, ∀ i < k, tokEOS ∉ W r → (∃ j < k, W' j = W r ++ [((gen ((W r).getLastD tokBOS) (b r).ctx).1 i).1]) ∨
        ∀ j < k, S r + ((gen ((W r).getLastD tokBOS) (b r).ctx).1 i).2 ≤ S' j) ∧
      ∀ r < k, tokEOS ∈ W r → (∃ j < k, W' j = W r ++ [tokEOS]) ∨ ∀ j < k, S r ≤ S' j := by
  have hfin := selected_finite gen topk k maxLen c0 hk ht idx b W S hb.rows
  obtain ⟨f, hf⟩ : ∃ f, f = fun i => (beamCell gen k idx b i).2 := ⟨_, rfl⟩
  rw [← hf] at hfin
  have hrow : ∀ j, j < k → topk f j / k < k := fun j hj => (Nat.div_lt_iff_lt_mul hk).2 (ht.lt f j hj)
  have key : ∀ j, ∃ s, j < k → RowOk gen k maxLen c0 idx (beamStep gen topk k idx b j)
      (extend gen (b (topk f j / k)) (W (topk f j / k)) (topk f j % k)) s := by
    intro j
    by_cases hj : j < k
    · obtain ⟨s, hs⟩ := step_ok gen topk k maxLen c0 idx hidx him b j hk W S (topk f j) (by rw [hf]) (hb.rows _ (hrow j hj)) (hfin j hj)
      exact ⟨s, fun _ => hs⟩
    · exact ⟨0, fun h => absurd h hj⟩
  choose S' hS' using key
  have hsc : ∀ j, j < k → f (topk f j) = (S' j : WithBot ℚ) := by
    intro j hj
    rw [← (hS' j hj).score]
    unfold beamStep
    simp only [← hf]
    rw [hf]
  -- an entry that may be selected
  have hcell : ∀ r < k, ∀ c < k, (idx = 1 → r = 0) →
      (∃ j < k, extend gen (b (topk f j / k)) (W (topk f j / k)) (topk f j % k) = extend gen (b r) (W r) c) ∨
      ∀ j < k, f (r * k + c) ≤ S' j := by
    intro r hr c hc h1
    have e1 : (r * k + c) / k = r := by
      rw [Nat.add_comm, Nat.add_mul_div_right _ _ hk, Nat.div_eq_of_lt hc, Nat.zero_add]
    have e2 : (r * k + c) % k = c := by
      rw [Nat.add_comm, Nat.add_mul_mod_self_right, Nat.mod_eq_of_lt hc]
    by_cases h : ∃ j < k, topk f j = r * k + c
    · obtain ⟨j, hj, e⟩ := h
      refine Or.inl ⟨j, hj, ?_⟩
      rw [e, e1, e2]
    · refine Or.inr fun j hj => ?_
      rw [← hsc j hj]
      refine ht.best f j _ hj ?_ fun j' hj' e => h ⟨j', hj', e⟩
      exact (Nat.div_lt_iff_lt_mul hk).1 (by rw [e1]; exact hr)
  -- before the first pass all rows are the same
  have hz : idx = 1 → ∀ r < k, W r = [] ∧ S r = 0 ∧ (b r).ctx = c0 := by
    intro h1 r hr
    obtain ⟨a1, a2, -, -, -, -⟩ := hb.rows r hr
    have hw : W r = [] := List.eq_nil_of_length_eq_zero (by omega)
    rw [hw] at a1
    refine ⟨hw, ?_⟩
    generalize hs : S r = s at a1
    generalize hcx : (b r).ctx = c at a1
    generalize hl : ([] : List ℕ) = l at a1
    cases a1 with
    | start => exact ⟨rfl, rfl⟩
    | word => simp at hl
    | eos => simp at hl
  refine ⟨fun j => extend gen (b (topk f j / k)) (W (topk f j / k)) (topk f j % k), S', ⟨fun j hj => hS' j hj, ?_⟩, ?_, ?_⟩
  · intro hgen _ r hr r' hr' e
    refine ht.inj f r r' hr hr' ?_
    refine extend_inj gen k idx b W hgen (fun x hx => (hb.rows x hx).length) (fun h1 => hb.inj hgen (by omega)) _ _ (ht.lt f r hr) (ht.lt f r' hr')
      (hfin r hr) (hfin r' hr') e
  · have gen_case : ∀ r < k, ∀ i < k, (idx = 1 → r = 0) → tokEOS ∉ W r →
        (∃ j < k, extend gen (b (topk f j / k)) (W (topk f j / k)) (topk f j % k) = W r ++ [((gen ((W r).getLastD tokBOS) (b r).ctx).1 i).1]) ∨
        ∀ j < k, S r + ((gen ((W r).getLastD tokBOS) (b r).ctx).1 i).2 ≤ S' j := by
      intro r hr i hi h1 hn
      obtain ⟨a1, a2, a3, a4, -, -⟩ := hb.rows r hr
      have hw : (b r).word ≠ tokEOS := by rw [a4]; exact fun e => hn ((hypo_last a1).1 e)
      have hext : extend gen (b r) (W r) i = W r ++ [((gen ((W r).getLastD tokBOS) (b r).ctx).1 i).1] := by
        unfold extend; rw [if_neg hw, a4]
      have hval : f (r * k + i) = ((S r + ((gen ((W r).getLastD tokBOS) (b r).ctx).1 i).2 : ℚ) : WithBot ℚ) := by
        have e1 : (r * k + i) / k = r := by
          rw [Nat.add_comm, Nat.add_mul_div_right _ _ hk, Nat.div_eq_of_lt hi, Nat.zero_add]
        have e2 : (r * k + i) % k = i := by
          rw [Nat.add_comm, Nat.add_mul_mod_self_right, Nat.mod_eq_of_lt hi]
        rw [hf]
        unfold beamCell
        simp only
        rw [e1, e2, if_neg hw, if_neg (by intro h; have := h1 h.1; omega), a3, a4, ← WithBot.coe_add]
      rcases hcell r hr i hi h1 with h | h
      · exact Or.inl (by rw [← hext]; exact h)
      · refine Or.inr fun j hj => ?_
        have := h j hj
        rw [hval] at this
        exact WithBot.coe_le_coe.1 this
    intro r hr i hi hn
    by_cases h1 : idx = 1
    · obtain ⟨w1, w2, w3⟩ := hz h1 r hr
      obtain ⟨v1, v2, v3⟩ := hz h1 0 hk
      have := gen_case 0 hk i hi (fun _ => rfl) (by rw [v1]; simp)
      rw [v1, v2, v3] at this
      rw [w1, w2, w3]
      exact this
    · exact gen_case r hr i hi (fun h => absurd h h1) hn
  · intro r hr hn
    obtain ⟨a1, a2, a3, a4, -, -⟩ := hb.rows r hr
    have h1 : idx ≠ 1 := by
      intro h1
      rw [(hz h1 r hr).1] at hn
      simp at hn
    have hw : (b r).word = tokEOS := by rw [a4]; exact (hypo_last a1).2 hn
    have hext : extend gen (b r) (W r) 0 = W r ++ [tokEOS] := by
      unfold extend; rw [if_pos hw]
    have hval : f (r * k + 0) = (S r : WithBot ℚ) := by
      rw [hf]
      unfold beamCell
      simp only
      rw [Nat.add_zero, Nat.mul_div_cancel _ hk, Nat.mul_mod_left, if_pos hw, if_neg (by omega), if_pos rfl, a3, ← WithBot.coe_add, add_zero]
    rcases hcell r hr 0 hk (fun h => absurd h h1) with h | h
    · exact Or.inl (by rw [← hext]; exact h)
    · refine Or.inr fun j hj => ?_
      have := h j hj
      rw [hval] at this
      exact WithBot.coe_le_coe.1 this

/-- The state of the loop after the first `n` passes. -/
theorem beam_run (gen : ℕ → C → (ℕ → ℕ × ℚ) × List ℚ × C) (topk : (ℕ → WithBot ℚ) → ℕ → ℕ) (norm : ℕ → ℚ) (cov : ℚ) (pen : List ℚ → ℚ)
    (k maxLen srcLen : ℕ) (c0 : C) (hk : 0 < k) (hm : 0 < maxLen) (ht : IsTopK k topk) (n : ℕ) (hn : n ≤ maxLen - 1) :
    ∃ m ≤ n, ∃ b W S, BeamsOk gen k maxLen c0 m b W S ∧
      ((List.range' 1 n).foldl (beamBody gen topk norm cov pen k) (beamInit maxLen srcLen c0, false) = (b, false) ∧ m = n ∨
        (List.range' 1 n).foldl (beamBody gen topk norm cov pen k) (beamInit maxLen srcLen c0, false) = (beamNorm norm cov pen b, true) ∧
          ∀ j < k, tokEOS ∈ W j) := by
  induction n with
  | zero =>
    refine ⟨0, le_refl _, _, fun _ => [], fun _ => 0, ⟨fun j _ => init_ok gen k maxLen srcLen hm c0 j, ?_⟩, Or.inl ⟨rfl, rfl⟩⟩
    intro _ h; exact absurd h (lt_irrefl _)
  | succ n ih =>
    obtain ⟨m, hmn, b, W, S, hb, h⟩ := ih (by omega)
    rw [List.range'_1_concat, List.foldl_append, List.foldl_cons, List.foldl_nil]
    rcases h with ⟨h, rfl⟩ | ⟨h, he⟩
    · rw [h]
      obtain ⟨W', S', hb', -, -⟩ := C180_step gen topk k maxLen c0 hk ht (1 + m) (by omega) (by omega) b W S
        (by rw [Nat.add_sub_cancel_left]; exact hb)
      rw [Nat.add_comm 1 m] at hb'
      by_cases hend : beamEnded k b = true
      · refine ⟨m + 1, le_refl _, _, W', S', hb', Or.inr ⟨?_, ?_⟩⟩
        · unfold beamBody
          rw [if_neg (by simp), if_pos hend, Nat.add_comm 1 m]
        · intro j hj
          obtain ⟨a1, -, -, a4, -, -⟩ := hb'.rows j hj
          rw [← hypo_last a1, ← a4]
          have hlt := ht.lt (fun i => (beamCell gen k (m + 1) b i).2) j hj
          unfold beamStep
          simp only
          generalize topk (fun i => (beamCell gen k (m + 1) b i).2) j = i at hlt
          unfold beamCell
          simp only
          rw [if_pos]
          unfold beamEnded at hend
          rw [List.all_eq_true] at hend
          have := hend _ (List.mem_range.2 ((Nat.div_lt_iff_lt_mul hk).2 hlt))
          simpa using this
      · refine ⟨m + 1, le_refl _, _, W', S', hb', Or.inl ⟨?_, rfl⟩⟩
        unfold beamBody
        rw [if_neg (by simp), if_neg hend, Nat.add_comm 1 m]
    · rw [h]
      refine ⟨m, by omega, b, W, S, hb, Or.inr ⟨?_, he⟩⟩
      unfold beamBody
      rw [if_pos rfl]

/-- **C180** (result, without the coverage penalty) There are `k` hypotheses of the same number of words, all of them different if the network's candidates are, of
which the translation returned, with its length, is one; either all of them have ended and it has the best normalized sum of
log-probabilities, or the maximal length has been reached and it has the best sum. -/
theorem C180_result_partial (gen : ℕ → C → (ℕ → ℕ × ℚ) × List ℚ × C) (topk : (ℕ → WithBot ℚ) → ℕ → ℕ) (argmax : (ℕ → WithBot ℚ) → ℕ) (norm : ℕ → ℚ)
    (pen : List ℚ → ℚ) (k maxLen srcLen : ℕ) (c0 : C) (hk : 0 < k) (hm : 0 < maxLen) (ht : IsTopK k topk) (ha : IsArgmax k argmax) :
    ∃ (n : ℕ) (W : ℕ → List ℕ) (S : ℕ → ℚ) (best : ℕ), n ≤ maxLen - 1 ∧ (∀ j < k, (∃ c, Hypo gen k c0 (W j) (S j) c) ∧ (W j).length = n) ∧
      ((∀ w c, ∀ i < k, ∀ i' < k, ((gen w c).1 i).1 = ((gen w c).1 i').1 → i = i') → 0 < n → ∀ r < k, ∀ r' < k, W r = W r' → r = r') ∧
      best < k ∧ beamSearch gen topk argmax norm 0 pen k maxLen srcLen c0 =
        (tokBOS :: W best ++ List.replicate (maxLen - 1 - n) 0, hypoLen (W best)) ∧
      ((∀ j < k, tokEOS ∈ W j ∧ S j / norm (hypoLen (W j)) ≤ S best / norm (hypoLen (W best))) ∨ n = maxLen - 1 ∧ ∀ j < k, S j ≤ S best) := by
  obtain ⟨m, hmn, b, W, S, hb, h⟩ := beam_run gen topk norm 0 pen k maxLen srcLen c0 hk hm ht (maxLen - 1) (le_refl _)
  rcases h with ⟨h, rfl⟩ | ⟨h, he⟩
  · have hbest := ha fun j => (b j).score
    refine ⟨maxLen - 1, W, S, argmax fun j => (b j).score, le_refl _, fun j hj => ⟨⟨_, (hb.rows j hj).hypo⟩, (hb.rows j hj).length⟩, hb.inj, hbest.1, ?_,
      Or.inr ⟨rfl, ?_⟩⟩
    · unfold beamSearch beamLoop
      simp only
      rw [h]
      dsimp only
      rw [(hb.rows _ hbest.1).tr, (hb.rows _ hbest.1).len]
    · intro j hj
      have := hbest.2 j hj
      rw [(hb.rows j hj).score, (hb.rows _ hbest.1).score] at this
      exact WithBot.coe_le_coe.1 this
  · have hbest := ha fun j => (beamNorm norm 0 pen b j).score
    refine ⟨m, W, S, argmax fun j => (beamNorm norm 0 pen b j).score, hmn, fun j hj => ⟨⟨_, (hb.rows j hj).hypo⟩, (hb.rows j hj).length⟩, hb.inj, hbest.1, ?_,
      Or.inl fun j hj => ⟨he j hj, ?_⟩⟩
    · unfold beamSearch beamLoop
      simp only
      rw [h]
      have e1 : ∀ j, (beamNorm norm 0 pen b j).tr = (b j).tr := fun _ => rfl
      have e2 : ∀ j, (beamNorm norm 0 pen b j).len = (b j).len := fun _ => rfl
      dsimp only
      rw [e1, e2, (hb.rows _ hbest.1).tr, (hb.rows _ hbest.1).len]
    · have e3 : ∀ j, j < k → (beamNorm norm 0 pen b j).score = ((S j / norm (hypoLen (W j)) : ℚ) : WithBot ℚ) := by
        intro j hj
        unfold beamNorm
        simp only
        rw [(hb.rows j hj).score, (hb.rows j hj).len, WithBot.map_coe, zero_mul, add_zero]
      have := hbest.2 j hj
      rw [e3 j hj, e3 _ hbest.1] at this
      exact WithBot.coe_le_coe.1 this

/-! ## Selection by sorting, and the violations -/

/-- The places of the values of `f`, largest first. -/
def placesDesc (n : ℕ) (f : ℕ → WithBot ℚ) : List ℕ := (List.range n).insertionSort fun a b => f b ≤ f a

/-- Selecting by sorting does what `topk` promises: the hypothesis of the theorems can be met. -/
theorem placesDesc_isTopK (k : ℕ) : IsTopK k fun f j => (placesDesc (k * k) f).getD j 0 := by
  have hperm : ∀ f, (placesDesc (k * k) f).Perm (List.range (k * k)) := fun f => List.perm_insertionSort _ _
  have hlen : ∀ f, (placesDesc (k * k) f).length = k * k := fun f => by rw [(hperm f).length_eq, List.length_range]
  have hkk : ∀ j, j < k → j < k * k := fun j hj => lt_of_lt_of_le hj (Nat.le_mul_of_pos_left k (by omega))
  have hget : ∀ f j (h : j < k), (placesDesc (k * k) f).getD j 0 = (placesDesc (k * k) f)[j]'(by rw [hlen]; exact hkk j h) := by
    intro f j h
    rw [List.getD_eq_getElem?_getD, List.getElem?_eq_getElem (by rw [hlen]; exact hkk j h), Option.getD_some]
  refine ⟨?_, ?_, ?_⟩
  · intro f j hj
    rw [hget f j hj]
    exact List.mem_range.1 ((hperm f).mem_iff.1 (List.getElem_mem _))
  · intro f i j hi hj e
    rw [hget f i hi, hget f j hj] at e
    exact (List.Nodup.getElem_inj_iff ((hperm f).nodup_iff.2 List.nodup_range)).1 e
  · intro f j i hj hi hn
    obtain ⟨p, hp, e⟩ := List.getElem_of_mem ((hperm f).mem_iff.2 (List.mem_range.2 hi))
    have hpk : k ≤ p := by
      by_contra h
      exact hn p (by omega) (by rw [hget f p (by omega)]; exact e)
    have : Std.Total (fun a b : ℕ => f b ≤ f a) := ⟨fun a b => le_total _ _⟩
    have : IsTrans ℕ (fun a b : ℕ => f b ≤ f a) := ⟨fun a b c h1 h2 => le_trans h2 h1⟩
    have hs : (placesDesc (k * k) f).Pairwise fun a b => f b ≤ f a := List.pairwise_insertionSort _ _
    rw [hget f j hj, ← e]
    exact (List.pairwise_iff_getElem.1 hs) j p _ hp (by omega)

/-- The attention along a hypothesis: the sum over its words up to the first `EOS`. -/
def attnAlong (gen : ℕ → C → (ℕ → ℕ × ℚ) × List ℚ × C) : ℕ → C → List ℚ → List ℕ → List ℚ
  | _, _, acc, [] => acc
  | w, c, acc, x :: ws => if w = tokEOS then acc else attnAlong gen x (gen w c).2.2 (List.zipWith (· + ·) acc (gen w c).2.1) ws

/-- A network for the violation: it may say 5 or 6 first, and then ends; only 5 attends to the source word. -/
def covNet : ℕ → Unit → (ℕ → ℕ × ℚ) × List ℚ × Unit := fun w _ =>
  (fun i => if w = tokBOS then (if i = 0 then (5, -1) else (6, -3 / 2)) else if w = 5 then (if i = 0 then (tokEOS, -3) else (7, -4))
    else (if i = 0 then (tokEOS, -1) else (7, -5)), [if w = 5 then 1 else 0], ())

/-- **C180, violated** (coverage penalty): `accu_attn_scores` stays in its row when the hypotheses change theirs.  Here both hypotheses have ended; the penalty
counts 10 for a source word not attended to; by the attention along the words `5` is the better one, but `6` is returned, its row having the
attention of `5`. -/
theorem C180_violated_attention :
    let pen : List ℚ → ℚ := fun l => l.sum - 1
    let out := beamLoop covNet (fun f j => (placesDesc 4 f).getD j 0) (fun _ => 1) 10 pen 2 4 1 ()
    out.2 = true ∧ (out.1 0).tr = [tokBOS, 6, tokEOS, tokEOS] ∧ (out.1 1).tr = [tokBOS, 5, tokEOS, tokEOS] ∧
      attnAlong covNet tokBOS () [0] [6, tokEOS, tokEOS] = [0] ∧ (out.1 0).attn = [1] ∧
      attnAlong covNet tokBOS () [0] [5, tokEOS, tokEOS] = [1] ∧ (out.1 1).attn = [0] ∧
      (-5 / 2 + 10 * pen [0] < -4 + 10 * pen [1]) ∧
      beamSearch covNet (fun f j => (placesDesc 4 f).getD j 0) (fun f => (placesDesc 2 f).headD 0) (fun _ => 1) 10 pen 2 4 1 () =
        ([tokBOS, 6, tokEOS, tokEOS], 3) := by decide +kernel

/-- A network for the violation: it ends at once, or says 5, 6 and ends. -/
def lenNet : ℕ → Unit → (ℕ → ℕ × ℚ) × List ℚ × Unit := fun w _ =>
  (fun i => if w = tokBOS then (if i = 0 then (5, -1) else (tokEOS, -1)) else if w = 5 then (if i = 0 then (6, -1 / 10) else (7, -9))
    else (if i = 0 then (tokEOS, -1 / 10) else (7, -9)), [1], ())

/-- **C180, violated** (length normalization): if the hypotheses end with the last pass, their sums are compared without normalization, and the shorter one
wins; with one more pass allowed, the better one wins, which has no more words. -/
theorem C180_violated_normalization :
    beamSearch lenNet (fun f j => (placesDesc 4 f).getD j 0) (fun f => (placesDesc 2 f).headD 0) (fun n => n) 0 (fun _ => 0) 2 4 1 () =
      ([tokBOS, tokEOS, tokEOS, tokEOS], 2) ∧
    beamSearch lenNet (fun f j => (placesDesc 4 f).getD j 0) (fun f => (placesDesc 2 f).headD 0) (fun n => n) 0 (fun _ => 0) 2 5 1 () =
      ([tokBOS, 5, 6, tokEOS, tokEOS], 4) := by decide +kernel

example : (beamLoop lenNet (fun f j => (placesDesc 4 f).getD j 0) (fun n => n) 0 (fun _ => 0) 2 4 1 ()).2 = false := by decide +kernel

end Verif
