import Verif.Model.BeamBatch
import Verif.Props.Beam
import Mathlib.Tactic.Ring
/-!
# C180: beam search treats the sentences of a batch one by one
-/
namespace Verif

variable {A B C : Type}

/-- The rows of the sentences `T`. -/
def blocks (k : ℕ) (T : List ℕ) : List ℕ := T.flatMap fun t => (List.range k).map fun j => t * k + j

theorem blocks_cons (k t : ℕ) (T : List ℕ) : blocks k (t :: T) = (List.range k).map (fun j => t * k + j) ++ blocks k T := rfl

theorem length_blocks (k : ℕ) (T : List ℕ) : (blocks k T).length = T.length * k := by
  induction T with
  | nil => simp [blocks]
  | cons t T ih => rw [blocks_cons, List.length_append, ih, List.length_map, List.length_range, List.length_cons]; ring

theorem getElem?_blocks (k : ℕ) (T : List ℕ) (q j : ℕ) (hj : j < k) : (blocks k T)[q * k + j]? = T[q]?.map fun t => t * k + j := by
  induction T generalizing q with
  | nil => simp [blocks]
  | cons t T ih =>
    rw [blocks_cons]
    cases q with
    | zero =>
      rw [List.getElem?_append_left (by simpa using hj), List.getElem?_map, Nat.zero_mul, Nat.zero_add, List.getElem?_range hj]
      rfl
    | succ q =>
      rw [List.getElem?_append_right (by rw [List.length_map, List.length_range, Nat.succ_mul]; omega), List.length_map, List.length_range,
        show (q + 1) * k + j - k = q * k + j by rw [Nat.succ_mul]; omega, ih]
      rfl

theorem mem_blocks (k : ℕ) (T : List ℕ) (s j : ℕ) (hj : j < k) : s * k + j ∈ blocks k T ↔ s ∈ T := by
  unfold blocks
  rw [List.mem_flatMap]
  constructor
  · rintro ⟨t, ht, hm⟩
    obtain ⟨i, hi, e⟩ := List.mem_map.1 hm
    rw [List.mem_range] at hi
    have : t = s := by
      have e1 : (t * k + i) / k = t := by rw [Nat.add_comm, Nat.add_mul_div_right _ _ (by omega), Nat.div_eq_of_lt hi, Nat.zero_add]
      have e2 : (s * k + j) / k = s := by rw [Nat.add_comm, Nat.add_mul_div_right _ _ (by omega), Nat.div_eq_of_lt hj, Nat.zero_add]
      rw [← e1, ← e2, e]
    exact this ▸ ht
  · intro h
    exact ⟨s, h, List.mem_map.2 ⟨j, List.mem_range.2 hj, rfl⟩⟩

theorem nodup_blocks (k : ℕ) (T : List ℕ) (h : T.Nodup) : (blocks k T).Nodup := by
  induction T with
  | nil => simp [blocks]
  | cons t T ih =>
    rw [blocks_cons, List.nodup_append]
    obtain ⟨h1, h2⟩ := List.nodup_cons.1 h
    refine ⟨List.Nodup.map (fun a b e => by simpa using e) List.nodup_range, ih h2, ?_⟩
    intro x hx y hy e
    obtain ⟨i, hi, rfl⟩ := List.mem_map.1 hx
    rw [List.mem_range] at hi
    exact h1 ((mem_blocks k T t i hi).1 (e ▸ hy))

theorem idxOf_blocks (k : ℕ) (T : List ℕ) (hT : T.Nodup) (q s j : ℕ) (hj : j < k) (h : T[q]? = some s) : (blocks k T).idxOf (s * k + j) = q * k + j := by
  have h1 : (blocks k T)[q * k + j]? = some (s * k + j) := by rw [getElem?_blocks k T q j hj, h]; rfl
  obtain ⟨hlt, he⟩ := List.getElem?_eq_some_iff.1 h1
  rw [← he]
  exact (nodup_blocks k T hT).idxOf_getElem _ hlt

theorem filter_range_blocks (k n : ℕ) (hk : 0 < k) (P : ℕ → Bool) :
    (List.range (n * k)).filter (fun p => P (p / k)) = blocks k ((List.range n).filter P) := by
  induction n with
  | zero => simp [blocks]
  | succ n ih =>
    rw [Nat.succ_mul, List.range_add, List.filter_append, ih, List.range_succ, List.filter_append]
    unfold blocks
    rw [List.flatMap_append]
    congr 1
    have e : ∀ j ∈ List.range k, (n * k + j) / k = n := by
      intro j hj
      rw [List.mem_range] at hj
      rw [Nat.add_comm, Nat.add_mul_div_right _ _ hk, Nat.div_eq_of_lt hj, Nat.zero_add]
    cases hP : P n with
    | true =>
      rw [List.filter_eq_self.2]
      · simp [hP]
      · intro x hx
        obtain ⟨j, hj, rfl⟩ := List.mem_map.1 hx
        rw [e j hj, hP]
    | false =>
      rw [List.filter_eq_nil_iff.2]
      · simp [hP]
      · intro x hx
        obtain ⟨j, hj, rfl⟩ := List.mem_map.1 hx
        rw [e j hj, hP]
        simp

/-- `topk` is given `n` values, and `max` likewise: others do not matter. -/
def SelectLocal (n k : ℕ) (topk : (ℕ → WithBot ℚ) → ℕ → ℕ) : Prop :=
  ∀ f g : ℕ → WithBot ℚ, (∀ i < n, f i = g i) → ∀ j < k, topk f j = topk g j

/-- What the rows of the batch have to do with the loop of the sentences alone. -/
structure BatchInv (k nb : ℕ) (r : ℕ → (ℕ → Beam C) × Bool) (c0 : ℕ → A) (c1 : ℕ → B) (st : BeamBatch A B C) (S : List ℕ) : Prop where
  active : st.active = blocks k S
  nodup : S.Nodup
  lt : ∀ s ∈ S, s < nb
  open_iff : ∀ s < nb, s ∈ S ↔ (r s).2 = false
  rows : ∀ s < nb, ∀ j < k, st.tr (s * k + j) = ((r s).1 j).tr ∧ st.len (s * k + j) = ((r s).1 j).len ∧ st.score (s * k + j) = ((r s).1 j).score ∧
    st.attn (s * k + j) = ((r s).1 j).attn
  pos : ∀ q s, S[q]? = some s → ∀ j < k, st.words (q * k + j) = ((r s).1 j).word ∧ st.c2 (q * k + j) = ((r s).1 j).ctx ∧
    st.c0 (q * k + j) = c0 s ∧ st.c1 (q * k + j) = c1 s

theorem div_block (k t j : ℕ) (hj : j < k) : (t * k + j) / k = t := by
  rw [Nat.add_comm, Nat.add_mul_div_right _ _ (by omega), Nat.div_eq_of_lt hj, Nat.zero_add]

theorem mod_block (k t j : ℕ) (hj : j < k) : (t * k + j) % k = j := by
  rw [Nat.add_comm, Nat.add_mul_mod_self_right, Nat.mod_eq_of_lt hj]

theorem batch_step (gen : ℕ → A → B → C → (ℕ → ℕ × ℚ) × List ℚ × C) (topk : (ℕ → WithBot ℚ) → ℕ → ℕ) (norm : ℕ → ℚ) (cov : ℚ)
    (pen : List ℚ → ℚ) (k nb : ℕ) (hk : 0 < k) (hloc : SelectLocal (k * k) k topk) (hlt : ∀ f j, j < k → topk f j < k * k) (idx : ℕ)
    (r : ℕ → (ℕ → Beam C) × Bool) (c0 : ℕ → A) (c1 : ℕ → B) (st : BeamBatch A B C) (S : List ℕ) (h : BatchInv k nb r c0 c1 st S) :
    ∃ S', BatchInv k nb (fun s => beamBody (fun w c => gen w (c0 s) (c1 s) c) topk norm cov pen k (r s) idx) c0 c1
      (batchStep gen topk norm cov pen k st idx) S' := by
  by_cases hempty : st.active.length = 0
  · -- nothing is active: all sentences are finished
    have hS : S = [] := by
      rw [h.active, length_blocks] at hempty
      rcases Nat.mul_eq_zero.1 hempty with h0 | h0
      · exact List.eq_nil_of_length_eq_zero h0
      · omega
    have hfin : ∀ s < nb, (r s).2 = true := by
      intro s hs
      by_contra hn
      have := (h.open_iff s hs).2 (by simpa using hn)
      rw [hS] at this; cases this
    have e : ∀ s < nb, beamBody (fun w c => gen w (c0 s) (c1 s) c) topk norm cov pen k (r s) idx = r s := by
      intro s hs; unfold beamBody; rw [if_pos (hfin s hs)]
    refine ⟨S, ?_⟩
    unfold batchStep
    rw [if_pos hempty]
    refine ⟨h.active, h.nodup, h.lt, ?_, ?_, ?_⟩
    · intro s hs; rw [e s hs]; exact h.open_iff s hs
    · intro s hs; rw [e s hs]; exact h.rows s hs
    · intro q s hq; rw [hS] at hq; simp at hq
  -- positions of active sentences
  have hact : ∀ q s, S[q]? = some s → ∀ j, j < k → st.active.getD (q * k + j) 0 = s * k + j := by
    intro q s hq j hj
    rw [h.active, List.getD_eq_getElem?_getD, getElem?_blocks k S q j hj, hq]; rfl
  have hidx : ∀ q s, S[q]? = some s → ∀ j, j < k → st.active.idxOf (s * k + j) = q * k + j := by
    intro q s hq j hj
    rw [h.active]; exact idxOf_blocks k S h.nodup q s j hj hq
  have hmem : ∀ s j, j < k → (s * k + j ∈ st.active ↔ s ∈ S) := by
    intro s j hj; rw [h.active]; exact mem_blocks k S s j hj
  have hsc : ∀ {X : Type} (x v : ℕ → X) q s, S[q]? = some s → ∀ j, j < k → scatter st.active x v (s * k + j) = v (q * k + j) := by
    intro X x v q s hq j hj
    unfold scatter
    rw [if_pos ((hmem s j hj).2 (List.mem_of_getElem? hq)), hidx q s hq j hj]
  have hsn : ∀ {X : Type} (x v : ℕ → X) s, s ∉ S → ∀ j, j < k → scatter st.active x v (s * k + j) = x (s * k + j) := by
    intro X x v s hs j hj
    unfold scatter
    rw [if_neg fun hh => hs ((hmem s j hj).1 hh)]
  have hlen : st.active.length = S.length * k := by rw [h.active, length_blocks]
  -- names for the local definitions of the pass
  obtain ⟨act, hactd⟩ : ∃ act : ℕ → ℕ, act = fun p => st.active.getD p 0 := ⟨_, rfl⟩
  obtain ⟨term, hterm⟩ : ∃ term : ℕ → Bool, term = fun t => (List.range k).all fun j => st.words (t * k + j) == tokEOS := ⟨_, rfl⟩
  obtain ⟨out, hout⟩ : ∃ out : ℕ → (ℕ → ℕ × ℚ) × List ℚ × C, out = fun p => gen (st.words p) (st.c0 p) (st.c1 p) (st.c2 p) := ⟨_, rfl⟩
  obtain ⟨cell, hcell⟩ : ∃ cell : ℕ → ℕ → ℕ × WithBot ℚ, cell = fun t i =>
      let p := t * k + i / k
      let g := (out p).1 (i % k)
      let lp : WithBot ℚ := if st.words p = tokEOS then (if i % k = 0 then ((0 : ℚ) : WithBot ℚ) else ⊥) else (g.2 : WithBot ℚ)
      (if st.words p = tokEOS then tokEOS else g.1, if idx = 1 ∧ 0 < i / k then ⊥ else st.score (act p) + lp) := ⟨_, rfl⟩
  obtain ⟨index, hindex⟩ : ∃ index : ℕ → ℕ → ℕ, index = fun t j => topk (fun i => (cell t i).2) j := ⟨_, rfl⟩
  have hterm_eq : ∀ q s, S[q]? = some s → term q = beamEnded k (r s).1 := by
    intro q s hq
    rw [hterm]
    unfold beamEnded
    rw [Bool.eq_iff_iff, List.all_eq_true, List.all_eq_true]
    constructor
    · intro hh j hj
      rw [← (h.pos q s hq j (List.mem_range.1 hj)).1]; exact hh j hj
    · intro hh j hj
      rw [(h.pos q s hq j (List.mem_range.1 hj)).1]; exact hh j hj
  have hout_eq : ∀ q s, S[q]? = some s → ∀ j, j < k → out (q * k + j) = gen ((r s).1 j).word (c0 s) (c1 s) ((r s).1 j).ctx := by
    intro q s hq j hj
    obtain ⟨a1, a2, a3, a4⟩ := h.pos q s hq j hj
    rw [hout]; simp only
    rw [a1, a2, a3, a4]
  have hcell_eq : ∀ q s, S[q]? = some s → ∀ i, i < k * k → cell q i = beamCell (fun w c => gen w (c0 s) (c1 s) c) k idx (r s).1 i := by
    intro q s hq i hi
    have hr : i / k < k := (Nat.div_lt_iff_lt_mul hk).2 hi
    have hs : s < nb := h.lt s (List.mem_of_getElem? hq)
    rw [hcell]
    unfold beamCell
    simp only
    rw [hout_eq q s hq _ hr, (h.pos q s hq _ hr).1, hactd]
    simp only
    rw [hact q s hq _ hr, (h.rows s hs _ hr).2.2.1]
  have hindex_eq : ∀ q s, S[q]? = some s → ∀ j, j < k →
      index q j = topk (fun i => (beamCell (fun w c => gen w (c0 s) (c1 s) c) k idx (r s).1 i).2) j := by
    intro q s hq j hj
    rw [hindex]
    exact hloc _ _ (fun i hi => by rw [hcell_eq q s hq i hi]) j hj
  have hindex_lt : ∀ q j, j < k → index q j < k * k := by
    intro q j hj; rw [hindex]; exact hlt _ j hj
  have hstep : batchStep gen topk norm cov pen k st idx =
      (let len1 := scatter st.active st.len fun p => if st.words p = tokEOS then st.len (act p) else st.len (act p) + 1
       let attn := scatter st.active st.attn fun p =>
         List.zipWith (· + ·) (st.attn (act p)) (if st.words p = tokEOS then (st.attn (act p)).map (fun _ => 0) else (out p).2.1)
       let src := fun p => index (p / k) (p % k) / k + p / k * k
       let words := fun p => (cell (p / k) (index (p / k) (p % k))).1
       let score1 := scatter st.active st.score fun p => (cell (p / k) (index (p / k) (p % k))).2
       let tr := scatter st.active st.tr fun p => (st.tr (act (src p))).set idx (words p)
       let len2 := scatter st.active len1 fun p => len1 (act (src p))
       let c2 := fun p => (out (src p)).2.2
       let ended := ((List.range st.active.length).filter fun p => term (p / k)).map act
       let score2 := fun i => if i ∈ ended then (score1 i).map (fun s => s / norm (len2 i) + cov * pen (attn i)) else score1 i
       let keep := (List.range st.active.length).filter fun p => !term (p / k)
       let sel := fun q => keep.getD q 0
       { tr := tr, len := len2, score := score2, attn := attn, active := keep.map act
         words := fun q => words (sel q), c0 := fun q => st.c0 (sel q), c1 := fun q => st.c1 (sel q), c2 := fun q => c2 (sel q) }) := by
    rw [hindex, hcell, hout, hterm, hactd]
    unfold batchStep
    rw [if_neg hempty]
  have hmapact : ∀ T : List ℕ, (∀ t ∈ T, t < S.length) → (blocks k T).map act = blocks k (T.map fun t => S.getD t 0) := by
    intro T hT
    unfold blocks
    rw [List.map_flatMap, List.flatMap_map]
    rw [List.flatMap_def, List.flatMap_def]
    congr 1
    apply List.map_congr_left
    intro t ht
    rw [List.map_map]
    apply List.map_congr_left
    intro j hj
    have hq : S[t]? = some (S.getD t 0) := by
      rw [List.getD_eq_getElem?_getD, List.getElem?_eq_getElem (hT t ht)]; rfl
    simp only [Function.comp_apply]
    rw [hactd]
    exact hact t _ hq j (List.mem_range.1 hj)
  obtain ⟨T, hTd⟩ : ∃ T, T = (List.range S.length).filter fun t => !term t := ⟨_, rfl⟩
  have hTlt : ∀ t ∈ T, t < S.length := by
    intro t ht
    rw [hTd] at ht
    exact List.mem_range.1 (List.mem_filter.1 ht).1
  have hgetD : ∀ t, t < S.length → S[t]? = some (S.getD t 0) := by
    intro t ht
    rw [List.getD_eq_getElem?_getD, List.getElem?_eq_getElem ht]; rfl
  have hkeep : ((List.range st.active.length).filter fun p => !term (p / k)) = blocks k T := by
    rw [hlen, hTd]
    exact filter_range_blocks k S.length hk fun t => !term t
  have hended : ((List.range st.active.length).filter fun p => term (p / k)).map act =
      blocks k (((List.range S.length).filter term).map fun t => S.getD t 0) := by
    rw [hlen, filter_range_blocks k S.length hk term]
    exact hmapact _ fun t ht => List.mem_range.1 (List.mem_filter.1 ht).1
  have hinj : ∀ t t', t < S.length → t' < S.length → S.getD t 0 = S.getD t' 0 → t = t' := by
    intro t t' ht ht' e
    rw [List.getD_eq_getElem?_getD, List.getD_eq_getElem?_getD, List.getElem?_eq_getElem ht, List.getElem?_eq_getElem ht'] at e
    exact (List.Nodup.getElem_inj_iff h.nodup).1 e
  have hpos : ∀ s ∈ S, ∃ q, S[q]? = some s := fun s hs => List.mem_iff_getElem?.1 hs
  have hended_iff : ∀ q s, S[q]? = some s → ∀ j, j < k → (s * k + j ∈ blocks k (((List.range S.length).filter term).map fun t => S.getD t 0) ↔ term q = true) := by
    intro q s hq j hj
    rw [mem_blocks k _ s j hj, List.mem_map]
    have hql : q < S.length := (List.getElem?_eq_some_iff.1 hq).1
    have hqs : S.getD q 0 = s := by rw [List.getD_eq_getElem?_getD, hq]; rfl
    constructor
    · rintro ⟨t, ht, e⟩
      obtain ⟨t1, t2⟩ := List.mem_filter.1 ht
      rw [← hqs] at e
      rw [← hinj t q (List.mem_range.1 t1) hql e]; exact t2
    · intro ht
      exact ⟨q, List.mem_filter.2 ⟨List.mem_range.2 hql, ht⟩, hqs⟩
  have hbody : ∀ q s, S[q]? = some s → beamBody (fun w c => gen w (c0 s) (c1 s) c) topk norm cov pen k (r s) idx =
      if term q then (beamNorm norm cov pen (beamStep (fun w c => gen w (c0 s) (c1 s) c) topk k idx (r s).1), true)
      else (beamStep (fun w c => gen w (c0 s) (c1 s) c) topk k idx (r s).1, false) := by
    intro q s hq
    have hsm := List.mem_of_getElem? hq
    have hf : (r s).2 = false := (h.open_iff s (h.lt s hsm)).1 hsm
    unfold beamBody
    rw [hf, if_neg (by simp), hterm_eq q s hq]
  have hbody2 : ∀ s < nb, s ∉ S → beamBody (fun w c => gen w (c0 s) (c1 s) c) topk norm cov pen k (r s) idx = r s := by
    intro s hs hn
    have hf : (r s).2 = true := by
      by_contra hh
      exact hn ((h.open_iff s hs).2 (by simpa using hh))
    unfold beamBody
    rw [if_pos hf]
  -- the rows of an active sentence after the pass
  have hrow : ∀ q s, S[q]? = some s → ∀ j, j < k →
      let p := q * k + j
      let src := index (p / k) (p % k) / k + p / k * k
      let i := index q j
      act src = s * k + i / k ∧ i / k < k ∧ p / k = q ∧ p % k = j ∧ src = q * k + i / k := by
    intro q s hq j hj
    simp only
    rw [div_block k q j hj, mod_block k q j hj]
    have hi : index q j / k < k := (Nat.div_lt_iff_lt_mul hk).2 (hindex_lt q j hj)
    refine ⟨?_, hi, rfl, rfl, Nat.add_comm _ _⟩
    rw [Nat.add_comm, hactd]
    exact hact q s hq _ hi
  refine ⟨T.map fun t => S.getD t 0, ?_⟩
  rw [hstep]
  refine ⟨?_, ?_, ?_, ?_, ?_, ?_⟩
  · simp only
    rw [hkeep]
    exact hmapact T hTlt
  · rw [List.nodup_map_iff_inj_on (by rw [hTd]; exact List.nodup_range.filter _)]
    intro t ht t' ht' e
    exact hinj t t' (hTlt t ht) (hTlt t' ht') e
  · intro s hs
    obtain ⟨t, ht, rfl⟩ := List.mem_map.1 hs
    exact h.lt _ (List.mem_of_getElem? (hgetD t (hTlt t ht)))
  · intro s hs
    by_cases hm : s ∈ S
    · obtain ⟨q, hq⟩ := hpos s hm
      have hql : q < S.length := (List.getElem?_eq_some_iff.1 hq).1
      have hqs : S.getD q 0 = s := by rw [List.getD_eq_getElem?_getD, hq]; rfl
      rw [hbody q s hq]
      have : s ∈ T.map (fun t => S.getD t 0) ↔ term q = false := by
        rw [List.mem_map]
        constructor
        · rintro ⟨t, ht, e⟩
          have ht2 := ht
          rw [hTd] at ht2
          rw [← hqs] at e
          rw [← hinj t q (hTlt t ht) hql e]
          simpa using (List.mem_filter.1 ht2).2
        · intro hf
          exact ⟨q, by rw [hTd]; exact List.mem_filter.2 ⟨List.mem_range.2 hql, by simp [hf]⟩, hqs⟩
      rw [this]
      cases term q <;> simp
    · rw [hbody2 s hs hm, ← h.open_iff s hs]
      constructor
      · intro hh
        obtain ⟨t, ht, e⟩ := List.mem_map.1 hh
        rw [← e]
        exact List.mem_of_getElem? (hgetD t (hTlt t ht))
      · intro hh; exact absurd hh hm
  · intro s hs j hj
    by_cases hm : s ∈ S
    · obtain ⟨q, hq⟩ := hpos s hm
      obtain ⟨e1, e2, e3, e4, e5⟩ := hrow q s hq j hj
      have hi := hindex_lt q j hj
      have hin := hindex_eq q s hq j hj
      have hce := hcell_eq q s hq _ hi
      rw [hbody q s hq]
      have R1 : ∀ j', j' < k → st.tr (s * k + j') = ((r s).1 j').tr := fun j' hj' => (h.rows s hs j' hj').1
      have R2 : ∀ j', j' < k → st.len (s * k + j') = ((r s).1 j').len := fun j' hj' => (h.rows s hs j' hj').2.1
      have R4 : ∀ j', j' < k → st.attn (s * k + j') = ((r s).1 j').attn := fun j' hj' => (h.rows s hs j' hj').2.2.2
      have Rw : ∀ j', j' < k → st.words (q * k + j') = ((r s).1 j').word := fun j' hj' => (h.pos q s hq j' hj').1
      have Ra : ∀ j', j' < k → act (q * k + j') = s * k + j' := fun j' hj' => by rw [hactd]; exact hact q s hq j' hj'
      have Vtr : scatter st.active st.tr (fun p => (st.tr (act (index (p / k) (p % k) / k + p / k * k))).set idx
          (cell (p / k) (index (p / k) (p % k))).1) (s * k + j) =
          (beamStep (fun w c => gen w (c0 s) (c1 s) c) topk k idx (r s).1 j).tr := by
        rw [hsc _ _ q s hq j hj]
        unfold beamStep
        simp only
        rw [e1, e3, e4, R1 _ e2, hce, hin]
      have Vlen : scatter st.active (scatter st.active st.len fun p => if st.words p = tokEOS then st.len (act p) else st.len (act p) + 1)
          (fun p => scatter st.active st.len (fun p => if st.words p = tokEOS then st.len (act p) else st.len (act p) + 1)
            (act (index (p / k) (p % k) / k + p / k * k))) (s * k + j) =
          (beamStep (fun w c => gen w (c0 s) (c1 s) c) topk k idx (r s).1 j).len := by
        rw [hsc _ _ q s hq j hj]
        unfold beamStep
        simp only
        rw [e1, hsc _ _ q s hq _ e2, Rw _ e2, Ra _ e2, R2 _ e2, hin]
      have Vat : scatter st.active st.attn (fun p =>
          List.zipWith (· + ·) (st.attn (act p)) (if st.words p = tokEOS then (st.attn (act p)).map (fun _ => 0) else (out p).2.1)) (s * k + j) =
          (beamStep (fun w c => gen w (c0 s) (c1 s) c) topk k idx (r s).1 j).attn := by
        rw [hsc _ _ q s hq j hj]
        unfold beamStep
        simp only
        rw [Rw _ hj, Ra _ hj, R4 _ hj, hout_eq q s hq j hj]
      have Vsc : scatter st.active st.score (fun p => (cell (p / k) (index (p / k) (p % k))).2) (s * k + j) =
          (beamStep (fun w c => gen w (c0 s) (c1 s) c) topk k idx (r s).1 j).score := by
        rw [hsc _ _ q s hq j hj]
        unfold beamStep
        simp only
        rw [e3, e4, hce, hin]
      simp only
      rw [hended]
      have hei := hended_iff q s hq j hj
      by_cases htq : term q = true
      · rw [if_pos htq, if_pos (hei.2 htq)]
        refine ⟨Vtr, Vlen, ?_, Vat⟩
        rw [Vsc, Vlen, Vat]
        rfl
      · rw [if_neg htq, if_neg (fun hh => htq (hei.1 hh))]
        exact ⟨Vtr, Vlen, Vsc, Vat⟩
    · rw [hbody2 s hs hm]
      obtain ⟨r1, r2, r3, r4⟩ := h.rows s hs j hj
      simp only
      rw [hsn _ _ s hm j hj, hsn _ _ s hm j hj, hsn _ _ s hm j hj, hsn _ _ s hm j hj, hsn _ _ s hm j hj, hended, if_neg]
      · exact ⟨r1, r2, r3, r4⟩
      · rw [mem_blocks k _ s j hj, List.mem_map]
        rintro ⟨t, ht, e⟩
        apply hm
        rw [← e]
        exact List.mem_of_getElem? (hgetD t (List.mem_range.1 (List.mem_filter.1 ht).1))
  · intro q' s hq' j hj
    rw [List.getElem?_map] at hq'
    obtain ⟨t, ht, e⟩ := Option.map_eq_some_iff.1 hq'
    have htT : t ∈ T := List.mem_of_getElem? ht
    have hq : S[t]? = some s := by rw [← e]; exact hgetD t (hTlt t htT)
    obtain ⟨e1, e2, e3, e4, e5⟩ := hrow t s hq j hj
    have hi := hindex_lt t j hj
    have hsel : (blocks k T).getD (q' * k + j) 0 = t * k + j := by
      rw [List.getD_eq_getElem?_getD, getElem?_blocks k T q' j hj, ht]; rfl
    have htf : term t = false := by
      rw [hTd] at htT
      simpa using (List.mem_filter.1 htT).2
    rw [hbody t s hq, htf]
    simp only
    rw [hkeep, hsel, if_neg (by simp)]
    obtain ⟨p1, p2, p3, p4⟩ := h.pos t s hq j hj
    refine ⟨?_, ?_, p3, p4⟩
    · unfold beamStep
      simp only
      rw [e3, e4, hcell_eq t s hq _ hi, hindex_eq t s hq j hj]
    · unfold beamStep
      simp only
      rw [e5, hout_eq t s hq _ e2, hindex_eq t s hq j hj]

theorem batch_loop (gen : ℕ → A → B → C → (ℕ → ℕ × ℚ) × List ℚ × C) (topk : (ℕ → WithBot ℚ) → ℕ → ℕ) (norm : ℕ → ℚ) (cov : ℚ)
    (pen : List ℚ → ℚ) (k nb : ℕ) (hk : 0 < k) (hloc : SelectLocal (k * k) k topk) (hlt : ∀ f j, j < k → topk f j < k * k)
    (c0 : ℕ → A) (c1 : ℕ → B) (l : List ℕ) : ∀ (r : ℕ → (ℕ → Beam C) × Bool) (st : BeamBatch A B C) (S : List ℕ), BatchInv k nb r c0 c1 st S →
    ∃ S', BatchInv k nb (fun s => l.foldl (beamBody (fun w c => gen w (c0 s) (c1 s) c) topk norm cov pen k) (r s)) c0 c1
      (l.foldl (batchStep gen topk norm cov pen k) st) S' := by
  induction l with
  | nil => intro r st S h; exact ⟨S, h⟩
  | cons idx l ih =>
    intro r st S h
    obtain ⟨S1, h1⟩ := batch_step gen topk norm cov pen k nb hk hloc hlt idx r c0 c1 st S h
    exact ih _ _ S1 h1

theorem batch_init (k maxLen srcLen nb : ℕ) (hk : 0 < k) (c0 : ℕ → A) (c1 : ℕ → B) (c2 : ℕ → C) :
    BatchInv k nb (fun s => (beamInit maxLen srcLen (c2 s), false)) c0 c1 (batchInit k maxLen srcLen nb c0 c1 c2) (List.range nb) := by
  refine ⟨?_, List.nodup_range, fun s hs => List.mem_range.1 hs, fun s hs => ?_, fun s _ j _ => ⟨rfl, rfl, rfl, rfl⟩, ?_⟩
  · have := filter_range_blocks k nb hk (fun _ => true)
    simpa [batchInit] using this
  · simp [hs]
  · intro q s hq j hj
    have hqs : q = s := by
      obtain ⟨h1, h2⟩ := List.getElem?_eq_some_iff.1 hq
      simpa using h2
    subst hqs
    refine ⟨rfl, ?_, ?_, ?_⟩
    · show c2 ((q * k + j) / k) = c2 q
      rw [div_block k q j hj]
    · show c0 ((q * k + j) / k) = c0 q
      rw [div_block k q j hj]
    · show c1 ((q * k + j) / k) = c1 q
      rw [div_block k q j hj]

/-- **C180 (a batch is translated sentence by sentence).**  Whatever the model, whatever the sentences of the batch and whichever of them end
when: `beam_search` on the batch gives for every sentence, in the order of the batch, just what it gives for this sentence alone.  `topk` and `max`
see only the entries they are given. -/
theorem C180_batch (gen : ℕ → A → B → C → (ℕ → ℕ × ℚ) × List ℚ × C) (topk : (ℕ → WithBot ℚ) → ℕ → ℕ) (argmax : (ℕ → WithBot ℚ) → ℕ)
    (norm : ℕ → ℚ) (cov : ℚ) (pen : List ℚ → ℚ) (k maxLen srcLen nb : ℕ) (c0 : ℕ → A) (c1 : ℕ → B) (c2 : ℕ → C) (hk : 0 < k)
    (hloc : SelectLocal (k * k) k topk) (hlt : ∀ f j, j < k → topk f j < k * k)
    (hmax : ∀ f g : ℕ → WithBot ℚ, (∀ j < k, f j = g j) → argmax f = argmax g) (hmlt : ∀ f, argmax f < k) :
    beamSearchBatch gen topk argmax norm cov pen k maxLen srcLen nb c0 c1 c2 =
      (List.range nb).map fun s => beamSearch (fun w c => gen w (c0 s) (c1 s) c) topk argmax norm cov pen k maxLen srcLen (c2 s) := by
  obtain ⟨S, h⟩ := batch_loop gen topk norm cov pen k nb hk hloc hlt c0 c1 (List.range' 1 (maxLen - 1)) _ _ _
    (batch_init k maxLen srcLen nb hk c0 c1 c2)
  unfold beamSearchBatch beamSearch beamLoop
  simp only
  apply List.map_congr_left
  intro s hs
  have hs' := List.mem_range.1 hs
  have R := h.rows s hs'
  rw [hmax _ _ fun j hj => (R j hj).2.2.1, Nat.add_comm]
  obtain ⟨r1, r2, -, -⟩ := R _ (hmlt _)
  rw [r1, r2]

/-- Sorting the entries is such a selection. -/
theorem placesDesc_local (n k : ℕ) : SelectLocal n k fun f j => (placesDesc n f).getD j 0 := by
  intro f g h j _
  have e : placesDesc n f = placesDesc n g := by
    unfold placesDesc
    have := List.map_insertionSort (fun a b => f b ≤ f a) (fun a b => g b ≤ g a) id (List.range n)
      fun a ha b hb => by rw [id, id, h a (List.mem_range.1 ha), h b (List.mem_range.1 hb)]
    simpa using this
  simp only
  rw [e]

/-- Two sentences of which one ends two passes before the other: with the one that is taken out of the batch, the rows of the other move. -/
def twoNet : ℕ → ℕ → Unit → Unit → (ℕ → ℕ × ℚ) × List ℚ × Unit := fun w a _ _ =>
  (fun i => if w = tokBOS then (if i = 0 then (5, -1) else (6, -3 / 2)) else if w = 5 ∧ a = 1 then (if i = 0 then (7, -1) else (8, -2))
    else (if i = 0 then (tokEOS, -1) else (9, -9)), [1], ())

example :
    let top := fun (f : ℕ → WithBot ℚ) j => (placesDesc 4 f).getD j 0
    let one := fun (f : ℕ → WithBot ℚ) => (placesDesc 2 f).headD 0
    beamSearchBatch twoNet top one (fun n => n) 0 (fun _ => 0) 2 6 1 2 (fun s => s) (fun _ => ()) (fun _ => ()) =
      [beamSearch (fun w c => twoNet w 0 () c) top one (fun n => n) 0 (fun _ => 0) 2 6 1 (), beamSearch (fun w c => twoNet w 1 () c) top one (fun n => n) 0 (fun _ => 0) 2 6 1 ()] ∧
    ((List.range' 1 3).foldl (batchStep twoNet top (fun n => n) 0 (fun _ => 0) 2) (batchInit 2 6 1 2 (fun s => s) (fun _ => ()) (fun _ => ()))).active = [2, 3] := by
  decide +kernel

example :
    let top := fun (f : ℕ → WithBot ℚ) j => (placesDesc 4 f).getD j 0
    let one := fun (f : ℕ → WithBot ℚ) => (placesDesc 2 f).headD 0
    beamSearchBatch twoNet top one (fun n => n) 0 (fun _ => 0) 2 6 1 2 (fun s => s) (fun _ => ()) (fun _ => ()) =
      [([tokBOS, 5, tokEOS, tokEOS, 0, 0], 3), ([tokBOS, 5, 7, tokEOS, tokEOS, 0], 4)] ∧
    ((List.range' 1 3).foldl (batchStep twoNet top (fun n => n) 0 (fun _ => 0) 2) (batchInit 2 6 1 2 (fun s => s) (fun _ => ()) (fun _ => ()))).active =
      [2, 3] := by
  decide +kernel

end Verif
