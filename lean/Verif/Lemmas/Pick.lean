import Verif.Lemmas.RecipeDirs
import Verif.Props.Thinning3
/-! Values of tensors thinned along their first two dimensions. -/
namespace Verif

/-- The blocks of `k` entries of `w` (seen as `? × C × k`) with first index in `a0` and second in `a1`. -/
def pick (C k : ℕ) (w : Tensor) (a0 a1 : List ℕ) : Tensor :=
  a0.flatMap fun o => a1.flatMap fun c => chunk k (o * C + c) w

theorem block_length {O C k : ℕ} {w : Tensor} (hl : w.length = O * (C * k)) {o c : ℕ} (ho : o < O) (hc : c < C) :
    (chunk k (o * C + c) w).length = k := by
  apply length_chunk
  rw [hl]
  have h1 : o * C + c + 1 ≤ O * C := by
    have := Nat.mul_le_mul_right C (show o + 1 ≤ O from ho)
    have e : (o + 1) * C = o * C + C := by ring
    omega
  calc (o * C + c + 1) * k ≤ O * C * k := Nat.mul_le_mul_right _ h1
    _ = O * (C * k) := by ring

theorem row_length {O C k : ℕ} {w : Tensor} (hl : w.length = O * (C * k)) {o : ℕ} (ho : o < O) {a1 : List ℕ}
    (h1 : ∀ c ∈ a1, c < C) : (a1.flatMap fun c => chunk k (o * C + c) w).length = a1.length * k := by
  rw [flatMap_eq_range]
  apply length_flatMap_range
  intro j hj
  exact block_length hl ho (h1 _ (getD_mem hj))

theorem pick_full {O C k : ℕ} {w : Tensor} (hl : w.length = O * (C * k)) : pick C k w (List.range O) (List.range C) = w := by
  conv_rhs => rw [← flatMap_chunks O (C * k) w hl]
  unfold pick
  apply List.flatMap_congr
  intro o ho
  exact (chunk_split hl (List.mem_range.1 ho)).symm

/-- Rows of a picked tensor. -/
theorem chunk_pick {O C k : ℕ} {w : Tensor} (hl : w.length = O * (C * k)) {a0 a1 : List ℕ} (h0 : ∀ o ∈ a0, o < O)
    (h1 : ∀ c ∈ a1, c < C) {j : ℕ} (hj : j < a0.length) :
    chunk (a1.length * k) j (pick C k w a0 a1) = a1.flatMap fun c => chunk k (a0.getD j 0 * C + c) w :=
  chunk_flatMap_list (idx := a0) (g := fun o => a1.flatMap fun c => chunk k (o * C + c) w)
    (fun o ho => row_length hl (h0 o ho) h1) hj

theorem pick_sel0 {O C k : ℕ} {w : Tensor} (hl : w.length = O * (C * k)) {i0 a1 : List ℕ} (h0 : ∀ o ∈ i0, o < O)
    (h1 : ∀ c ∈ a1, c < C) :
    selFlat 1 O (a1.length * k) i0 (pick C k w (List.range O) a1) = pick C k w i0 a1 := by
  rw [selFlat_one]
  unfold pick
  apply List.flatMap_congr
  intro o ho
  have := chunk_pick hl (a0 := List.range O) (a1 := a1) (fun o ho => List.mem_range.1 ho) h1 (j := o) (by simpa using h0 o ho)
  unfold pick at this
  rw [this]
  have e : (List.range O).getD o 0 = o := by
    rw [List.getD_eq_getElem?_getD, List.getElem?_range (h0 o ho)]; rfl
  rw [e]

theorem pick_sel1 {O C k : ℕ} {w : Tensor} (hl : w.length = O * (C * k)) {a0 i1 : List ℕ} (h0 : ∀ o ∈ a0, o < O)
    (h1 : ∀ c ∈ i1, c < C) :
    selFlat a0.length C k i1 (pick C k w a0 (List.range C)) = pick C k w a0 i1 := by
  unfold selFlat
  conv_rhs => unfold pick; rw [flatMap_eq_range a0]
  apply List.flatMap_congr
  intro j hj
  have hj : j < a0.length := List.mem_range.1 hj
  apply List.flatMap_congr
  intro c hc
  have hcC := h1 c hc
  show chunk k (j * C + c) (pick C k w a0 (List.range C)) = _
  rw [← chunk_chunk (a := C) hcC]
  have := chunk_pick hl (a0 := a0) (a1 := List.range C) h0 (fun c hc => List.mem_range.1 hc) hj
  rw [List.length_range] at this
  rw [this]
  apply chunk_flatMap_range C k c (fun c => chunk k (a0.getD j 0 * C + c) w) _ hcC
  intro i hi
  exact block_length hl (h0 _ (getD_mem hj)) hi

/-- A 4-D tensor after directives for its first two dimensions, in whatever order and number. -/
theorem fold_pick {opt : OptKind} {upd : Bool} {ds : List Directive} {p p' : TParam} {O C kh kw : ℕ} {i0 i1 : List ℕ}
    (hs : p.data.shape = [O, C, kh, kw]) (hw : p.data.WF) (l0 : ∀ o ∈ i0, o < O) (l1 : ∀ c ∈ i1, c < C)
    (hds : ∀ d ∈ ds, (d = .two 0 i0 ∧ i0.length < O) ∨ (d = .two 1 i1 ∧ i1.length < C))
    (h0 : .two 0 i0 ∈ ds ∨ i0 = List.range O) (h1 : .two 1 i1 ∈ ds ∨ i1 = List.range C)
    (h : ds.foldlM (execDirective opt upd) p = .ok p') :
    p'.data = ⟨[i0.length, i1.length, kh, kw], pick C (kh * kw) p.data.data i0 i1⟩ := by
  have hl : p.data.data.length = O * (C * (kh * kw)) := by rw [hw, hs]; simp
  obtain ⟨s1, s2, s3⟩ := fold_two_shape (fun d hd => by
      rcases hds d hd with ⟨e, _⟩ | ⟨e, _⟩
      · exact ⟨0, i0, e⟩
      · exact ⟨1, i1, e⟩) (fun d hd d' hd' he => by
      rcases hds d hd with ⟨rfl, _⟩ | ⟨rfl, _⟩ <;> rcases hds d' hd' with ⟨rfl, _⟩ | ⟨rfl, _⟩
      · rfl
      · cases he
      · cases he
      · rfl) h
  have main := foldlM_preserves (P := fun q : TParam => ∃ a0 a1, (a0 = List.range O ∨ a0 = i0) ∧ (a1 = List.range C ∨ a1 = i1) ∧
      q.data = ⟨[a0.length, a1.length, kh, kw], pick C (kh * kw) p.data.data a0 a1⟩) ?_ ?_ h
  · obtain ⟨a0, a1, e0, e1, hq⟩ := main
    have f0 : a0 = i0 := by
      rcases h0 with hm | hm
      · rcases e0 with e0 | e0
        · have := s2 0 i0 hm
          rw [hq] at this
          simp [e0] at this
          rcases hds _ hm with ⟨_, hlt⟩ | ⟨e, _⟩
          · omega
          · cases e
        · exact e0
      · rcases e0 with e0 | e0
        · rw [e0, hm]
        · exact e0
    have f1 : a1 = i1 := by
      rcases h1 with hm | hm
      · rcases e1 with e1 | e1
        · have := s2 1 i1 hm
          rw [hq] at this
          simp [e1] at this
          rcases hds _ hm with ⟨e, _⟩ | ⟨_, hlt⟩
          · cases e
          · omega
        · exact e1
      · rcases e1 with e1 | e1
        · rw [e1, hm]
        · exact e1
    rw [hq, f0, f1]
  · intro q d q' hd ⟨a0, a1, e0, e1, hq⟩ hf
    have b0 : ∀ o ∈ a0, o < O := by
      rcases e0 with rfl | rfl
      · intro o ho; exact List.mem_range.1 ho
      · exact l0
    have b1 : ∀ c ∈ a1, c < C := by
      rcases e1 with rfl | rfl
      · intro o ho; exact List.mem_range.1 ho
      · exact l1
    have sel : ∀ {k : ℕ} {idx : List ℕ}, execDirective opt upd q (.two k idx) = .ok q' →
        ∃ n, q.data.shape[k]? = some n ∧ (n ≠ idx.length → q.data.indexSelect k idx = .ok q'.data) ∧
          (n = idx.length → q'.data = q.data) := by
      intro k idx hx
      obtain ⟨q1, q2, x1, x2, x3⟩ := exec_two_split hx
      obtain ⟨n, y1, _, _, _, _, _, y7, y8⟩ := dataThin_ok x1
      have e : q'.data = q1.data := by rw [(maskThin_ok x3).1, (gradThin_ok x2).1]
      refine ⟨n, y1, fun hne => by rw [e]; exact y7 hne, fun he => by rw [e, y8 he]⟩
    rcases hds d hd with ⟨rfl, hlt⟩ | ⟨rfl, hlt⟩
    · obtain ⟨n, y1, y2, y3⟩ := sel hf
      rw [hq] at y1; simp at y1; subst y1
      rcases e0 with e0 | e0
      · have hne : a0.length ≠ i0.length := by rw [e0, List.length_range]; omega
        obtain ⟨n, z1, _, z3, z4⟩ := indexSelect_ok (y2 hne)
        rw [hq] at z1 z3 z4
        simp at z1; subst z1
        refine ⟨i0, a1, Or.inr rfl, e1, ?_⟩
        have : q'.data = ⟨q'.data.shape, q'.data.data⟩ := rfl
        rw [this, z3, z4]
        simp only [List.set_cons_zero, List.take_zero, List.prod_nil, zero_add, List.drop_one, List.tail_cons]
        have e : [a1.length, kh, kw].prod = a1.length * (kh * kw) := by simp
        rw [e, e0, List.length_range, pick_sel0 hl l0 b1]
      · refine ⟨a0, a1, Or.inr e0, e1, ?_⟩
        rw [y3 (by rw [e0]), hq]
    · obtain ⟨n, y1, y2, y3⟩ := sel hf
      rw [hq] at y1; simp at y1; subst y1
      rcases e1 with e1 | e1
      · have hne : a1.length ≠ i1.length := by rw [e1, List.length_range]; omega
        obtain ⟨n, z1, _, z3, z4⟩ := indexSelect_ok (y2 hne)
        rw [hq] at z1 z3 z4
        simp at z1; subst z1
        refine ⟨a0, i1, e0, Or.inr rfl, ?_⟩
        have : q'.data = ⟨q'.data.shape, q'.data.data⟩ := rfl
        rw [this, z3, z4]
        have e : ([a0.length, a1.length, kh, kw].drop (1 + 1)).prod = kh * kw := by simp
        have e' : ([a0.length, a1.length, kh, kw].take 1).prod = a0.length := by simp
        rw [e, e', e1, List.length_range, pick_sel1 hl b0 l1]
        rfl
      · refine ⟨a0, a1, e0, Or.inr e1, ?_⟩
        rw [y3 (by rw [e1]), hq]
  · refine ⟨List.range O, List.range C, Or.inl rfl, Or.inl rfl, ?_⟩
    rw [pick_full hl]
    have : p.data = ⟨p.data.shape, p.data.data⟩ := rfl
    rw [this, hs]
    simp

theorem chunk_one {l : Tensor} {i : ℕ} (h : i < l.length) : chunk 1 i l = [l.getD i 0] := by
  unfold chunk
  rw [Nat.mul_one, List.drop_eq_getElem_cons h, List.take_succ_cons, List.take_zero, List.getD_eq_getElem?_getD,
    List.getElem?_eq_getElem h]
  rfl

theorem flatMap_chunk_one {l : Tensor} {idx : List ℕ} (h : ∀ i ∈ idx, i < l.length) :
    (idx.flatMap fun i => chunk 1 i l) = idx.map fun i => l.getD i 0 := by
  induction idx with
  | nil => rfl
  | cons i idx ih =>
    rw [List.flatMap_cons, List.map_cons, ih (fun j hj => h j (by simp [hj])), chunk_one (h i (by simp))]
    rfl

theorem sel1_data {t t' : ST} {n : ℕ} {idx : List ℕ} (hs : t.shape = [n]) (hw : t.WF) (h : t.indexSelect 0 idx = .ok t') :
    t' = ⟨[idx.length], idx.map fun i => t.data.getD i 0⟩ := by
  obtain ⟨n', z1, z2, z3, z4⟩ := indexSelect_ok h
  rw [hs] at z1 z3 z4
  simp at z1; subst z1
  have hl : t.data.length = n := by rw [hw, hs]; simp
  have : t' = ⟨t'.shape, t'.data⟩ := rfl
  rw [this, z3, z4]
  simp only [List.set_cons_zero, List.take_zero, List.prod_nil, zero_add, List.drop_one, List.tail_cons]
  rw [selFlat_one, flatMap_chunk_one (fun i hi => by rw [hl]; exact z2 i hi)]

theorem map_getD_range {l : Tensor} : ((List.range l.length).map fun i => l.getD i 0) = l := by
  apply List.ext_getElem
  · simp
  · intro i h1 h2; simp [List.getD_eq_getElem?_getD, List.getElem?_eq_getElem h2]

/-- A vector after directives for its only dimension. -/
theorem fold_pick1 {opt : OptKind} {upd : Bool} {ds : List Directive} {p p' : TParam} {O : ℕ} {i0 : List ℕ}
    (hs : p.data.shape = [O]) (hw : p.data.WF)
    (hds : ∀ d ∈ ds, d = .two 0 i0 ∧ i0.length < O) (h0 : .two 0 i0 ∈ ds ∨ i0 = List.range O)
    (h : ds.foldlM (execDirective opt upd) p = .ok p') :
    p'.data = ⟨[i0.length], i0.map fun i => p.data.data.getD i 0⟩ := by
  have hl : p.data.data.length = O := by rw [hw, hs]; simp
  have full : p.data = ⟨[(List.range O).length], (List.range O).map fun i => p.data.data.getD i 0⟩ := by
    rw [← hl, map_getD_range, List.length_range, hl, ← hs]
  obtain ⟨s1, s2, s3⟩ := fold_two_shape (fun d hd => ⟨0, i0, (hds d hd).1⟩)
    (fun d hd d' hd' _ => by rw [(hds d hd).1, (hds d' hd').1]) h
  have main := foldlM_preserves (P := fun q : TParam => q.data = p.data ∨
      q.data = ⟨[i0.length], i0.map fun i => p.data.data.getD i 0⟩) ?_ (Or.inl rfl) h
  · rcases main with e | e
    · rcases h0 with hm | hm
      · have := s2 0 i0 hm
        rw [e, hs] at this
        simp at this
        have := (hds _ hm).2
        omega
      · rw [e, hm]; exact full
    · exact e
  · intro q d q' hd hP hf
    obtain ⟨rfl, hlt⟩ := hds d hd
    obtain ⟨q1, q2, x1, x2, x3⟩ := exec_two_split hf
    obtain ⟨n, y1, _, _, _, _, _, y7, y8⟩ := dataThin_ok x1
    have e : q'.data = q1.data := by rw [(maskThin_ok x3).1, (gradThin_ok x2).1]
    rcases hP with hP | hP
    · rw [hP, hs] at y1
      simp at y1; subst y1
      have := y7 (by omega)
      rw [hP] at this
      exact Or.inr (by rw [e]; exact sel1_data hs hw this)
    · rw [hP] at y1
      simp at y1; subst y1
      exact Or.inr (by rw [e, y8 rfl, hP])

/-- The dot product of a row with the feature maps it sees is unchanged when zero maps are left out. -/
theorem row_dot {P : Type} {O C k : ℕ} {w : Tensor} (hl : w.length = O * (C * k)) {o : ℕ} (ho : o < O)
    {i1 : List ℕ} {q : ℕ → Bool} (hi : i1 = (List.range C).filter q) {xs : List (P → ℚ)} (hx : xs.length = C)
    (hz : ∀ c < C, c ∉ i1 → ∀ p, xs.getD c (fun _ => 0) p = 0) {win : List (Option P)} (hwin : win.length = k) :
    dotK (i1.flatMap fun c => chunk k (o * C + c) w)
      ((i1.map fun c => xs.getD c (fun _ => 0)).flatMap fun f => win.map fun p => p.elim 0 f) =
    dotK (chunk (C * k) o w) (xs.flatMap fun f => win.map fun p => p.elim 0 f) := by
  have hlt : ∀ c ∈ i1, c < C := by
    intro c hc; rw [hi] at hc; exact List.mem_range.1 (List.mem_filter.1 hc).1
  have hxs : (xs.flatMap fun f => win.map fun p => p.elim 0 f) =
      (List.range C).flatMap fun c => win.map fun p => p.elim 0 (xs.getD c (fun _ => 0)) := by
    have : xs = (List.range C).map fun c => xs.getD c (fun _ => 0) := by
      apply List.ext_getElem
      · simp [hx]
      · intro i h1 h2; simp [List.getD_eq_getElem?_getD, List.getElem?_eq_getElem h1]
    conv_lhs => rw [this]
    rw [List.flatMap_map]
  rw [hxs, chunk_split hl ho, List.flatMap_map,
    dotK_flatMap _ _ _ (fun c hc => by rw [block_length hl ho (hlt c hc), List.length_map, hwin]),
    dotK_flatMap _ _ _ (fun c hc => by rw [block_length hl ho (List.mem_range.1 hc), List.length_map, hwin])]
  conv_lhs => rw [hi]
  apply sum_filter_zero
  intro c hc hq
  apply dotK_zero_right
  intro y hy
  obtain ⟨p, _, rfl⟩ := List.mem_map.1 hy
  cases p with
  | none => rfl
  | some p =>
    refine hz c (List.mem_range.1 hc) ?_ p
    rw [hi, List.mem_filter]
    rintro ⟨_, h⟩
    rw [hq] at h; cases h

end Verif
