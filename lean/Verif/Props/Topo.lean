import Verif.Props.Graph
/-!
# C75: `layers_topological_order`
-/
namespace Verif

/-- Successors recorded in the adjacency map. -/
def AdjMap.S (m : AdjMap) (a : String) : List String := ((m.get? a).map AdjEntry.succs).getD []
/-- Predecessors recorded in the adjacency map. -/
def AdjMap.P (m : AdjMap) (a : String) : List String := ((m.get? a).map AdjEntry.preds).getD []

/-- What `C74_map` guarantees about every adjacency map: no duplicate keys, the neighbours are
keys, and predecessor and successor lists agree. -/
structure AdjMap.Consistent (m : AdjMap) : Prop where
  nodup : m.Nodup
  succKey : ∀ a b, b ∈ m.S a → m.has b = true
  predKey : ∀ a b, b ∈ m.P a → m.has b = true
  sym : ∀ a b, m.has a = true → m.has b = true → (b ∈ m.S a ↔ a ∈ m.P b)

/-- The graph has no cycle: some numbering decreases along every edge. -/
def AdjMap.Acyclic (m : AdjMap) (h : String → Nat) : Prop := ∀ a b, b ∈ m.S a → h b < h a

theorem foldlM_total' {ε σ α : Type} {f : σ → α → Except ε σ} {P : List α → σ → Prop} {l : List α}
    (h : ∀ pre s a, a ∈ l → P pre s → ∃ s', f s a = .ok s' ∧ P (pre ++ [a]) s') (s : σ) (pre : List α) (hs : P pre s) :
    ∃ s', l.foldlM f s = .ok s' ∧ P (pre ++ l) s' := by
  induction l generalizing s pre with
  | nil => exact ⟨s, rfl, by simpa using hs⟩
  | cons a l ih =>
    obtain ⟨s1, h1, p1⟩ := h pre s a (by simp) hs
    obtain ⟨s2, h2, p2⟩ := ih (fun pre s b hb => h pre s b (List.mem_cons_of_mem _ hb)) s1 _ p1
    exact ⟨s2, by rw [List.foldlM_cons, h1]; exact h2, by simpa using p2⟩

/-- Rank of a node, 0 when missing. -/
def rk0 (rk : Dict String Nat) (x : String) : Nat := (rk.get? x).getD 0

/-- The ranks are right at `a`: every successor ranks strictly higher. -/
def RankOk (m : AdjMap) (rk : Dict String Nat) (a : String) : Prop := ∀ b ∈ m.S a, rk0 rk a + 1 ≤ rk0 rk b

structure RankPost (m : AdjMap) (h : String → Nat) (v : String) (r : Nat) (rk rk' : Dict String Nat) : Prop where
  keys : ∀ x, rk'.has x = rk.has x
  mono : ∀ x, rk0 rk x ≤ rk0 rk' x
  ge : r ≤ rk0 rk' v
  frame : ∀ x, rk0 rk' x ≠ rk0 rk x → x = v ∨ h x < h v
  ok : ∀ a, RankOk m rk a ∨ rk0 rk' a ≠ rk0 rk a ∨ Relation.ReflTransGen (fun x y => y ∈ m.S x) v a → RankOk m rk' a

theorem rankOp_post (m : AdjMap) (hc : m.Consistent) (h : String → Nat) (ha : m.Acyclic h) :
    ∀ (fuel : Nat) (v : String) (r : Nat) (rk : Dict String Nat), h v < fuel → m.has v = true →
      (∀ x, rk.has x = m.has x) → ∃ rk', rankOp m false fuel rk v r = .ok rk' ∧ RankPost m h v r rk rk' := by
  intro fuel
  induction fuel with
  | zero => intro v r rk h1; omega
  | succ fuel ih =>
    intro v r rk hfuel hv hk
    obtain ⟨r0, hr0⟩ : ∃ r0, rk.get? v = some r0 := by
      have := hk v; rw [hv] at this
      exact Option.isSome_iff_exists.1 this
    obtain ⟨e, he⟩ : ∃ e, m.get? v = some e := Option.isSome_iff_exists.1 hv
    have hS : m.S v = e.succs := by simp [AdjMap.S, he]
    unfold rankOp
    simp only [setRank, hr0, AdjMap.succsOf, he, Bool.false_eq_true, if_false]
    generalize hrk1 : rk.set v (max r r0) = rk1
    have k1 : ∀ x, rk1.has x = rk.has x := by
      intro x; subst hrk1
      unfold Dict.has; rw [Dict.get?_set]
      by_cases hx : v = x
      · subst hx; simp [hr0]
      · simp [hx]
    have g1 : ∀ x, rk0 rk1 x = if v = x then max r r0 else rk0 rk x := by
      intro x; subst hrk1; unfold rk0; rw [Dict.get?_set]; split <;> simp
    have g1v : rk0 rk1 v = max r r0 := by rw [g1]; simp
    have g0v : rk0 rk v = r0 := by simp [rk0, hr0]
    have m1 : ∀ x, rk0 rk x ≤ rk0 rk1 x := by
      intro x; rw [g1]; split
      · rename_i hx; subst hx; rw [g0v]; exact le_max_right _ _
      · exact le_refl _
    -- ranks other than v's are right after the update whenever they were right before
    have ok1 : ∀ a, a ≠ v → RankOk m rk a → RankOk m rk1 a := by
      intro a hav hok b hb
      have := hok b hb
      have e1 : rk0 rk1 a = rk0 rk a := by rw [g1, if_neg (fun h => hav h.symm)]
      have := m1 b
      omega
    obtain ⟨rk', hrk', hP⟩ := foldlM_total'
      (P := fun pre rk' => (∀ x, rk'.has x = rk.has x) ∧ (∀ x, rk0 rk1 x ≤ rk0 rk' x) ∧ rk0 rk' v = rk0 rk1 v ∧
        (∀ x, rk0 rk' x ≠ rk0 rk1 x → h x < h v) ∧
        (∀ a, a ≠ v → (RankOk m rk1 a ∨ rk0 rk' a ≠ rk0 rk1 a) → RankOk m rk' a) ∧
        (∀ c ∈ pre, rk0 rk1 v + 1 ≤ rk0 rk' c ∧ ∀ a, Relation.ReflTransGen (fun x y => y ∈ m.S x) c a → RankOk m rk' a))
      (f := fun rk c => rankOp m false fuel rk c ((rk.get? v).getD 0 + 1)) (l := e.succs) (by
        intro pre s c hcm hPs
        obtain ⟨p1, p2, p3, p4, p5, p6⟩ := hPs
        have hcv : h c < h v := ha v c (by rw [hS]; exact hcm)
        obtain ⟨s', hs', Q⟩ := ih c ((s.get? v).getD 0 + 1) s (by omega) (hc.succKey v c (by rw [hS]; exact hcm))
          (fun x => (p1 x).trans (hk x))
        have hvs : rk0 s' v = rk0 s v := by
          by_contra hne
          rcases Q.frame v hne with hh | hh
          · rw [← hh] at hcv; omega
          · omega
        refine ⟨s', hs', fun x => (Q.keys x).trans (p1 x), fun x => (p2 x).trans (Q.mono x), hvs.trans p3, ?_, ?_, ?_⟩
        · intro x hx
          by_cases hx1 : rk0 s' x = rk0 s x
          · exact p4 x (by rw [← hx1]; exact hx)
          · rcases Q.frame x hx1 with hh | hh
            · subst hh; exact hcv
            · omega
        · intro a hav hor
          by_cases hx1 : rk0 s' a = rk0 s a
          · refine Q.ok a (.inl (p5 a hav ?_))
            rcases hor with hh | hh
            · exact .inl hh
            · exact .inr (by rw [← hx1]; exact hh)
          · exact Q.ok a (.inr (.inl hx1))
        · intro c' hc'
          rcases List.mem_append.1 hc' with hc' | hc'
          · obtain ⟨q1, q2⟩ := p6 c' hc'
            exact ⟨q1.trans (Q.mono c'), fun a hR => Q.ok a (.inl (q2 a hR))⟩
          · simp only [List.mem_singleton] at hc'
            subst hc'
            refine ⟨?_, fun a hR => Q.ok a (.inr (.inr hR))⟩
            have := Q.ge
            rw [← p3]; exact this) rk1 [] ⟨k1, fun x => le_refl _, rfl, fun x hx => absurd rfl hx,
              fun a hav hor => by
                rcases hor with hh | hh
                · exact hh
                · exact absurd rfl hh, by simp⟩
    obtain ⟨p1, p2, p3, p4, p5, p6⟩ := hP
    rw [List.nil_append] at p6
    have okv : RankOk m rk' v := by
      intro b hb
      rw [hS] at hb
      rw [p3]; exact (p6 b hb).1
    refine ⟨rk', hrk', p1, fun x => (m1 x).trans (p2 x), by rw [p3, g1v]; exact le_max_left _ _, ?_, ?_⟩
    · intro x hx
      by_cases hxv : x = v
      · exact .inl hxv
      · refine .inr (p4 x ?_)
        rw [g1, if_neg (fun h => hxv h.symm)]; exact hx
    · intro a hor
      by_cases hav : a = v
      · subst hav; exact okv
      · rcases hor with hh | hh | hh
        · exact p5 a hav (.inl (ok1 a hav hh))
        · exact p5 a hav (.inr (by rw [g1, if_neg (fun h => hav h.symm)]; exact hh))
        · rcases Relation.ReflTransGen.cases_head hh with hh | ⟨c, hc1, hc2⟩
          · exact absurd hh.symm hav
          · exact (p6 c (by rw [← hS]; exact hc1)).2 a hc2

/-- In an acyclic graph every operation is reached from an operation without predecessors. -/
theorem reach_root (m : AdjMap) (hc : m.Consistent) (h : String → Nat) (ha : m.Acyclic h) (H : Nat)
    (hH : ∀ a, m.has a = true → h a ≤ H) : ∀ (n : Nat) (a : String), m.has a = true → H - h a ≤ n →
      ∃ r, m.has r = true ∧ m.P r = [] ∧ Relation.ReflTransGen (fun x y => y ∈ m.S x) r a := by
  intro n
  induction n with
  | zero =>
    intro a hka hn
    refine ⟨a, hka, ?_, .refl⟩
    by_contra hne
    obtain ⟨p, hp⟩ := List.exists_mem_of_ne_nil _ hne
    have hkp := hc.predKey a p hp
    have := ha p a ((hc.sym p a hkp hka).2 hp)
    have := hH p hkp
    omega
  | succ n ih =>
    intro a hka hn
    by_cases hne : m.P a = []
    · exact ⟨a, hka, hne, .refl⟩
    · obtain ⟨p, hp⟩ := List.exists_mem_of_ne_nil _ hne
      have hkp := hc.predKey a p hp
      have hS := (hc.sym p a hkp hka).2 hp
      have h1 := ha p a hS
      have h2 := hH p hkp
      obtain ⟨r, r1, r2, r3⟩ := ih p hkp (by omega)
      exact ⟨r, r1, r2, r3.tail hS⟩

theorem roots_mem (m : AdjMap) (hn : m.Nodup) (a : String) :
    a ∈ (m.filter (fun kv => decide (kv.2.preds = []))).map Prod.fst ↔ m.has a = true ∧ m.P a = [] := by
  simp only [List.mem_map, List.mem_filter, decide_eq_true_eq]
  constructor
  · rintro ⟨⟨k, e⟩, ⟨h1, h2⟩, rfl⟩
    have := Dict.get?_of_mem hn h1
    simp only at h2
    simp [Dict.has, AdjMap.P, this, h2]
  · rintro ⟨h1, h2⟩
    obtain ⟨e, he⟩ := Option.isSome_iff_exists.1 h1
    exact ⟨(a, e), ⟨Dict.mem_of_get? he, by simpa [AdjMap.P, he] using h2⟩, rfl⟩

theorem has_iff_keys (m : AdjMap) (a : String) : m.has a = true ↔ a ∈ m.keys := Dict.get?_isSome_iff m a

/-- C75: on every acyclic graph the ordering succeeds (the recursion depth is bounded by the
length of the longest path), lists exactly the operations that are modules of the model, each once,
and never lists an operation before one it depends on, directly or indirectly. -/
theorem C75_topological (m : AdjMap) (hc : m.Consistent) (h : String → Nat) (ha : m.Acyclic h)
    (fuel : Nat) (hfuel : ∀ a, m.has a = true → h a < fuel) (isMod : String → Bool) :
    ∃ ret, topoOrder m isMod false fuel = .ok ret ∧ ret.Perm (m.keys.filter isMod) ∧
      ret.Pairwise (fun x y => ¬ Relation.TransGen (fun a b => b ∈ m.S a) y x) := by
  unfold topoOrder
  simp only []
  generalize hroots : (m.filter (fun kv => decide (kv.2.preds = []))).map Prod.fst = roots
  have hrm : ∀ a, a ∈ roots ↔ m.has a = true ∧ m.P a = [] := fun a => hroots ▸ roots_mem m hc.nodup a
  have hk0 : ∀ x, Dict.has (m.mapVals (fun _ _ => 0)) x = m.has x := by
    intro x
    apply Bool.eq_iff_iff.2
    unfold Dict.has
    rw [Dict.get?_isSome_iff, Dict.get?_isSome_iff]
    simp [Dict.mapVals, Function.comp_def]
  obtain ⟨rk, hrk, hP⟩ := foldlM_total'
    (P := fun pre rk => (∀ x, rk.has x = m.has x) ∧ ∀ r ∈ pre, ∀ a,
      Relation.ReflTransGen (fun x y => y ∈ m.S x) r a → RankOk m rk a)
    (f := fun rk v => rankOp m false fuel rk v 0) (l := roots) (by
      intro pre s v hv hPs
      have hkv := ((hrm v).1 hv).1
      obtain ⟨s', hs', Q⟩ := rankOp_post m hc h ha fuel v 0 s (hfuel v hkv) hkv hPs.1
      refine ⟨s', hs', fun x => (Q.keys x).trans (hPs.1 x), ?_⟩
      intro r hr a hR
      rcases List.mem_append.1 hr with hr | hr
      · exact Q.ok a (.inl (hPs.2 r hr a hR))
      · simp only [List.mem_singleton] at hr
        subst hr
        exact Q.ok a (.inr (.inr hR))) (m.mapVals (fun _ _ => 0)) [] ⟨hk0, by simp⟩
  rw [List.nil_append] at hP
  rw [hrk]
  simp only []
  have hall : ∀ a, m.has a = true → RankOk m rk a := by
    intro a hka
    obtain ⟨r, r1, r2, r3⟩ := reach_root m hc h ha fuel (fun a h => (hfuel a h).le) (fuel - h a) a hka (le_refl _)
    exact hP.2 r ((hrm r).2 ⟨r1, r2⟩) a r3
  have hall' : ∀ a, RankOk m rk a := by
    intro a
    by_cases hka : m.has a = true
    · exact hall a hka
    · intro b hb
      have : m.get? a = none := by simpa [Dict.has] using hka
      simp [AdjMap.S, this] at hb
  generalize hret : (m.keys.filter isMod).insertionSort (fun a b => (rk.get? a).getD 0 ≤ (rk.get? b).getD 0) = ret
  have hperm : ret.Perm (m.keys.filter isMod) := hret ▸ List.perm_insertionSort _ _
  have hsort : ret.Pairwise (fun a b => (rk.get? a).getD 0 ≤ (rk.get? b).getD 0) := by
    rw [← hret]
    have : Std.Total (fun a b : String => (rk.get? a).getD 0 ≤ (rk.get? b).getD 0) := ⟨fun a b => le_total _ _⟩
    have : IsTrans String (fun a b : String => (rk.get? a).getD 0 ≤ (rk.get? b).getD 0) := ⟨fun a b c h1 h2 => le_trans h1 h2⟩
    exact List.pairwise_insertionSort _ _
  rw [if_pos ?_]
  · refine ⟨ret, rfl, hperm, hsort.imp ?_⟩
    intro x y hxy hT
    have : ∀ a b, Relation.TransGen (fun a b => b ∈ m.S a) a b → rk0 rk a < rk0 rk b := by
      intro a b hab
      induction hab with
      | single h1 => exact hall' _ _ h1
      | tail _ h2 ih => exact ih.trans (hall' _ _ h2)
    have := this y x hT
    unfold rk0 at this
    omega
  · intro k hk hz
    have hkm : m.has k = true := by
      rw [has_iff_keys]
      exact (List.mem_filter.1 (hperm.subset hk)).1
    refine (hrm k).2 ⟨hkm, ?_⟩
    by_contra hne
    obtain ⟨p, hp⟩ := List.exists_mem_of_ne_nil _ hne
    have hkp := hc.predKey k p hp
    have := hall p hkp k ((hc.sym p k hkp hkm).2 hp)
    unfold rk0 at this
    omega

/-- A residual block: conv1 → relu → {conv2, add}, conv2 → add → fc. -/
def gRes : SGraph where
  ops := [("conv1", "Conv"), ("relu", "Relu"), ("conv2", "Conv"), ("add", "Add"), ("fc", "Gemm")]
  params := ["t1", "t2", "t3", "t4", "t5"]
  edges := [("conv1", "t1"), ("t1", "relu"), ("relu", "t2"), ("t2", "add"), ("t2", "conv2"), ("conv2", "t3"),
    ("t3", "add"), ("add", "t4"), ("t4", "fc"), ("fc", "t5")]

theorem buildAdj_nodup_aux (f : String → AdjEntry) (l : List String) (m0 : AdjMap) (h : m0.Nodup) :
    (l.foldl (fun m n => Dict.set m n (f n)) m0).Nodup := by
  induction l generalizing m0 with
  | nil => exact h
  | cons a l ih =>
    rw [List.foldl_cons]
    exact ih _ (Dict.nodup_set h _ _)

/-- The adjacency map of every traced graph is consistent, so C75 applies to it. -/
theorem C75_adjacency_consistent (g : SGraph) (hb : Bipartite g) (ded : String → Bool) :
    AdjMap.Consistent (g.adjacencyMap ded false none).1 := by
  have hm : (g.adjacencyMap ded false none).1 = g.buildAdj ded false := rfl
  obtain ⟨m1, m2, m3⟩ := C74_map g hb ded
  simp only [hm] at m1 m2 m3 ⊢
  have he : ∀ a b, Feeds g a b → (b ∈ g.ops.map Prod.fst ↔ a ∈ g.ops.map Prod.fst) := by
    rintro a b ⟨t, h1, h2⟩
    rcases hb.2 a t h1 with h3 | h3 <;> rcases hb.2 t b h2 with h4 | h4
    · exact absurd h3.2 (hb.1 t h4.1)
    · exact ⟨fun _ => h3.1, fun _ => h4.2⟩
    · constructor
      · intro h; exact absurd h4.2 (hb.1 b h)
      · intro h; exact absurd h3.1 (hb.1 a h)
    · exact absurd h4.1 (hb.1 t h3.2)
  refine ⟨?_, ?_, ?_, ?_⟩
  · unfold SGraph.buildAdj
    exact buildAdj_nodup_aux (fun n => ⟨(g.pred2 n).filter _, (g.succ2 n).filter _⟩) _ _ (by simp [Dict.Nodup])
  · intro a b hbS
    cases hx : (g.buildAdj ded false).get? a with
    | none => simp [AdjMap.S, hx] at hbS
    | some e =>
      have : b ∈ e.succs := by simpa [AdjMap.S, hx] using hbS
      rw [m1]
      exact (he a b ((m2 a e hx b).1.1 this)).2 ((m1 a).1 (by simp [Dict.has, hx]))
  · intro a b hbS
    cases hx : (g.buildAdj ded false).get? a with
    | none => simp [AdjMap.P, hx] at hbS
    | some e =>
      have : b ∈ e.preds := by simpa [AdjMap.P, hx] using hbS
      rw [m1]
      exact (he b a ((m2 a e hx b).2.1 this)).1 ((m1 a).1 (by simp [Dict.has, hx]))
  · intro a b ha hb'
    obtain ⟨ea, hea⟩ := Option.isSome_iff_exists.1 ha
    obtain ⟨eb, heb⟩ := Option.isSome_iff_exists.1 hb'
    have := m3 a b ea eb hea heb
    simpa [AdjMap.S, AdjMap.P, hea, heb] using this

/-- C75, stated on the graph: for every traced graph without cycles the order lists exactly the
operations that are modules and never puts an operation before one that (transitively) feeds it. -/
theorem C75_graph (g : SGraph) (hb : Bipartite g) (ded : String → Bool) (h : String → Nat)
    (hacyc : ∀ a b, (a, b) ∈ g.edges → h b < h a) (fuel : Nat) (hfuel : ∀ a ∈ g.ops.map Prod.fst, h a < fuel)
    (isMod : String → Bool) :
    ∃ ret, topoOrder (g.adjacencyMap ded false none).1 isMod false fuel = .ok ret ∧ ret.Nodup ∧
      (∀ x, x ∈ ret ↔ x ∈ g.ops.map Prod.fst ∧ isMod x = true) ∧
      ret.Pairwise (fun x y => ¬ Relation.TransGen (Feeds g) y x) := by
  obtain ⟨m1, m2, m3⟩ := C74_map g hb ded
  have hc := C75_adjacency_consistent g hb ded
  generalize (g.adjacencyMap ded false none).1 = m at *
  have hS : ∀ a b, b ∈ m.S a → Feeds g a b := by
    intro a b hab
    cases hx : m.get? a with
    | none => simp [AdjMap.S, hx] at hab
    | some e => exact (m2 a e hx b).1.1 (by simpa [AdjMap.S, hx] using hab)
  have hS' : ∀ a b, m.has a = true → Feeds g a b → b ∈ m.S a := by
    intro a b ha hF
    obtain ⟨e, he⟩ := Option.isSome_iff_exists.1 ha
    simpa [AdjMap.S, he] using (m2 a e he b).1.2 hF
  obtain ⟨ret, h1, h2, h3⟩ := C75_topological m hc h (by
    intro a b hab
    obtain ⟨t, ht1, ht2⟩ := hS a b hab
    exact (hacyc t b ht2).trans (hacyc a t ht1)) fuel (fun a ha => hfuel a ((m1 a).1 ha)) isMod
  have hmem : ∀ x, x ∈ ret ↔ x ∈ g.ops.map Prod.fst ∧ isMod x = true := by
    intro x
    rw [h2.mem_iff, List.mem_filter, ← has_iff_keys, m1]
  refine ⟨ret, h1, h2.nodup_iff.2 (List.Nodup.filter _ hc.nodup), hmem, ?_⟩
  refine h3.imp_of_mem ?_
  intro x y hx hy hn hT
  apply hn
  have hky : m.has y = true := (m1 y).2 ((hmem y).1 hy).1
  -- along the path all nodes are operations
  have : ∀ z, Relation.TransGen (Feeds g) y z → Relation.TransGen (fun a b => b ∈ m.S a) y z ∧ m.has z = true := by
    intro z hz
    induction hz with
    | single h => exact ⟨.single (hS' _ _ hky h), hc.succKey _ _ (hS' _ _ hky h)⟩
    | tail _ h ih => exact ⟨ih.1.tail (hS' _ _ ih.2 h), hc.succKey _ _ (hS' _ _ ih.2 h)⟩
  exact (this x hT).1

example : ∃ h : String → Nat, AdjMap.Acyclic (gRes.adjacencyMap (fun _ => true) false none).1 h ∧
    topoOrder (gRes.adjacencyMap (fun _ => true) false none).1 (fun n => decide (n ≠ "add")) false 6 =
      .ok ["conv1", "relu", "conv2", "fc"] := by
  refine ⟨fun n => if n = "conv1" then 4 else if n = "relu" then 3 else if n = "conv2" then 2 else if n = "add" then 1 else 0, ?_, by decide +kernel⟩
  intro a b hab
  have key : ∀ kv ∈ (gRes.adjacencyMap (fun _ => true) false none).1, ∀ b ∈ kv.2.succs,
      (fun n : String => if n = "conv1" then 4 else if n = "relu" then 3 else if n = "conv2" then 2 else if n = "add" then 1 else 0) b <
      (fun n : String => if n = "conv1" then 4 else if n = "relu" then 3 else if n = "conv2" then 2 else if n = "add" then 1 else 0) kv.1 := by
    decide +kernel
  unfold AdjMap.S at hab
  cases hx : (gRes.adjacencyMap (fun _ => true) false none).1.get? a with
  | none => simp [hx] at hab
  | some e => exact key (a, e) (Dict.mem_of_get? hx) b (by simpa [hx] using hab)

/-- A recurrent graph: `inp` feeds `a`, and `a` and `b` feed each other. -/
def mLoop : AdjMap := [("inp", ⟨[], ["a"]⟩), ("a", ⟨["inp", "b"], ["b"]⟩), ("b", ⟨["a"], ["a"]⟩)]

theorem isDescendant_loop (fuel : Nat) : isDescendant mLoop fuel "a" "inp" = .error .runtime ∧
    isDescendant mLoop fuel "b" "inp" = .error .runtime := by
  induction fuel with
  | zero => exact ⟨rfl, rfl⟩
  | succ fuel ih =>
    constructor
    · unfold isDescendant
      have : mLoop.succsOf "a" = .ok ["b"] := by decide +kernel
      rw [this]
      simp only [List.mem_singleton, List.foldlM_cons]
      rw [if_neg (by decide)]
      simp only [Bool.false_eq_true, if_false, ih.2]; rfl
    · unfold isDescendant
      have : mLoop.succsOf "b" = .ok ["a"] := by decide +kernel
      rw [this]
      simp only [List.mem_singleton, List.foldlM_cons]
      rw [if_neg (by decide)]
      simp only [Bool.false_eq_true, if_false, ih.1]; rfl

theorem setRank_some (rk : Dict String Nat) (v : String) (r r0 : Nat) (h : rk.get? v = some r0) :
    setRank rk v r = .ok (rk.set v (max r r0)) := by simp [setRank, h]

/-- C75 is violated on recurrent graphs: with `recurrent=True`, the flag made for them, the
descendant test runs round the cycle for ever, whatever the recursion limit. -/
theorem C75_violated_recurrent : ∃ m : AdjMap, m.Consistent ∧ ∀ (fuel : Nat) (isMod : String → Bool),
    topoOrder m isMod true fuel = .error .runtime := by
  refine ⟨mLoop, ?_, ?_⟩
  · have hS : ∀ a, mLoop.S a = if a = "inp" then ["a"] else if a = "a" then ["b"] else if a = "b" then ["a"] else [] := by
      intro a; unfold AdjMap.S mLoop
      simp only [Dict.get?_cons, Dict.get?_nil]
      by_cases h1 : a = "inp"
      · subst h1; rfl
      · by_cases h2 : a = "a"
        · subst h2; rfl
        · by_cases h3 : a = "b"
          · subst h3; rfl
          · simp [h1, h2, h3, eq_comm]
    have hP : ∀ a, mLoop.P a = if a = "inp" then [] else if a = "a" then ["inp", "b"] else if a = "b" then ["a"] else [] := by
      intro a; unfold AdjMap.P mLoop
      simp only [Dict.get?_cons, Dict.get?_nil]
      by_cases h1 : a = "inp"
      · subst h1; rfl
      · by_cases h2 : a = "a"
        · subst h2; rfl
        · by_cases h3 : a = "b"
          · subst h3; rfl
          · simp [h1, h2, h3, eq_comm]
    have hk : ∀ a, mLoop.has a = true ↔ a = "inp" ∨ a = "a" ∨ a = "b" := by
      intro a; rw [has_iff_keys]; simp [mLoop, Dict.keys]
    refine ⟨by unfold Dict.Nodup; decide +kernel, ?_, ?_, ?_⟩
    · intro a b hb
      rw [hS] at hb; rw [hk]
      split at hb <;> (try split at hb) <;> (try split at hb) <;> simp_all
    · intro a b hb
      rw [hP] at hb; rw [hk]
      split at hb <;> (try split at hb) <;> (try split at hb) <;> simp_all
      rcases hb with hb | hb <;> simp [hb]
    · intro a b ha hb
      rw [hk] at ha hb
      rw [hS, hP]
      rcases ha with rfl | rfl | rfl <;> rcases hb with rfl | rfl | rfl <;> decide +kernel
  · intro fuel isMod
    unfold topoOrder
    simp only []
    have e1 : (mLoop.filter (fun kv => decide (kv.2.preds = []))).map Prod.fst = ["inp"] := by decide +kernel
    rw [e1]
    have : rankOp mLoop true fuel (mLoop.mapVals (fun _ _ => 0)) "inp" 0 = .error .runtime := by
      cases fuel with
      | zero => rfl
      | succ fuel =>
        unfold rankOp
        have h1 : mLoop.succsOf "inp" = .ok ["a"] := by decide +kernel
        rw [setRank_some _ _ _ 0 (by decide +kernel), h1]
        simp only [List.foldlM_cons, if_true, recurrentAncestor, (isDescendant_loop fuel).1]; rfl
    simp only [List.foldlM_cons, this]; rfl

end Verif
