import Verif.Lemmas.Graph
/-!
# C51, C74: graph searches

Specification vocabulary: nodes, typed operations and paths, independent of the search code.
-/
namespace Verif

/-- `x` is an operation or a data node of the graph. -/
def IsNode (g : SGraph) (x : String) : Prop := x ∈ g.ops.map Prod.fst ∨ x ∈ g.params

/-- `x` is an operation whose type is in `types`. -/
def IsOpOf (g : SGraph) (types : List String) (x : String) : Prop := ∃ t, (x, t) ∈ g.ops ∧ t ∈ types

/-- One step out of a node that is not of the requested types. -/
def StepThrough (g : SGraph) (types : List String) (a b : String) : Prop :=
  (a, b) ∈ g.edges ∧ IsNode g a ∧ ¬ IsOpOf g types a

/-- The nearest operations of the requested types after `v`: reached from `v` by a non-empty path
whose interior nodes are not of these types. -/
def NearestAfter (g : SGraph) (types : List String) (v x : String) : Prop :=
  x ≠ v ∧ IsOpOf g types x ∧ ∃ c, (v, c) ∈ g.edges ∧ Relation.ReflTransGen (StepThrough g types) c x

/-- The mirror image: against the edges. -/
def StepBack (g : SGraph) (types : List String) (a b : String) : Prop :=
  (b, a) ∈ g.edges ∧ IsNode g a ∧ ¬ IsOpOf g types a

def NearestBefore (g : SGraph) (types : List String) (v x : String) : Prop :=
  x ≠ v ∧ IsOpOf g types x ∧ ∃ c, (c, v) ∈ g.edges ∧ Relation.ReflTransGen (StepBack g types) c x

theorem SGraph.found_iff (g : SGraph) (x : String) : g.found x = true ↔ IsNode g x := by
  unfold SGraph.found IsNode Dict.has
  rw [Bool.or_eq_true, Dict.get?_isSome_iff, decide_eq_true_eq]

theorem SGraph.hits_iff (g : SGraph) (hn : g.ops.Nodup) (types : List String) (x : String) :
    g.hits types x = true ↔ IsOpOf g types x := by
  unfold SGraph.hits IsOpOf
  cases hx : g.ops.get? x with
  | none =>
    have := (Dict.get?_eq_none_iff g.ops x).1 hx
    simp only [Bool.false_eq_true, false_iff]
    rintro ⟨t, ht, _⟩
    exact this (List.mem_map.2 ⟨_, ht, rfl⟩)
  | some t =>
    simp only [decide_eq_true_eq]
    constructor
    · intro h; exact ⟨t, Dict.mem_of_get? hx, h⟩
    · rintro ⟨t', ht', h⟩
      have := Dict.get?_of_mem hn ht'
      rw [hx] at this; cases this; exact h

theorem SGraph.mem_next (g : SGraph) (a b : String) : b ∈ g.next a ↔ (a, b) ∈ g.edges := by
  unfold SGraph.next
  simp only [List.mem_map, List.mem_filter, decide_eq_true_eq]
  constructor
  · rintro ⟨⟨x, y⟩, ⟨h1, h2⟩, h3⟩; simp only at h2 h3; subst h2 h3; exact h1
  · intro h; exact ⟨(a, b), ⟨h, rfl⟩, rfl⟩

theorem SGraph.mem_prev (g : SGraph) (a b : String) : b ∈ g.prev a ↔ (b, a) ∈ g.edges := by
  unfold SGraph.prev
  simp only [List.mem_map, List.mem_filter, decide_eq_true_eq]
  constructor
  · rintro ⟨⟨x, y⟩, ⟨h1, h2⟩, h3⟩; simp only at h2 h3; subst h2 h3; exact h1
  · intro h; exact ⟨(b, a), ⟨h, rfl⟩, rfl⟩

theorem isNode_of_isOpOf {g : SGraph} {types : List String} {x : String} (h : IsOpOf g types x) : IsNode g x := by
  obtain ⟨t, ht, _⟩ := h
  exact .inl (List.mem_map.2 ⟨_, ht, rfl⟩)

/-- The search over an arbitrary direction. -/
theorem search_spec (g : SGraph) (hn : g.ops.Nodup) (types : List String) (nx : String → List String)
    (v : String) (hv : IsNode g v) (fuel : Nat) (hfuel : g.ops.length + g.params.length + 2 ≤ fuel) :
    ∃ ret, (searchF nx g.found (g.hits types) fuel v []).map Prod.fst = .ok ret ∧
      ∀ x, x ∈ ret ↔ x ≠ v ∧ IsOpOf g types x ∧ ∃ c ∈ nx v,
        Relation.ReflTransGen (fun a b => b ∈ nx a ∧ IsNode g a ∧ ¬ IsOpOf g types a) c x := by
  obtain ⟨r, hr, _⟩ := searchF_total (nx := nx) (hit := g.hits types) (U := g.ops.map Prod.fst ++ g.params)
    (fun v h => by
      rcases (g.found_iff v).1 h with h | h
      · exact List.mem_append_left _ h
      · exact List.mem_append_right _ h) fuel v [] (by
      have : freshCount (g.ops.map Prod.fst ++ g.params) ([] ++ [v]) ≤ (g.ops.map Prod.fst ++ g.params).length :=
        List.length_filter_le _ _
      simp at this ⊢; omega)
  refine ⟨r.1, by rw [hr]; rfl, fun x => ?_⟩
  rw [search_start ((g.found_iff v).2 hv) hr x, g.found_iff, g.hits_iff hn]
  have hrel : Follows nx g.found (g.hits types) = fun a b => b ∈ nx a ∧ IsNode g a ∧ ¬ IsOpOf g types a := by
    funext a b
    unfold Follows
    rw [g.found_iff, ← g.hits_iff hn types a, Bool.not_eq_true]
    apply propext; tauto
  rw [hrel]
  constructor
  · rintro ⟨h1, _, h3, h4⟩; exact ⟨h1, h3, h4⟩
  · rintro ⟨h1, h3, h4⟩; exact ⟨h1, isNode_of_isOpOf h3, h3, h4⟩

/-- C51: on every graph, cyclic or not, the search for successors ends within a recursion depth of
the number of nodes plus two and returns exactly the nearest operations of the requested types. -/
theorem C51_successors (g : SGraph) (hn : g.ops.Nodup) (types : List String) (v : String) (hv : IsNode g v)
    (fuel : Nat) (hfuel : g.ops.length + g.params.length + 2 ≤ fuel) :
    ∃ ret, g.successorsF types fuel v = .ok ret ∧ ∀ x, x ∈ ret ↔ NearestAfter g types v x := by
  obtain ⟨ret, h1, h2⟩ := search_spec g hn types g.next v hv fuel hfuel
  refine ⟨ret, h1, fun x => ?_⟩
  rw [h2 x]
  unfold NearestAfter StepThrough
  simp only [SGraph.mem_next]

/-- C51, the mirror image. -/
theorem C51_predecessors (g : SGraph) (hn : g.ops.Nodup) (types : List String) (v : String) (hv : IsNode g v)
    (fuel : Nat) (hfuel : g.ops.length + g.params.length + 2 ≤ fuel) :
    ∃ ret, g.predecessorsF types fuel v = .ok ret ∧ ∀ x, x ∈ ret ↔ NearestBefore g types v x := by
  obtain ⟨ret, h1, h2⟩ := search_spec g hn types g.prev v hv fuel hfuel
  refine ⟨ret, h1, fun x => ?_⟩
  rw [h2 x]
  unfold NearestBefore StepBack
  simp only [SGraph.mem_prev]

/-- A residual block with a cycle added: conv1 → relu → {conv2, add}, conv2 → add, add → conv1. -/
def gCyc : SGraph where
  ops := [("conv1", "Conv"), ("relu", "Relu"), ("conv2", "Conv"), ("add", "Add")]
  params := ["t1", "t2", "t3", "t4"]
  edges := [("conv1", "t1"), ("t1", "relu"), ("relu", "t2"), ("t2", "conv2"), ("conv2", "t3"),
    ("t3", "add"), ("t2", "add"), ("add", "t4"), ("t4", "conv1")]

example : gCyc.ops.Nodup ∧ IsNode gCyc "conv1" ∧ gCyc.successorsF ["Conv"] 10 "conv1" = .ok ["conv2"] ∧
    gCyc.successorsF ["Conv"] 10 "conv2" = .ok ["conv1"] ∧
    gCyc.predecessorsF ["Conv"] 10 "add" = .ok ["conv2", "conv1"] := by
  unfold IsNode Dict.Nodup; decide +kernel

/-- C51: an operation that is met both directly and through another branch is returned twice; the
claim holds for the set of returned operations, not for multiplicities. -/
theorem C51_duplicates_possible : ∃ (g : SGraph) (v : String), g.ops.Nodup ∧
    g.successorsF ["Add"] 20 v = .ok ["add", "add"] ∧ (g.ops.filter (fun o => o.2 = "Add")).length = 1 := by
  refine ⟨{ ops := [("relu1", "Relu"), ("relu2", "Relu"), ("add", "Add")], params := ["t1", "t2"],
            edges := [("relu1", "t1"), ("t1", "relu2"), ("relu2", "t2"), ("t1", "add"), ("t2", "add")] }, "relu1", ?_⟩
  unfold Dict.Nodup; decide +kernel

/-- C51: a name that is not in the graph gives an empty answer, not an error. -/
theorem C51_unknown (g : SGraph) (types : List String) (v : String) (hv : ¬ IsNode g v) (fuel : Nat) :
    g.successorsF types (fuel + 1) v = .ok [] ∧ g.predecessorsF types (fuel + 1) v = .ok [] := by
  have : g.found v = false := by
    rw [← Bool.not_eq_true, g.found_iff]; exact hv
  simp [SGraph.successorsF, SGraph.predecessorsF, searchF, this, Except.map]

example : ¬ IsNode gCyc "nothing" := by unfold IsNode; decide +kernel

/-! ## C74: adjacency -/

/-- Operations and data nodes alternate along the edges, as they do in every traced graph. -/
def Bipartite (g : SGraph) : Prop :=
  (∀ x, x ∈ g.ops.map Prod.fst → x ∉ g.params) ∧
  ∀ a b, (a, b) ∈ g.edges → (a ∈ g.ops.map Prod.fst ∧ b ∈ g.params) ∨ (a ∈ g.params ∧ b ∈ g.ops.map Prod.fst)

/-- `b` reads a tensor that `a` produces. -/
def Feeds (g : SGraph) (a b : String) : Prop := ∃ t, (a, t) ∈ g.edges ∧ (t, b) ∈ g.edges

theorem nbrs0_mem (nx : String → List String) (v : String) (done : List String) (x : String) :
    x ∈ (nbrs nx 0 v done).1 ↔ x ∈ nx v ∧ x ∉ done := by simp [nbrs]

theorem nbrs1_loop (nx : String → List String) (s : List String) : ∀ (acc : List String × List String),
    (∀ x ∈ acc.1, x ∈ acc.2) → 
    (∀ x, x ∈ (s.foldl (fun acc c => ((acc.1 ++ (nbrs nx 0 c acc.2).1, (nbrs nx 0 c acc.2).2) : List String × List String)) acc).1 ↔
      x ∈ acc.1 ∨ (x ∉ acc.2 ∧ ∃ c ∈ s, x ∈ nx c)) := by
  induction s with
  | nil => intro acc _ x; simp
  | cons c s ih =>
    intro acc hsub x
    rw [List.foldl_cons, ih]
    · simp only [List.mem_append, nbrs0_mem]
      simp only [nbrs, List.mem_append, List.mem_filter, decide_eq_true_eq, List.mem_cons]
      constructor
      · rintro ((h | ⟨h1, h2⟩) | ⟨h1, c', hc', h2⟩)
        · exact .inl h
        · exact .inr ⟨h2, c, .inl rfl, h1⟩
        · exact .inr ⟨fun h => h1 (.inl h), c', .inr hc', h2⟩
      · rintro (h | ⟨h1, c', hc', h2⟩)
        · exact .inl (.inl h)
        · by_cases hc : x ∈ nx c
          · exact .inl (.inr ⟨hc, h1⟩)
          · rcases hc' with rfl | hc'
            · exact absurd h2 hc
            · refine .inr ⟨?_, c', hc', h2⟩
              rintro (h | h)
              · exact h1 h
              · exact hc h.1
    · intro y hy
      simp only [List.mem_append, nbrs0_mem] at hy
      simp only [nbrs, List.mem_append, List.mem_filter, decide_eq_true_eq]
      rcases hy with hy | ⟨h1, h2⟩
      · exact .inl (hsub y hy)
      · exact .inr ⟨h1, h2⟩

theorem nbrs1_mem (nx : String → List String) (v x : String) :
    x ∈ (nbrs nx 1 v []).1 ↔ x ∉ nx v ∧ ∃ c ∈ nx v, x ∈ nx c := by
  unfold nbrs
  have e : (nx v).filter (fun c => decide (c ∉ ([] : List String))) = nx v := by simp
  simp only [e, List.nil_append]
  have := nbrs1_loop nx (nx v) ([], nx v) (by simp) x
  simpa using this

/-- C74: the adjacency of an operation lists exactly the operations that read one of its outputs,
and those that produce one of its inputs. -/
theorem C74_adjacent (g : SGraph) (hb : Bipartite g) (a b : String) (ha : a ∈ g.ops.map Prod.fst) :
    (b ∈ g.succ2 a ↔ Feeds g a b) ∧ (b ∈ g.pred2 a ↔ Feeds g b a) := by
  obtain ⟨hd, he⟩ := hb
  constructor
  · unfold SGraph.succ2 Feeds
    rw [nbrs1_mem]
    simp only [SGraph.mem_next]
    constructor
    · rintro ⟨_, h⟩; exact h
    · rintro ⟨t, h1, h2⟩
      refine ⟨fun h => ?_, t, h1, h2⟩
      have k1 : b ∈ g.params := by
        rcases he a b h with h' | h'
        · exact h'.2
        · exact absurd h'.1 (hd a ha)
      have k2 : t ∈ g.params := by
        rcases he a t h1 with h' | h'
        · exact h'.2
        · exact absurd h'.1 (hd a ha)
      rcases he t b h2 with h' | h'
      · exact hd t h'.1 k2
      · exact hd b h'.2 k1
  · unfold SGraph.pred2 Feeds
    rw [nbrs1_mem]
    simp only [SGraph.mem_prev]
    constructor
    · rintro ⟨_, t, h1, h2⟩; exact ⟨t, h2, h1⟩
    · rintro ⟨t, h1, h2⟩
      refine ⟨fun h => ?_, t, h2, h1⟩
      have k1 : b ∈ g.params := by
        rcases he b a h with h' | h'
        · exact absurd h'.2 (hd a ha)
        · exact h'.1
      have k2 : t ∈ g.params := by
        rcases he t a h2 with h' | h'
        · exact absurd h'.2 (hd a ha)
        · exact h'.1
      rcases he b t h1 with h' | h'
      · exact hd b h'.1 k1
      · exact hd t h'.2 k2

theorem adj_foldl_set_get (f : String → AdjEntry) (l : List String) (m0 : AdjMap) (k : String) :
    (l.foldl (fun m n => Dict.set m n (f n)) m0).get? k = if k ∈ l then some (f k) else m0.get? k := by
  induction l generalizing m0 with
  | nil => simp
  | cons a l ih =>
    rw [List.foldl_cons, ih]
    by_cases h : k ∈ l
    · simp [h]
    · rw [Dict.get?_set]
      by_cases e : a = k
      · subst e; simp [h]
      · have : ¬ k = a := fun h => e h.symm
        simp [h, e, this]

theorem buildAdj_get (g : SGraph) (ded : String → Bool) (only : Bool) (k : String) :
    (g.buildAdj ded only).get? k =
      if k ∈ g.ops.map Prod.fst ∧ (only = false ∨ ded k = true) then
        some ⟨(g.pred2 k).filter (fun n => !only || ded n), (g.succ2 k).filter (fun n => !only || ded n)⟩ else none := by
  unfold SGraph.buildAdj
  simp only []
  rw [adj_foldl_set_get (fun n => ⟨(g.pred2 n).filter (fun n => !only || ded n), (g.succ2 n).filter (fun n => !only || ded n)⟩)]
  simp only [List.mem_filter, Dict.keys, Bool.or_eq_true, Bool.not_eq_true', Dict.get?_nil]

/-- C74: on a fresh graph, `adjacency_map()` has an entry exactly for the operations; entries list
exactly the feeding and fed operations; and predecessor and successor lists agree. -/
theorem C74_map (g : SGraph) (hb : Bipartite g) (ded : String → Bool) :
    let m := (g.adjacencyMap ded false none).1
    (∀ a, m.has a = true ↔ a ∈ g.ops.map Prod.fst) ∧
    (∀ a e, m.get? a = some e → ∀ b, (b ∈ e.succs ↔ Feeds g a b) ∧ (b ∈ e.preds ↔ Feeds g b a)) ∧
    (∀ a b ea eb, m.get? a = some ea → m.get? b = some eb → (b ∈ ea.succs ↔ a ∈ eb.preds)) := by
  intro m
  have hm : m = g.buildAdj ded false := rfl
  have key : ∀ a e, m.get? a = some e → ∀ b, (b ∈ e.succs ↔ Feeds g a b) ∧ (b ∈ e.preds ↔ Feeds g b a) := by
    intro a e h b
    rw [hm, buildAdj_get] at h
    split at h
    · rename_i hc
      cases h
      have := C74_adjacent g hb a b hc.1
      simpa using this
    · cases h
  refine ⟨fun a => ?_, key, fun a b ea eb ha hb' => ?_⟩
  · rw [hm, Dict.has, buildAdj_get]
    by_cases h : a ∈ g.ops.map Prod.fst <;> simp [h]
  · rw [(key a ea ha b).1, (key b eb hb' a).2]

example : Bipartite gCyc ∧ (gCyc.adjacencyMap (fun _ => true) false none).1.get? "relu" =
    some ⟨["conv1"], ["conv2", "add"]⟩ := by
  constructor
  · refine ⟨by decide +kernel, ?_⟩
    have : ∀ e ∈ gCyc.edges, (e.1 ∈ gCyc.ops.map Prod.fst ∧ e.2 ∈ gCyc.params) ∨ (e.1 ∈ gCyc.params ∧ e.2 ∈ gCyc.ops.map Prod.fst) := by
      decide +kernel
    exact fun a b h => this (a, b) h
  · decide +kernel

/-- C74 is violated through the cache: after a call with `dedicated_modules_only=True` the plain
`adjacency_map()` returns the reduced map, without the entry of the functional `add`. -/
theorem C74_violated_cache : ∃ (g : SGraph) (ded : String → Bool), Bipartite g ∧
    let first := g.adjacencyMap ded true none
    let second := g.adjacencyMap ded false first.2
    second.1.has "add" = false ∧ second.1.get? "relu" = some ⟨["conv1"], ["conv2"]⟩ ∧
    (g.adjacencyMap ded false none).1.get? "relu" = some ⟨["conv1"], ["conv2", "add"]⟩ := by
  refine ⟨gCyc, fun n => decide (n ≠ "add"), ?_, by decide +kernel⟩
  refine ⟨by decide +kernel, ?_⟩
  have : ∀ e ∈ gCyc.edges, (e.1 ∈ gCyc.ops.map Prod.fst ∧ e.2 ∈ gCyc.params) ∨ (e.1 ∈ gCyc.params ∧ e.2 ∈ gCyc.ops.map Prod.fst) := by
    decide +kernel
  exact fun a b h => this (a, b) h

end Verif
