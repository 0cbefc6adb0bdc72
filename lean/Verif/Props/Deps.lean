import Verif.Model.Deps
import Verif.Model.AMC
import Verif.Props.Graph
import Verif.Lemmas.Fold
/-!
# C148: layers that depend on a pruned layer
-/
namespace Verif

/-! ## Specification -/

/-- A convolution with as many groups as input channels: its outputs correspond to its inputs one by one. -/
def IsDepthwise (g : SGraph) (group ifm : String → ℕ) (x : String) : Prop := IsOpOf g ["Conv"] x ∧ group x = ifm x

/-- A convolution with several groups that is not depthwise. -/
def IsGrouped (g : SGraph) (group ifm : String → ℕ) (x : String) : Prop :=
  IsOpOf g ["Conv"] x ∧ group x ≠ ifm x ∧ group x ≠ 1

/-- Reached by steps of the relation `N`, all nodes in between satisfying `dw`. -/
inductive Through (N : String → String → Prop) (dw : String → Prop) : String → String → Prop where
  | last {v x : String} : N v x → Through N dw v x
  | step {v y x : String} : N v y → dw y → Through N dw y x → Through N dw v x

/-- The layers after `v` that see the number of its filters: the nearest convolutions and linear layers, and behind depthwise
convolutions the next ones. -/
def DependsOnFilters (g : SGraph) (group ifm : String → ℕ) : String → String → Prop :=
  Through (NearestAfter g ["Conv", "Gemm"]) (IsDepthwise g group ifm)

/-- The layers before `v` that produce its channels, among those of the given types. -/
def ProducesChannels (types : List String) (g : SGraph) (group ifm : String → ℕ) : String → String → Prop :=
  Through (NearestBefore g types) (IsDepthwise g group ifm)

/-- The graph has no cycles: its nodes are numbered along the edges. -/
def Acyclic (g : SGraph) (rank : String → ℕ) : Prop := ∀ e ∈ g.edges, rank e.1 < rank e.2

/-! ## Proofs -/

section
variable {N : String → String → Prop}

/-- The loop over the neighbours. -/
theorem deps_loop (nx : String → Except Err (List String)) (a : OpAttrs) (fuel : ℕ)
    (P : String → String → Prop) :
    ∀ (s : List String), (∀ x ∈ s, a.conv x = true → a.group x = a.ifm x →
      ((∃ y, P x y ∧ (a.conv y = true ∧ a.group y ≠ a.ifm y ∧ a.group y ≠ 1)) → findDeps nx a fuel x = .error .value) ∧
      ((¬ ∃ y, P x y ∧ (a.conv y = true ∧ a.group y ≠ a.ifm y ∧ a.group y ≠ 1)) →
        ∃ l, findDeps nx a fuel x = .ok l ∧ ∀ y, y ∈ l ↔ P x y)) → ∀ acc : List String,
      let bad := fun y => a.conv y = true ∧ a.group y ≠ a.ifm y ∧ a.group y ≠ 1
      let Q := fun y => ∃ x ∈ s, y = x ∨ ((a.conv x = true ∧ a.group x = a.ifm x) ∧ P x y)
      let r := s.foldlM (fun acc x =>
        if a.conv x then
          if a.group x = a.ifm x then (findDeps nx a fuel x).map fun r => acc ++ x :: r
          else if a.group x ≠ 1 then .error .value
          else .ok (acc ++ [x])
        else .ok (acc ++ [x])) acc
      ((∃ y, Q y ∧ bad y) → r = .error .value) ∧
      ((¬ ∃ y, Q y ∧ bad y) → ∃ l, r = .ok l ∧ ∀ y, y ∈ l ↔ y ∈ acc ∨ Q y) := by
  intro s
  induction s with
  | nil =>
    intro _ acc
    refine ⟨?_, ?_⟩
    · rintro ⟨y, ⟨x, hx, -⟩, -⟩; simp at hx
    · intro _
      exact ⟨acc, rfl, fun y => by simp⟩
  | cons x s ih =>
    intro hrec acc
    dsimp only
    rw [List.foldlM_cons]
    have hrest := fun x' (h' : x' ∈ s) => hrec x' (by simp [h'])
    by_cases hc : a.conv x = true
    · by_cases hg : a.group x = a.ifm x
      · obtain ⟨h1, h2⟩ := hrec x (by simp) hc hg
        by_cases hb : ∃ y, P x y ∧ (a.conv y = true ∧ a.group y ≠ a.ifm y ∧ a.group y ≠ 1)
        · rw [if_pos hc, if_pos hg, h1 hb]
          obtain ⟨y, hy, hby⟩ := hb
          refine ⟨fun _ => rfl, fun h => absurd ⟨y, ⟨x, by simp, .inr ⟨⟨hc, hg⟩, hy⟩⟩, hby⟩ h⟩
        · obtain ⟨l, hl, hm⟩ := h2 hb
          rw [if_pos hc, if_pos hg, hl]
          obtain ⟨i1, i2⟩ := ih hrest (acc ++ x :: l)
          refine ⟨?_, ?_⟩
          · rintro ⟨y, ⟨x', hx', hy⟩, hby⟩
            rcases List.mem_cons.1 hx' with rfl | hx'
            · rcases hy with rfl | ⟨-, hy⟩
              · exact absurd hg hby.2.1
              · exact absurd ⟨y, hy, hby⟩ hb
            · exact i1 ⟨y, ⟨x', hx', hy⟩, hby⟩
          · intro hn
            obtain ⟨l', hl', hm'⟩ := i2 (fun ⟨y, ⟨x', hx', hy⟩, hby⟩ => hn ⟨y, ⟨x', by simp [hx'], hy⟩, hby⟩)
            refine ⟨l', hl', fun y => ?_⟩
            rw [hm' y]
            simp only [List.mem_append, List.mem_cons, hm y]
            constructor
            · rintro ((h | rfl | h) | ⟨x', hx', h⟩)
              · exact .inl h
              · exact .inr ⟨y, .inl rfl, .inl rfl⟩
              · exact .inr ⟨x, .inl rfl, .inr ⟨⟨hc, hg⟩, h⟩⟩
              · exact .inr ⟨x', .inr hx', h⟩
            · rintro (h | ⟨x', rfl | hx', h⟩)
              · exact .inl (.inl h)
              · rcases h with rfl | ⟨-, h⟩
                · exact .inl (.inr (.inl rfl))
                · exact .inl (.inr (.inr h))
              · exact .inr ⟨x', hx', h⟩
      · by_cases h1 : a.group x ≠ 1
        · rw [if_pos hc, if_neg hg, if_pos h1]
          exact ⟨fun _ => rfl, fun h => absurd ⟨x, ⟨x, by simp, .inl rfl⟩, hc, hg, h1⟩ h⟩
        · rw [if_pos hc, if_neg hg, if_neg h1]
          obtain ⟨i1, i2⟩ := ih hrest (acc ++ [x])
          refine ⟨?_, ?_⟩
          · rintro ⟨y, ⟨x', hx', hy⟩, hby⟩
            rcases List.mem_cons.1 hx' with rfl | hx'
            · rcases hy with rfl | ⟨hy, -⟩
              · exact absurd hby.2.2 h1
              · exact absurd hy.2 hg
            · exact i1 ⟨y, ⟨x', hx', hy⟩, hby⟩
          · intro hn
            obtain ⟨l', hl', hm'⟩ := i2 (fun ⟨y, ⟨x', hx', hy⟩, hby⟩ => hn ⟨y, ⟨x', by simp [hx'], hy⟩, hby⟩)
            refine ⟨l', hl', fun y => ?_⟩
            rw [hm' y]
            simp only [List.mem_append, List.mem_cons, List.not_mem_nil, or_false]
            constructor
            · rintro ((h | rfl) | ⟨x', hx', h⟩)
              · exact .inl h
              · exact .inr ⟨y, .inl rfl, .inl rfl⟩
              · exact .inr ⟨x', .inr hx', h⟩
            · rintro (h | ⟨x', rfl | hx', h⟩)
              · exact .inl (.inl h)
              · rcases h with rfl | ⟨h, -⟩
                · exact .inl (.inr rfl)
                · exact absurd h.2 hg
              · exact .inr ⟨x', hx', h⟩
    · rw [if_neg hc]
      obtain ⟨i1, i2⟩ := ih hrest (acc ++ [x])
      refine ⟨?_, ?_⟩
      · rintro ⟨y, ⟨x', hx', hy⟩, hby⟩
        rcases List.mem_cons.1 hx' with rfl | hx'
        · rcases hy with rfl | ⟨hy, -⟩
          · exact absurd hby.1 hc
          · exact absurd hy.1 hc
        · exact i1 ⟨y, ⟨x', hx', hy⟩, hby⟩
      · intro hn
        obtain ⟨l', hl', hm'⟩ := i2 (fun ⟨y, ⟨x', hx', hy⟩, hby⟩ => hn ⟨y, ⟨x', by simp [hx'], hy⟩, hby⟩)
        refine ⟨l', hl', fun y => ?_⟩
        rw [hm' y]
        simp only [List.mem_append, List.mem_cons, List.not_mem_nil, or_false]
        constructor
        · rintro ((h | rfl) | ⟨x', hx', h⟩)
          · exact .inl h
          · exact .inr ⟨y, .inl rfl, .inl rfl⟩
          · exact .inr ⟨x', .inr hx', h⟩
        · rintro (h | ⟨x', rfl | hx', h⟩)
          · exact .inl (.inl h)
          · rcases h with rfl | ⟨h, -⟩
            · exact .inl (.inr rfl)
            · exact absurd h.1 hc
          · exact .inr ⟨x', hx', h⟩

/-- The recursion, for a neighbour relation that decreases a measure. -/
theorem deps_rec (nx : String → Except Err (List String)) (a : OpAttrs) (node : String → Prop) (μ : String → ℕ)
    (hnx : ∀ v, node v → ∃ l, nx v = .ok l ∧ ∀ x, x ∈ l ↔ N v x)
    (hN : ∀ v x, N v x → node x ∧ μ x < μ v) :
    ∀ (fuel : ℕ) (v : String), node v → μ v < fuel →
      let bad := fun y => a.conv y = true ∧ a.group y ≠ a.ifm y ∧ a.group y ≠ 1
      let D := Through N (fun y => a.conv y = true ∧ a.group y = a.ifm y)
      ((∃ y, D v y ∧ bad y) → findDeps nx a fuel v = .error .value) ∧
      ((¬ ∃ y, D v y ∧ bad y) → ∃ l, findDeps nx a fuel v = .ok l ∧ ∀ y, y ∈ l ↔ D v y) := by
  intro fuel
  induction fuel with
  | zero => intro v _ h; omega
  | succ fuel ih =>
    intro v hv hμ
    dsimp only
    obtain ⟨s, hs, hm⟩ := hnx v hv
    have hloop := deps_loop nx a fuel (Through N (fun y => a.conv y = true ∧ a.group y = a.ifm y)) s (by
      intro x hx _ _
      have hN' := hN v x ((hm x).1 hx)
      exact ih x hN'.1 (by omega)) []
    have hD : ∀ y, (∃ x ∈ s, y = x ∨ ((a.conv x = true ∧ a.group x = a.ifm x) ∧
        Through N (fun y => a.conv y = true ∧ a.group y = a.ifm y) x y)) ↔
        Through N (fun y => a.conv y = true ∧ a.group y = a.ifm y) v y := by
      intro y
      constructor
      · rintro ⟨x, hx, rfl | ⟨h1, h2⟩⟩
        · exact .last ((hm y).1 hx)
        · exact .step ((hm x).1 hx) h1 h2
      · intro h
        cases h with
        | last h => exact ⟨y, (hm y).2 h, .inl rfl⟩
        | step h h1 h2 => exact ⟨_, (hm _).2 h, .inr ⟨h1, h2⟩⟩
    dsimp only at hloop
    simp only [hD] at hloop
    unfold findDeps
    rw [hs]
    refine ⟨hloop.1, fun h => ?_⟩
    obtain ⟨l, hl, hml⟩ := hloop.2 h
    exact ⟨l, hl, fun y => by rw [hml y]; simp⟩
end

theorem attrs_conv (g : SGraph) (hn : g.ops.Nodup) (group ifm : String → ℕ) (x : String) :
    (g.attrs group ifm).conv x = true ↔ IsOpOf g ["Conv"] x := g.hits_iff hn ["Conv"] x

theorem attrs_bad (g : SGraph) (hn : g.ops.Nodup) (group ifm : String → ℕ) (x : String) :
    ((g.attrs group ifm).conv x = true ∧ (g.attrs group ifm).group x ≠ (g.attrs group ifm).ifm x ∧ (g.attrs group ifm).group x ≠ 1) ↔
      IsGrouped g group ifm x := by
  rw [attrs_conv g hn]; rfl

theorem attrs_dw (g : SGraph) (hn : g.ops.Nodup) (group ifm : String → ℕ) :
    (fun y => (g.attrs group ifm).conv y = true ∧ (g.attrs group ifm).group y = (g.attrs group ifm).ifm y) =
      IsDepthwise g group ifm := by
  funext x
  rw [attrs_conv g hn]; rfl

theorem path_rank {g : SGraph} {rank : String → ℕ} (ha : Acyclic g rank) {types : List String} {c x : String}
    (h : Relation.ReflTransGen (StepThrough g types) c x) : rank c ≤ rank x := by
  induction h with
  | refl => exact le_refl _
  | tail _ h ih => exact le_trans ih (ha _ h.1).le

theorem path_rank_back {g : SGraph} {rank : String → ℕ} (ha : Acyclic g rank) {types : List String} {c x : String}
    (h : Relation.ReflTransGen (StepBack g types) c x) : rank x ≤ rank c := by
  induction h with
  | refl => exact le_refl _
  | tail _ h ih => exact le_trans (ha _ h.1).le ih

/-- **C148** In a graph without cycles, the dependencies of a layer's filters are found or refused: if one of the layers that see
the number of its filters is a convolution with several groups (not depthwise) the network is refused, and otherwise exactly these
layers are returned.  Recursion depths of at most the number of nodes suffice. -/
theorem C148_filters (g : SGraph) (hn : g.ops.Nodup) (group ifm rank : String → ℕ) (ha : Acyclic g rank) (R : ℕ) (hR : ∀ x, rank x ≤ R)
    (v : String) (hv : IsNode g v) (fuel depth : ℕ) (hfuel : g.ops.length + g.params.length + 2 ≤ fuel) (hdepth : R < depth + rank v) :
    ((∃ x, DependsOnFilters g group ifm v x ∧ IsGrouped g group ifm x) →
      findDependencies g group ifm fuel depth "filters" v = .error .value) ∧
    ((¬ ∃ x, DependsOnFilters g group ifm v x ∧ IsGrouped g group ifm x) →
      ∃ l, findDependencies g group ifm fuel depth "filters" v = .ok l ∧ ∀ x, x ∈ l ↔ DependsOnFilters g group ifm v x) := by
  have h := deps_rec (N := NearestAfter g ["Conv", "Gemm"]) (g.successorsF ["Conv", "Gemm"] fuel) (g.attrs group ifm) (IsNode g)
    (fun x => R - rank x) (fun v hv => C51_successors g hn _ v hv fuel hfuel)
    (by
      rintro v x ⟨-, hx, c, hc, hp⟩
      refine ⟨isNode_of_isOpOf hx, ?_⟩
      have h1 := ha _ hc
      have h2 := path_rank ha hp
      have := hR x
      dsimp only at h1
      show R - rank x < R - rank v
      omega) depth v hv (by have := hR v; show R - rank v < depth; omega)
  dsimp only at h
  simp only [attrs_bad g hn, attrs_dw g hn] at h
  unfold findDependencies
  rw [if_neg (by decide), if_pos rfl]
  exact h

theorem channels_conv (g : SGraph) (hn : g.ops.Nodup) (group ifm rank : String → ℕ) (ha : Acyclic g rank)
    (v : String) (hv : IsNode g v) (fuel depth : ℕ) (hfuel : g.ops.length + g.params.length + 2 ≤ fuel) (hdepth : rank v < depth) :
    ((∃ x, ProducesChannels ["Conv"] g group ifm v x ∧ IsGrouped g group ifm x) →
      findDependencies g group ifm fuel depth "channels" v = .error .value) ∧
    ((¬ ∃ x, ProducesChannels ["Conv"] g group ifm v x ∧ IsGrouped g group ifm x) →
      ∃ l, findDependencies g group ifm fuel depth "channels" v = .ok l ∧ ∀ x, x ∈ l ↔ ProducesChannels ["Conv"] g group ifm v x) := by
  have h := deps_rec (N := NearestBefore g ["Conv"]) (g.predecessorsF ["Conv"] fuel) (g.attrs group ifm) (IsNode g)
    rank (fun v hv => C51_predecessors g hn _ v hv fuel hfuel)
    (by
      rintro v x ⟨-, hx, c, hc, hp⟩
      refine ⟨isNode_of_isOpOf hx, ?_⟩
      have h1 := ha _ hc
      have h2 := path_rank_back ha hp
      dsimp only at h1
      omega) depth v hv hdepth
  dsimp only at h
  simp only [attrs_bad g hn, attrs_dw g hn] at h
  unfold findDependencies
  rw [if_pos rfl]
  exact h

/-- `a` lies before `b`. -/
def Before (g : SGraph) : String → String → Prop := Relation.TransGen fun a b => (a, b) ∈ g.edges

theorem back_before {g : SGraph} {types : List String} {c x v : String} (h : Relation.ReflTransGen (StepBack g types) c x)
    (hc : (c, v) ∈ g.edges) : Before g x v := by
  induction h with
  | refl => exact .single hc
  | tail _ h ih => exact .trans (.single h.1) ih

theorem nearest_types {g : SGraph} {v : String} (hG : ∀ x, IsOpOf g ["Gemm"] x → ¬ Before g x v) (x : String) :
    NearestBefore g ["Conv"] v x ↔ NearestBefore g ["Conv", "Gemm"] v x := by
  have hop : ∀ y, Before g y v → (IsOpOf g ["Conv", "Gemm"] y ↔ IsOpOf g ["Conv"] y) := by
    intro y hy
    constructor
    · rintro ⟨t, ht, hm⟩
      simp only [List.mem_cons, List.not_mem_nil, or_false] at hm
      rcases hm with rfl | rfl
      · exact ⟨_, ht, by simp⟩
      · exact absurd hy (hG y ⟨_, ht, by simp⟩)
    · rintro ⟨t, ht, hm⟩
      exact ⟨t, ht, by simp only [List.mem_cons, List.not_mem_nil, or_false] at hm ⊢; exact .inl hm⟩
  have hpath : ∀ c, (c, v) ∈ g.edges → ∀ y,
      (Relation.ReflTransGen (StepBack g ["Conv"]) c y ↔ Relation.ReflTransGen (StepBack g ["Conv", "Gemm"]) c y) := by
    intro c hc y
    constructor
    · intro h
      induction h with
      | refl => exact .refl
      | tail hp h ih => exact ih.tail ⟨h.1, h.2.1, fun h' => h.2.2 ((hop _ (back_before hp hc)).1 h')⟩
    · intro h
      induction h with
      | refl => exact .refl
      | tail hp h ih => exact ih.tail ⟨h.1, h.2.1, fun h' => h.2.2 ((hop _ (back_before hp hc)).2 h')⟩
  unfold NearestBefore
  constructor
  · rintro ⟨h1, h2, c, hc, hp⟩
    exact ⟨h1, (hop x (back_before hp hc)).2 h2, c, hc, (hpath c hc x).1 hp⟩
  · rintro ⟨h1, h2, c, hc, hp⟩
    exact ⟨h1, (hop x (back_before hp hc)).1 h2, c, hc, (hpath c hc x).2 hp⟩

theorem through_types {g : SGraph} {dw : String → Prop} {v : String} (hG : ∀ x, IsOpOf g ["Gemm"] x → ¬ Before g x v) (x : String) :
    Through (NearestBefore g ["Conv"]) dw v x ↔ Through (NearestBefore g ["Conv", "Gemm"]) dw v x := by
  have hb : ∀ types v y, NearestBefore g types v y → Before g y v := fun types v y ⟨_, _, c, hc, hp⟩ => back_before hp hc
  constructor
  · intro h
    induction h with
    | last h => exact .last ((nearest_types hG _).1 h)
    | step h hd _ ih =>
      exact .step ((nearest_types hG _).1 h) hd (ih fun z hz hzb => hG z hz (hzb.trans (hb _ _ _ h)))
  · intro h
    induction h with
    | last h => exact .last ((nearest_types hG _).2 h)
    | step h hd _ ih =>
      exact .step ((nearest_types hG _).2 h) hd (ih fun z hz hzb => hG z hz (hzb.trans (hb _ _ _ h)))

/-- **C148** (partial) The same for the channels of a layer that no linear layer precedes: the layers that produce its channels,
through depthwise convolutions, or a refusal.  Missing: layers after a linear layer (`C148_violated_linear`). -/
theorem C148_channels_partial (g : SGraph) (hn : g.ops.Nodup) (group ifm rank : String → ℕ) (ha : Acyclic g rank)
    (v : String) (hv : IsNode g v) (hG : ∀ x, IsOpOf g ["Gemm"] x → ¬ Before g x v)
    (fuel depth : ℕ) (hfuel : g.ops.length + g.params.length + 2 ≤ fuel) (hdepth : rank v < depth) :
    ((∃ x, ProducesChannels ["Conv", "Gemm"] g group ifm v x ∧ IsGrouped g group ifm x) →
      findDependencies g group ifm fuel depth "channels" v = .error .value) ∧
    ((¬ ∃ x, ProducesChannels ["Conv", "Gemm"] g group ifm v x ∧ IsGrouped g group ifm x) →
      ∃ l, findDependencies g group ifm fuel depth "channels" v = .ok l ∧
        ∀ x, x ∈ l ↔ ProducesChannels ["Conv", "Gemm"] g group ifm v x) := by
  have h := channels_conv g hn group ifm rank ha v hv fuel depth hfuel hdepth
  unfold ProducesChannels at h ⊢
  simp only [through_types hG] at h
  exact h

/-- **C148** Any other kind of dependency is refused. -/
theorem C148_kind (g : SGraph) (group ifm : String → ℕ) (fuel depth : ℕ) (kind v : String) (h1 : kind ≠ "channels") (h2 : kind ≠ "filters") :
    findDependencies g group ifm fuel depth kind v = .error .value := by
  unfold findDependencies; rw [if_neg h1, if_neg h2]

/-! ## Concrete networks -/

/-- A mobile network: convolution, depthwise convolution, convolution, linear layer. -/
def gMobile : SGraph where
  ops := [("conv1", "Conv"), ("dw", "Conv"), ("pw", "Conv"), ("relu", "Relu"), ("fc", "Gemm")]
  params := ["t1", "t2", "t3", "t4"]
  edges := [("conv1", "t1"), ("t1", "dw"), ("dw", "t2"), ("t2", "pw"), ("pw", "t3"), ("t3", "relu"), ("relu", "t4"), ("t4", "fc")]

def mobileGroup (s : String) : ℕ := if s = "dw" then 8 else 1
def mobileIfm (s : String) : ℕ := if s = "conv1" then 3 else 8
def mobileRank (s : String) : ℕ :=
  if s = "conv1" then 0 else if s = "t1" then 1 else if s = "dw" then 2 else if s = "t2" then 3 else if s = "pw" then 4
  else if s = "t3" then 5 else if s = "relu" then 6 else if s = "t4" then 7 else 8

theorem mobileRank_le (s : String) : mobileRank s ≤ 8 := by
  unfold mobileRank
  repeat' split
  all_goals decide

theorem mobile_acyclic : Acyclic gMobile mobileRank := by unfold Acyclic; decide +kernel

theorem mobile_nodup : gMobile.ops.Nodup := by unfold Dict.Nodup; decide +kernel

example : IsNode gMobile "conv1" ∧ findDependencies gMobile mobileGroup mobileIfm 11 9 "filters" "conv1" = .ok ["dw", "pw"] ∧
    findDependencies gMobile mobileGroup mobileIfm 11 9 "channels" "pw" = .ok ["dw", "conv1"] ∧
    findDependencies gMobile mobileGroup mobileIfm 11 9 "filters" "pw" = .ok ["fc"] ∧
    findDependencies gMobile (fun _ => 2) mobileIfm 11 9 "filters" "conv1" = .error .value := by
  refine ⟨?_, by decide +kernel, by decide +kernel, by decide +kernel, by decide +kernel⟩
  unfold IsNode; decide +kernel

theorem before_rank {g : SGraph} {rank : String → ℕ} (ha : Acyclic g rank) {a b : String} (h : Before g a b) : rank a < rank b := by
  induction h with
  | single h => exact ha _ h
  | tail _ h ih => exact lt_trans ih (ha _ h)

example : ∀ x, IsOpOf gMobile ["Gemm"] x → ¬ Before gMobile x "pw" := by
  rintro x ⟨t, ht, hm⟩ hb
  have := before_rank mobile_acyclic hb
  simp only [List.mem_singleton] at hm
  subst hm
  simp [gMobile] at ht
  subst ht
  revert this
  decide +kernel

/-! ## What goes wrong -/

/-- Convolution and two linear layers. -/
def gFC : SGraph where
  ops := [("conv", "Conv"), ("fc1", "Gemm"), ("fc2", "Gemm")]
  params := ["t1", "t2"]
  edges := [("conv", "t1"), ("t1", "fc1"), ("fc1", "t2"), ("t2", "fc2")]

/-- **C148** (violation) Behind a linear layer the channels are attributed to a convolution that does not produce them: the second
linear layer depends on the first, and the answer is the convolution before it. -/
theorem C148_violated_linear : findDependencies gFC (fun _ => 1) (fun _ => 8) 9 9 "channels" "fc2" = .ok ["conv"] ∧
    ProducesChannels ["Conv", "Gemm"] gFC (fun _ => 1) (fun _ => 8) "fc2" "fc1" ∧
    ¬ ProducesChannels ["Conv", "Gemm"] gFC (fun _ => 1) (fun _ => 8) "fc2" "conv" := by
  have hop : IsOpOf gFC ["Conv", "Gemm"] "fc1" := ⟨"Gemm", by simp [gFC], by simp⟩
  refine ⟨by decide +kernel, .last ⟨by decide, hop, "t2", by simp [gFC], .single ⟨by simp [gFC], .inr (by simp [gFC]), ?_⟩⟩, ?_⟩
  · rintro ⟨t, ht, -⟩; simp [gFC] at ht
  · have hdw : ∀ y, ¬ IsDepthwise gFC (fun _ => 1) (fun _ => 8) y := fun y h => by have := h.2; simp at this
    intro h
    cases h with
    | step _ hd _ => exact hdw _ hd
    | last h =>
      obtain ⟨-, -, c, hc, hp⟩ := h
      have hc' : c = "t2" := by simpa [gFC] using hc
      subst hc'
      rcases Relation.ReflTransGen.cases_head hp with h | ⟨d, h, hp⟩
      · revert h; decide
      · have hd : d = "fc1" := by simpa [gFC] using h.1
        subst hd
        rcases Relation.ReflTransGen.cases_head hp with h | ⟨d, h, hp⟩
        · revert h; decide
        · exact h.2.2 hop

/-- Three convolutions in a row; the second has one input channel (and one group). -/
def gOne : SGraph where
  ops := [("conv1", "Conv"), ("conv2", "Conv"), ("conv3", "Conv")]
  params := ["t1", "t2"]
  edges := [("conv1", "t1"), ("t1", "conv2"), ("conv2", "t2"), ("t2", "conv3")]

/-- **C148** (violation) An ordinary convolution with one input channel is taken for a depthwise one: the layer behind it is
returned too, although the number of its channels is that of the filters of the convolution in between, whatever the first has. -/
theorem C148_violated_single_channel :
    findDependencies gOne (fun _ => 1) (fun s => if s = "conv2" then 1 else 8) 9 9 "filters" "conv1" = .ok ["conv2", "conv3"] ∧
    findDependencies gOne (fun _ => 1) (fun s => if s = "conv2" then 2 else 8) 9 9 "filters" "conv1" = .ok ["conv2"] := by decide +kernel

/-- A residual block: the outputs of two convolutions are added. -/
def gResDep : SGraph where
  ops := [("conv1", "Conv"), ("conv2", "Conv"), ("add", "Add"), ("conv3", "Conv")]
  params := ["t0", "t1", "t2", "t3"]
  edges := [("t0", "conv1"), ("t0", "conv2"), ("conv1", "t1"), ("conv2", "t2"), ("t1", "add"), ("t2", "add"), ("add", "t3"), ("t3", "conv3")]

/-- **C148** (violation) A layer whose output is added to that of the pruned layer has to lose the same filters and is not among the
dependent layers. -/
theorem C148_violated_residual : findDependencies gResDep (fun _ => 1) (fun _ => 8) 10 10 "filters" "conv1" = .ok ["conv3"] ∧
    ("t1", "add") ∈ gResDep.edges ∧ ("t2", "add") ∈ gResDep.edges ∧ ("conv2", "t2") ∈ gResDep.edges ∧ ("add", "Add") ∈ gResDep.ops := by
  decide +kernel

/-- Two depthwise branches that are concatenated. -/
def gTwo : SGraph where
  ops := [("conv1", "Conv"), ("dw1", "Conv"), ("dw2", "Conv"), ("cat", "Concat"), ("conv2", "Conv")]
  params := ["t1", "t2", "t3", "t4"]
  edges := [("conv1", "t1"), ("t1", "dw1"), ("t1", "dw2"), ("dw1", "t2"), ("dw2", "t3"), ("t2", "cat"), ("t3", "cat"), ("cat", "t4"), ("t4", "conv2")]

/-- **C148** (violation) A layer that is reached through two depthwise convolutions is returned twice (and its cost is then reduced
twice, C123). -/
theorem C148_violated_twice :
    findDependencies gTwo (fun s => if s = "dw1" ∨ s = "dw2" then 8 else 1) (fun _ => 8) 11 11 "filters" "conv1" =
      .ok ["dw1", "conv2", "dw2", "conv2"] := by decide +kernel

/-- **C148** (violation) The dependencies of the last layer (for filters) or the first (for channels) are an empty list, and an empty
list among those of the pruned layers makes the conversion of names to layer numbers fail with `IndexError`. -/
theorem C148_violated_ends : findDependencies gMobile mobileGroup mobileIfm 11 9 "filters" "fc" = .ok [] ∧
    findDependencies gMobile mobileGroup mobileIfm 11 9 "channels" "conv1" = .ok [] ∧
    (∀ infos : List LayerInfo, (∃ l ∈ infos, l.prune = true ∧ l.deps = []) →
      dependentIds infos ((infos.filter (·.prune)).map (·.deps)) = .error .index) := by
  refine ⟨by decide +kernel, by decide +kernel, ?_⟩
  rintro infos ⟨l, hl, hp, hd⟩
  unfold dependentIds
  rw [if_pos]
  rw [List.any_eq_true]
  exact ⟨[], List.mem_map.2 ⟨l, List.mem_filter.2 ⟨hl, hp⟩, hd⟩, rfl⟩

end Verif
