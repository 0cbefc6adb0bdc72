import Verif.Props.Topo
/-!
# C75 and C74, continued: the flag `recurrent` and the cache

`layers_topological_order(recurrent=True)` is the variant for recurrent models.  It agrees with the plain one on
every graph without a cycle, and fails on every graph with a cycle that can be reached from an input.
-/
namespace Verif

/-! ## Graphs without cycles -/

theorem S_of_get {m : AdjMap} {v : String} {e : AdjEntry} (h : m.get? v = some e) : m.S v = e.succs := by simp [AdjMap.S, h]

theorem foldlM_all_false {α : Type} (f : α → Except Err Bool) (l : List α) (h : ∀ a ∈ l, f a = .ok false) :
    l.foldlM (fun b s => if b then .ok true else f s) false = .ok false := by
  induction l with
  | nil => rfl
  | cons a l ih =>
    rw [List.foldlM_cons, if_neg (by decide), h a List.mem_cons_self]
    exact ih fun b hb => h b (List.mem_cons_of_mem _ hb)

theorem isDescendant_acyclic (m : AdjMap) (hc : m.Consistent) (h : String → Nat) (ha : m.Acyclic h) (d : String) :
    ∀ (fuel : Nat) (p : String), h p < fuel → h p ≤ h d → m.has p = true → isDescendant m fuel p d = .ok false := by
  intro fuel
  induction fuel with
  | zero => intro p hp; omega
  | succ fuel ih =>
    intro p hp hd hk
    obtain ⟨e, he⟩ : ∃ e, m.get? p = some e := Option.isSome_iff_exists.1 hk
    unfold isDescendant
    simp only [AdjMap.succsOf, he]
    have hS := S_of_get he
    rw [if_neg]
    · refine foldlM_all_false _ _ fun s hs => ?_
      have hs' : s ∈ m.S p := by rw [hS]; exact hs
      have := ha p s hs'
      exact ih s (by omega) (by omega) (hc.succKey p s hs')
    · intro hmem
      have := ha p d (by rw [hS]; exact hmem)
      omega

theorem foldlM_congr_mem {ε σ α : Type} {f g : σ → α → Except ε σ} {l : List α} (h : ∀ s, ∀ a ∈ l, f s a = g s a) (s : σ) :
    l.foldlM f s = l.foldlM g s := by
  induction l generalizing s with
  | nil => rfl
  | cons a l ih =>
    rw [List.foldlM_cons, List.foldlM_cons, h s a List.mem_cons_self]
    congr 1
    funext s'
    exact ih (fun s b hb => h s b (List.mem_cons_of_mem _ hb)) s'

theorem foldlM_frame {σ α β : Type} {f : σ → α → Except Err σ} {P : σ → β} {l : List α}
    (h : ∀ s a s', f s a = .ok s' → P s' = P s) (s : σ) {s' : σ} (hf : l.foldlM f s = .ok s') : P s' = P s := by
  induction l generalizing s with
  | nil => cases hf; rfl
  | cons a l ih =>
    rw [List.foldlM_cons] at hf
    cases hr : f s a with
    | error e => rw [hr] at hf; cases hf
    | ok s1 =>
      rw [hr] at hf
      rw [ih s1 hf, h s a s1 hr]

theorem rankOp_recurrent (m : AdjMap) (hc : m.Consistent) (h : String → Nat) (ha : m.Acyclic h) :
    ∀ (fuel : Nat) (v : String) (r : Nat) (rk : Dict String Nat), h v < fuel → m.has v = true →
      (∀ x, m.has x = true → rk.has x = true) → rankOp m true fuel rk v r = rankOp m false fuel rk v r := by
  intro fuel
  induction fuel with
  | zero => intro v r rk hv; omega
  | succ fuel ih =>
    intro v r rk hv hk hrk
    obtain ⟨e, he⟩ : ∃ e, m.get? v = some e := Option.isSome_iff_exists.1 hk
    obtain ⟨r0, hr0⟩ : ∃ r0, rk.get? v = some r0 := Option.isSome_iff_exists.1 (hrk v hk)
    have hS := S_of_get he
    have hdesc : ∀ c ∈ e.succs, ∀ rk, recurrentAncestor m fuel rk c v = .ok false := by
      intro c hcm rk
      have hc' : c ∈ m.S v := by rw [hS]; exact hcm
      have := ha v c hc'
      unfold recurrentAncestor
      rw [isDescendant_acyclic m hc h ha v fuel c (by omega) (by omega) (hc.succKey v c hc')]
    unfold rankOp
    simp only [setRank, hr0, AdjMap.succsOf, he, if_true, Bool.false_eq_true, if_false]
    -- along the fold all keys stay ranked
    have key : ∀ (l : List String) (s : Dict String Nat), (∀ c ∈ l, c ∈ e.succs) → (∀ x, m.has x = true → s.has x = true) →
        l.foldlM (fun rk c => match recurrentAncestor m fuel rk c v with
          | .error e => .error e
          | .ok true => .ok rk
          | .ok false => rankOp m true fuel rk c ((rk.get? v).getD 0 + 1)) s =
        l.foldlM (fun rk c => rankOp m false fuel rk c ((rk.get? v).getD 0 + 1)) s := by
      intro l
      induction l with
      | nil => intro s _ _; rfl
      | cons c l ihl =>
        intro s hl hs
        have hcm := hl c List.mem_cons_self
        have hc' : c ∈ m.S v := by rw [hS]; exact hcm
        have hlt := ha v c hc'
        have hkc := hc.succKey v c hc'
        rw [List.foldlM_cons, List.foldlM_cons, hdesc c hcm s]
        dsimp only
        rw [ih c _ s (by omega) hkc hs]
        -- the plain call keeps the keys
        cases hr : rankOp m false fuel s c ((s.get? v).getD 0 + 1) with
        | error er => rfl
        | ok s' =>
          refine ihl s' (fun x hx => hl x (List.mem_cons_of_mem _ hx)) fun x hx => ?_
          exact rankOp_keys m false fuel s c _ s' hr x ▸ hs x hx
    exact key e.succs _ (fun _ h => h) fun x hx => by
      unfold Dict.has; rw [Dict.get?_set]
      by_cases hx' : v = x
      · simp [hx']
      · simpa [hx', Dict.has] using hrk x hx
where
  rankOp_keys (m : AdjMap) (rec : Bool) : ∀ (fuel : Nat) (rk : Dict String Nat) (v : String) (r : Nat) (rk' : Dict String Nat),
      rankOp m rec fuel rk v r = .ok rk' → ∀ x, rk'.has x = rk.has x := by
    intro fuel
    induction fuel with
    | zero => intro rk v r rk' h; cases h
    | succ fuel ih =>
      intro rk v r rk' h x
      unfold rankOp at h
      cases hr : rk.get? v with
      | none => simp [setRank, hr] at h
      | some r0 =>
        simp only [setRank, hr] at h
        have h0 : (rk.set v (max r r0)).has x = rk.has x := by
          unfold Dict.has; rw [Dict.get?_set]
          by_cases hx : v = x
          · subst hx; simp [hr]
          · simp [hx]
        rw [← h0]
        generalize rk.set v (max r r0) = rk1 at h
        cases hs : m.succsOf v with
        | error e => rw [hs] at h; cases h
        | ok ss =>
          rw [hs] at h
          dsimp only at h
          refine foldlM_frame (P := fun d => d.has x) (fun s a s' hf => ?_) _ h
          split at hf
          · split at hf
            · cases hf
            · cases hf; rfl
            · exact ih _ _ _ _ hf x
          · exact ih _ _ _ _ hf x

/-- **C75** (the flag): on graphs without cycles `layers_topological_order(recurrent=True)` returns what
`layers_topological_order()` returns (which `C75_topological` describes). -/
theorem C75_recurrent_flag (m : AdjMap) (hc : m.Consistent) (h : String → Nat) (ha : m.Acyclic h) (fuel : Nat)
    (hfuel : ∀ a, m.has a = true → h a < fuel) (isMod : String → Bool) :
    topoOrder m isMod true fuel = topoOrder m isMod false fuel := by
  have hroots : ∀ v ∈ (m.filter (fun kv => decide (kv.2.preds = []))).map Prod.fst, m.has v = true := by
    intro v hv
    obtain ⟨kv, hkv, rfl⟩ := List.mem_map.1 hv
    rw [has_iff_keys]
    exact List.mem_map_of_mem (List.mem_filter.1 hkv).1
  have hinit : ∀ x, m.has x = true → (m.mapVals (fun _ _ => 0)).has x = true := by
    intro x hx
    unfold Dict.has at hx ⊢
    rw [Dict.get?_mapVals]
    cases hg : m.get? x with
    | none => rw [hg] at hx; cases hx
    | some e => rfl
  have key : ∀ (l : List String) (s : Dict String Nat), (∀ v ∈ l, m.has v = true) → (∀ x, m.has x = true → s.has x = true) →
      l.foldlM (fun rk v => rankOp m true fuel rk v 0) s = l.foldlM (fun rk v => rankOp m false fuel rk v 0) s := by
    intro l
    induction l with
    | nil => intro s _ _; rfl
    | cons v l ih =>
      intro s hl hs
      have hk := hl v List.mem_cons_self
      rw [List.foldlM_cons, List.foldlM_cons, rankOp_recurrent m hc h ha fuel v 0 s (hfuel v hk) hk hs]
      cases hr : rankOp m false fuel s v 0 with
      | error e => rfl
      | ok s' =>
        exact ih s' (fun x hx => hl x (List.mem_cons_of_mem _ hx)) fun x hx =>
          (rankOp_recurrent.rankOp_keys m false fuel s v 0 s' hr x) ▸ hs x hx
  unfold topoOrder
  dsimp only
  rw [key _ _ hroots hinit]

/-! ## Graphs with cycles -/

/-- A cycle can be reached from `v`. -/
def AdjMap.ReachesCycle (m : AdjMap) (v : String) : Prop :=
  ∃ a, Relation.ReflTransGen (fun x y => y ∈ m.S x) v a ∧ Relation.TransGen (fun x y => y ∈ m.S x) a a

theorem reachesCycle_step {m : AdjMap} {v : String} (h : m.ReachesCycle v) : ∃ c ∈ m.S v, m.ReachesCycle c := by
  obtain ⟨a, h1, h2⟩ := h
  rcases Relation.ReflTransGen.cases_head h1 with rfl | ⟨c, hc, h3⟩
  · obtain ⟨c, hc, h3⟩ := Relation.TransGen.head'_iff.1 h2
    exact ⟨c, hc, v, h3, h2⟩
  · exact ⟨c, hc, a, h3, h2⟩

theorem foldlM_error_mem {σ α : Type} {f : σ → α → Except Err σ} {l : List α} (h : ∃ a ∈ l, ∀ s, ∃ e, f s a = .error e) (s : σ) :
    ∃ e, l.foldlM f s = .error e := by
  induction l generalizing s with
  | nil => simp at h
  | cons a l ih =>
    rw [List.foldlM_cons]
    cases hf : f s a with
    | error e => exact ⟨e, rfl⟩
    | ok s' =>
      obtain ⟨b, hb, he⟩ := h
      rcases List.mem_cons.1 hb with rfl | hb
      · obtain ⟨e, he⟩ := he s; rw [hf] at he; cases he
      · exact ih ⟨b, hb, he⟩ s'

theorem isDescendant_root (m : AdjMap) (d : String) (hd : ∀ a, d ∉ m.S a) : ∀ (fuel : Nat) (p : String),
    isDescendant m fuel p d ≠ .ok true := by
  intro fuel
  induction fuel with
  | zero => intro p h; cases h
  | succ fuel ih =>
    intro p
    unfold isDescendant
    cases hs : m.get? p with
    | none => simp [AdjMap.succsOf, hs]
    | some e =>
      simp only [AdjMap.succsOf, hs]
      rw [if_neg (by have := hd p; rwa [S_of_get hs] at this)]
      generalize e.succs = ss
      induction ss with
      | nil => intro h; cases h
      | cons s ss ihs =>
        rw [List.foldlM_cons, if_neg (by decide)]
        cases hr : isDescendant m fuel s d with
        | error e => intro h; cases h
        | ok b =>
          cases b with
          | true => exact absurd hr (ih s)
          | false => exact ihs

theorem isDescendant_cycle (m : AdjMap) (d : String) (hd : ∀ a, d ∉ m.S a) : ∀ (fuel : Nat) (p : String), m.ReachesCycle p →
    ∃ e, isDescendant m fuel p d = .error e := by
  intro fuel
  induction fuel with
  | zero => intro p _; exact ⟨_, rfl⟩
  | succ fuel ih =>
    intro p hp
    obtain ⟨c, hc, hcy⟩ := reachesCycle_step hp
    unfold isDescendant
    cases hs : m.get? p with
    | none => simp [AdjMap.S, hs] at hc
    | some e =>
      simp only [AdjMap.succsOf, hs]
      rw [S_of_get hs] at hc
      rw [if_neg (by have := hd p; rwa [S_of_get hs] at this)]
      generalize e.succs = ss at hc
      induction ss with
      | nil => simp at hc
      | cons s ss ihs =>
        rw [List.foldlM_cons, if_neg (by decide)]
        cases hr : isDescendant m fuel s d with
        | error e => exact ⟨e, rfl⟩
        | ok b =>
          cases b with
          | true => exact absurd hr (isDescendant_root m d hd fuel s)
          | false =>
            rcases List.mem_cons.1 hc with rfl | hc
            · obtain ⟨e, he⟩ := ih c hcy; rw [hr] at he; cases he
            · exact ihs hc

/-- **C75** is violated on every recurrent model: whenever a cycle can be reached from an operation without predecessors,
there is no order, with `recurrent=True` as little as with `recurrent=False`, whatever the recursion limit. -/
theorem C75_violated_every_cycle (m : AdjMap) (hc : m.Consistent) (r : String) (hr : m.has r = true) (hp : m.P r = [])
    (hcy : m.ReachesCycle r) (fuel : Nat) (isMod : String → Bool) (recurrent : Bool) (l : List String) :
    topoOrder m isMod recurrent fuel ≠ .ok l := by
  have hroot : ∀ a, r ∉ m.S a := by
    intro a ha
    have hka : m.has a = true := by
      by_contra hn
      unfold AdjMap.S at ha
      cases hg : m.get? a with
      | none => simp [hg] at ha
      | some e => simp [Dict.has, hg] at hn
    have := (hc.sym a r hka hr).1 ha
    rw [hp] at this; simp at this
  have hno : ∀ (fuel : Nat) (v : String), m.ReachesCycle v → ∀ rk r, ∃ e, rankOp m false fuel rk v r = .error e := by
    intro fuel
    induction fuel with
    | zero => intro v _ rk r; exact ⟨_, rfl⟩
    | succ fuel ih =>
      intro v hv rk r
      obtain ⟨c, hc', hcy'⟩ := reachesCycle_step hv
      unfold rankOp
      cases hs : setRank rk v r with
      | error e => exact ⟨e, rfl⟩
      | ok rk1 =>
        cases hg : m.get? v with
        | none => simp [AdjMap.S, hg] at hc'
        | some e =>
          simp only [AdjMap.succsOf, hg, Bool.false_eq_true, if_false]
          exact foldlM_error_mem ⟨c, by rw [S_of_get hg] at hc'; exact hc', fun s => ih c hcy' s _⟩ rk1
  have hrank : ∀ rk, ∃ e, rankOp m recurrent fuel rk r 0 = .error e := by
    intro rk
    cases recurrent with
    | false => exact hno fuel r hcy rk 0
    | true =>
      cases fuel with
      | zero => exact ⟨_, rfl⟩
      | succ fuel =>
        obtain ⟨c, hc', hcy'⟩ := reachesCycle_step hcy
        obtain ⟨e0, he0⟩ := isDescendant_cycle m r hroot fuel c hcy'
        unfold rankOp
        cases hs : setRank rk r 0 with
        | error e => exact ⟨e, rfl⟩
        | ok rk1 =>
          cases hg : m.get? r with
          | none => simp [AdjMap.S, hg] at hc'
          | some e =>
            simp only [AdjMap.succsOf, hg, if_true]
            refine foldlM_error_mem ⟨c, by rw [S_of_get hg] at hc'; exact hc', fun s => ⟨e0, ?_⟩⟩ rk1
            unfold recurrentAncestor
            rw [he0]
  have hmem : r ∈ (m.filter (fun kv => decide (kv.2.preds = []))).map Prod.fst := by
    obtain ⟨e, he⟩ := Option.isSome_iff_exists.1 hr
    refine List.mem_map.2 ⟨(r, e), List.mem_filter.2 ⟨Dict.mem_of_get? he, ?_⟩, rfl⟩
    simpa [AdjMap.P, he] using hp
  unfold topoOrder
  dsimp only
  obtain ⟨e, he⟩ := foldlM_error_mem (f := fun rk v => rankOp m recurrent fuel rk v 0) ⟨r, hmem, hrank⟩ (m.mapVals (fun _ _ => 0))
  rw [he]
  intro h; cases h

example : mLoop.has "inp" = true ∧ mLoop.P "inp" = [] ∧ mLoop.ReachesCycle "inp" :=
  ⟨by decide +kernel, by decide +kernel, "a", .single (by decide +kernel),
    .tail (.single (b := "b") (by decide +kernel)) (by decide +kernel)⟩

/-! ## The cache of `adjacency_map` -/

/-- **C74** (dedicated modules) `adjacency_map(dedicated_modules_only=True)` is computed anew whatever was asked before: it has
an entry exactly for the operations with a module of their own, listing exactly the neighbours that have one. -/
theorem C74_dedicated (g : SGraph) (hb : Bipartite g) (ded : String → Bool) (cache : Option AdjMap) :
    (∀ a, (g.adjacencyMap ded true cache).1.has a = true ↔ a ∈ g.ops.map Prod.fst ∧ ded a = true) ∧
    (∀ a e, (g.adjacencyMap ded true cache).1.get? a = some e → ∀ b,
      (b ∈ e.succs ↔ Feeds g a b ∧ ded b = true) ∧ (b ∈ e.preds ↔ Feeds g b a ∧ ded b = true)) := by
  have hm : (g.adjacencyMap ded true cache).1 = g.buildAdj ded true := by
    unfold SGraph.adjacencyMap; split <;> rfl
  rw [hm]
  constructor
  · intro a
    unfold Dict.has
    rw [buildAdj_get]
    split
    · rename_i h; simpa using h
    · rename_i h; simpa using h
  · intro a e h b
    rw [buildAdj_get] at h
    split at h
    · rename_i hc
      cases h
      obtain ⟨k1, k2⟩ := C74_adjacent g hb a b hc.1
      simp only [List.mem_filter, Bool.not_true, Bool.false_or]
      rw [k1, k2]
      exact ⟨Iff.rfl, Iff.rfl⟩
    · cases h

/-- **C74** (repeated calls) Without calls for dedicated modules in between, every call of `adjacency_map()` returns the same map. -/
theorem C74_repeated (g : SGraph) (ded : String → Bool) :
    let first := g.adjacencyMap ded false none
    g.adjacencyMap ded false first.2 = first := by
  intro first
  show g.adjacencyMap ded false (some (g.buildAdj ded false)) = (g.buildAdj ded false, some (g.buildAdj ded false))
  cases hb : g.buildAdj ded false with
  | nil => unfold SGraph.adjacencyMap; simp [hb]
  | cons x xs => rfl

example : (gCyc.adjacencyMap (fun n => decide (n ≠ "add")) true (some [("add", ⟨[], []⟩)])).1.get? "relu" =
    some ⟨["conv1"], ["conv2"]⟩ := by decide +kernel

end Verif
