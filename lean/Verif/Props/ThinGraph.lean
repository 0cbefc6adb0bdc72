import Verif.Model.ThinGraph
import Verif.Props.Graph
import Verif.Props.Thinning6
/-!
# C41, C99 on traced graphs

The theorems of C41 and C99 are about the answers of graph queries.  Here the graph is the list of
operations, data nodes and edges recorded by the tracer, the queries are `successors_f` and
`predecessors_f`, and the answers the theorems ask for are derived from the shape of the graph.
-/
namespace Verif

/-! ## Specification -/

/-- A data node that no operation writes: the network's input, or a weight tensor. -/
def Leaf (sg : SGraph) (s : String) : Prop := s ∈ sg.params ∧ s ∉ sg.ops.map Prod.fst ∧ ∀ t, (t, s) ∉ sg.edges

/-- `d` is the data node written by operation `o`, and by nothing else. -/
def Written (sg : SGraph) (o d : String) : Prop :=
  d ∈ sg.params ∧ d ∉ sg.ops.map Prod.fst ∧ ∀ t, (t, d) ∈ sg.edges ↔ t = o

/-- All layers of the network. -/
def NExpr.layers {P : Type} : NExpr P → List String
  | .input => []
  | .conv l _ e => l :: e.layers
  | .bn l e => l :: e.layers
  | .map _ e => e.layers
  | .zip _ a b => a.layers ++ b.layers

/-- The traced graph contains the network: data node `d` holds its result. -/
def NExpr.Drawn {P : Type} (sg : SGraph) : NExpr P → String → Prop
  | .input, d => Leaf sg d
  | .conv l _ e, d => (l, "Conv") ∈ sg.ops ∧ l ∉ e.layers ∧ Written sg l d ∧
      ∃ d', e.Drawn sg d' ∧ (d', l) ∈ sg.edges ∧ ∀ s, (s, l) ∈ sg.edges → s = d' ∨ Leaf sg s
  | .bn l e, d => (l, "BatchNormalization") ∈ sg.ops ∧ l ∉ e.layers ∧ Written sg l d ∧
      ∃ d', e.Drawn sg d' ∧ (d', l) ∈ sg.edges ∧ ∀ s, (s, l) ∈ sg.edges → s = d' ∨ Leaf sg s
  | .map _ e, d => ∃ o t, (o, t) ∈ sg.ops ∧ t ≠ "Conv" ∧ t ≠ "Gemm" ∧ t ≠ "BatchNormalization" ∧ Written sg o d ∧
      ∃ d', e.Drawn sg d' ∧ (d', o) ∈ sg.edges ∧ ∀ s, (s, o) ∈ sg.edges → s = d' ∨ Leaf sg s
  | .zip _ a b, d => ∃ o t, (o, t) ∈ sg.ops ∧ t ≠ "Conv" ∧ t ≠ "Gemm" ∧ t ≠ "BatchNormalization" ∧ Written sg o d ∧
      ∃ d1 d2, a.Drawn sg d1 ∧ b.Drawn sg d2 ∧ (d1, o) ∈ sg.edges ∧ (d2, o) ∈ sg.edges ∧
        ∀ s, (s, o) ∈ sg.edges → s = d1 ∨ s = d2 ∨ Leaf sg s

/-- The batch-norms met first when walking back, convolutions not stopping the walk. -/
def NExpr.frontNorms {P : Type} : NExpr P → List String
  | .input => []
  | .conv _ _ e => e.frontNorms
  | .bn l _ => [l]
  | .map _ e => e.frontNorms
  | .zip _ a b => a.frontNorms ++ b.frontNorms

/-- The convolutions met when walking back up to the first batch-norms. -/
def NExpr.frontConvs {P : Type} : NExpr P → List String
  | .input => []
  | .conv l _ e => l :: e.frontConvs
  | .bn _ _ => []
  | .map _ e => e.frontConvs
  | .zip _ a b => a.frontConvs ++ b.frontConvs

/-- Before every convolution: each batch-norm met by the walk stands between it and the convolutions it reads.
Before every batch-norm: the convolutions met by the walk are those it normalizes. -/
def NExpr.Regular {P : Type} : NExpr P → Prop
  | .input => True
  | .conv _ _ e => e.Regular ∧ ∀ n, n ∈ e.frontNorms ↔ n ∈ e.norms
  | .bn _ e => e.Regular ∧ ∀ a, a ∈ e.frontConvs ↔ a ∈ e.sources
  | .map _ e => e.Regular
  | .zip _ a b => a.Regular ∧ b.Regular

/-- The data node `d` holds a result computed from the output of a fully-connected layer. -/
inductive FromFC (sg : SGraph) : String → Prop
  | fc (o d : String) (ho : (o, "Gemm") ∈ sg.ops) (hw : Written sg o d) : FromFC sg d
  | op (o t d d' : String) (ho : (o, t) ∈ sg.ops) (ht : t ≠ "Conv") (hw : Written sg o d) (hd : FromFC sg d') (he : (d', o) ∈ sg.edges)
      (hs : ∀ s, (s, o) ∈ sg.edges → s = d' ∨ Leaf sg s) : FromFC sg d

/-- The fully-connected layer `l` reads the result of the network, directly or through one more operation
(such as flattening). -/
def HeadDrawn {P : Type} (sg : SGraph) (e : NExpr P) (l : String) : Prop :=
  (l, "Gemm") ∈ sg.ops ∧ l ∉ e.layers ∧ ∃ e' d', (e' = e ∨ ∃ f, e' = .map f e) ∧ e'.Drawn sg d' ∧ (d', l) ∈ sg.edges ∧
    ∀ s, (s, l) ∈ sg.edges → s = d' ∨ Leaf sg s

/-- The fully-connected layer `l` reads a result of another one. -/
def TailDrawn (sg : SGraph) (l : String) : Prop :=
  (l, "Gemm") ∈ sg.ops ∧ ∃ d', FromFC sg d' ∧ ∀ s, (s, l) ∈ sg.edges → s = d' ∨ Leaf sg s

/-! ## Proof -/

section
variable {P : Type} {sg : SGraph}

theorem opType_unique (hn : sg.ops.Nodup) {x t t' : String} (h : (x, t) ∈ sg.ops) (h' : (x, t') ∈ sg.ops) : t = t' := by
  have h1 := Dict.get?_of_mem hn h
  have h2 := Dict.get?_of_mem hn h'
  rw [h1] at h2; exact Option.some.inj h2

theorem isOpOf_iff (hn : sg.ops.Nodup) {x t : String} (h : (x, t) ∈ sg.ops) (types : List String) : IsOpOf sg types x ↔ t ∈ types := by
  constructor
  · rintro ⟨t', h', hm⟩
    rw [opType_unique hn h h']; exact hm
  · intro hm; exact ⟨t, h, hm⟩

theorem not_op {x : String} (h : x ∉ sg.ops.map Prod.fst) (types : List String) : ¬ IsOpOf sg types x := by
  rintro ⟨t, ht, _⟩; exact h (List.mem_map.2 ⟨_, ht, rfl⟩)

/-- What the backwards search finds in an expression: `hit t` says which operation types end it. -/
def NExpr.stops {P : Type} (types : List String) : NExpr P → List String
  | .input => []
  | .conv l _ e => if "Conv" ∈ types then [l] else e.stops types
  | .bn l e => if "BatchNormalization" ∈ types then [l] else e.stops types
  | .map _ e => e.stops types
  | .zip _ a b => a.stops types ++ b.stops types

theorem stops_conv (e : NExpr P) : e.stops ["Conv"] = e.sources := by
  induction e with
  | input => rfl
  | conv l w e ih => simp [NExpr.stops, NExpr.sources]
  | bn l e ih => simp [NExpr.stops, NExpr.sources, ih]
  | map f e ih => simp [NExpr.stops, NExpr.sources, ih]
  | zip f a b iha ihb => simp [NExpr.stops, NExpr.sources, iha, ihb]

theorem stops_bn (e : NExpr P) : e.stops ["BatchNormalization"] = e.frontNorms := by
  induction e with
  | input => rfl
  | conv l w e ih => simp [NExpr.stops, NExpr.frontNorms, ih]
  | bn l e ih => simp [NExpr.stops, NExpr.frontNorms]
  | map f e ih => simp [NExpr.stops, NExpr.frontNorms, ih]
  | zip f a b iha ihb => simp [NExpr.stops, NExpr.frontNorms, iha, ihb]

theorem leaf_stuck {types : List String} {s x : String} (h : Leaf sg s) (hp : Relation.ReflTransGen (StepBack sg types) s x)
    (hx : IsOpOf sg types x) : False := by
  rcases Relation.ReflTransGen.cases_head hp with rfl | ⟨c, hc, _⟩
  · exact not_op h.2.1 types hx
  · exact h.2.2 c hc.1

/-- One operation of the walk: from the data node it writes, the walk reaches the operation itself if that
ends the walk, and otherwise whatever is reached from its inputs. -/
theorem back_op (hn : sg.ops.Nodup) {types : List String} {o t d : String} (ho : (o, t) ∈ sg.ops) (hw : Written sg o d) (x : String)
    (hx : IsOpOf sg types x) :
    Relation.ReflTransGen (StepBack sg types) d x ↔
      (t ∈ types ∧ x = o) ∨ (t ∉ types ∧ ∃ s, (s, o) ∈ sg.edges ∧ Relation.ReflTransGen (StepBack sg types) s x) := by
  have hio := isOpOf_iff hn ho types
  have hno : IsNode sg o := .inl (List.mem_map.2 ⟨_, ho, rfl⟩)
  have step : StepBack sg types d o := ⟨(hw.2.2 o).2 rfl, .inr hw.1, not_op hw.2.1 types⟩
  constructor
  · intro h
    rcases Relation.ReflTransGen.cases_head h with rfl | ⟨c, hc, h⟩
    · exact absurd hx (not_op hw.2.1 types)
    have := (hw.2.2 c).1 hc.1
    subst this
    rcases Relation.ReflTransGen.cases_head h with rfl | ⟨s, hs, h⟩
    · exact Or.inl ⟨hio.1 hx, rfl⟩
    · exact Or.inr ⟨fun ht => hs.2.2 (hio.2 ht), s, hs.1, h⟩
  · rintro (⟨_, rfl⟩ | ⟨ht, s, hs, h⟩)
    · exact .single step
    · exact .head step (.head ⟨hs, hno, fun h' => ht (hio.1 h')⟩ h)

theorem back_spec (hn : sg.ops.Nodup) (types : List String)
    (ht : ∀ t ∈ types, t = "Conv" ∨ t = "Gemm" ∨ t = "BatchNormalization") (e : NExpr P) :
    ∀ d, e.Drawn sg d → ∀ x, IsOpOf sg types x → (Relation.ReflTransGen (StepBack sg types) d x ↔ x ∈ e.stops types) := by
  have one : ∀ (e : NExpr P) (o d' x : String), (∀ x, IsOpOf sg types x → (Relation.ReflTransGen (StepBack sg types) d' x ↔ x ∈ e.stops types)) →
      (d', o) ∈ sg.edges → (∀ s, (s, o) ∈ sg.edges → s = d' ∨ Leaf sg s) → IsOpOf sg types x →
      ((∃ s, (s, o) ∈ sg.edges ∧ Relation.ReflTransGen (StepBack sg types) s x) ↔ x ∈ e.stops types) := by
    intro e o d' x ih he hs hx
    rw [← ih x hx]
    constructor
    · rintro ⟨s, hse, hp⟩
      rcases hs s hse with rfl | hl
      · exact hp
      · exact (leaf_stuck hl hp hx).elim
    · intro hp; exact ⟨d', he, hp⟩
  induction e with
  | input =>
    intro d hd x hx
    simp only [NExpr.stops, List.not_mem_nil, iff_false]
    exact fun hp => leaf_stuck hd hp hx
  | conv l w e ih =>
    rintro d ⟨ho, _, hw, d', hd', he, hs⟩ x hx
    rw [back_op hn ho hw x hx, one e l d' x (ih d' hd') he hs hx, NExpr.stops]
    split <;> simp_all
  | bn l e ih =>
    rintro d ⟨ho, _, hw, d', hd', he, hs⟩ x hx
    rw [back_op hn ho hw x hx, one e l d' x (ih d' hd') he hs hx, NExpr.stops]
    split <;> simp_all
  | map f e ih =>
    rintro d ⟨o, t, ho, t1, t2, t3, hw, d', hd', he, hs⟩ x hx
    have hnt : t ∉ types := fun h => by rcases ht t h with h | h | h <;> contradiction
    rw [back_op hn ho hw x hx, one e o d' x (ih d' hd') he hs hx, NExpr.stops]
    simp [hnt]
  | zip f a b iha ihb =>
    rintro d ⟨o, t, ho, t1, t2, t3, hw, d1, d2, hd1, hd2, he1, he2, hs⟩ x hx
    have hnt : t ∉ types := fun h => by rcases ht t h with h | h | h <;> contradiction
    rw [back_op hn ho hw x hx, NExpr.stops, List.mem_append, ← iha d1 hd1 x hx, ← ihb d2 hd2 x hx]
    simp only [hnt, false_and, not_false_eq_true, true_and, false_or]
    constructor
    · rintro ⟨s, hse, hp⟩
      rcases hs s hse with rfl | rfl | hl
      · exact Or.inl hp
      · exact Or.inr hp
      · exact (leaf_stuck hl hp hx).elim
    · rintro (hp | hp)
      · exact ⟨d1, he1, hp⟩
      · exact ⟨d2, he2, hp⟩

theorem stops_layers (types : List String) (e : NExpr P) : ∀ x ∈ e.stops types, x ∈ e.layers := by
  induction e with
  | input => simp [NExpr.stops]
  | conv l w e ih =>
    intro x hx; simp only [NExpr.stops, NExpr.layers, List.mem_cons] at *
    split at hx
    · simp at hx; exact Or.inl hx
    · exact Or.inr (ih x hx)
  | bn l e ih =>
    intro x hx; simp only [NExpr.stops, NExpr.layers, List.mem_cons] at *
    split at hx
    · simp at hx; exact Or.inl hx
    · exact Or.inr (ih x hx)
  | map f e ih => exact ih
  | zip f a b iha ihb =>
    intro x hx; simp only [NExpr.stops, NExpr.layers, List.mem_append] at *
    exact hx.imp (iha x) (ihb x)

theorem stops_isOp {types : List String} (e : NExpr P) : ∀ d, e.Drawn sg d → ∀ x ∈ e.stops types, IsOpOf sg types x := by
  induction e with
  | input => simp [NExpr.stops]
  | conv l w e ih =>
    rintro d ⟨ho, _, _, d', hd', _⟩ x hx
    rw [NExpr.stops] at hx
    split at hx
    · simp at hx; subst hx; exact ⟨_, ho, ‹_›⟩
    · exact ih d' hd' x hx
  | bn l e ih =>
    rintro d ⟨ho, _, _, d', hd', _⟩ x hx
    rw [NExpr.stops] at hx
    split at hx
    · simp at hx; subst hx; exact ⟨_, ho, ‹_›⟩
    · exact ih d' hd' x hx
  | map f e ih =>
    rintro d ⟨o, t, _, _, _, _, _, d', hd', _⟩ x hx
    exact ih d' hd' x hx
  | zip f a b iha ihb =>
    rintro d ⟨o, t, _, _, _, _, _, d1, d2, hd1, hd2, _⟩ x hx
    rcases List.mem_append.1 hx with hx | hx
    · exact iha d1 hd1 x hx
    · exact ihb d2 hd2 x hx

/-- `predecessors_f` at a layer whose input is `e`. -/
theorem pred_layer (hn : sg.ops.Nodup) (types : List String)
    (ht : ∀ t ∈ types, t = "Conv" ∨ t = "Gemm" ∨ t = "BatchNormalization") {e : NExpr P} {l t d' : String} (hl : (l, t) ∈ sg.ops)
    (hle : l ∉ e.layers) (hd : e.Drawn sg d') (he : (d', l) ∈ sg.edges) (hs : ∀ s, (s, l) ∈ sg.edges → s = d' ∨ Leaf sg s) (x : String) :
    x ∈ answer (sg.predecessorsF types (sg.ops.length + sg.params.length + 2) l) ↔ x ∈ e.stops types := by
  obtain ⟨ret, h1, h2⟩ := C51_predecessors sg hn types l (.inl (List.mem_map.2 ⟨_, hl, rfl⟩)) _ le_rfl
  rw [h1]
  show x ∈ ret ↔ _
  rw [h2 x]
  constructor
  · rintro ⟨_, hx, c, hc, hp⟩
    rcases hs c hc with rfl | hl
    · exact (back_spec hn types ht e _ hd x hx).1 hp
    · exact (leaf_stuck hl hp hx).elim
  · intro hx
    have hop := stops_isOp e d' hd x hx
    refine ⟨?_, hop, d', he, (back_spec hn types ht e _ hd x hop).2 hx⟩
    rintro rfl
    exact hle (stops_layers types e x hx)

/-- On a traced graph that contains the network, the answers of `predecessors_f` are those C99 asks for. -/
theorem matchesBack_of_drawn (hn : sg.ops.Nodup) (e : NExpr P) : ∀ d, e.Drawn sg d → e.Regular → e.MatchesBack sg.toTGraph := by
  induction e with
  | input => intros; trivial
  | conv l w e ih =>
    rintro d ⟨ho, hle, hw, d', hd', he, hs⟩ ⟨hr, hreg⟩
    refine ⟨ih d' hd' hr, fun a => ?_, fun n => ?_⟩
    · rw [← stops_conv]
      exact pred_layer hn ["Conv"] (by simp) ho hle hd' he hs a
    · rw [← hreg n, ← stops_bn]
      exact pred_layer hn ["BatchNormalization"] (by simp) ho hle hd' he hs n
  | bn l e ih =>
    rintro d ⟨ho, hle, hw, d', hd', he, hs⟩ ⟨hr, _⟩
    exact ih d' hd' hr
  | map f e ih =>
    rintro d ⟨o, t, _, _, _, _, _, d', hd', _⟩ hr
    exact ih d' hd' hr
  | zip f a b iha ihb =>
    rintro d ⟨o, t, _, _, _, _, _, d1, d2, hd1, hd2, _⟩ ⟨hra, hrb⟩
    exact ⟨iha d1 hd1 hra, ihb d2 hd2 hrb⟩

/-! ### Forwards -/

/-- The convolutions from which the forward search reaches the result of `e`. -/
def NExpr.origins {P : Type} (types : List String) : NExpr P → List String
  | .input => []
  | .conv l _ e => if "Conv" ∈ types then [l] else l :: e.origins types
  | .bn _ e => if "BatchNormalization" ∈ types then [] else e.origins types
  | .map _ e => e.origins types
  | .zip _ a b => a.origins types ++ b.origins types

theorem origins_conv (e : NExpr P) : e.origins ["Conv", "Gemm"] = e.sources := by
  induction e with
  | input => rfl
  | conv l w e ih => simp [NExpr.origins, NExpr.sources]
  | bn l e ih => simp [NExpr.origins, NExpr.sources, ih]
  | map f e ih => simp [NExpr.origins, NExpr.sources, ih]
  | zip f a b iha ihb => simp [NExpr.origins, NExpr.sources, iha, ihb]

theorem origins_bn (e : NExpr P) : e.origins ["BatchNormalization"] = e.frontConvs := by
  induction e with
  | input => rfl
  | conv l w e ih => simp [NExpr.origins, NExpr.frontConvs, ih]
  | bn l e ih => simp [NExpr.origins, NExpr.frontConvs]
  | map f e ih => simp [NExpr.origins, NExpr.frontConvs, ih]
  | zip f a b iha ihb => simp [NExpr.origins, NExpr.frontConvs, iha, ihb]

/-- The forward search from `a` reaches node `d`. -/
def Reach (sg : SGraph) (types : List String) (a d : String) : Prop :=
  ∃ c, (a, c) ∈ sg.edges ∧ Relation.ReflTransGen (StepThrough sg types) c d

theorem leaf_unreached {types : List String} {a s : String} (h : Leaf sg s) : ¬ Reach sg types a s := by
  rintro ⟨c, hc, hp⟩
  rcases Relation.ReflTransGen.cases_tail hp with rfl | ⟨y, _, hy⟩
  · exact h.2.2 _ hc
  · exact h.2.2 _ hy.1

/-- Reaching the data node written by `o`: the search starts at `o` or passes through it. -/
theorem reach_op (hn : sg.ops.Nodup) {types : List String} {o t d a : String} (ho : (o, t) ∈ sg.ops) (hw : Written sg o d) :
    Reach sg types a d ↔ a = o ∨ (t ∉ types ∧ Reach sg types a o) := by
  have hio := isOpOf_iff hn ho types
  have hno : IsNode sg o := .inl (List.mem_map.2 ⟨_, ho, rfl⟩)
  constructor
  · rintro ⟨c, hc, hp⟩
    rcases Relation.ReflTransGen.cases_tail hp with rfl | ⟨y, hcy, hy⟩
    · exact Or.inl ((hw.2.2 a).1 hc)
    · have := (hw.2.2 y).1 hy.1
      subst this
      exact Or.inr ⟨fun ht => hy.2.2 (hio.2 ht), c, hc, hcy⟩
  · rintro (rfl | ⟨ht, c, hc, hp⟩)
    · exact ⟨d, (hw.2.2 a).2 rfl, .refl⟩
    · exact ⟨c, hc, hp.tail ⟨(hw.2.2 o).2 rfl, hno, fun h => ht (hio.1 h)⟩⟩

/-- Reaching an operation: from one of its inputs, when the search starts at an operation. -/
theorem reach_in {types : List String} {o a ta : String} (ha : (a, ta) ∈ sg.ops)
    (hdata : ∀ s, (s, o) ∈ sg.edges → s ∈ sg.params ∧ s ∉ sg.ops.map Prod.fst) :
    Reach sg types a o ↔ ∃ s, (s, o) ∈ sg.edges ∧ Reach sg types a s := by
  constructor
  · rintro ⟨c, hc, hp⟩
    rcases Relation.ReflTransGen.cases_tail hp with rfl | ⟨y, hcy, hy⟩
    · exact absurd (List.mem_map.2 ⟨_, ha, rfl⟩) (hdata a hc).2
    · exact ⟨y, hy.1, c, hc, hcy⟩
  · rintro ⟨s, hs, c, hc, hp⟩
    exact ⟨c, hc, hp.tail ⟨hs, .inr (hdata s hs).1, not_op (hdata s hs).2 types⟩⟩

theorem drawn_data {e : NExpr P} {d : String} (h : e.Drawn sg d) : d ∈ sg.params ∧ d ∉ sg.ops.map Prod.fst := by
  cases e with
  | input => exact ⟨h.1, h.2.1⟩
  | conv l w e => obtain ⟨_, _, hw, _⟩ := h; exact ⟨hw.1, hw.2.1⟩
  | bn l e => obtain ⟨_, _, hw, _⟩ := h; exact ⟨hw.1, hw.2.1⟩
  | map f e => obtain ⟨_, _, _, _, _, _, hw, _⟩ := h; exact ⟨hw.1, hw.2.1⟩
  | zip f a b => obtain ⟨_, _, _, _, _, _, hw, _⟩ := h; exact ⟨hw.1, hw.2.1⟩

/-- One input. -/
theorem reach_one {types : List String} {e : NExpr P} {o d' a : String} (ha : (a, "Conv") ∈ sg.ops) (hd : e.Drawn sg d')
    (he : (d', o) ∈ sg.edges) (hs : ∀ s, (s, o) ∈ sg.edges → s = d' ∨ Leaf sg s) :
    Reach sg types a o ↔ Reach sg types a d' := by
  rw [reach_in ha]
  · constructor
    · rintro ⟨s, hse, hr⟩
      rcases hs s hse with rfl | hl
      · exact hr
      · exact absurd hr (leaf_unreached hl)
    · intro hr; exact ⟨d', he, hr⟩
  · intro s hse
    rcases hs s hse with rfl | hl
    · exact drawn_data hd
    · exact ⟨hl.1, hl.2.1⟩

theorem reach_spec (hn : sg.ops.Nodup) (types : List String)
    (ht : ∀ t ∈ types, t = "Conv" ∨ t = "Gemm" ∨ t = "BatchNormalization") (e : NExpr P) :
    ∀ d, e.Drawn sg d → ∀ a, (a, "Conv") ∈ sg.ops → (Reach sg types a d ↔ a ∈ e.origins types) := by
  induction e with
  | input =>
    intro d hd a ha
    simp only [NExpr.origins, List.not_mem_nil, iff_false]
    exact leaf_unreached hd
  | conv l w e ih =>
    rintro d ⟨ho, _, hw, d', hd', he, hs⟩ a ha
    rw [reach_op hn ho hw, reach_one ha hd' he hs, ih d' hd' a ha, NExpr.origins]
    split <;> simp_all
  | bn l e ih =>
    rintro d ⟨ho, _, hw, d', hd', he, hs⟩ a ha
    have hal : a ≠ l := by rintro rfl; exact absurd (opType_unique hn ha ho) (by decide)
    rw [reach_op hn ho hw, reach_one ha hd' he hs, ih d' hd' a ha, NExpr.origins]
    split <;> simp_all
  | map f e ih =>
    rintro d ⟨o, t, ho, t1, t2, t3, hw, d', hd', he, hs⟩ a ha
    have hnt : t ∉ types := fun h => by rcases ht t h with h | h | h <;> contradiction
    have hal : a ≠ o := by rintro rfl; exact t1 (opType_unique hn ho ha)
    rw [reach_op hn ho hw, reach_one ha hd' he hs, ih d' hd' a ha, NExpr.origins]
    simp [hnt, hal]
  | zip f a b iha ihb =>
    rintro d ⟨o, t, ho, t1, t2, t3, hw, d1, d2, hd1, hd2, he1, he2, hs⟩ x hx
    have hnt : t ∉ types := fun h => by rcases ht t h with h | h | h <;> contradiction
    have hal : x ≠ o := by rintro rfl; exact t1 (opType_unique hn ho hx)
    rw [reach_op hn ho hw, NExpr.origins, List.mem_append, ← iha d1 hd1 x hx, ← ihb d2 hd2 x hx, reach_in hx]
    · simp only [hal, hnt, not_false_eq_true, true_and, false_or]
      constructor
      · rintro ⟨s, hse, hp⟩
        rcases hs s hse with rfl | rfl | hl
        · exact Or.inl hp
        · exact Or.inr hp
        · exact absurd hp (leaf_unreached hl)
      · rintro (hp | hp)
        · exact ⟨d1, he1, hp⟩
        · exact ⟨d2, he2, hp⟩
    · intro s hse
      rcases hs s hse with rfl | rfl | hl
      · exact drawn_data hd1
      · exact drawn_data hd2
      · exact ⟨hl.1, hl.2.1⟩

theorem origins_layers (types : List String) (e : NExpr P) : ∀ x ∈ e.origins types, x ∈ e.layers := by
  induction e with
  | input => simp [NExpr.origins]
  | conv l w e ih =>
    intro x hx; simp only [NExpr.origins, NExpr.layers, List.mem_cons] at *
    split at hx
    · simp at hx; exact Or.inl hx
    · simp at hx; exact hx.imp id (ih x)
  | bn l e ih =>
    intro x hx; simp only [NExpr.origins, NExpr.layers, List.mem_cons] at *
    split at hx
    · simp at hx
    · exact Or.inr (ih x hx)
  | map f e ih => exact ih
  | zip f a b iha ihb =>
    intro x hx; simp only [NExpr.origins, NExpr.layers, List.mem_append] at *
    exact hx.imp (iha x) (ihb x)

/-- `successors_f` and a layer whose input is `e`. -/
theorem succ_layer (hn : sg.ops.Nodup) (types : List String)
    (ht : ∀ t ∈ types, t = "Conv" ∨ t = "Gemm" ∨ t = "BatchNormalization") {e : NExpr P} {l t d' a : String} (hl : (l, t) ∈ sg.ops)
    (htl : t ∈ types) (hle : l ∉ e.layers) (hd : e.Drawn sg d') (he : (d', l) ∈ sg.edges)
    (hs : ∀ s, (s, l) ∈ sg.edges → s = d' ∨ Leaf sg s) (ha : (a, "Conv") ∈ sg.ops) :
    l ∈ answer (sg.successorsF types (sg.ops.length + sg.params.length + 2) a) ↔ a ∈ e.origins types := by
  obtain ⟨ret, h1, h2⟩ := C51_successors sg hn types a (.inl (List.mem_map.2 ⟨_, ha, rfl⟩)) _ le_rfl
  rw [h1]
  show l ∈ ret ↔ _
  rw [h2 l, ← reach_spec hn types ht e d' hd a ha, ← reach_one ha hd he hs]
  constructor
  · rintro ⟨_, _, h⟩; exact h
  · intro h
    refine ⟨?_, ⟨t, hl, htl⟩, h⟩
    rintro rfl
    rw [reach_one ha hd he hs, reach_spec hn types ht e d' hd l ha] at h
    exact hle (origins_layers types e l h)

/-- On a traced graph that contains the network, the answers of `successors_f` are those C41 asks for. -/
theorem matches_of_drawn {m : TModel} (hn : sg.ops.Nodup) (hm : ∀ a, IsConvOf m a → (a, "Conv") ∈ sg.ops) (e : NExpr P) :
    ∀ d, e.Drawn sg d → e.Regular → e.Matches sg.toTGraph m := by
  induction e with
  | input => intros; trivial
  | conv l w e ih =>
    rintro d ⟨ho, hle, hw, d', hd', he, hs⟩ ⟨hr, hreg⟩
    refine ⟨ih d' hd' hr, fun a ha => ?_⟩
    rw [← origins_conv]
    exact succ_layer hn ["Conv", "Gemm"] (by simp) ho (by simp) hle hd' he hs (hm a ha)
  | bn l e ih =>
    rintro d ⟨ho, hle, hw, d', hd', he, hs⟩ ⟨hr, hreg⟩
    refine ⟨ih d' hd' hr, fun a ha => ?_⟩
    rw [← hreg, ← origins_bn]
    exact succ_layer hn ["BatchNormalization"] (by simp) ho (by simp) hle hd' he hs (hm a ha)
  | map f e ih =>
    rintro d ⟨o, t, _, _, _, _, _, d', hd', _⟩ hr
    exact ih d' hd' hr
  | zip f a b iha ihb =>
    rintro d ⟨o, t, _, _, _, _, _, d1, d2, hd1, hd2, _⟩ ⟨hra, hrb⟩
    exact ⟨iha d1 hd1 hra, ihb d2 hd2 hrb⟩

theorem predsConv_of_trace {m : TModel} (hn : sg.ops.Nodup)
    (hp : ∀ a la, (a, "Conv") ∈ sg.ops → m.layers.get? a = some la → la.kind = .conv) : PredsConv sg.toTGraph m := by
  intro b a la ha hl
  have ha : a ∈ answer (sg.predecessorsF ["Conv"] (sg.ops.length + sg.params.length + 2) b) := ha
  by_cases hb : IsNode sg b
  · obtain ⟨ret, h1, h2⟩ := C51_predecessors sg hn ["Conv"] b hb _ le_rfl
    rw [h1] at ha
    obtain ⟨_, ⟨t, ht, htm⟩, _⟩ := (h2 a).1 ha
    simp at htm; subst htm
    exact hp a la ht hl
  · rw [(C51_unknown sg ["Conv"] b hb _).2] at ha
    simp [answer] at ha

theorem fromFC_data {d : String} (h : FromFC sg d) : d ∈ sg.params ∧ d ∉ sg.ops.map Prod.fst := by
  cases h with
  | fc o d ho hw => exact ⟨hw.1, hw.2.1⟩
  | op o t d d' ho ht hw hd he hs => exact ⟨hw.1, hw.2.1⟩

/-- No search for convolutions and fully-connected layers gets past a fully-connected layer. -/
theorem fromFC_unreached (hn : sg.ops.Nodup) {a : String} (ha : (a, "Conv") ∈ sg.ops) {d : String} (h : FromFC sg d) :
    ¬ Reach sg ["Conv", "Gemm"] a d := by
  induction h with
  | fc o d ho hw =>
    rw [reach_op hn ho hw]
    rintro (rfl | ⟨h, _⟩)
    · exact absurd (opType_unique hn ha ho) (by decide)
    · simp at h
  | op o t d d' ho ht hw hd he hs ih =>
    rw [reach_op hn ho hw, reach_in ha]
    · rintro (rfl | ⟨_, s, hse, hr⟩)
      · exact ht (opType_unique hn ho ha)
      · rcases hs s hse with rfl | hl
        · exact ih hr
        · exact leaf_unreached hl hr
    · intro s hse
      rcases hs s hse with rfl | hl
      · exact fromFC_data hd
      · exact ⟨hl.1, hl.2.1⟩

theorem tail_inner (hn : sg.ops.Nodup) {l a : String} (h : TailDrawn sg l) (ha : (a, "Conv") ∈ sg.ops) :
    l ∉ sg.toTGraph.succs a := by
  obtain ⟨hl, d', hd, hs⟩ := h
  obtain ⟨ret, h1, h2⟩ := C51_successors sg hn ["Conv", "Gemm"] a (.inl (List.mem_map.2 ⟨_, ha, rfl⟩)) _ le_rfl
  show l ∉ answer (sg.successorsF ["Conv", "Gemm"] (sg.ops.length + sg.params.length + 2) a)
  rw [h1]
  show l ∉ ret
  rw [h2 l]
  rintro ⟨_, _, hr⟩
  have hr : Reach sg ["Conv", "Gemm"] a l := hr
  rw [reach_in ha] at hr
  · obtain ⟨s, hse, hr⟩ := hr
    rcases hs s hse with rfl | hl
    · exact fromFC_unreached hn ha hd hr
    · exact leaf_unreached hl hr
  · intro s hse
    rcases hs s hse with rfl | hl
    · exact fromFC_data hd
    · exact ⟨hl.1, hl.2.1⟩

theorem head_succs {m : TModel} (hn : sg.ops.Nodup) (hm : ∀ a, IsConvOf m a → (a, "Conv") ∈ sg.ops) {e : NExpr P} {l : String}
    (h : HeadDrawn sg e l) (a : String) (ha : IsConvOf m a) : l ∈ sg.toTGraph.succs a ↔ a ∈ e.sources := by
  obtain ⟨hl, hle, e', d', he', hd, he, hs⟩ := h
  have key : ∀ e' : NExpr P, e'.layers = e.layers → e'.sources = e.sources → e'.Drawn sg d' →
      (l ∈ sg.toTGraph.succs a ↔ a ∈ e.sources) := by
    intro e' h1 h2 hd
    rw [← h2, ← origins_conv]
    exact succ_layer hn ["Conv", "Gemm"] (by simp) hl (by simp) (by rw [h1]; exact hle) hd he hs (hm a ha)
  rcases he' with rfl | ⟨f, rfl⟩
  · exact key _ rfl rfl hd
  · exact key (.map f e) rfl rfl hd

end

/-! ## Theorems -/

/-- **C41** on the traced graph: `remove_filters` asks `successors_f` for the layers that follow; on every
graph that contains the network, in which batch-norms follow their convolutions, the function of the
network is preserved (under the conditions of `C41_network` on its weights). -/
theorem C41_traced {P : Type} (sg : SGraph) (opt : OptKind) (upd : Bool) (m m' : TModel) (saved saved' : List Recipe)
    (bnf : ℚ → ℚ → ℚ → ℚ → ℚ → ℚ) (e : NExpr P) (x : List (P → ℚ)) (d : String)
    (hs : sg.ops.Nodup) (hops : ∀ a, IsConvOf m a → (a, "Conv") ∈ sg.ops) (hd : e.Drawn sg d) (hreg : e.Regular)
    (hn : m.params.Nodup) (hg : NoGroups m) (h4 : ∀ kv ∈ m.params, kv.2.data.shape.length = 4 → kv.1.2 = .weight)
    (hw : e.WellFormed m bnf x) (ha : e.Agree m x) (hq : e.Quiet m bnf x)
    (h : removeFilters sg.toTGraph opt upd m saved = .ok (m', saved')) :
    ((∀ a ∈ e.sources, nonzeroRows (wdata m a) = List.range (e.eval m bnf x).length) → e.eval m' bnf x = e.eval m bnf x) ∧
    ∀ (l : String) (rest : List (String × (List ℚ → List ℚ))) (grid : List P), FCWellFormed m bnf x e l grid → HeadDrawn sg e l →
      (∀ lf ∈ rest, TailDrawn sg lf.1 ∧ ∃ lay, m.layers.get? lf.1 = some lay ∧ lay.kind = .linear) →
      headEval m' l rest grid (e.eval m' bnf x) = headEval m l rest grid (e.eval m bnf x) := by
  have hm := matches_of_drawn (m := m) hs hops e d hd hreg
  refine ⟨fun hlast => C41_network _ opt upd m m' saved saved' bnf e x hn hg h4 hw ha hq hm hlast h, ?_⟩
  intro l rest grid hf hhead htail
  refine C41_network_fc _ opt upd m m' saved saved' bnf e x l rest grid hn hg h4 hw ha hq hm hf (head_succs hs hops hhead) ?_ h
  intro lf hlf
  exact ⟨(htail lf hlf).2, fun a hca => tail_inner hs (htail lf hlf).1 (hops a hca)⟩

/-- **C99** on the traced graph. -/
theorem C99_traced {P : Type} (sg : SGraph) (opt : OptKind) (upd : Bool) (m m' : TModel) (saved saved' : List Recipe)
    (bnf : ℚ → ℚ → ℚ → ℚ → ℚ → ℚ) (e : NExpr P) (x : List (P → ℚ)) (d : String)
    (hs : sg.ops.Nodup) (hd : e.Drawn sg d) (hreg : e.Regular)
    (hg : NoGroups m) (hc : Consistent m) (hlin : LinearFull m) (hpl : ParamsOfLayers m)
    (hp : ∀ a la, (a, "Conv") ∈ sg.ops → m.layers.get? a = some la → la.kind = .conv) (ho : PredsOK sg.toTGraph m)
    (hw : e.WellFormed m bnf x) (hu : e.Used sg.toTGraph m x (List.range (e.eval m bnf x).length))
    (h : removeChannels sg.toTGraph opt upd m saved = .ok (m', saved')) :
    e.eval m' bnf x = e.eval m bnf x :=
  (C99_network _ opt upd m m' saved saved' bnf e x hg hc hlin hpl (predsConv_of_trace hs hp) ho hw hu (matchesBack_of_drawn hs e d hd hreg) h).1

/-! ## Instances -/

/-- The trace of the residual network of C41: `a` – batch-norm – ReLU and `b` are added, then `c` and two
fully-connected layers. -/
def exResTrace : SGraph where
  ops := [("a", "Conv"), ("n", "BatchNormalization"), ("r", "Relu"), ("b", "Conv"), ("add", "Add"), ("c", "Conv"),
    ("flat", "Flatten"), ("fc", "Gemm"), ("r2", "Relu"), ("fc2", "Gemm")]
  params := ["x", "wa", "t1", "t2", "t3", "t4", "t5", "t6", "t7", "t8", "t9", "t10"]
  edges := [("x", "a"), ("wa", "a"), ("a", "t1"), ("t1", "n"), ("n", "t2"), ("t2", "r"), ("r", "t3"), ("x", "b"), ("b", "t4"),
    ("t3", "add"), ("t4", "add"), ("add", "t5"), ("t5", "c"), ("c", "t6"), ("t6", "flat"), ("flat", "t7"), ("t7", "fc"),
    ("fc", "t8"), ("t8", "r2"), ("r2", "t9"), ("t9", "fc2"), ("fc2", "t10")]

theorem exRes_drawn : exResNet.Drawn exResTrace "t6" := by
  have lx : Leaf exResTrace "x" := by simp [Leaf, exResTrace]
  have lw : Leaf exResTrace "wa" := by simp [Leaf, exResTrace]
  refine ⟨by decide, by decide, ?_, "t5", ⟨"add", "Add", by decide, by decide, by decide, by decide, ?_, "t3", "t4",
    ⟨"r", "Relu", by decide, by decide, by decide, by decide, ?_, "t2", ⟨by decide, by decide, ?_, "t1",
      ⟨by decide, by decide, ?_, "x", lx, by decide, ?_⟩, by decide, ?_⟩, by decide, ?_⟩,
    ⟨by decide, by decide, ?_, "x", lx, by decide, ?_⟩, by decide, by decide, ?_⟩, by decide, ?_⟩
  all_goals first
    | (intro s hs; simp [exResTrace] at hs; subst hs; exact Or.inl rfl)
    | (intro s hs; simp [exResTrace] at hs; rcases hs with rfl | rfl <;> first | exact Or.inl rfl | exact Or.inr lw | exact Or.inr (Or.inl rfl))
    | simp [Written, exResTrace]

theorem exRes_regular : exResNet.Regular := by
  simp [exResNet, NExpr.Regular, NExpr.frontNorms, NExpr.norms, NExpr.frontConvs, NExpr.sources]

/-- The hypotheses of `C41_traced` hold for the residual network with a classifier. -/
example : ∃ m' saved', removeFilters exResTrace.toTGraph .sgd true (exRes [0, 0, 0, 4, 5, 6]) [] = .ok (m', saved') ∧
    wdata m' "fc" = ⟨[2, 1], [2, 4]⟩ ∧
    ∀ x : List (Unit → ℚ), x.length = 1 →
      headEval m' "fc" [("fc2", fun y => y.map (max 0))] [()] (exResNet.eval m' exNorm x) =
      headEval (exRes [0, 0, 0, 4, 5, 6]) "fc" [("fc2", fun y => y.map (max 0))] [()] (exResNet.eval (exRes [0, 0, 0, 4, 5, 6]) exNorm x) := by
  have hd : (removeFilters exResTrace.toTGraph .sgd true (exRes [0, 0, 0, 4, 5, 6]) []).toOption.map (fun p => wdata p.1 "fc") =
      some ⟨[2, 1], [2, 4]⟩ := by decide +kernel
  cases h : removeFilters exResTrace.toTGraph .sgd true (exRes [0, 0, 0, 4, 5, 6]) [] with
  | error e => rw [h] at hd; cases hd
  | ok ms =>
    rw [h] at hd
    refine ⟨ms.1, ms.2, rfl, by simpa [Except.toOption] using hd, fun x hx => ?_⟩
    refine (C41_traced exResTrace .sgd true _ _ _ _ exNorm exResNet x "t6" (by simp [exResTrace, Dict.Nodup]) ?_ exRes_drawn exRes_regular
      (by simp [exRes, Dict.Nodup]) ?_ (by decide +kernel) (exRes_wf _ rfl x hx) (exRes_agree _ x) (exRes_quiet _ x) h).2 "fc" _ [()] ?_ ?_ ?_
    · rintro a ⟨la, hla, hk⟩
      have := Dict.mem_of_get? hla
      simp only [exRes, List.mem_cons, List.not_mem_nil, or_false, Prod.mk.injEq] at this
      rcases this with ⟨rfl, rfl⟩ | ⟨rfl, rfl⟩ | ⟨rfl, rfl⟩ | ⟨rfl, rfl⟩ | ⟨rfl, rfl⟩ | ⟨rfl, rfl⟩ <;>
        first | (exact absurd hk (by decide)) | simp [exResTrace]
    · intro l lay hl
      have := Dict.mem_of_get? hl
      simp only [exRes, List.mem_cons, List.not_mem_nil, or_false, Prod.mk.injEq] at this
      rcases this with ⟨_, rfl⟩ | ⟨_, rfl⟩ | ⟨_, rfl⟩ | ⟨_, rfl⟩ | ⟨_, rfl⟩ | ⟨_, rfl⟩ <;> intro hk <;> first | rfl | cases hk
    · refine ⟨_, ⟨⟨[2, 2], [1, 2, 3, 4]⟩, none, none, none⟩, 2, 1, by rfl, by rfl, by rfl, by rfl, by rfl, by decide, by decide, by rfl, by rfl, by rfl, ?_⟩
      intro a ha la hla
      have : a = "c" := by simpa [exResNet, NExpr.sources] using ha
      subst this
      cases (show some _ = some la from hla)
      rfl
    · refine ⟨by decide, by decide, .map (fun f => f) exResNet, "t7", Or.inr ⟨_, rfl⟩,
        ⟨"flat", "Flatten", by decide, by decide, by decide, by decide, ?_, "t6", exRes_drawn, by decide, ?_⟩, by decide, ?_⟩
      · simp [Written, exResTrace]
      · intro s hs; simp [exResTrace] at hs; exact Or.inl hs
      · intro s hs; simp [exResTrace] at hs; exact Or.inl hs
    · intro lf hlf
      simp only [List.mem_singleton] at hlf
      subst hlf
      refine ⟨⟨by decide, "t9", .op "r2" "Relu" "t9" "t8" (by decide) (by decide) ?_ (.fc "fc" "t8" (by decide) ?_) (by decide) ?_, ?_⟩, _, by rfl, rfl⟩
      · simp [Written, exResTrace]
      · simp [Written, exResTrace]
      · intro s hs; simp [exResTrace] at hs; exact Or.inl hs
      · intro s hs; simp [exResTrace] at hs; exact Or.inl hs

/-- The trace of the residual network of C99. -/
def exResCTrace : SGraph where
  ops := [("a", "Conv"), ("n", "BatchNormalization"), ("r", "Relu"), ("b", "Conv"), ("k", "BatchNormalization"), ("add", "Add"), ("c", "Conv"),
    ("flat", "Flatten"), ("fc", "Gemm")]
  params := ["x", "wa", "t1", "t2", "t3", "t4", "t4'", "t5", "t6", "t7", "t8"]
  edges := [("x", "a"), ("wa", "a"), ("a", "t1"), ("t1", "n"), ("n", "t2"), ("t2", "r"), ("r", "t3"), ("x", "b"), ("b", "t4"), ("t4", "k"), ("k", "t4'"),
    ("t3", "add"), ("t4'", "add"), ("add", "t5"), ("t5", "c"), ("c", "t6"), ("t6", "flat"), ("flat", "t7"), ("t7", "fc"), ("fc", "t8")]

theorem exResC_drawn : exResCNet.Drawn exResCTrace "t6" := by
  have lx : Leaf exResCTrace "x" := by simp [Leaf, exResCTrace]
  have lw : Leaf exResCTrace "wa" := by simp [Leaf, exResCTrace]
  refine ⟨by decide, by decide, ?_, "t5", ⟨"add", "Add", by decide, by decide, by decide, by decide, ?_, "t3", "t4'",
    ⟨"r", "Relu", by decide, by decide, by decide, by decide, ?_, "t2", ⟨by decide, by decide, ?_, "t1",
      ⟨by decide, by decide, ?_, "x", lx, by decide, ?_⟩, by decide, ?_⟩, by decide, ?_⟩,
    ⟨by decide, by decide, ?_, "t4", ⟨by decide, by decide, ?_, "x", lx, by decide, ?_⟩, by decide, ?_⟩, by decide, by decide, ?_⟩, by decide, ?_⟩
  all_goals first
    | (intro s hs; simp [exResCTrace] at hs; subst hs; exact Or.inl rfl)
    | (intro s hs; simp [exResCTrace] at hs; rcases hs with rfl | rfl <;> first | exact Or.inl rfl | exact Or.inr lw | exact Or.inr (Or.inl rfl))
    | simp [Written, exResCTrace]

theorem exResC_convs (b : String) (h : IsConvOf exResC b) : b = "a" ∨ b = "b" ∨ b = "c" := by
  obtain ⟨la, hla, hk⟩ := h
  have : ∀ kv ∈ exResC.layers, kv.2.kind = .conv → kv.1 = "a" ∨ kv.1 = "b" ∨ kv.1 = "c" := by decide +kernel
  exact this _ (Dict.mem_of_get? hla) hk

theorem exResC_traced_preds (l b : String) (hb : IsConvOf exResC b) (h : l ∈ exResCTrace.toTGraph.preds b) :
    b = "c" ∧ (l = "a" ∨ l = "b") := by
  have e : exResCTrace.toTGraph.preds "a" = [] ∧ exResCTrace.toTGraph.preds "b" = [] ∧ exResCTrace.toTGraph.preds "c" = ["a", "b"] := by decide +kernel
  rcases exResC_convs b hb with rfl | rfl | rfl
  · rw [e.1] at h; simp at h
  · rw [e.2.1] at h; simp at h
  · rw [e.2.2] at h; simpa using h

theorem exResC_traced_predBN (l b : String) (hb : IsConvOf exResC b) (h : l ∈ exResCTrace.toTGraph.predBN b) :
    b = "c" ∧ (l = "n" ∨ l = "k") := by
  have e : exResCTrace.toTGraph.predBN "a" = [] ∧ exResCTrace.toTGraph.predBN "b" = [] ∧ exResCTrace.toTGraph.predBN "c" = ["n", "k"] := by decide +kernel
  rcases exResC_convs b hb with rfl | rfl | rfl
  · rw [e.1] at h; simp at h
  · rw [e.2.1] at h; simp at h
  · rw [e.2.2] at h; simpa using h

/-- The hypotheses of `C99_traced` that mention the graph hold for this trace (the others are those of
the example of `C99_network`). -/
example : exResCTrace.ops.Nodup ∧ exResCNet.Drawn exResCTrace "t6" ∧ exResCNet.Regular ∧
    (∀ a la, (a, "Conv") ∈ exResCTrace.ops → exResC.layers.get? a = some la → la.kind = .conv) ∧
    PredsOK exResCTrace.toTGraph exResC ∧
    (∀ x : List (Unit → ℚ), x.length = 1 → exResCNet.Used exResCTrace.toTGraph exResC x (List.range (exResCNet.eval exResC exNorm x).length)) ∧
    ((removeChannels exResCTrace.toTGraph .sgd true exResC []).toOption.map fun p => (wdata p.1 "c", wdata p.1 "n", wdata p.1 "b")) =
      some (⟨[2, 2, 1, 1], [1, 3, 4, 6]⟩, ⟨[2], [1, 2]⟩, ⟨[2, 1, 1, 1], [1, 2]⟩) := by
  refine ⟨by simp [exResCTrace, Dict.Nodup], exResC_drawn,
    by simp [exResCNet, NExpr.Regular, NExpr.frontNorms, NExpr.norms, NExpr.frontConvs, NExpr.sources], ?_, ⟨?_, ?_⟩, ?_, by decide +kernel⟩
  · intro a la ha hl
    simp [exResCTrace] at ha
    rcases ha with rfl | rfl | rfl <;> cases (show some _ = some la from hl) <;> rfl
  · intro a b la lb hb hk ha hl
    obtain ⟨rfl, rfl | rfl⟩ := exResC_traced_preds _ _ ⟨_, hb, hk⟩ ha <;>
    · cases (show some _ = some lb from hb)
      cases (show some _ = some la from hl)
      rfl
  · intro a b la lb hb hk ha hl
    obtain ⟨rfl, rfl | rfl⟩ := exResC_traced_predBN _ _ ⟨_, hb, hk⟩ ha <;>
    · cases (show some _ = some lb from hb)
      cases (show some _ = some la from hl)
      rfl
  · intro x hx
    have hcc : nonzeroChannels (wdata exResC "c") = [0, 2] := by decide +kernel
    have haa : nonzeroChannels (wdata exResC "a") = [0] := by decide +kernel
    have hbb : nonzeroChannels (wdata exResC "b") = [0] := by decide +kernel
    refine ⟨?_, ⟨⟨?_, ?_, ?_⟩, ?_, ?_, ?_⟩⟩
    · intro b hb h
      obtain ⟨_, h | h⟩ := exResC_traced_preds _ _ hb h <;> simp at h
    · intro b hb h
      obtain ⟨rfl, _⟩ := exResC_traced_predBN _ _ hb h
      rfl
    · intro b hb h
      obtain ⟨rfl, _⟩ := exResC_traced_preds _ _ hb h
      rfl
    · show nonzeroChannels (wdata exResC "a") = List.range x.length
      rw [haa, hx]; rfl
    · intro b hb h
      obtain ⟨rfl, _⟩ := exResC_traced_predBN _ _ hb h
      rfl
    · intro b hb h
      obtain ⟨rfl, _⟩ := exResC_traced_preds _ _ hb h
      rfl
    · show nonzeroChannels (wdata exResC "b") = List.range x.length
      rw [hbb, hx]; rfl

/-! ## What goes wrong without regularity -/

/-- `c1` – ReLU – `c2` – batch-norm `n2`: the first convolution has no batch-norm of its own. -/
def exLateTrace : SGraph where
  ops := [("c1", "Conv"), ("r", "Relu"), ("c2", "Conv"), ("n2", "BatchNormalization")]
  params := ["x", "t1", "t2", "t3", "t4"]
  edges := [("x", "c1"), ("c1", "t1"), ("t1", "r"), ("r", "t2"), ("t2", "c2"), ("c2", "t3"), ("t3", "n2"), ("n2", "t4")]

def exLateNet : NExpr Unit :=
  .bn "n2" (.conv "c2" (fun p => [some p]) (.map (fun f p => max 0 (f p)) (.conv "c1" (fun p => [some p]) .input)))

def exLate : TModel :=
  ⟨[("c1", ⟨.conv, [(.inChannels, 1), (.outChannels, 2), (.groups, 1)], []⟩),
    ("c2", ⟨.conv, [(.inChannels, 2), (.outChannels, 3), (.groups, 1)], []⟩),
    ("n2", ⟨.bn, [(.numFeatures, 3)], [(.runningMean, ⟨[3], [1, 2, 3]⟩), (.runningVar, ⟨[3], [4, 5, 6]⟩)]⟩)],
   [(("c1", .weight), ⟨⟨[2, 1, 1, 1], [0, 9]⟩, none, none, none⟩),
    (("c2", .weight), ⟨⟨[3, 2, 1, 1], [1, 2, 3, 4, 5, 6]⟩, none, none, none⟩),
    (("n2", .weight), ⟨⟨[3], [1, 1, 1]⟩, none, none, none⟩), (("n2", .bias), ⟨⟨[3], [0, 0, 0]⟩, none, none, none⟩)]⟩

/-- **C41**, **C43** are violated on a network whose first convolution has no batch-norm: `successors_f` walks
through the second convolution, so the batch-norm *after it* is cut down to the filters kept in the first
one.  It had one feature per filter of `c2`; afterwards it has one feature for three filters. -/
theorem C41_violated_bn_after_next_conv : ∃ (sg : SGraph) (m m' : TModel) (saved' : List Recipe) (e : NExpr Unit) (d : String),
    sg.ops.Nodup ∧ e.Drawn sg d ∧ e.layers = ["n2", "c2", "c1"] ∧ removeFilters sg.toTGraph .none false m [] = .ok (m', saved') ∧
    (m.layers.get? "c2").bind (fun l => l.attrs.get? .outChannels) = some 3 ∧
    (m.layers.get? "n2").bind (fun l => l.attrs.get? .numFeatures) = some 3 ∧
    (m'.layers.get? "c2").bind (fun l => l.attrs.get? .outChannels) = some 3 ∧
    (m'.layers.get? "n2").bind (fun l => l.attrs.get? .numFeatures) = some 1 ∧ wdata m' "n2" = ⟨[1], [1]⟩ ∧ rdata m' "n2" .runningMean = some ⟨[1], [2]⟩ := by
  have hd : ((removeFilters exLateTrace.toTGraph .none false exLate []).toOption.map fun p =>
      ((p.1.layers.get? "c2").bind (fun l => l.attrs.get? .outChannels), (p.1.layers.get? "n2").bind (fun l => l.attrs.get? .numFeatures),
        wdata p.1 "n2", rdata p.1 "n2" .runningMean)) = some (some 3, some 1, ⟨[1], [1]⟩, some ⟨[1], [2]⟩) := by decide +kernel
  cases h : removeFilters exLateTrace.toTGraph .none false exLate [] with
  | error e => rw [h] at hd; cases hd
  | ok ms =>
    rw [h] at hd
    simp only [Except.toOption, Option.map_some, Option.some.injEq, Prod.mk.injEq] at hd
    refine ⟨exLateTrace, exLate, ms.1, ms.2, exLateNet, "t4", by simp [exLateTrace, Dict.Nodup], ?_, rfl, h, rfl, rfl, hd.1, hd.2.1, hd.2.2.1, hd.2.2.2⟩
    have lx : Leaf exLateTrace "x" := by simp [Leaf, exLateTrace]
    refine ⟨by decide, by decide, ?_, "t3", ⟨by decide, by decide, ?_, "t2", ⟨"r", "Relu", by decide, by decide, by decide, by decide, ?_, "t1",
      ⟨by decide, by decide, ?_, "x", lx, by decide, ?_⟩, by decide, ?_⟩, by decide, ?_⟩, by decide, ?_⟩
    all_goals first
      | (intro s hs; simp [exLateTrace] at hs; exact Or.inl hs)
      | simp [Written, exLateTrace]

/-- `n0` – `c1` – ReLU – `c2`: no batch-norm between the convolutions. -/
def exEarlyTrace : SGraph where
  ops := [("n0", "BatchNormalization"), ("c1", "Conv"), ("r", "Relu"), ("c2", "Conv")]
  params := ["x", "t1", "t2", "t3", "t4"]
  edges := [("x", "n0"), ("n0", "t1"), ("t1", "c1"), ("c1", "t2"), ("t2", "r"), ("r", "t3"), ("t3", "c2"), ("c2", "t4")]

def exEarlyNet : NExpr Unit :=
  .conv "c2" (fun p => [some p]) (.map (fun f p => max 0 (f p)) (.conv "c1" (fun p => [some p]) (.bn "n0" .input)))

def exEarly : TModel :=
  ⟨[("n0", ⟨.bn, [(.numFeatures, 3)], [(.runningMean, ⟨[3], [1, 2, 3]⟩), (.runningVar, ⟨[3], [4, 5, 6]⟩)]⟩),
    ("c1", ⟨.conv, [(.inChannels, 3), (.outChannels, 2), (.groups, 1)], []⟩),
    ("c2", ⟨.conv, [(.inChannels, 2), (.outChannels, 1), (.groups, 1)], []⟩)],
   [(("n0", .weight), ⟨⟨[3], [1, 1, 1]⟩, none, none, none⟩), (("n0", .bias), ⟨⟨[3], [0, 0, 0]⟩, none, none, none⟩),
    (("c1", .weight), ⟨⟨[2, 3, 1, 1], [1, 2, 3, 4, 5, 6]⟩, none, none, none⟩),
    (("c2", .weight), ⟨⟨[1, 2, 1, 1], [0, 9]⟩, none, none, none⟩)]⟩

/-- **C99** is violated in the same way: the batch-norm *before the preceding convolution* is cut down to the
channels the second convolution uses, although the convolution it feeds still reads three channels. -/
theorem C99_violated_bn_before_previous_conv : ∃ (sg : SGraph) (m m' : TModel) (saved' : List Recipe) (e : NExpr Unit) (d : String),
    sg.ops.Nodup ∧ e.Drawn sg d ∧ e.layers = ["c2", "c1", "n0"] ∧ removeChannels sg.toTGraph .none false m [] = .ok (m', saved') ∧
    (m.layers.get? "c1").bind (fun l => l.attrs.get? .inChannels) = some 3 ∧
    (m.layers.get? "n0").bind (fun l => l.attrs.get? .numFeatures) = some 3 ∧
    (m'.layers.get? "c1").bind (fun l => l.attrs.get? .inChannels) = some 3 ∧
    (m'.layers.get? "n0").bind (fun l => l.attrs.get? .numFeatures) = some 1 := by
  have hd : ((removeChannels exEarlyTrace.toTGraph .none false exEarly []).toOption.map fun p =>
      ((p.1.layers.get? "c1").bind (fun l => l.attrs.get? .inChannels), (p.1.layers.get? "n0").bind (fun l => l.attrs.get? .numFeatures))) =
      some (some 3, some 1) := by decide +kernel
  cases h : removeChannels exEarlyTrace.toTGraph .none false exEarly [] with
  | error e => rw [h] at hd; cases hd
  | ok ms =>
    rw [h] at hd
    simp only [Except.toOption, Option.map_some, Option.some.injEq, Prod.mk.injEq] at hd
    refine ⟨exEarlyTrace, exEarly, ms.1, ms.2, exEarlyNet, "t4", by simp [exEarlyTrace, Dict.Nodup], ?_, rfl, h, rfl, rfl, hd.1, hd.2⟩
    have lx : Leaf exEarlyTrace "x" := by simp [Leaf, exEarlyTrace]
    refine ⟨by decide, by decide, ?_, "t3", ⟨"r", "Relu", by decide, by decide, by decide, by decide, ?_, "t2",
      ⟨by decide, by decide, ?_, "t1", ⟨by decide, by decide, ?_, "x", lx, by decide, ?_⟩, by decide, ?_⟩, by decide, ?_⟩, by decide, ?_⟩
    all_goals first
      | (intro s hs; simp [exEarlyTrace] at hs; exact Or.inl hs)
      | simp [Written, exEarlyTrace]

/-- **C99** is violated for the first convolution of a network: its unused input channel is removed from its
weights, but the network's input still has it. -/
theorem C99_violated_first_layer : ∃ (sg : SGraph) (m m' : TModel) (saved' : List Recipe) (e : NExpr Unit) (d : String) (x : List (Unit → ℚ)),
    sg.ops.Nodup ∧ e.Drawn sg d ∧ e.WellFormed m exNorm x ∧ removeChannels sg.toTGraph .none false m [] = .ok (m', saved') ∧
    x.length = 2 ∧ (wdata m "c1").shape = [1, 2, 1, 1] ∧ (wdata m' "c1").shape = [1, 1, 1, 1] ∧
    (m'.layers.get? "c1").bind (fun l => l.attrs.get? .inChannels) = some 1 := by
  refine ⟨⟨[("c1", "Conv")], ["x", "y"], [("x", "c1"), ("c1", "y")]⟩,
    ⟨[("c1", ⟨.conv, [(.inChannels, 2), (.outChannels, 1), (.groups, 1)], []⟩)], [(("c1", .weight), ⟨⟨[1, 2, 1, 1], [0, 9]⟩, none, none, none⟩)]⟩,
    ⟨[("c1", ⟨.conv, [(.inChannels, 1), (.outChannels, 1), (.groups, 1)], []⟩)], [(("c1", .weight), ⟨⟨[1, 1, 1, 1], [9]⟩, none, none, none⟩)]⟩,
    [⟨[("c1", ⟨[(.inChannels, 1)], []⟩)], [(("c1", .weight), [.two 1 [1]])]⟩],
    .conv "c1" (fun p => [some p]) .input, "y", [fun _ => 1, fun _ => 2], by simp [Dict.Nodup], ?_, ?_, by decide +kernel, rfl, by rfl, by rfl, by rfl⟩
  · refine ⟨by decide, by decide, by simp [Written], "x", by simp [NExpr.Drawn, Leaf], by decide, ?_⟩
    intro s hs; simp at hs; exact Or.inl hs
  · refine ⟨trivial, _, _, 1, 1, 1, by rfl, by rfl, by rfl, by rfl, by rfl, ?_, fun _ => rfl⟩
    intro b hb
    cases (show none = some b from hb)

end Verif
