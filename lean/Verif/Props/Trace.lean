import Verif.Model.Trace
import Mathlib.Logic.Relation
/-!
# C105–C107: the graph of a traced model
-/
namespace Verif
open Dict

/-! ## Specification -/

/-- The documented name of an operation: the module it is called from, plus type and running number from
the second operation of that module on. -/
def docName (pre : List TNode) (n : TNode) : String :=
  let base := if n.module = "" then "top_level_op" else n.module
  let k := pre.countP fun m => m.module == n.module
  if k = 0 then base else base ++ "_" ++ n.type ++ "_" ++ toString k

/-- The nodes of a trace (after `pre`) with their names. -/
def namedFrom (pre : List TNode) : List TNode → List (String × TNode)
  | [] => []
  | n :: t => (docName pre n, n) :: namedFrom (pre ++ [n]) t

/-- All nodes of a trace with their names. -/
def named (t : List TNode) : List (String × TNode) := namedFrom [] t

/-- Names are unambiguous: no two operations share a name, and no value is called like an operation. -/
structure Unambiguous (t : List TNode) : Prop where
  ops : ((named t).map Prod.fst).Nodup
  data : ∀ x ∈ named t, ∀ y ∈ named t, x.1 ∉ y.2.ins ∧ x.1 ∉ y.2.outs

/-! ## Construction -/

def edgesOf (l : List (String × TNode)) : List (String × String) :=
  l.flatMap fun kv => (kv.2.ins.map fun d => (d, kv.1)) ++ kv.2.outs.map fun d => (kv.1, d)

def ded (kv : String × TNode) : String × TNode := (kv.1, { kv.2 with ins := addOnce kv.2.ins, outs := addOnce kv.2.outs })

theorem addOnce_aux (l : List String) : ∀ acc : List String, acc.Nodup →
    (∀ x, x ∈ l.foldl (fun l x => if x ∈ l then l else l ++ [x]) acc ↔ x ∈ acc ∨ x ∈ l) ∧
    (l.foldl (fun l x => if x ∈ l then l else l ++ [x]) acc).Nodup := by
  induction l with
  | nil => intro acc h; simp [h]
  | cons a l ih =>
    intro acc h
    rw [List.foldl_cons]
    by_cases ha : a ∈ acc
    · rw [if_pos ha]
      refine ⟨fun x => ?_, (ih acc h).2⟩
      rw [(ih acc h).1 x]
      constructor
      · rintro (h | h) <;> simp [h]
      · rintro (h | h)
        · exact .inl h
        · rcases List.mem_cons.1 h with rfl | h
          · exact .inl ha
          · exact .inr h
    · rw [if_neg ha]
      have hn : (acc ++ [a]).Nodup := by
        rw [List.nodup_append]
        refine ⟨h, by simp, ?_⟩
        intro x hx y hy e
        simp at hy
        exact ha (by rw [← hy, ← e]; exact hx)
      refine ⟨fun x => ?_, (ih _ hn).2⟩
      rw [(ih _ hn).1 x]
      simp [or_assoc]

theorem mem_addOnce (l : List String) (x : String) : x ∈ addOnce l ↔ x ∈ l := by
  rw [addOnce, (addOnce_aux l [] (by simp)).1]; simp

theorem nodup_addOnce (l : List String) : (addOnce l).Nodup := (addOnce_aux l [] (by simp)).2

theorem addOnce_single (x : String) : addOnce [x] = [x] := rfl

/-- The invariant of the construction. -/
structure Built (pre : List TNode) (g : TGr) : Prop where
  edges : g.edges = edgesOf (named pre)
  modOps : ∀ m, (g.modOps.get? m).getD [] = ((named pre).filter fun kv => kv.2.module == m).map Prod.fst
  ops : ((named pre).map Prod.fst).Nodup → g.ops = (named pre).map ded

theorem namedFrom_append (a b pre : List TNode) :
    namedFrom pre (a ++ b) = namedFrom pre a ++ namedFrom (pre ++ a) b := by
  induction a generalizing pre with
  | nil => simp [namedFrom]
  | cons x a ih => simp [namedFrom, ih]

theorem namedFrom_snd (pre t : List TNode) : (namedFrom pre t).map Prod.snd = t := by
  induction t generalizing pre with
  | nil => rfl
  | cons n t ih => simp [namedFrom, ih]

theorem named_snoc (pre : List TNode) (n : TNode) : named (pre ++ [n]) = named pre ++ [(docName pre n, n)] := by
  simp [named, namedFrom_append, namedFrom]

theorem count_named (pre : List TNode) (m : String) :
    (((named pre).filter fun kv => kv.2.module == m).map Prod.fst).length = pre.countP fun x => x.module == m := by
  rw [List.length_map, ← List.countP_eq_length_filter]
  conv_rhs => rw [← namedFrom_snd [] pre, List.countP_map]
  rfl

theorem Built.step {pre : List TNode} {g : TGr} (h : Built pre g) (n : TNode) : Built (pre ++ [n]) (addNode g n) := by
  have hname : opNameAt ((g.modOps.get? n.module).getD []).length n = docName pre n := by
    rw [h.modOps, count_named]; rfl
  constructor
  · simp only [addNode, hname, named_snoc]
    rw [h.edges]; simp [edgesOf]
  · intro m
    simp only [addNode, hname, named_snoc]
    rw [get?_set]
    by_cases e : n.module = m
    · subst e
      simp [h.modOps]
    · rw [if_neg e, h.modOps]
      simp [e]
  · intro hn
    simp only [addNode, hname]
    rw [named_snoc, List.map_append, List.nodup_append] at hn
    rw [h.ops hn.1, keys_set_of_not_mem]
    · simp [named_snoc, ded]
    · intro hmem
      rw [List.map_map] at hmem
      exact hn.2.2 (docName pre n) (by simpa [Function.comp_def, ded] using hmem) _ (by simp) rfl

theorem built (t : List TNode) : Built t (buildGraph t) := by
  have gen : ∀ (t pre : List TNode) (g : TGr), Built pre g → Built (pre ++ t) (t.foldl addNode g) := by
    intro t
    induction t with
    | nil => intro pre g h; simpa using h
    | cons n t ih =>
      intro pre g h
      have := ih (pre ++ [n]) _ (h.step n)
      simpa using this
  have := gen t [] ⟨[], [], []⟩ ⟨rfl, fun m => rfl, fun _ => rfl⟩
  simpa [buildGraph] using this

theorem mem_named {t : List TNode} {x : String × TNode} :
    x ∈ named t ↔ ∃ pre n post, t = pre ++ n :: post ∧ x = (docName pre n, n) := by
  have gen : ∀ (t pre : List TNode), x ∈ namedFrom pre t ↔
      ∃ p n post, t = p ++ n :: post ∧ x = (docName (pre ++ p) n, n) := by
    intro t
    induction t with
    | nil => intro pre; simp [namedFrom]
    | cons a t ih =>
      intro pre
      simp only [namedFrom, List.mem_cons, ih]
      constructor
      · rintro (rfl | ⟨p, n, post, rfl, rfl⟩)
        · exact ⟨[], a, t, rfl, by simp⟩
        · exact ⟨a :: p, n, post, rfl, by simp⟩
      · rintro ⟨p, n, post, e, rfl⟩
        cases p with
        | nil => simp at e; obtain ⟨rfl, rfl⟩ := e; left; simp
        | cons b p =>
          simp at e; obtain ⟨rfl, rfl⟩ := e
          exact .inr ⟨p, n, post, rfl, by simp⟩
  have := gen t []
  simpa [named] using this

/-- **C105** (operations) Every node of the trace is one operation of the graph, in order, under its documented
name, with its type, its calling module and each of its inputs and outputs once. -/
theorem C105_ops (t : List TNode) (h : Unambiguous t) :
    (buildGraph t).ops.map Prod.fst = (named t).map Prod.fst ∧
    ∀ pre n post, t = pre ++ n :: post → ∃ op, (buildGraph t).ops.get? (docName pre n) = some op ∧
      op.type = n.type ∧ op.module = n.module ∧ op.ins.Nodup ∧ op.outs.Nodup ∧
      (∀ d, d ∈ op.ins ↔ d ∈ n.ins) ∧ (∀ d, d ∈ op.outs ↔ d ∈ n.outs) := by
  have hb := (built t).ops h.ops
  refine ⟨by rw [hb]; simp [Function.comp_def, ded], ?_⟩
  intro pre n post e
  have hm : (docName pre n, n) ∈ named t := mem_named.2 ⟨pre, n, post, e, rfl⟩
  refine ⟨(ded (docName pre n, n)).2, ?_, rfl, rfl, nodup_addOnce _, nodup_addOnce _, mem_addOnce _, mem_addOnce _⟩
  apply get?_of_mem
  · rw [hb]; unfold Dict.Nodup; rw [List.map_map]; simpa [Function.comp_def, ded] using h.ops
  · rw [hb]; exact List.mem_map.2 ⟨_, hm, rfl⟩

theorem mem_edgesOf (l : List (String × TNode)) (e : String × String) :
    e ∈ edgesOf l ↔ ∃ kv ∈ l, (e.2 = kv.1 ∧ e.1 ∈ kv.2.ins) ∨ (e.1 = kv.1 ∧ e.2 ∈ kv.2.outs) := by
  unfold edgesOf
  simp only [List.mem_flatMap, List.mem_append, List.mem_map]
  constructor
  · rintro ⟨kv, hkv, ⟨d, hd, rfl⟩ | ⟨d, hd, rfl⟩⟩
    · exact ⟨kv, hkv, .inl ⟨rfl, hd⟩⟩
    · exact ⟨kv, hkv, .inr ⟨rfl, hd⟩⟩
  · rintro ⟨kv, hkv, ⟨h1, h2⟩ | ⟨h1, h2⟩⟩
    · exact ⟨kv, hkv, .inl ⟨e.1, h2, by rw [← h1]⟩⟩
    · exact ⟨kv, hkv, .inr ⟨e.2, h2, by rw [← h1]⟩⟩

theorem nodup_fst_inj {l : List (String × TNode)} (h : (l.map Prod.fst).Nodup) {x y : String × TNode} (hx : x ∈ l)
    (hy : y ∈ l) (e : x.1 = y.1) : x = y := by
  have h1 := get?_of_mem (d := l) h (k := x.1) (v := x.2) hx
  have h2 := get?_of_mem (d := l) h (k := y.1) (v := y.2) hy
  rw [e, h2] at h1
  exact Prod.ext e (Option.some.inj h1).symm

/-- **C105** (edges) The edges into and out of an operation are its inputs and outputs; so one operation feeds
another in the graph exactly if it does so in the trace. -/
theorem C105_edges (t : List TNode) (h : Unambiguous t) (pre post : List TNode) (n : TNode) (e : t = pre ++ n :: post) :
    (∀ d, (d, docName pre n) ∈ (buildGraph t).edges ↔ d ∈ n.ins) ∧
    (∀ d, (docName pre n, d) ∈ (buildGraph t).edges ↔ d ∈ n.outs) ∧
    (∀ pre' n' post', t = pre' ++ n' :: post' →
      ((∃ d, (docName pre n, d) ∈ (buildGraph t).edges ∧ (d, docName pre' n') ∈ (buildGraph t).edges) ↔
        ∃ d, d ∈ n.outs ∧ d ∈ n'.ins)) := by
  have key : ∀ pre n post, t = pre ++ n :: post →
      (∀ d, (d, docName pre n) ∈ (buildGraph t).edges ↔ d ∈ n.ins) ∧
      (∀ d, (docName pre n, d) ∈ (buildGraph t).edges ↔ d ∈ n.outs) := by
    intro pre n post e
    have hm : (docName pre n, n) ∈ named t := mem_named.2 ⟨pre, n, post, e, rfl⟩
    rw [(built t).edges]
    constructor
    · intro d
      rw [mem_edgesOf]
      constructor
      · rintro ⟨kv, hkv, ⟨h1, h2⟩ | ⟨h1, h2⟩⟩
        · rw [← nodup_fst_inj h.ops hm hkv h1] at h2; exact h2
        · exact absurd h2 (h.data _ hm _ hkv).2
      · intro hd; exact ⟨_, hm, .inl ⟨rfl, hd⟩⟩
    · intro d
      rw [mem_edgesOf]
      constructor
      · rintro ⟨kv, hkv, ⟨h1, h2⟩ | ⟨h1, h2⟩⟩
        · exact absurd h2 (h.data _ hm _ hkv).1
        · rw [← nodup_fst_inj h.ops hm hkv h1] at h2; exact h2
      · intro hd; exact ⟨_, hm, .inr ⟨rfl, hd⟩⟩
  refine ⟨(key pre n post e).1, (key pre n post e).2, ?_⟩
  intro pre' n' post' e'
  refine exists_congr fun d => and_congr ((key pre n post e).2 d) ((key pre' n' post' e').1 d)

/-- **C105** (modules) The operations listed under a module are those called from it, in order. -/
theorem C105_modules (t : List TNode) (m : String) :
    ((buildGraph t).modOps.get? m).getD [] = ((named t).filter fun kv => kv.2.module == m).map Prod.fst :=
  (built t).modOps m

/-- A convolution, a shared ReLU used twice, and a functional addition. -/
def exTrace : List TNode :=
  [⟨"conv", "Conv", ["0", "w"], ["1"]⟩, ⟨"relu", "Relu", ["1"], ["2"]⟩, ⟨"fc", "Gemm", ["2", "v"], ["3"]⟩,
   ⟨"relu", "Relu", ["3"], ["4"]⟩, ⟨"", "Add", ["4", "4"], ["5"]⟩]

example : Unambiguous exTrace ∧
    (named exTrace).map Prod.fst = ["conv", "relu", "fc", "relu_Relu_1", "top_level_op"] :=
  ⟨⟨by decide +kernel, by decide +kernel⟩, by decide +kernel⟩

/-- **C105** is violated by a model one of whose modules is called like a generated name: two operations share
one entry, and the first one's data about itself is lost. -/
theorem C105_violated_names : ∃ t : List TNode, (∀ n ∈ t, n.module ≠ "" ∧ n.module ≠ "top_level_op") ∧
    t.length = 3 ∧ (buildGraph t).ops.map Prod.fst = ["relu", "relu_Relu_1"] ∧
    ((buildGraph t).ops.get? "relu_Relu_1").map TNode.type = some "Gemm" :=
  ⟨[⟨"relu", "Relu", ["0"], ["1"]⟩, ⟨"relu", "Relu", ["1"], ["2"]⟩, ⟨"relu_Relu_1", "Gemm", ["2"], ["3"]⟩],
   by decide +kernel, rfl, by decide +kernel, by decide +kernel⟩

/-! ## C106: merging pads into average pools -/

/-- A path between two nodes of a graph given by its edges. -/
def Reaches (es : List (String × String)) (a b : String) : Prop := Relation.TransGen (fun x y => (x, y) ∈ es) a b

/-- A padding directly followed by an average pool. -/
def PadPool (p q : String × TNode) : Prop := p.2.type = "Pad" ∧ q.2.type = "AveragePool"

instance (p q : String × TNode) : Decidable (PadPool p q) := by unfold PadPool; infer_instance

/-- Every average pool right after a padding is the second half of one traced pooling: same module, one value
in between, which nobody else uses. -/
structure PadsPrivate (l : List (String × TNode)) : Prop where
  pair : ∀ pre p q post, l = pre ++ p :: q :: post → PadPool p q →
    q.2.module = p.2.module ∧ p.2.ins.length = 1 ∧ p.2.outs.length = 1 ∧ q.2.outs.length = 1 ∧ q.2.ins = p.2.outs
  own : ∀ pre p q post, l = pre ++ p :: q :: post → PadPool p q → ∀ v ∈ p.2.outs,
    v ∉ p.2.ins ∧ v ∉ q.2.outs ∧ ∀ x ∈ pre ++ post, v ∉ x.2.ins ∧ v ∉ x.2.outs

/-- The operations with each such pair contracted: one average pool under the name of the padding. -/
def contract : List (String × TNode) → List (String × TNode)
  | [] => []
  | [x] => [x]
  | p :: q :: r =>
    if PadPool p q then (p.1, { q.2 with ins := p.2.ins }) :: contract r else p :: contract (q :: r)

theorem edgesOf_append (a b : List (String × TNode)) : edgesOf (a ++ b) = edgesOf a ++ edgesOf b := by
  simp [edgesOf]
theorem edgesOf_cons (a : String × TNode) (b : List (String × TNode)) : edgesOf (a :: b) =
    ((a.2.ins.map fun d => (d, a.1)) ++ a.2.outs.map fun d => (a.1, d)) ++ edgesOf b := by
  simp [edgesOf]

theorem set_append_mid {a b : List (String × TNode)} {k : String} {v w : TNode} (h : k ∉ a.map Prod.fst) :
    Dict.set (a ++ (k, v) :: b) k w = a ++ (k, w) :: b := by
  induction a with
  | nil => simp [Dict.set]
  | cons x a ih =>
    obtain ⟨x1, x2⟩ := x
    simp only [List.map_cons, List.mem_cons, not_or] at h
    have : ¬ x1 = k := fun e => h.1 e.symm
    simp only [List.cons_append, Dict.set, this, if_false, ih h.2]

theorem get?_append_mid {a b : List (String × TNode)} {k : String} {v : TNode} (h : k ∉ a.map Prod.fst) :
    Dict.get? (a ++ (k, v) :: b) k = some v := by
  induction a with
  | nil => simp [Dict.get?]
  | cons x a ih =>
    obtain ⟨x1, x2⟩ := x
    simp only [List.map_cons, List.mem_cons, not_or] at h
    have : ¬ x1 = k := fun e => h.1 e.symm
    simp only [List.cons_append, Dict.get?, this, if_false, ih h.2]

theorem popOp_mid {a b : List (String × TNode)} {k : String} {v : TNode} (h : k ∉ a.map Prod.fst) (h' : k ∉ b.map Prod.fst) :
    popOp (a ++ (k, v) :: b) k = a ++ b := by
  have gen : ∀ l : List (String × TNode), k ∉ l.map Prod.fst → l.filter (fun kv => decide (kv.1 ≠ k)) = l := by
    intro l hl
    rw [List.filter_eq_self]
    intro x hx
    simp only [decide_eq_true_eq]
    intro e
    exact hl (e ▸ List.mem_map_of_mem hx)
  unfold popOp
  rw [List.filter_append, List.filter_cons_of_neg (by simp)]
  rw [gen a h, gen b h']

theorem PadsPrivate.tail {x : String × TNode} {l : List (String × TNode)} (h : PadsPrivate (x :: l)) : PadsPrivate l := by
  constructor
  · intro pre p q post e
    exact h.pair (x :: pre) p q post (by rw [e]; rfl)
  · intro pre p q post e hp v hv
    obtain ⟨h1, h2, h3⟩ := h.own (x :: pre) p q post (by rw [e]; rfl) hp v hv
    exact ⟨h1, h2, fun y hy => h3 y (by simp only [List.mem_append, List.mem_cons] at hy ⊢; tauto)⟩

/-- The merge loop over the remaining operations. -/
theorem mergeLoop (R : List (String × TNode)) : ∀ (P : List (String × TNode)) (g : TGr),
    ((P ++ R).map Prod.fst).Nodup → (∀ x ∈ P ++ R, ∀ y ∈ P ++ R, x.1 ∉ y.2.outs) → PadsPrivate R →
    g.ops = (P ++ R).map ded → g.edges = edgesOf P ++ edgesOf R →
    ∃ g' s, (R.map ded).foldlM mergeStep (g, none) = .ok (g', s) ∧ g'.ops = (P ++ contract R).map ded ∧
      g'.edges = edgesOf P ++ edgesOf (contract R) := by
  have skip : ∀ (g : TGr) (x : String) (kv : String × TNode), kv.2.type ≠ "AveragePool" →
      mergeStep (g, some x) kv = mergeStep (g, none) kv := by
    intro g x kv h
    simp [mergeStep, h]
  have first : ∀ (g : TGr) (kv : String × TNode), mergeStep (g, none) kv =
      .ok (g, if kv.2.type = "Pad" then some kv.1 else none) := by
    intro g kv
    unfold mergeStep
    split <;> simp_all
  induction R using contract.induct with
  | case1 => intro P g _ _ _ ho he; exact ⟨g, none, rfl, ho, he⟩
  | case2 x =>
    intro P g _ _ _ ho he
    refine ⟨g, if x.2.type = "Pad" then some x.1 else none, ?_, ho, he⟩
    simp only [List.map_cons, List.map_nil, List.foldlM_cons, List.foldlM_nil, first]
    rfl
  | case3 p q r hpq ih =>
    intro P g hn hd hp ho he
    obtain ⟨pm, pi, po, qo, qi⟩ := hp.pair [] p q r rfl hpq
    obtain ⟨i, hi⟩ := List.length_eq_one_iff.1 pi
    obtain ⟨v, hv⟩ := List.length_eq_one_iff.1 po
    obtain ⟨o, hoo⟩ := List.length_eq_one_iff.1 qo
    rw [hv] at qi
    have hn' := hn
    rw [List.map_append, List.nodup_append, List.map_cons, List.map_cons, List.nodup_cons, List.nodup_cons] at hn'
    obtain ⟨nP, ⟨np, nq, nr⟩, nPR⟩ := hn'
    have pP : p.1 ∉ P.map Prod.fst := fun h => nPR _ h _ (by simp) rfl
    have qP : q.1 ∉ P.map Prod.fst := fun h => nPR _ h _ (by simp) rfl
    have pq : p.1 ≠ q.1 := fun e => np (by rw [e]; simp)
    -- the two steps
    have s1 : mergeStep (g, none) (ded p) = .ok (g, some p.1) := by
      rw [first]; simp [ded, hpq.1]
    have hget : g.ops.get? p.1 = some (ded p).2 := by
      rw [ho, List.map_append, List.map_cons]
      exact get?_append_mid (by simpa [Function.comp_def, ded] using pP)
    set m : String × TNode := (p.1, { q.2 with ins := p.2.ins }) with hm
    have hidx : edgeIndex g.edges (i, p.1) = .ok (edgesOf P).length := by
      have hnot : (i, p.1) ∉ edgesOf P := by
        rw [mem_edgesOf]
        rintro ⟨kv, hkv, ⟨h1, _⟩ | ⟨_, h2⟩⟩
        · exact pP (by rw [show p.1 = kv.1 from h1]; exact List.mem_map_of_mem hkv)
        · exact hd p (by simp) kv (by simp [hkv]) h2
      unfold edgeIndex
      rw [he, edgesOf_cons, hi, if_pos (by simp), List.idxOf_append_of_notMem hnot]
      simp
    have s2 : ∃ g1, mergeStep (g, some p.1) (ded q) = .ok (g1, none) ∧ g1.ops = ((P ++ [m]) ++ r).map ded ∧
        g1.edges = edgesOf (P ++ [m]) ++ edgesOf r := by
      have hmod : ¬ ((ded p).2.module ≠ (ded q).2.module) := by simp [ded, pm]
      refine ⟨⟨popOp (g.ops.set p.1 { (ded q).2 with ins := [i] }) q.1,
        g.modOps.set (ded q).2.module (((g.modOps.get? (ded q).2.module).getD []).erase q.1),
        g.edges.take (edgesOf P).length ++ [(i, p.1), (p.1, o)] ++ g.edges.drop ((edgesOf P).length + 4)⟩, ?_, ?_, ?_⟩
      · unfold mergeStep
        rw [if_neg (by simp [ded, hpq.2])]
        dsimp only
        rw [if_pos (by simp [ded, hpq.2]), hget]
        dsimp only
        rw [if_neg hmod]
        have e1 : (ded p).2.ins = [i] := by simp [ded, hi, addOnce_single]
        have e2 : (ded q).2.outs = [o] := by simp [ded, hoo, addOnce_single]
        unfold mergeInto
        rw [e1, e2]
        dsimp only
        rw [hidx]
        rfl
      · dsimp only
        rw [ho, List.map_append, List.map_cons, List.map_cons]
        have e3 : ded p = (p.1, (ded p).2) := rfl
        rw [e3, set_append_mid (by simpa [Function.comp_def, ded] using pP)]
        have e4 : ded q = (q.1, (ded q).2) := rfl
        rw [show ∀ z : String × TNode, (P.map ded ++ z :: ded q :: r.map ded) = (P.map ded ++ [z]) ++ ded q :: r.map ded by
          intro z; simp, e4, popOp_mid]
        · simp [hm, ded, hi, addOnce_single]
        · simp only [List.map_append, List.map_map, List.map_cons, List.map_nil, List.mem_append, List.mem_singleton, not_or]
          exact ⟨by simpa [Function.comp_def, ded] using qP, fun e => pq e.symm⟩
        · simpa [Function.comp_def, ded] using nq
      · dsimp only
        rw [he, edgesOf_cons, edgesOf_cons, edgesOf_append, edgesOf_cons]
        simp only [hm, hi, hv, hoo, qi, List.map_cons, List.map_nil]
        rw [List.take_left' rfl, ← List.drop_drop, List.drop_left' rfl]
        simp [edgesOf]
    obtain ⟨g1, h1, ho1, he1⟩ := s2
    have hmem : ∀ x, x ∈ (P ++ [m]) ++ r → (∃ y ∈ P ++ p :: q :: r, x.1 = y.1) ∧ ∃ y ∈ P ++ p :: q :: r, x.2.outs = y.2.outs := by
      intro x hx
      simp only [List.mem_append, List.mem_singleton] at hx
      rcases hx with (hx | rfl) | hx
      · exact ⟨⟨x, by simp [hx], rfl⟩, ⟨x, by simp [hx], rfl⟩⟩
      · exact ⟨⟨p, by simp, rfl⟩, ⟨q, by simp, rfl⟩⟩
      · exact ⟨⟨x, by simp [hx], rfl⟩, ⟨x, by simp [hx], rfl⟩⟩
    obtain ⟨g', s, hf, ho', he'⟩ := ih (P ++ [m]) g1 (by
        simp only [List.map_append, List.map_cons, List.map_nil, hm]
        rw [List.append_assoc, List.nodup_append]
        refine ⟨nP, ?_, ?_⟩
        · rw [List.singleton_append, List.nodup_cons]
          exact ⟨fun h => np (List.mem_cons_of_mem _ h), nr⟩
        · intro a ha b hb
          refine nPR a ha b ?_
          simp only [List.singleton_append, List.mem_cons] at hb ⊢
          tauto) (by
        intro x hx y hy
        obtain ⟨⟨x', hx', e1⟩, _⟩ := hmem x hx
        obtain ⟨_, ⟨y', hy', e2⟩⟩ := hmem y hy
        rw [e1, e2]; exact hd x' hx' y' hy') hp.tail.tail ho1 he1
    refine ⟨g', s, ?_, ?_, ?_⟩
    · simp only [List.map_cons, List.foldlM_cons, s1]
      change (mergeStep (g, some p.1) (ded q) >>= fun s => (r.map ded).foldlM mergeStep s) = _
      rw [h1]; exact hf
    · rw [ho', contract, if_pos hpq]; simp [hm]
    · rw [he', contract, if_pos hpq, edgesOf_append, edgesOf_cons, edgesOf_cons]; simp [edgesOf, hm]
  | case4 p q r hpq ih =>
    intro P g hn hd hp ho he
    obtain ⟨g', s, hf, ho', he'⟩ := ih (P ++ [p]) g (by simpa using hn) (by simpa using hd) hp.tail (by simpa using ho)
      (by rw [he, edgesOf_cons, edgesOf_append, edgesOf_cons]; simp [edgesOf])
    refine ⟨g', s, ?_, ?_, ?_⟩
    · rw [List.map_cons, List.foldlM_cons, first]
      change (List.map ded (q :: r)).foldlM mergeStep (g, if (ded p).2.type = "Pad" then some (ded p).1 else none) = _
      rw [← hf]
      by_cases ht : (ded p).2.type = "Pad"
      · rw [if_pos ht, List.map_cons, List.foldlM_cons, List.foldlM_cons, skip]
        intro e; exact hpq ⟨ht, e⟩
      · rw [if_neg ht]
    · rw [ho', contract, if_neg hpq]; simp
    · rw [he', contract, if_neg hpq, edgesOf_append, edgesOf_cons, edgesOf_cons]; simp [edgesOf]

/-- **C106** (operations) The graph of a trace lists the operations with every padding/pooling pair contracted to
one average pool, and the edges are those of the contracted operations. -/
theorem C106_ops (t : List TNode) (h : Unambiguous t) (hp : PadsPrivate (named t)) :
    ∃ g, traceGraph t = .ok g ∧ g.ops = (contract (named t)).map ded ∧ g.edges = edgesOf (contract (named t)) := by
  have hb := built t
  obtain ⟨g', s, h1, h2, h3⟩ := mergeLoop (named t) [] (buildGraph t) h.ops (fun x hx y hy => (h.data x hx y hy).2) hp
    (hb.ops h.ops) (by rw [hb.edges]; rfl)
  refine ⟨g', ?_, h2, by rw [h3]; rfl⟩
  unfold traceGraph mergePads
  rw [hb.ops h.ops, h1]
  rfl

/-- Contracting one pair keeps the paths between the other nodes. -/
theorem reach_contract {E1 E2 : List (String × String)} {i p v q o : String}
    (h1 : ∀ e ∈ E1 ++ E2, e.1 ≠ v ∧ e.1 ≠ q ∧ e.2 ≠ v ∧ e.2 ≠ q) (hi : i ≠ v ∧ i ≠ q) (ho : o ≠ v ∧ o ≠ q) (hp : p ≠ v ∧ p ≠ q)
    {a b : String} (ha : a ≠ v ∧ a ≠ q) (hb : b ≠ v ∧ b ≠ q) :
    Reaches (E1 ++ [(i, p), (p, v), (v, q), (q, o)] ++ E2) a b ↔ Reaches (E1 ++ [(i, p), (p, o)] ++ E2) a b := by
  constructor
  · intro h
    have key : ∀ y, Relation.TransGen (fun x y => (x, y) ∈ E1 ++ [(i, p), (p, v), (v, q), (q, o)] ++ E2) a y →
        (y ≠ v ∧ y ≠ q → Reaches (E1 ++ [(i, p), (p, o)] ++ E2) a y) ∧
        (y = v ∨ y = q → Relation.ReflTransGen (fun x y => (x, y) ∈ E1 ++ [(i, p), (p, o)] ++ E2) a p) := by
      intro y hy
      have old : ∀ x y, (x, y) ∈ E1 ++ [(i, p), (p, v), (v, q), (q, o)] ++ E2 →
          (x, y) ∈ E1 ++ [(i, p), (p, o)] ++ E2 ∧ x ≠ v ∧ x ≠ q ∧ y ≠ v ∧ y ≠ q ∨ (x = p ∧ y = v) ∨ (x = v ∧ y = q) ∨ (x = q ∧ y = o) := by
        intro x y hxy
        simp only [List.mem_append, List.mem_cons, Prod.mk.injEq, List.not_mem_nil, or_false] at hxy ⊢
        rcases hxy with (hxy | ⟨rfl, rfl⟩ | ⟨rfl, rfl⟩ | ⟨rfl, rfl⟩ | ⟨rfl, rfl⟩) | hxy
        · exact .inl ⟨.inl (.inl hxy), h1 (x, y) (by simp [hxy])⟩
        · exact .inl ⟨.inl (.inr (.inl ⟨rfl, rfl⟩)), hi.1, hi.2, hp.1, hp.2⟩
        · exact .inr (.inl ⟨rfl, rfl⟩)
        · exact .inr (.inr (.inl ⟨rfl, rfl⟩))
        · exact .inr (.inr (.inr ⟨rfl, rfl⟩))
        · exact .inl ⟨.inr hxy, h1 (x, y) (by simp [hxy])⟩
      have hpo : (p, o) ∈ E1 ++ [(i, p), (p, o)] ++ E2 := by simp
      induction hy with
      | single hxy =>
        rcases old _ _ hxy with ⟨h, _, _, h3, h4⟩ | ⟨rfl, rfl⟩ | ⟨rfl, rfl⟩ | ⟨rfl, rfl⟩
        · exact ⟨fun _ => .single h, fun hh => hh.elim (fun e => absurd e h3) (fun e => absurd e h4)⟩
        · exact ⟨fun hh => absurd rfl hh.1, fun _ => .refl⟩
        · exact absurd rfl ha.1
        · exact absurd rfl ha.2
      | tail _ hxy ih =>
        rcases old _ _ hxy with ⟨h, h5, h6, h3, h4⟩ | ⟨rfl, rfl⟩ | ⟨rfl, rfl⟩ | ⟨rfl, rfl⟩
        · exact ⟨fun _ => (ih.1 ⟨h5, h6⟩).tail h, fun hh => hh.elim (fun e => absurd e h3) (fun e => absurd e h4)⟩
        · exact ⟨fun hh => absurd rfl hh.1, fun _ => (ih.1 hp).to_reflTransGen⟩
        · exact ⟨fun hh => absurd rfl hh.2, fun _ => ih.2 (.inl rfl)⟩
        · exact ⟨fun _ => Relation.TransGen.tail' (ih.2 (.inr rfl)) hpo, fun hh => hh.elim (fun e => absurd e ho.1) (fun e => absurd e ho.2)⟩
    exact (key b h).1 hb
  · intro h
    have step : ∀ x y, (x, y) ∈ E1 ++ [(i, p), (p, o)] ++ E2 →
        Reaches (E1 ++ [(i, p), (p, v), (v, q), (q, o)] ++ E2) x y := by
      intro x y hxy
      simp only [List.mem_append, List.mem_cons, Prod.mk.injEq, List.not_mem_nil, or_false] at hxy
      rcases hxy with (hxy | ⟨rfl, rfl⟩ | ⟨rfl, rfl⟩) | hxy
      · exact .single (by simp [hxy])
      · exact .single (by simp)
      · exact ((Relation.TransGen.single (b := v) (by simp)).tail (c := q) (by simp)).tail (by simp)
      · exact .single (by simp [hxy])
    unfold Reaches at h
    induction h with
    | single hxy => exact step _ _ hxy
    | tail h0 hxy ih =>
      rename_i y z
      by_cases hy : y ≠ v ∧ y ≠ q
      · exact (ih hy).trans (step _ _ hxy)
      · exfalso
        simp only [List.mem_append, List.mem_cons, Prod.mk.injEq, List.not_mem_nil, or_false] at hxy
        apply hy
        rcases hxy with (hxy | ⟨rfl, rfl⟩ | ⟨rfl, rfl⟩) | hxy
        · exact ⟨(h1 _ (List.mem_append_left _ hxy)).1, (h1 _ (List.mem_append_left _ hxy)).2.1⟩
        · exact hi
        · exact hp
        · exact ⟨(h1 _ (List.mem_append_right _ hxy)).1, (h1 _ (List.mem_append_right _ hxy)).2.1⟩

theorem contract_names (l : List (String × TNode)) : ∀ x ∈ contract l, ∃ y ∈ l, x.1 = y.1 := by
  induction l using contract.induct with
  | case1 => simp [contract]
  | case2 x => simp [contract]
  | case3 p q r h ih =>
    rw [contract, if_pos h]
    intro x hx
    rcases List.mem_cons.1 hx with rfl | hx
    · exact ⟨p, by simp, rfl⟩
    · obtain ⟨y, hy, e⟩ := ih x hx; exact ⟨y, by simp [hy], e⟩
  | case4 p q r h ih =>
    rw [contract, if_neg h]
    intro x hx
    rcases List.mem_cons.1 hx with rfl | hx
    · exact ⟨x, by simp, rfl⟩
    · obtain ⟨y, hy, e⟩ := ih x hx; exact ⟨y, List.mem_cons_of_mem _ hy, e⟩

theorem reach_loop (R : List (String × TNode)) : ∀ (P : List (String × TNode)),
    ((P ++ R).map Prod.fst).Nodup → (∀ x ∈ P ++ R, ∀ y ∈ P ++ R, x.1 ∉ y.2.ins ∧ x.1 ∉ y.2.outs) → PadsPrivate R →
    (∀ pre p q post, R = pre ++ p :: q :: post → PadPool p q → ∀ v ∈ p.2.outs, ∀ x ∈ P, v ∉ x.2.ins ∧ v ∉ x.2.outs) →
    ∀ a b, (∃ x ∈ P ++ contract R, x.1 = a) → (∃ x ∈ P ++ contract R, x.1 = b) →
      (Reaches (edgesOf (P ++ R)) a b ↔ Reaches (edgesOf (P ++ contract R)) a b) := by
  induction R using contract.induct with
  | case1 => intro P _ _ _ _ a b _ _; exact Iff.rfl
  | case2 x => intro P _ _ _ _ a b _ _; exact Iff.rfl
  | case4 p q r hpq ih =>
    intro P hn hd hp hP a b ha hb
    have := ih (P ++ [p]) (by simpa using hn) (by simpa using hd) hp.tail (by
      intro pre p' q' post e hpp v hv x hx
      rcases List.mem_append.1 hx with hx | hx
      · exact hP (p :: pre) p' q' post (by rw [e]; rfl) hpp v hv x hx
      · simp only [List.mem_singleton] at hx; subst hx
        exact (hp.own (x :: pre) p' q' post (by rw [e]; rfl) hpp v hv).2.2 x (by simp)) a b
    rw [contract, if_neg hpq] at ha hb ⊢
    simpa using this (by simpa using ha) (by simpa using hb)
  | case3 p q r hpq ih =>
    intro P hn hd hp hP a b ha hb
    obtain ⟨pm, pi, po, qo, qi⟩ := hp.pair [] p q r rfl hpq
    obtain ⟨i, hi⟩ := List.length_eq_one_iff.1 pi
    obtain ⟨v, hv⟩ := List.length_eq_one_iff.1 po
    obtain ⟨o, hoo⟩ := List.length_eq_one_iff.1 qo
    rw [hv] at qi
    obtain ⟨own1, own2, own3⟩ := hp.own [] p q r rfl hpq v (by simp [hv])
    set m : String × TNode := (p.1, { q.2 with ins := p.2.ins }) with hm
    have hn' := hn
    rw [List.map_append, List.nodup_append, List.map_cons, List.map_cons, List.nodup_cons, List.nodup_cons] at hn'
    obtain ⟨nP, ⟨np, nq, nr⟩, nPR⟩ := hn'
    have hmem : ∀ x, x ∈ (P ++ [m]) ++ r → (∃ y ∈ P ++ p :: q :: r, x.1 = y.1) ∧
        (∃ y ∈ P ++ p :: q :: r, x.2.outs = y.2.outs) ∧ ∃ y ∈ P ++ p :: q :: r, x.2.ins = y.2.ins := by
      intro x hx
      simp only [List.mem_append, List.mem_singleton] at hx
      rcases hx with (hx | rfl) | hx
      · exact ⟨⟨x, by simp [hx], rfl⟩, ⟨x, by simp [hx], rfl⟩, ⟨x, by simp [hx], rfl⟩⟩
      · exact ⟨⟨p, by simp, rfl⟩, ⟨q, by simp, rfl⟩, ⟨p, by simp, rfl⟩⟩
      · exact ⟨⟨x, by simp [hx], rfl⟩, ⟨x, by simp [hx], rfl⟩, ⟨x, by simp [hx], rfl⟩⟩
    rw [contract, if_pos hpq] at ha hb ⊢
    have hIH := ih (P ++ [m]) (by
        simp only [List.map_append, List.map_cons, List.map_nil, hm]
        rw [List.append_assoc, List.nodup_append]
        refine ⟨nP, ?_, ?_⟩
        · rw [List.singleton_append, List.nodup_cons]
          exact ⟨fun h => np (List.mem_cons_of_mem _ h), nr⟩
        · intro a ha b hb
          refine nPR a ha b ?_
          simp only [List.singleton_append, List.mem_cons] at hb ⊢
          tauto) (by
        intro x hx y hy
        obtain ⟨⟨x', hx', e1⟩, _⟩ := hmem x hx
        obtain ⟨_, ⟨y', hy', e2⟩, ⟨y'', hy'', e3⟩⟩ := hmem y hy
        rw [e1, e2, e3]; exact ⟨(hd x' hx' y'' hy'').1, (hd x' hx' y' hy').2⟩) hp.tail.tail (by
        intro pre p' q' post e hpp v' hv' x hx
        rcases List.mem_append.1 hx with hx | hx
        · exact hP (p :: q :: pre) p' q' post (by rw [e]; rfl) hpp v' hv' x hx
        · simp only [List.mem_singleton] at hx; subst hx
          have := (hp.own (p :: q :: pre) p' q' post (by rw [e]; rfl) hpp v' hv').2.2
          exact ⟨(this p (by simp)).1, (this q (by simp)).2⟩) a b (by rw [List.append_assoc]; exact ha) (by rw [List.append_assoc]; exact hb)
    have hmid : Reaches (edgesOf (P ++ p :: q :: r)) a b ↔ Reaches (edgesOf (P ++ [m] ++ r)) a b := by
      have e1 : edgesOf (P ++ p :: q :: r) = edgesOf P ++ [(i, p.1), (p.1, v), (v, q.1), (q.1, o)] ++ edgesOf r := by
        rw [edgesOf_append, edgesOf_cons, edgesOf_cons]; simp [hi, hv, hoo, qi]
      have e2 : edgesOf (P ++ [m] ++ r) = edgesOf P ++ [(i, p.1), (p.1, o)] ++ edgesOf r := by
        rw [edgesOf_append, edgesOf_append]; simp [edgesOf, hm, hi, hoo]
      rw [e1, e2]
      have nodeq : ∀ x ∈ P ++ r, x.1 ≠ q.1 := by
        intro x hx e
        rcases List.mem_append.1 hx with hx | hx
        · exact nPR x.1 (List.mem_map_of_mem hx) q.1 (by simp) e
        · exact nq (e ▸ List.mem_map_of_mem hx)
      have sub : ∀ x ∈ P ++ r, x ∈ P ++ p :: q :: r := by
        intro x hx; simp only [List.mem_append, List.mem_cons] at hx ⊢; tauto
      have nov : ∀ x ∈ P ++ p :: q :: r, x.1 ≠ v := by
        intro x hx e; exact (hd x hx p (by simp)).2 (by rw [hv, e]; simp)
      have vnot : ∀ x ∈ P ++ r, v ∉ x.2.ins ∧ v ∉ x.2.outs := by
        intro x hx
        rcases List.mem_append.1 hx with hx | hx
        · exact hP [] p q r rfl hpq v (by simp [hv]) x hx
        · exact own3 x (by simpa using hx)
      have hname : ∀ c, (∃ x ∈ P ++ m :: contract r, x.1 = c) → c ≠ v ∧ c ≠ q.1 := by
        rintro c ⟨x, hx, rfl⟩
        simp only [List.mem_append, List.mem_cons] at hx
        rcases hx with hx | rfl | hx
        · exact ⟨nov x (by simp [hx]), nodeq x (by simp [hx])⟩
        · exact ⟨nov p (by simp), fun e => np (by rw [show p.1 = q.1 from e]; simp)⟩
        · obtain ⟨y, hy, e⟩ := contract_names r x hx
          rw [e]
          exact ⟨nov y (by simp [hy]), nodeq y (by simp [hy])⟩
      refine reach_contract ?_ ?_ ?_ ?_ (hname a ha) (hname b hb)
      · intro e he
        rw [← edgesOf_append, mem_edgesOf] at he
        obtain ⟨kv, hkv, ⟨h1, h2⟩ | ⟨h1, h2⟩⟩ := he
        · refine ⟨fun e' => (vnot kv hkv).1 (e' ▸ h2), fun e' => (hd q (by simp) kv (sub kv hkv)).1 (e' ▸ h2), ?_, ?_⟩
          · rw [h1]; exact nov kv (sub kv hkv)
          · rw [h1]; exact nodeq kv hkv
        · refine ⟨?_, ?_, fun e' => (vnot kv hkv).2 (e' ▸ h2), fun e' => (hd q (by simp) kv (sub kv hkv)).2 (e' ▸ h2)⟩
          · rw [h1]; exact nov kv (sub kv hkv)
          · rw [h1]; exact nodeq kv hkv
      · exact ⟨fun e => own1 (by rw [hi, e]; simp), fun e => (hd q (by simp) p (by simp)).1 (by rw [hi, e]; simp)⟩
      · exact ⟨fun e => own2 (by rw [hoo, e]; simp), fun e => (hd q (by simp) q (by simp)).2 (by rw [hoo, e]; simp)⟩
      · exact ⟨nov p (by simp), fun e => np (by rw [e]; simp)⟩
    rw [hmid, hIH, List.append_assoc]
    exact Iff.rfl

/-- **C106** Merging paddings into average pools changes no path between the operations that remain: one operation
of the graph reaches another exactly if it does so in the trace. -/
theorem C106_paths (t : List TNode) (h : Unambiguous t) (hp : PadsPrivate (named t)) :
    ∃ g, traceGraph t = .ok g ∧ ∀ a b, a ∈ g.ops.map Prod.fst → b ∈ g.ops.map Prod.fst →
      (Reaches g.edges a b ↔ Reaches (buildGraph t).edges a b) := by
  obtain ⟨g, h1, h2, h3⟩ := C106_ops t h hp
  refine ⟨g, h1, ?_⟩
  intro a b ha hb
  have hin : ∀ c, c ∈ g.ops.map Prod.fst → ∃ x ∈ [] ++ contract (named t), x.1 = c := by
    intro c hc
    rw [h2, List.map_map, List.mem_map] at hc
    obtain ⟨x, hx, rfl⟩ := hc
    exact ⟨x, by simpa using hx, rfl⟩
  rw [h3, (built t).edges]
  exact (reach_loop (named t) [] h.ops h.data hp (by intro _ _ _ _ _ _ _ _ x hx; cases hx) a b (hin a ha) (hin b hb)).symm

/-- Checking a statement about adjacent elements of a concrete list. -/
theorem of_splits {α : Type} {l : List α} {Φ : List α → α → α → List α → Prop}
    (h : ∀ i ∈ List.range l.length, ∀ p ∈ l[i]?, ∀ q ∈ l[i + 1]?, Φ (l.take i) p q (l.drop (i + 2))) :
    ∀ pre p q post, l = pre ++ p :: q :: post → Φ pre p q post := by
  intro pre p q post e
  have h1 := h pre.length (by rw [e]; simp) p (by rw [e]; simp) q (by
    rw [e, List.getElem?_append_right (by omega)]; simp)
  rw [e, List.take_left' rfl, ← List.drop_drop, List.drop_left' rfl] at h1
  simpa using h1

def exPool : List TNode :=
  [⟨"conv", "Conv", ["0", "w"], ["1"]⟩, ⟨"pool", "Pad", ["1"], ["2"]⟩, ⟨"pool", "AveragePool", ["2"], ["3"]⟩,
   ⟨"fc", "Gemm", ["3"], ["4"]⟩]

set_option synthInstance.maxSize 1024 in
set_option synthInstance.maxHeartbeats 400000 in
theorem exPool_private : PadsPrivate (named exPool) := by
  constructor
  · exact of_splits (Φ := fun pre p q post => PadPool p q → q.2.module = p.2.module ∧ p.2.ins.length = 1 ∧
      p.2.outs.length = 1 ∧ q.2.outs.length = 1 ∧ q.2.ins = p.2.outs) (by decide +kernel)
  · exact of_splits (Φ := fun pre p q post => PadPool p q → ∀ v ∈ p.2.outs, v ∉ p.2.ins ∧ v ∉ q.2.outs ∧
      ∀ x ∈ pre ++ post, v ∉ x.2.ins ∧ v ∉ x.2.outs) (by decide +kernel)

example : Unambiguous exPool ∧ PadsPrivate (named exPool) ∧ (traceGraph exPool).map TGr.edges = .ok
    [("0", "conv"), ("w", "conv"), ("conv", "1"), ("1", "pool"), ("pool", "3"), ("3", "fc"), ("fc", "4")] :=
  ⟨⟨by decide +kernel, by decide +kernel⟩, exPool_private, by decide +kernel⟩

/-- **C106** is violated when the padded value has another consumer: the convolution fed by it is cut off. -/
theorem C106_violated_shared_padding : ∃ (t : List TNode) (g : TGr), Unambiguous t ∧ traceGraph t = .ok g ∧
    "conv" ∈ g.ops.map Prod.fst ∧ ("top_level_op", "2") ∈ (buildGraph t).edges ∧ ("2", "conv") ∈ (buildGraph t).edges ∧
    ¬ ∃ a, Reaches g.edges a "2" :=
  ⟨[⟨"", "Pad", ["1"], ["2"]⟩, ⟨"", "AveragePool", ["2"], ["3"]⟩, ⟨"conv", "Conv", ["2"], ["4"]⟩],
   ⟨[("top_level_op", ⟨"", "AveragePool", ["1"], ["3"]⟩), ("conv", ⟨"conv", "Conv", ["2"], ["4"]⟩)],
    [("", ["top_level_op"]), ("conv", ["conv"])], [("1", "top_level_op"), ("top_level_op", "3"), ("2", "conv"), ("conv", "4")]⟩,
   ⟨by decide +kernel, by decide +kernel⟩, by decide +kernel, by decide, by decide +kernel, by decide +kernel, by
    rintro ⟨a, h⟩
    obtain ⟨y, hy⟩ := Relation.TransGen.tail'_iff.1 h
    simp at hy⟩

/-- **C106** is violated when a padding is followed by a pool of another module and that by one of its own: the
wrong pool is merged, and the pool in between is cut off. -/
theorem C106_violated_stale_padding : ∃ (t : List TNode) (g : TGr), Unambiguous t ∧ traceGraph t = .ok g ∧
    "pool" ∈ g.ops.map Prod.fst ∧ Reaches (buildGraph t).edges "top_level_op" "pool" ∧
    ¬ ∃ a, Reaches g.edges a "pool" :=
  ⟨[⟨"", "Pad", ["1"], ["2"]⟩, ⟨"pool", "AveragePool", ["2"], ["3"]⟩, ⟨"", "AveragePool", ["3"], ["4"]⟩],
   ⟨[("top_level_op", ⟨"", "AveragePool", ["1"], ["4"]⟩), ("pool", ⟨"pool", "AveragePool", ["2"], ["3"]⟩)],
    [("", ["top_level_op"]), ("pool", ["pool"])],
    [("1", "top_level_op"), ("top_level_op", "4"), ("3", "top_level_op_AveragePool_1"), ("top_level_op_AveragePool_1", "4")]⟩,
   ⟨by decide +kernel, by decide +kernel⟩, by decide +kernel, by decide,
   (Relation.TransGen.single (b := "2") (by decide +kernel)).tail (by decide +kernel), by
    rintro ⟨a, h⟩
    obtain ⟨y, hy⟩ := Relation.TransGen.tail'_iff.1 h
    simp at hy⟩

/-! ## C107: names of operations followed by dropout -/

/-- The scopes of the operations of a trace that are no dropouts. -/
def trueScopes (t : List RNode) : List String := (t.filter fun n => !n.dropout).map RNode.scope

/-- Every dropout has a scope of its own and directly follows an operation. -/
structure OwnDropouts (t : List RNode) : Prop where
  head : ∀ x r, t = x :: r → x.dropout = false
  single : ∀ pre x y post, t = pre ++ x :: y :: post → ¬ (x.dropout = true ∧ y.dropout = true)
  own : ((t.filter fun n => n.dropout).map RNode.scope).Nodup
  apart : ∀ x ∈ t, ∀ y ∈ t, x.dropout = true → y.dropout = false → x.scope ≠ y.scope

theorem preDrop_frame (t : List RNode) : ∀ s : Dict String String × Option String, ∀ k,
    (∀ n ∈ t, n.dropout = true → n.scope ≠ k) → (t.foldl preDropStep s).1.get? k = s.1.get? k := by
  induction t with
  | nil => intro s k _; rfl
  | cons n t ih =>
    intro s k h
    rw [List.foldl_cons, ih _ k fun m hm => h m (List.mem_cons_of_mem _ hm)]
    unfold preDropStep
    split
    · rename_i hd
      cases s.2 with
      | none => rfl
      | some p => exact get?_set_ne _ _ (h n List.mem_cons_self hd)
    · rfl

/-- Restored scopes, the loop being in the middle of the trace. -/
theorem restore_loop (r : List RNode) : ∀ (s : Dict String String × Option String) (D : Dict String String),
    (∀ x l, r = x :: l → x.dropout = false) →
    (∀ pre x y post, r = pre ++ x :: y :: post → ¬ (x.dropout = true ∧ y.dropout = true)) →
    ((r.filter fun n => n.dropout).map RNode.scope).Nodup →
    (∀ x ∈ r, x.dropout = false → D.get? x.scope = none) →
    (∀ n ∈ r, n.dropout = true → D.get? n.scope = (r.foldl preDropStep s).1.get? n.scope) →
    (optimizedScopes r).map (fun k => (D.get? k).getD k) = trueScopes r := by
  induction r using optimizedScopes.induct with
  | case1 => intros; rfl
  | case2 x hx => intro s D h1; exact absurd hx (by rw [h1 x [] rfl]; simp)
  | case3 x hx =>
    intro s D h1 h2 h3 h4 h5
    simp [optimizedScopes, trueScopes, hx, h4 x (by simp) (by simpa using hx)]
  | case4 x y r hx ih => intro s D h1; exact absurd hx (by rw [h1 x _ rfl]; simp)
  | case5 x y r hx hy ih =>
    intro s D h1 h2 h3 h4 h5
    have hx' : x.dropout = false := by simpa using hx
    have hfold : ∀ s, (x :: y :: r).foldl preDropStep s = r.foldl preDropStep (s.1.set y.scope x.scope, some x.scope) := by
      intro s; simp [List.foldl_cons, preDropStep, hx', hy]
    rw [List.filter_cons_of_neg (by simp [hx']), List.filter_cons_of_pos hy, List.map_cons, List.nodup_cons] at h3
    rw [optimizedScopes, if_neg hx, if_pos hy, List.map_cons]
    have hy5 := h5 y (by simp) hy
    rw [hfold, preDrop_frame _ _ _ (by
      intro n hn hd e
      exact h3.1 (e ▸ List.mem_map_of_mem (List.mem_filter.2 ⟨hn, hd⟩)))] at hy5
    have hD : (D.get? y.scope).getD y.scope = x.scope := by rw [hy5]; simp
    rw [hD]
    have ht : trueScopes (x :: y :: r) = x.scope :: trueScopes r := by simp [trueScopes, hx', hy]
    rw [ht, ih (s.1.set y.scope x.scope, some x.scope) D ?_ ?_ h3.2 (fun z hz => h4 z (by simp [hz])) ?_]
    · intro z l e
      by_contra hz
      exact h2 [x] y z l (by rw [e]; rfl) ⟨hy, by simpa using hz⟩
    · intro pre a b post e
      exact h2 (x :: y :: pre) a b post (by rw [e]; rfl)
    · intro n hn hd
      rw [h5 n (by simp [hn]) hd, hfold]
  | case6 x y r hx hy ih =>
    intro s D h1 h2 h3 h4 h5
    have hx' : x.dropout = false := by simpa using hx
    have hy' : y.dropout = false := by simpa using hy
    rw [List.filter_cons_of_neg (by simp [hx'])] at h3
    rw [optimizedScopes, if_neg hx, if_neg hy, List.map_cons, h4 x (by simp) hx']
    have ht : trueScopes (x :: y :: r) = x.scope :: trueScopes (y :: r) := by simp [trueScopes, hx']
    rw [ht, ih (preDropStep s x) D ?_ ?_ h3 (fun z hz => h4 z (List.mem_cons_of_mem _ hz)) ?_]
    · rfl
    · intro z l e
      cases e; exact hy'
    · intro pre a b post e
      exact h2 (x :: pre) a b post (by rw [e]; rfl)
    · intro n hn hd
      rw [h5 n (List.mem_cons_of_mem _ hn) hd, List.foldl_cons]

/-- **C107** If every dropout of the model has its own module and directly follows an operation, all operations of
the graph carry the name of the module they belong to. -/
theorem C107_scopes (t : List RNode) (h : OwnDropouts t) : restoredScopes t = trueScopes t := by
  refine restore_loop t ([], none) (preDropout t) h.head h.single h.own ?_ fun n _ _ => rfl
  intro x hx hd
  unfold preDropout
  rw [preDrop_frame]
  · rfl
  · intro n hn hnd
    exact h.apart n hn x hx hnd hd

/-- fc1, dropout, relu, fc2, another dropout, fc3. -/
example : OwnDropouts [⟨"fc1", false⟩, ⟨"drop1", true⟩, ⟨"relu", false⟩, ⟨"fc2", false⟩, ⟨"drop2", true⟩, ⟨"fc3", false⟩] ∧
    optimizedScopes [⟨"fc1", false⟩, ⟨"drop1", true⟩, ⟨"relu", false⟩, ⟨"fc2", false⟩, ⟨"drop2", true⟩, ⟨"fc3", false⟩] =
      ["drop1", "relu", "drop2", "fc3"] := by
  refine ⟨⟨by rintro x r e; cases e; rfl, ?_, by decide, by decide⟩, rfl⟩
  exact of_splits (Φ := fun _ (x y : RNode) _ => ¬ (x.dropout = true ∧ y.dropout = true)) (by decide)

/-- **C107** is violated by a dropout module used twice: both layers in front of it get the name of the second. -/
theorem C107_violated_reused_dropout : ∃ t : List RNode,
    trueScopes t = ["fc1", "fc2", "fc3"] ∧ restoredScopes t = ["fc2", "fc2", "fc3"] :=
  ⟨[⟨"fc1", false⟩, ⟨"drop", true⟩, ⟨"fc2", false⟩, ⟨"drop", true⟩, ⟨"fc3", false⟩], rfl, by decide +kernel⟩

/-- **C107** is violated by a functional dropout: every other functional operation of the same module is attributed
to the layer in front of the dropout. -/
theorem C107_violated_functional_dropout : ∃ t : List RNode,
    trueScopes t = ["fc1", "Net", "fc2"] ∧ restoredScopes t = ["fc1", "fc1", "fc2"] :=
  ⟨[⟨"fc1", false⟩, ⟨"Net", true⟩, ⟨"Net", false⟩, ⟨"fc2", false⟩], rfl, by decide +kernel⟩

end Verif
