import Verif.Model.Graph
/-!
# Building the graph from a trace (distiller/summary_graph.py:71-230)

Modelled: naming of the operations, `ops`, `module_ops_map`, the edge list, the pad/average-pool merge and the
dropout-scope workaround.  Not modelled: tracing and ONNX' rewriting of the trace (the input here is the list of
nodes they produce), `ModuleList` renaming, name normalization for `DataParallel`.
-/
namespace Verif

/-- A node of the optimized trace: the name of the module it was called from (`""`: the model itself), its
type, and the names of the values it consumes and produces. -/
structure TNode where
  module : String
  type : String
  ins : List String
  outs : List String
  deriving DecidableEq, Repr

/-- `self.ops`, `self.module_ops_map`, `self.edges` (summary_graph.py:121-125). -/
structure TGr where
  ops : Dict String TNode
  modOps : Dict String (List String)
  edges : List (String × String)
  deriving DecidableEq, Repr

/-- The name of an operation, the `cnt`-th called from its module (summary_graph.py:146-151, 174-178). -/
def opNameAt (cnt : ℕ) (n : TNode) : String :=
  let base := if n.module = "" then "top_level_op" else n.module
  if cnt = 0 then base else base ++ "_" ++ n.type ++ "_" ++ toString cnt

/-- `if id not in list: list.append(id)` over all ids (summary_graph.py:239-251). -/
def addOnce (ids : List String) : List String := ids.foldl (fun l x => if x ∈ l then l else l ++ [x]) []

/-- One iteration of the loop over the nodes (summary_graph.py:131-194). -/
def addNode (g : TGr) (n : TNode) : TGr :=
  let seen := (g.modOps.get? n.module).getD []
  let name := opNameAt seen.length n
  { ops := g.ops.set name { n with ins := addOnce n.ins, outs := addOnce n.outs }
    modOps := g.modOps.set n.module (seen ++ [name])
    edges := g.edges ++ (n.ins.map fun d => (d, name)) ++ n.outs.map fun d => (name, d) }

/-- The graph before merging. -/
def buildGraph (t : List TNode) : TGr := t.foldl addNode ⟨[], [], []⟩

/-- `ops.pop(k)`. -/
def popOp (d : Dict String TNode) (k : String) : Dict String TNode := d.filter fun kv => kv.1 ≠ k

/-- `edges.index(e)`: position of the first occurrence, or `ValueError`. -/
def edgeIndex (es : List (String × String)) (e : String × String) : Except Err ℕ :=
  if e ∈ es then .ok (es.idxOf e) else .error .value

/-- Merging a pad into a pool (summary_graph.py:213-228). -/
def mergeInto (g : TGr) (pad : String) (padOp : TNode) (cur : String) (curOp : TNode) : Except Err TGr :=
  match padOp.ins, curOp.outs with
  | i :: _, o :: _ =>
    (edgeIndex g.edges (i, pad)).map fun idx =>
      { ops := popOp (g.ops.set pad { curOp with ins := padOp.ins }) cur
        modOps := g.modOps.set curOp.module (((g.modOps.get? curOp.module).getD []).erase cur)
        edges := g.edges.take idx ++ [(i, pad), (pad, o)] ++ g.edges.drop (idx + 4) }
  | _, _ => .error .index

/-- One iteration of `__merge_pad_avgpool` (summary_graph.py:208-230); the state is the graph and
`pad_op_name`.  The names in the snapshot `list(self.ops.items())` are unique, so that the operation looked up
under `pad_op_name` is there. -/
def mergeStep (s : TGr × Option String) (kv : String × TNode) : Except Err (TGr × Option String) :=
  if kv.2.type = "Pad" then .ok (s.1, some kv.1)
  else match s.2 with
    | none => .ok (s.1, none)
    | some pad =>
      if kv.2.type = "AveragePool" then
        match s.1.ops.get? pad with
        | none => .error .key
        | some padOp =>
          if padOp.module ≠ kv.2.module then .ok s
          else (mergeInto s.1 pad padOp kv.1 kv.2).map fun g => (g, none)
      else .ok (s.1, none)

/-- `__merge_pad_avgpool` (summary_graph.py:201-230). -/
def mergePads (g : TGr) : Except Err TGr := (g.ops.foldlM mergeStep (g, none)).map Prod.fst

/-- The graph of a trace. -/
def traceGraph (t : List TNode) : Except Err TGr := mergePads (buildGraph t)

/-! ## The dropout workaround -/

/-- A node of the trace before optimization: scope and whether it is a dropout.  (Nodes that are no `aten`
operations are skipped by the code and omitted here.) -/
structure RNode where
  scope : String
  dropout : Bool
  deriving DecidableEq, Repr

/-- One node of the loop recording which scope a dropout's name will end up on (summary_graph.py:107-115). -/
def preDropStep (s : Dict String String × Option String) (n : RNode) : Dict String String × Option String :=
  if n.dropout then
    (match s.2 with
     | none => s.1
     | some p => s.1.set n.scope p, s.2)
  else (s.1, some n.scope)

/-- `pre_dropout_nodes_scope_names` (summary_graph.py:103-115). -/
def preDropout (t : List RNode) : Dict String String := (t.foldl preDropStep ([], none)).1

/-- What trace optimization does to the scopes, as described in the code (summary_graph.py:93-102): dropouts are
removed, and the operation before a dropout gets the dropout's scope name. -/
def optimizedScopes : List RNode → List String
  | [] => []
  | [x] => if x.dropout then [] else [x.scope]
  | x :: y :: r =>
    if x.dropout then optimizedScopes (y :: r)
    else if y.dropout then y.scope :: optimizedScopes r
    else x.scope :: optimizedScopes (y :: r)

/-- The scopes the graph uses (summary_graph.py:134-139). -/
def restoredScopes (t : List RNode) : List String :=
  (optimizedScopes t).map fun s => ((preDropout t).get? s).getD s

end Verif
