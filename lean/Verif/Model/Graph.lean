import Verif.Basic.Py
import Mathlib.Data.List.Sort
/-!
# The data-flow graph (`distiller/summary_graph.py`)

Modelled: the edge list, `successors_f` / `predecessors_f` (388-426, 449-493),
`successors` / `predecessors` with a depth (367-386, 428-447), `adjacency_map`
(512-547, with its cache) and `layers_topological_order` (549-592).
Not modelled: the construction of the graph from the traced model (71-200), names
"denormalized" for `DataParallel` models (all names here are the normalized ones, and
normalization is the identity on them).
-/
namespace Verif

/-- `SummaryGraph` after construction: `ops` (name, type, module name, whether the module is
dedicated to this op), `params` (the data nodes) and `edges`; summary_graph.py:115-122. -/
structure SGraph where
  ops : Dict String String
  params : List String
  edges : List (String × String)
  deriving DecidableEq, Repr

namespace SGraph

/-- `[edge.dst for edge in self.edges if edge.src == v]` (summary_graph.py:434, 483). -/
def next (g : SGraph) (v : String) : List String :=
  (g.edges.filter (fun e => decide (e.1 = v))).map Prod.snd

/-- `[edge.src for edge in self.edges if edge.dst == v]` (summary_graph.py:373, 416). -/
def prev (g : SGraph) (v : String) : List String :=
  (g.edges.filter (fun e => decide (e.2 = v))).map Prod.fst

/-- `find_op(v)` or `find_param(v)` succeeds (summary_graph.py:361-365, 395-402). -/
def found (g : SGraph) (v : String) : Bool := g.ops.has v || decide (v ∈ g.params)

/-- `node_is_an_op and node['type'] in types` (summary_graph.py:411-414, 478-480). -/
def hits (g : SGraph) (types : List String) (v : String) : Bool :=
  match g.ops.get? v with
  | some t => decide (t ∈ types)
  | none => false

end SGraph

/-- `successors_f` / `predecessors_f` (summary_graph.py:388-426, 449-493), the two being the same
code up to the direction of the edges, which is the parameter `nx`.  The mutable `done_list` is
threaded through (second component of the loop state, the first being `ret`); Python's recursion is
bounded by `fuel` (running out of it is reported as an error, and shown not to happen). -/
def searchF (nx : String → List String) (found hit : String → Bool) :
    Nat → String → List String → Except Err (List String × List String)
  | 0, _, _ => .error .runtime
  | fuel + 1, v, done =>
    if found v then
      if hit v ∧ done ≠ [] then .ok ([v], done ++ [v])
      else
        ((nx v).filter (fun c => decide (c ∉ done ++ [v]))).foldlM
          (fun acc c => (searchF nx found hit fuel c acc.2).map (fun r => (acc.1 ++ r.1, r.2)))
          ([], done ++ [v])
    else .ok ([], done)

namespace SGraph

/-- `successors_f(v, types)` with a recursion budget. -/
def successorsF (g : SGraph) (types : List String) (fuel : Nat) (v : String) : Except Err (List String) :=
  (searchF g.next g.found (g.hits types) fuel v []).map Prod.fst

/-- `predecessors_f(v, types)` with a recursion budget. -/
def predecessorsF (g : SGraph) (types : List String) (fuel : Nat) (v : String) : Except Err (List String) :=
  (searchF g.prev g.found (g.hits types) fuel v []).map Prod.fst

end SGraph

/-- `successors(node, depth)` / `predecessors(node, depth)` (summary_graph.py:367-386, 428-447) for
`depth = k + 1`; returns the list and the updated `done_list`. -/
def nbrs (nx : String → List String) : Nat → String → List String → List String × List String
  | 0, v, done =>
    let s := (nx v).filter (fun c => decide (c ∉ done))
    (s, done ++ s)
  | k + 1, v, done =>
    let s := (nx v).filter (fun c => decide (c ∉ done))
    s.foldl (fun acc c => let r := nbrs nx k c acc.2; (acc.1 ++ r.1, r.2)) ([], done ++ s)

namespace SGraph

/-- `successors(op, 2)` (summary_graph.py:428-447). -/
def succ2 (g : SGraph) (v : String) : List String := (nbrs g.next 1 v []).1
/-- `predecessors(op, 2)` (summary_graph.py:367-386). -/
def pred2 (g : SGraph) (v : String) : List String := (nbrs g.prev 1 v []).1

end SGraph

/-- `AdjacentsEntry` (summary_graph.py:639-648) without the types. -/
structure AdjEntry where
  preds : List String
  succs : List String
  deriving DecidableEq, Repr

abbrev AdjMap := Dict String AdjEntry

namespace SGraph

/-- The body of `adjacency_map` (summary_graph.py:529-545); `ded` is `_dedicated_module_check`
(505-510) and `only` is `dedicated_modules_only`. -/
def buildAdj (g : SGraph) (ded : String → Bool) (only : Bool) : AdjMap :=
  let chk := fun n => !only || ded n
  (g.ops.keys.filter chk).foldl
    (fun m n => m.set n ⟨(g.pred2 n).filter chk, (g.succ2 n).filter chk⟩) []

/-- `adjacency_map(dedicated_modules_only)` with the cache `self._adj_map`
(summary_graph.py:525-527, 546-547): the result is stored whatever the argument was. -/
def adjacencyMap (g : SGraph) (ded : String → Bool) (only : Bool) (cache : Option AdjMap) :
    AdjMap × Option AdjMap :=
  match cache with
  | some (x :: xs) => if only then (g.buildAdj ded only, some (g.buildAdj ded only)) else (x :: xs, cache)
  | _ => (g.buildAdj ded only, some (g.buildAdj ded only))

end SGraph

/-- `_OpRank.rank = val` (summary_graph.py:610-621): `max(val, self._rank)`. -/
def setRank (ranks : Dict String Nat) (v : String) (r : Nat) : Except Err (Dict String Nat) :=
  match ranks.get? v with
  | some r0 => .ok (ranks.set v (max r r0))
  | none => .error .key

/-- Successor names in the adjacency map. -/
def AdjMap.succsOf (m : AdjMap) (v : String) : Except Err (List String) :=
  match m.get? v with
  | some e => .ok e.succs
  | none => .error .key

/-- `_is_descendant` (summary_graph.py:562-569), with a recursion budget. -/
def isDescendant (m : AdjMap) : Nat → String → String → Except Err Bool
  | 0, _, _ => .error .runtime
  | fuel + 1, parent, dest =>
    match m.succsOf parent with
    | .error e => .error e
    | .ok ss =>
      if dest ∈ ss then .ok true
      else ss.foldlM (fun b s => if b then .ok true else isDescendant m fuel s dest) false

/-- `_recurrent_ancestor` (summary_graph.py:561-572). -/
def recurrentAncestor (m : AdjMap) (fuel : Nat) (ranks : Dict String Nat) (dest src : String) : Except Err Bool :=
  match isDescendant m fuel dest src with
  | .error e => .error e
  | .ok false => .ok false
  | .ok true =>
    match ranks.get? dest, ranks.get? src with
    | some rd, some rs => .ok (decide (0 < rd ∧ rd < rs))
    | _, _ => .error .key

/-- `rank_op` (summary_graph.py:574-579), with a recursion budget.  The rank of the operation is
read again before each recursive call. -/
def rankOp (m : AdjMap) (recurrent : Bool) :
    Nat → Dict String Nat → String → Nat → Except Err (Dict String Nat)
  | 0, _, _, _ => .error .runtime
  | fuel + 1, ranks, v, r =>
    match setRank ranks v r with
    | .error e => .error e
    | .ok ranks1 =>
      match m.succsOf v with
      | .error e => .error e
      | .ok ss =>
        ss.foldlM (fun rk c =>
          if recurrent then
            match recurrentAncestor m fuel rk c v with
            | .error e => .error e
            | .ok true => .ok rk
            | .ok false => rankOp m recurrent fuel rk c ((rk.get? v).getD 0 + 1)
          else rankOp m recurrent fuel rk c ((rk.get? v).getD 0 + 1)) ranks1

/-- `layers_topological_order` (summary_graph.py:557-592), without the cache; `isMod` tells the
names found in `dict(model.named_modules())`. Python's `sorted` is a stable sort. -/
def topoOrder (m : AdjMap) (isMod : String → Bool) (recurrent : Bool) (fuel : Nat) : Except Err (List String) :=
  let roots := (m.filter (fun kv => decide (kv.2.preds = []))).map Prod.fst
  match roots.foldlM (fun rk v => rankOp m recurrent fuel rk v 0) (m.mapVals (fun _ _ => 0)) with
  | .error e => .error e
  | .ok rk =>
    let ret := (m.keys.filter isMod).insertionSort (fun a b => (rk.get? a).getD 0 ≤ (rk.get? b).getD 0)
    if ∀ k ∈ ret, (rk.get? k).getD 0 = 0 → k ∈ roots then .ok ret else .error .assertion

end Verif
