import Verif.Model.Graph
/-!
# Layers that depend on a pruned layer (examples/auto_compression/amc/utils/data_dependencies.py:25-70)

The attributes `group` and `n_ifm` that `SummaryGraph` stores for convolutions are given as functions of the operation's name.
Modelled without `normalize_module_name` / `denormalize_module_name` (C51 does the same).
-/
namespace Verif

/-- Attributes of the operations: whether the type is `Conv`, the number of groups and of input channels. -/
structure OpAttrs where
  conv : String → Bool
  group : String → ℕ
  ifm : String → ℕ

/-- The two mutually similar recursions (data_dependencies.py:40-55, 59-70), given the neighbour search.  The list that Python
appends to is returned; the recursion is bounded by `fuel` (Python: `RecursionError`). -/
def findDeps (nx : String → Except Err (List String)) (a : OpAttrs) : ℕ → String → Except Err (List String)
  | 0, _ => .error .runtime
  | fuel + 1, v => do
    let s ← nx v
    s.foldlM (fun acc x =>
      if a.conv x then
        if a.group x = a.ifm x then (findDeps nx a fuel x).map fun r => acc ++ x :: r
        else if a.group x ≠ 1 then .error .value
        else .ok (acc ++ [x])
      else .ok (acc ++ [x])) []

/-- The attributes of the nodes of a graph; for the search over predecessors every node that is met is a convolution. -/
def SGraph.attrs (g : SGraph) (group ifm : String → ℕ) : OpAttrs := ⟨g.hits ["Conv"], group, ifm⟩

/-- `find_dependencies` (data_dependencies.py:25-37); `fuel` bounds the graph search, `depth` the recursion over depthwise
convolutions. -/
def findDependencies (g : SGraph) (group ifm : String → ℕ) (fuel depth : ℕ) (kind : String) (v : String) :
    Except Err (List String) :=
  if kind = "channels" then findDeps (g.predecessorsF ["Conv"] fuel) (g.attrs group ifm) depth v
  else if kind = "filters" then findDeps (g.successorsF ["Conv", "Gemm"] fuel) (g.attrs group ifm) depth v
  else .error .value

end Verif
