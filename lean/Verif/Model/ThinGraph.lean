import Verif.Model.Thinning
import Verif.Model.Graph
/-!
# The graph queries of thinning (`distiller/thinning.py` on `distiller/summary_graph.py`)
-/
namespace Verif

/-- A query that returned (`C51_successors` and `C51_predecessors`: with the budget below every query on a
known node returns). -/
def answer (r : Except Err (List String)) : List String :=
  match r with
  | .ok l => l
  | .error _ => []

/-- The graph queries made by `create_thinning_recipe_channels` and `create_thinning_recipe_filters`:
`successors_f(l, ['Conv', 'Gemm'])` (thinning.py:307), `successors_f(l, ['BatchNormalization'])` (thinning.py:355),
`predecessors_f(l, ['Conv'])` (thinning.py:214) and `predecessors_f(l, ['BatchNormalization'])` (thinning.py:247).
The recursion budget is the number of nodes plus two. -/
def SGraph.toTGraph (g : SGraph) : TGraph :=
  ⟨fun l => answer (g.successorsF ["Conv", "Gemm"] (g.ops.length + g.params.length + 2) l),
   fun l => answer (g.successorsF ["BatchNormalization"] (g.ops.length + g.params.length + 2) l),
   fun l => answer (g.predecessorsF ["Conv"] (g.ops.length + g.params.length + 2) l),
   fun l => answer (g.predecessorsF ["BatchNormalization"] (g.ops.length + g.params.length + 2) l)⟩

end Verif
