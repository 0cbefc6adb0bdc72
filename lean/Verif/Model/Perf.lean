import Verif.Model.SchedulerState
import Mathlib.Data.Rat.Floor
import Mathlib.Algebra.Order.Field.Rat
import Mathlib.Algebra.BigOperators.Group.List.Basic
/-!
# Compute summaries (distiller/summary_graph.py:281-352, distiller/model_summaries.py:163-244) and the
non-parallel copy of a model (distiller/utils.py:631-649)

Shapes are lists of sizes.  Arithmetic is exact (the code divides in floating point and truncates).
-/
namespace Verif

/-- `SummaryGraph.volume` (summary_graph.py:281-283), `distiller.volume` (utils.py:157-163): `np.prod` of the
sizes. -/
def vol (shape : List ℕ) : ℕ := shape.prod

/-- What the attributes of an operation are computed from: its type, the recorded shapes of its first input and
first output, and the ONNX attributes `kernel_shape` and `group`. -/
structure GOp where
  type : String
  inShape : List ℕ
  outShape : List ℕ
  kernel : List ℕ := []
  group : ℕ := 1
  deriving DecidableEq, Repr

/-- `add_macs_attr` (summary_graph.py:289-320).  An unrecorded shape is `(0,)`; indexing it raises `IndexError`,
which the code turns into 0. -/
def GOp.macs (o : GOp) : ℤ :=
  if o.type = "Conv" then
    match (o.inShape[1]? : Option ℕ) with
    | some nIfm => ⌊((vol o.outShape : ℚ) * vol o.kernel * nIfm) / o.group⌋
    | none => 0
  else if o.type = "Gemm" then
    match (o.inShape[1]? : Option ℕ), (o.outShape[1]? : Option ℕ) with
    | some nIfm, some nOfm => (nOfm : ℤ) * nIfm
    | _, _ => 0
  else 0

/-- `weights_vol` (summary_graph.py:329-336). -/
def GOp.weightsVol (o : GOp) (nIfm nOfm : ℕ) : ℚ :=
  (if o.type = "Conv" then (vol o.kernel : ℚ) else 1) * nIfm * nOfm / (if o.type = "Conv" then (o.group : ℚ) else 1)

/-- `add_footprint_attr` (summary_graph.py:322-345): here a missing shape raises. -/
def GOp.footprint (o : GOp) : Except Err ℚ :=
  if o.type = "Conv" ∨ o.type = "Gemm" then
    match (o.inShape[1]? : Option ℕ), (o.outShape[1]? : Option ℕ) with
    | some nIfm, some nOfm => .ok (vol o.outShape + vol o.inShape + o.weightsVol nIfm nOfm)
    | _, _ => .error .index
  else if o.type = "MaxPool" then .ok (vol o.outShape + vol o.inShape)
  else .ok 0

/-- `add_arithmetic_intensity_attr` (summary_graph.py:347-353). -/
def intensity (macs : ℤ) (footprint : ℚ) : ℤ :=
  if footprint = 0 then 0 else ⌊((macs : ℚ) + 1 / 2 * footprint) / footprint⌋

/-! ## Trees of modules -/

/-- A module: its identity, whether it is a `DataParallel`, and its named children.  The same object can occur in
several places. -/
inductive PTree where
  | node (id : ℕ) (dp : Bool) (children : List (String × PTree))

def PTree.id : PTree → ℕ
  | .node i _ _ => i
def PTree.dp : PTree → Bool
  | .node _ d _ => d

mutual

/-- The modules `Module.apply` calls its function on, in order; `children()` yields an object once per parent. -/
def visits : PTree → List ℕ
  | .node i _ cs => visitsL [] cs ++ [i]
def visitsL : List ℕ → List (String × PTree) → List ℕ
  | _, [] => []
  | seen, (_, t) :: cs => if t.id ∈ seen then visitsL seen cs else visits t ++ visitsL (t.id :: seen) cs

end

/-! ## The performance summary -/

/-- What the visitors look at in a module: the arguments of a `Conv2d`, the weight matrix of a `Linear`. -/
inductive PerfKind where
  | conv (inCh outCh groups k0 k1 : ℕ)
  | linear (inF outF : ℕ)
  | other
  deriving DecidableEq, Repr

/-- A call of a module in the forward pass, in order of completion. -/
structure PCall where
  id : ℕ
  inShape : List ℕ
  outShape : List ℕ
  deriving DecidableEq, Repr

/-- A row of the summary (the name column stands for the module's identity; `Attrs` is omitted). -/
structure PRow where
  id : ℕ
  ifm : List ℕ
  ofm : List ℕ
  weights : ℕ
  macs : ℤ
  deriving DecidableEq, Repr

/-- `conv_visitor`, `fc_visitor`, `module_visitor` (model_summaries.py:165-203).  The list `memo` they look into is
never added to. -/
def perfRow (k : PerfKind) (c : PCall) : Option PRow :=
  match k with
  | .conv ci co g k0 k1 => some ⟨c.id, c.inShape, c.outShape, vol [co, ci / g, k0, k1],
      ⌊(vol c.outShape : ℚ) * ((ci : ℚ) / g * k0 * k1)⌋⟩
  | .linear i o => some ⟨c.id, c.inShape, c.outShape, vol [o, i], (vol [o, i] : ℕ)⟩
  | .other => none

/-- `model_performance_summary` (model_summaries.py:206-233): every visit of `apply` registers a hook, every hook
of the called module adds a row. -/
def perfSummary (kind : ℕ → PerfKind) (t : PTree) (calls : List PCall) : List PRow :=
  calls.flatMap fun c => (List.replicate ((visits t).count c.id) (perfRow (kind c.id) c)).filterMap id

/-! ## The non-parallel copy -/

/-- `module.module` of a `DataParallel`. -/
def PTree.unwrap : PTree → PTree
  | .node _ true ((_, m) :: _) => m
  | t => t

mutual

/-- `replace_data_parallel` (utils.py:636-641): what it turns the container into.  It also descends into the
`DataParallel` it has just taken out.  `named_children()` yields an object once per parent; `seen` are the
`DataParallel`s already yielded (for other modules it makes no difference).  Simplification: a container reached on several paths is processed once (the
code processes it once per path, which can only unwrap more). -/
def replDP : PTree → PTree
  | .node i d cs => .node i d (replDPL [] cs)
def replDPL : List ℕ → List (String × PTree) → List (String × PTree)
  | _, [] => []
  | seen, (n, t) :: cs =>
    (n, if t.dp && !seen.contains t.id then (replDP t).unwrap else replDP t) ::
      replDPL (if t.dp then t.id :: seen else seen) cs

end

/-- `make_non_parallel_copy` (utils.py:631-649). -/
def nonParallel (t : PTree) : PTree := replDP (if t.dp then t.unwrap else t)

end Verif
