import Verif.Model.QUtils
import Verif.Model.SchedulerState
import Mathlib.Logic.Function.Basic
/-!
# Graph optimizations ahead of post-training quantization
(distiller/quantization/range_linear.py:1738-1765, 1994-2138)

`_pre_prepare_model` folds batch-norms, moves their statistics, clips the statistics of layers followed
by an activation and fuses ReLUs into the layers before them.
-/
namespace Verif

/-- The statistics of one module: `{'inputs': {idx: …}, 'output': …}`. -/
structure LStats where
  inputs : Dict ℕ Stats
  output : Stats
  deriving DecidableEq, Repr

abbrev StatsMap := Dict Name LStats

/-- `isinstance(module, nn.ReLU)`, `isinstance(module, nn.ReLU6)`, anything else. -/
inductive ActCls where
  | relu | relu6 | other
  deriving DecidableEq, Repr

/-- A module of `named_modules()`. -/
structure PMod where
  name : Name
  cls : ActCls
  /-- `has_children(m) and not isinstance(m, SimulatedFoldedBatchNorm)` -/
  container : Bool
  /-- its entry in `module_qbits_map` quantizes activations -/
  acts : Bool
  /-- its replacement function returns a `RangeLinearQuantWrapper` (and not the module itself, an
  `FPWrapper`, an embedding wrapper or nothing at all) -/
  wraps : Bool
  /-- `fused_modules`, the mark left by `fold_batch_norms` -/
  fused : Option (List Name)
  deriving DecidableEq, Repr

/-- `AdjacentsEntry`: names and types of the adjacent operations (summary_graph.py:512-547). -/
structure PAdj where
  preds : List (Name × String)
  succs : List (Name × String)
  deriving DecidableEq, Repr

abbrev PAdjMap := Dict Name PAdj

/-- `dict.pop(k)`: the dictionary without the key. -/
def dropKey (d : StatsMap) (k : Name) : StatsMap := d.filter fun kv => kv.1 ≠ k

/-- Moving the statistics of one folded batch-norm (range_linear.py:2034-2048). -/
def bnStatsStep (st : StatsMap) (m : PMod) : Except Err StatsMap :=
  match m.fused with
  | none => .ok st
  | some [] => .error .index
  | some (f :: _) =>
    match st.get? (normalizeName f) with
    | none => .ok st
    | some bn =>
      match (dropKey st (normalizeName f)).get? (normalizeName m.name) with
      | none => .error .key
      | some s =>
        .ok ((dropKey st (normalizeName f)).set (normalizeName m.name) { s with output := bn.output })

/-- The statistics part of `_apply_bn_folding` (range_linear.py:2027-2049); without statistics
nothing is found. -/
def bnStats (mods : List PMod) (st : StatsMap) : Except Err StatsMap := mods.foldlM bnStatsStep st

/-- `_clip_stats` (range_linear.py:2008-2017). -/
def clipStats (s : Stats) (lo hi : ℚ) : Stats :=
  if s.max < lo then { s with min := lo, avgMin := lo, max := lo, avgMax := lo }
  else if hi < s.min then { s with min := hi, avgMin := hi, max := hi, avgMax := hi }
  else { s with min := max lo s.min, avgMin := max lo s.avgMin, max := min hi s.max, avgMax := min hi s.avgMax }

/-- `n in adjacency_map and len(adjacency_map[n].successors) == 1` and the module is quantized and has
no children: its only successor (range_linear.py:2067-2073, 2122-2128). -/
def soleSucc (adj : PAdjMap) (m : PMod) : Option (Name × String) :=
  if m.acts = false ∨ m.container then none
  else match adj.get? m.name with
    | none => none
    | some e => match e.succs with
      | [s] => some s
      | _ => none

/-- The type of activation a layer output ends up in (range_linear.py:2080-2091): a split whose chunks
all go into similar activations counts as that activation. -/
def effType (adj : PAdjMap) (succ : Name × String) : Except Err String :=
  if succ.2 = "Split" then
    match adj.get? succ.1 with
    | none => .error .key
    | some e =>
      if e.succs.all (fun o => o.2 == "Relu") then .ok "Relu"
      else if e.succs.all (fun o => o.2 == "Tanh") then .ok "Tanh"
      else if e.succs.all (fun o => o.2 == "Sigmoid" || o.2 == "Tanh") then .ok "Sigmoid"
      else .ok "Split"
  else .ok succ.2

/-- `isinstance(named_modules.get(name), cls)`. -/
def isCls (mods : List PMod) (name : Name) (c : ActCls) : Bool :=
  mods.any fun m => m.name == name && m.cls == c

/-- The clipping values (range_linear.py:2094-2109); `none`: no activation. -/
def actRange (mods : List PMod) (succ : Name) (type : String) (outMax : ℚ) : Option (ℚ × ℚ) :=
  if type = "Relu" then some (0, outMax)
  else if type = "Sigmoid" ∨ type = "Tanh" then
    (if type = "Tanh" then some (-4, 4) else some (-6, 6))
  else if isCls mods succ .relu6 then some (0, min outMax 6)
  else none

/-- `succ_stats['inputs'][0] = …` if there are statistics for the successor and it is not a split
(range_linear.py:2078, 2091, 2114-2115). -/
def setInput0 (st : StatsMap) (succ : Name × String) (o : Stats) : StatsMap :=
  if succ.2 = "Split" then st
  else match st.get? (normalizeName succ.1) with
    | none => st
    | some ss => st.set (normalizeName succ.1) { ss with inputs := ss.inputs.set 0 o }

/-- One iteration of `_apply_activation_stats_fusions` (range_linear.py:2065-2115).  A successor that
shares the layer's own entry would see the clipped output, as here. -/
def fuseStatsStep (mods : List PMod) (adj : PAdjMap) (st : StatsMap) (m : PMod) : Except Err StatsMap :=
  match soleSucc adj m with
  | none => .ok st
  | some succ =>
    match st.get? (normalizeName m.name) with
    | none => .error .key
    | some s =>
      (effType adj succ).bind fun ty =>
        match actRange mods succ.1 ty s.output.max with
        | none => .ok st
        | some r =>
          let o := clipStats s.output r.1 r.2
          .ok (setInput0 (st.set (normalizeName m.name) { s with output := o }) succ o)

/-- `_apply_activation_stats_fusions` (range_linear.py:2051-2115). -/
def fuseStats (mods : List PMod) (adj : PAdjMap) (st : StatsMap) : Except Err StatsMap :=
  if st = [] then .ok [] else mods.foldlM (fuseStatsStep mods adj) st

/-! ## Fusing ReLUs -/

/-- The overrides added by `_apply_fuse_relu`: modules that got `clip_half_range`, and modules that got
`make_identity`.  (Overrides of the user on these two keys are not modelled.) -/
structure ReluFuse where
  half : List Name
  ident : List Name
  deriving DecidableEq, Repr

/-- One iteration of `_apply_fuse_relu` (range_linear.py:2119-2138). -/
def fuseReluStep (mods : List PMod) (adj : PAdjMap) (acc : ReluFuse) (m : PMod) : ReluFuse :=
  match soleSucc adj m with
  | none => acc
  | some succ =>
    if isCls mods succ.1 .relu || isCls mods succ.1 .relu6 then
      ⟨acc.half ++ [m.name], acc.ident ++ [succ.1]⟩
    else acc

/-- `_apply_fuse_relu` (range_linear.py:2115-2138). -/
def fuseRelu (mods : List PMod) (adj : PAdjMap) : ReluFuse := mods.foldl (fuseReluStep mods adj) ⟨[], []⟩

/-- What became of a module: unchanged function, a quantization wrapper (with `clip_half_range` or
not), or `nn.Identity`. -/
inductive Repl where
  | plain | wrapper (half : Bool) | identity
  deriving DecidableEq, Repr

/-- The replacement of one module: `replace_fake_quant` for ReLUs (range_linear.py:1738-1765; the wrapper
of a ReLU always clips the half range, 1456), and the other replacement functions. -/
def replaceOne (mods : List PMod) (adj : PAdjMap) (f : ReluFuse) (done : Dict Name Repl) (m : PMod) :
    Except Err Repl :=
  if m.cls ≠ .other ∧ m.name ∈ f.ident then
    match adj.get? m.name with
    | none => .error .key
    | some e => match e.preds with
      | [] => .error .index
      | p :: _ =>
        if mods.all (fun m => m.name != p.1) then .error .key
        else match done.get? p.1 with
          | some (.wrapper _) => .ok .identity
          | _ => .ok (if m.wraps then .wrapper true else .plain)
  else .ok (if m.wraps then .wrapper (m.cls ≠ .other ∨ m.name ∈ f.half) else .plain)

/-- One replacement, in the order of `named_modules()` (quantizer.py:288-345). -/
def replaceStep (mods : List PMod) (adj : PAdjMap) (f : ReluFuse) (done : Dict Name Repl) (m : PMod) :
    Except Err (Dict Name Repl) :=
  (replaceOne mods adj f done m).map fun r => done.set m.name r

/-- ReLU fusion followed by the replacement of all modules. -/
def prepareRelu (mods : List PMod) (adj : PAdjMap) : Except Err (Dict Name Repl) :=
  mods.foldlM (replaceStep mods adj (fuseRelu mods adj)) []

/-! ## Execution -/

/-- One operation of the traced model: name, module called (`none`: functional), ONNX type, wires. -/
structure POp where
  name : Name
  mod : Option Name
  type : String
  ins : List ℕ
  out : ℕ
  deriving DecidableEq, Repr

/-- `b` consumes the output of `a`. -/
def POp.feeds (a b : POp) : Bool := b.ins.contains a.out

/-- `SummaryGraph.adjacency_map(dedicated_modules_only=False)` of a traced model
(summary_graph.py:512-547). -/
def adjOf (P : List POp) : PAdjMap :=
  P.map fun o => (o.name,
    ⟨(P.filter fun a => a.feeds o).map fun a => (a.name, a.type),
     (P.filter fun b => o.feeds b).map fun b => (b.name, b.type)⟩)

/-- What the operations compute: module functions, functional operations, the ReLU, and the output
quantization (quantize, de-quantize) of the wrapper of a module. -/
structure OpSem (V : Type) where
  fn : Name → List V → V
  call : Name → List V → V
  relu : V → V
  q : Name → V → V

/-- Forward of a module after preparation: `RangeLinearQuantWrapper.forward` (range_linear.py:548-589:
wrapped module, ReLU if `clip_half_range`, output quantization), `nn.Identity`, or the module. -/
def replFwd {V : Type} [Inhabited V] (σ : OpSem V) (r : Repl) (m : Name) (xs : List V) : V :=
  match r with
  | .plain => σ.fn m xs
  | .wrapper half => σ.q m (if half then σ.relu (σ.fn m xs) else σ.fn m xs)
  | .identity => xs.headD default

/-- Execution of one operation. -/
def runOp {V : Type} [Inhabited V] (σ : OpSem V) (repl : Name → Repl) (env : ℕ → V) (o : POp) : ℕ → V :=
  Function.update env o.out
    (match o.mod with
     | none => σ.call o.name (o.ins.map env)
     | some m => replFwd σ (repl m) m (o.ins.map env))

/-- Execution of a model. -/
def runOps {V : Type} [Inhabited V] (σ : OpSem V) (repl : Name → Repl) (P : List POp) (env : ℕ → V) : ℕ → V :=
  P.foldl (runOp σ repl) env

/-- The replacement table as a function. -/
def replOf (d : Dict Name Repl) (m : Name) : Repl := (d.get? m).getD .plain

end Verif
