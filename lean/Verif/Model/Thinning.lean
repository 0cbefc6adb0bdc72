import Verif.Basic.Py
import Verif.Basic.Tensor
import Mathlib.Data.Nat.Sqrt
import Mathlib.Algebra.BigOperators.Group.List.Basic
/-!
# Model of network thinning: distiller/thinning.py

Tensors carry a shape and their row-major entries.  The model graph enters only through the
answers of `SummaryGraph.successors_f` / `predecessors_f` (themselves modelled in Model/Graph.lean).
Parameters are keyed by layer name and kind: `L + '.weight'`, `L + '.bias'`.
-/
namespace Verif

/-! ## Shaped tensors -/

/-- A torch tensor: shape and row-major entries. -/
structure ST where
  shape : List ℕ
  data : Tensor
  deriving DecidableEq, Repr

/-- As many entries as the shape says. -/
def ST.WF (t : ST) : Prop := t.data.length = t.shape.prod

instance instDecidableSTWF (t : ST) : Decidable t.WF := by unfold ST.WF; infer_instance

/-- Row-major entries of `index_select` on a tensor seen as `outer × n × inner`, dimension 1. -/
def selFlat (outer n inner : ℕ) (idx : List ℕ) (l : Tensor) : Tensor :=
  (List.range outer).flatMap fun o => idx.flatMap fun i => (l.drop ((o * n + i) * inner)).take inner

/-- `torch.index_select(t, dim, idx)`; raises for indices out of range. -/
def ST.indexSelect (t : ST) (dim : ℕ) (idx : List ℕ) : Except Err ST :=
  match t.shape[dim]? with
  | none => .error .index
  | some n =>
    if idx.all (· < n) then
      .ok ⟨t.shape.set dim idx.length,
        selFlat (t.shape.take dim).prod n (t.shape.drop (dim + 1)).prod idx t.data⟩
    else .error .index

/-- `t.size(dim)`. -/
def ST.size (t : ST) (dim : ℕ) : Except Err ℕ :=
  match t.shape[dim]? with
  | none => .error .index
  | some n => .ok n

/-- `t.view(*s)` (and `t.resize(*s)`, which requires the same number of elements). -/
def ST.view (t : ST) (s : List ℕ) : Except Err ST :=
  if s.prod = t.shape.prod then .ok ⟨s, t.data⟩ else .error .runtime

/-- `t.resize_(*s)`: keeps the first elements; additional elements are uninitialised memory (0 here). -/
def ST.resizeInPlace (t : ST) (s : List ℕ) : ST :=
  ⟨s, (t.data ++ List.replicate (s.prod - t.data.length) 0).take s.prod⟩

/-! ## Models, recipes -/

inductive LKind where
  | conv | linear | bn
  deriving DecidableEq, Repr

inductive Attr where
  | inChannels | outChannels | groups | inFeatures | outFeatures | numFeatures
  deriving DecidableEq, Repr

inductive RAttr where
  | runningMean | runningVar
  deriving DecidableEq, Repr

inductive PK where
  | weight | bias
  deriving DecidableEq, Repr

abbrev PName := String × PK

/-- A module: its class, its numeric attributes, and (batch-norm) its running statistics. -/
structure TLayer where
  kind : LKind
  attrs : Dict Attr ℕ
  running : Dict RAttr ST
  deriving DecidableEq, Repr

/-- A parameter with what belongs to it: gradient, SGD momentum buffer, pruning mask. -/
structure TParam where
  data : ST
  grad : Option ST
  mom : Option ST
  mask : Option ST
  deriving DecidableEq, Repr

structure TModel where
  layers : Dict String TLayer
  params : Dict PName TParam
  deriving DecidableEq, Repr

/-- Parameter directives: `(dim, indices)` or `(dim, indices, view_4D, view_2D)` (thinning.py:55-58). -/
inductive Directive where
  | two (dim : ℕ) (idx : List ℕ)
  | four (dim : ℕ) (idx : List ℕ) (v4 v2 : List ℕ)
  deriving DecidableEq, Repr

/-- Module directives: new attribute value, or a selection for the running statistics. -/
structure ModDirs where
  nums : Dict Attr ℕ
  runs : Dict RAttr (List ℕ)
  deriving DecidableEq, Repr

/-- `ThinningRecipe` (thinning.py:29-58). -/
structure Recipe where
  modules : Dict String ModDirs
  parameters : Dict PName (List Directive)
  deriving DecidableEq, Repr

def emptyRecipe : Recipe := ⟨[], []⟩

/-! ## Building recipes -/

/-- `_append_param_directive` (thinning.py:119-133): directives already present are not repeated. -/
def Recipe.appendParam (r : Recipe) (p : PName) (d : Directive) : Recipe :=
  let ds := (r.parameters.get? p).getD []
  if d ∈ ds then r else { r with parameters := r.parameters.set p (ds ++ [d]) }

/-- `_append_module_directive` (thinning.py:136-145). -/
def Recipe.appendModule (r : Recipe) (l : String) (a : Attr) (v : ℕ) : Recipe :=
  let md := (r.modules.get? l).getD ⟨[], []⟩
  { r with modules := r.modules.set l { md with nums := md.nums.set a v } }

/-- `_append_bn_thinning_directive` (thinning.py:148-170). -/
def Recipe.appendBN (m : TModel) (r : Recipe) (bn : String) (n : ℕ) (idx : List ℕ) : Except Err Recipe := do
  let lay ← m.layers.getE bn
  if lay.kind ≠ .bn then throw .assertion
  let md := (r.modules.get? bn).getD ⟨[], []⟩
  let md : ModDirs := ⟨md.nums.set .numFeatures n, (md.runs.set .runningMean idx).set .runningVar idx⟩
  return ⟨r.modules.set bn md,
    (r.parameters.set (bn, .weight) [.two 0 idx]).set (bn, .bias) [.two 0 idx]⟩

/-- Answers of the graph queries used by the recipes. -/
structure TGraph where
  /-- `successors_f(l, ['Conv', 'Gemm'])` -/
  succs : String → List String
  /-- `successors_f(l, ['BatchNormalization'])` -/
  succBN : String → List String
  /-- `predecessors_f(l, ['Conv'])` -/
  preds : String → List String
  /-- `predecessors_f(l, ['BatchNormalization'])` -/
  predBN : String → List String

/-- `getattr(layer, attr)`. -/
def TLayer.attr (l : TLayer) (a : Attr) : Except Err ℕ :=
  match l.attrs.get? a with
  | some v => .ok v
  | none => .error .attribute

/-- `handle_linear_successor` (thinning.py:337-355); `root` is the loop variable `layer_name` and `nnz`
the loop variable `num_nnz_filters` of the enclosing function (closure variables). -/
def handleLinearSucc (m : TModel) (root : String) (nnz : ℕ) (idx : List ℕ) (r : Recipe) (s : String) :
    Except Err Recipe := do
  let ls ← m.layers.getE s
  let lr ← m.layers.getE root
  let inF ← ls.attr .inFeatures
  let outF ← ls.attr .outFeatures
  let outC ← lr.attr .outChannels
  let fm := inF / outC
  let newIn := fm * nnz
  let side := Nat.sqrt fm
  if outC = 0 then .error .zeroDiv
  else .ok ((r.appendModule s .inFeatures newIn).appendParam (s, .weight)
      (.four 1 idx [outF, outC, side, side] [outF, newIn]))

/-- Dispatch on the successor and `handle_conv_successor` (thinning.py:308-335); `rec` is the recursive
call of `handle_layer`. -/
def handleSuccF (m : TModel) (root : String) (nnz : ℕ) (idx : List ℕ)
    (rec : Recipe → String → Except Err Recipe) (r : Recipe) (s : String) : Except Err Recipe := do
  let ls ← m.layers.getE s
  match ls.kind with
  | .conv =>
    let r := r.appendModule s .inChannels nnz
    let gr ← ls.attr .groups
    let inC ← ls.attr .inChannels
    if gr = 1 then return r.appendParam (s, .weight) (.two 1 idx)
    else if gr = inC then rec ((r.appendParam (s, .weight) (.two 0 idx)).appendModule s .groups nnz) s
    else throw .value
  | .linear => handleLinearSucc m root nnz idx r s
  | .bn => return r

/-- `handle_layer` of the filters recipe (thinning.py:292-317); recursion (depthwise successors) is
bounded by `fuel`, exhausting it stands for `RecursionError`. -/
def handleLayerF (g : TGraph) (m : TModel) (root : String) (nnz : ℕ) (idx : List ℕ) :
    ℕ → Recipe → String → Except Err Recipe
  | 0, _, _ => .error .runtime
  | fuel + 1, r, layer => do
    let lay ← m.layers.getE layer
    if lay.kind ≠ .conv then throw .assertion
    let r := r.appendModule layer .outChannels nnz
    let r := r.appendParam (layer, .weight) (.two 0 idx)
    let r := if m.params.has (layer, .bias) then r.appendParam (layer, .bias) (.two 0 idx) else r
    let r ← (g.succs layer).foldlM (handleSuccF m root nnz idx (handleLayerF g m root nnz idx fuel)) r
    match g.succBN layer with
    | [] => return r
    | [bn] => r.appendBN m bn nnz idx
    | _ => throw .assertion

/-- `param.view(param.size(0), -1)`: the rows (filters) of a tensor. -/
def ST.rows (t : ST) : List Tensor :=
  let n := t.shape.headD 0
  let inner := t.shape.tail.prod
  (List.range n).map fun i => (t.data.drop (i * inner)).take inner

/-- `torch.nonzero(filter_view.abs().sum(dim=1))` (thinning.py:375-377). -/
def nonzeroRows (t : ST) : List ℕ :=
  (List.range (t.shape.headD 0)).filter fun i =>
    (((t.rows[i]?.getD []).map fun x => |x|).sum) ≠ 0

/-- One iteration of the loop of `create_thinning_recipe_filters` (thinning.py:370-390). -/
def stepF (g : TGraph) (m : TModel) (r : Recipe) (kv : PName × TParam) : Except Err Recipe :=
  let pn := kv.1
  let p := kv.2
  if p.data.shape.length ≠ 4 then .ok r
  else
    let idx := nonzeroRows p.data
    if idx.length = 0 then .error .value
    else if p.data.shape.headD 0 ≤ idx.length then .ok r
    else handleLayerF g m pn.1 idx.length idx (m.layers.length + 1) r pn.1

/-- `create_thinning_recipe_filters` (thinning.py:283-391). -/
def createFilters (g : TGraph) (m : TModel) : Except Err Recipe :=
  m.params.foldlM (stepF g m) emptyRecipe

/-! ### Channels -/

/-- Column / channel `c` of a 2-D or 4-D weights tensor. -/
def ST.channel (t : ST) (c : ℕ) : Tensor :=
  selFlat (t.shape.headD 0) (t.shape.tail.headD 0) (t.shape.drop 2).prod [c] t.data

/-- `col_sums` / `non_zero_channels` (thinning.py:259-268, utils.py:252-262). -/
def nonzeroChannels (t : ST) : List ℕ :=
  (List.range (t.shape.tail.headD 0)).filter fun c => ((t.channel c).map fun x => |x|).sum ≠ 0

/-- The weight and bias directives of a predecessor (thinning.py:222-226, 231-235). -/
def addOutW (m : TModel) (idx : List ℕ) (r : Recipe) (q : String) : Recipe :=
  let r := r.appendParam (q, .weight) (.two 0 idx)
  if m.params.has (q, .bias) then r.appendParam (q, .bias) (.two 0 idx) else r

/-- One predecessor (thinning.py:214-238); `rec` is the recursive call of `handle_layer`. -/
def handlePredC (m : TModel) (nnz : ℕ) (idx : List ℕ) (rec : Recipe → PName → Except Err Recipe) (r : Recipe)
    (q : String) : Except Err Recipe := do
  let r := r.appendModule q .outChannels nnz
  let lq ← m.layers.getE q
  let gr ← lq.attr .groups
  let inC ← lq.attr .inChannels
  if gr = 1 then return addOutW m idx r q
  else if gr = inC then rec ((addOutW m idx r q).appendModule q .groups nnz) (q, .weight)
  else throw .value

/-- `handle_layer` of the channels recipe (thinning.py:199-247).  `lin` and `gr` drive the choice of
the dimension (thinning.py:209-211). -/
def handleLayerC (g : TGraph) (m : TModel) (nnz : ℕ) (idx : List ℕ) :
    ℕ → Recipe → PName → Except Err Recipe
  | 0, _, _ => .error .runtime
  | fuel + 1, r, pn => do
    let lay ← m.layers.getE pn.1
    if lay.kind ≠ .conv ∧ lay.kind ≠ .linear then throw .assertion
    let r := r.appendModule pn.1 .inChannels nnz
    let dim ← (if lay.kind = .linear then .ok 1 else do
      let gr ← lay.attr .groups
      return if gr = 1 then 1 else 0)
    let r := r.appendParam pn (.two dim idx)
    let r ← (g.preds pn.1).foldlM (handlePredC m nnz idx (handleLayerC g m nnz idx fuel)) r
    (g.predBN pn.1).foldlM (fun r bn => r.appendBN m bn nnz idx) r

/-- One iteration of the loop of `create_thinning_recipe_channels` (thinning.py:255-279). -/
def stepC (g : TGraph) (m : TModel) (r : Recipe) (kv : PName × TParam) : Except Err Recipe :=
  let pn := kv.1
  let p := kv.2
  if p.data.shape.length ≠ 2 ∧ p.data.shape.length ≠ 4 then .ok r
  else
    let idx := nonzeroChannels p.data
    if idx.length = 0 then .error .value
    else if p.data.shape.tail.headD 0 ≤ idx.length then .ok r
    else handleLayerC g m idx.length idx (m.layers.length + 1) r pn

/-- `create_thinning_recipe_channels` (thinning.py:189-280). -/
def createChannels (g : TGraph) (m : TModel) : Except Err Recipe :=
  m.params.foldlM (stepC g m) emptyRecipe

/-! ## Executing recipes -/

/-- The optimizer: absent, SGD with momentum, anything else (SGD without momentum behaves as absent). -/
inductive OptKind where
  | none | sgd | other
  deriving DecidableEq, Repr

/-- `_optimizer_thinning` (thinning.py:443-473). -/
def optThin (opt : OptKind) (p : TParam) (dim : ℕ) (idx : List ℕ) (newShape : Option (List ℕ)) :
    Except Err TParam :=
  match opt with
  | .none => .ok p
  | .other => .error .notImplemented
  | .sgd =>
    match p.mom with
    | none => .ok p
    | some b => do
      let b' ← b.indexSelect dim idx
      return { p with mom := some (match newShape with | some s => b'.resizeInPlace s | none => b') }

/-- Masks (thinning.py:547-552). -/
def maskThin (upd : Bool) (p : TParam) (dim : ℕ) (idx : List ℕ) : Except Err TParam :=
  if upd then
    match p.mask with
    | none => .ok p
    | some k => do
      let n ← k.size dim
      if n ≠ idx.length then
        let k' ← k.indexSelect dim idx
        return { p with mask := some k' }
      else return p
  else .ok p

/-- The 2-tuple branch: the weights (thinning.py:533-538). -/
def dataThin (p : TParam) (dim : ℕ) (idx : List ℕ) : Except Err TParam := do
  let n ← p.data.size dim
  if n ≠ idx.length then
    if ¬ idx.length < n then throw .assertion
    let d' ← p.data.indexSelect dim idx
    return { p with data := d' }
  else return p

/-- The 2-tuple branch: gradient and momentum (thinning.py:542-546). -/
def gradThin (opt : OptKind) (p : TParam) (dim : ℕ) (idx : List ℕ) : Except Err TParam :=
  match p.grad with
  | none => .ok p
  | some gr => do
    let n ← gr.size dim
    if n ≠ idx.length then
      let g' ← gr.indexSelect dim idx
      optThin opt { p with grad := some g' } dim idx none
    else return p

/-- The 4-tuple branch (thinning.py:510-531). -/
def fourThin (opt : OptKind) (p : TParam) (dim : ℕ) (idx : List ℕ) (v4 v2 : List ℕ) : Except Err TParam := do
  let sel ← p.data.view v4
  let n ← p.data.size dim
  let p ← (if n ≠ idx.length then do
      let d' ← sel.indexSelect dim idx
      let p := { p with data := d' }
      match p.grad with
      | none => return p
      | some gr => do
        let gv ← gr.view v4
        let gn ← gv.size dim
        if gn ≠ idx.length then
          let g' ← gv.indexSelect dim idx
          optThin opt { p with grad := some g' } dim idx (some v2)
        else return p
    else (.ok p : Except Err TParam))
  let d ← p.data.view v2
  return { p with data := d, grad := p.grad.map fun gr => gr.resizeInPlace v2 }

/-- One parameter directive (thinning.py:506-552). -/
def execDirective (opt : OptKind) (upd : Bool) (p : TParam) : Directive → Except Err TParam
  | .two dim idx => do
    let p ← dataThin p dim idx
    let p ← gradThin opt p dim idx
    maskThin upd p dim idx
  | .four dim idx v4 v2 => do
    let p ← fourThin opt p dim idx v4 v2
    maskThin upd p dim idx

/-- All directives of one parameter (thinning.py:499-552). -/
def execParam (opt : OptKind) (upd : Bool) (m : TModel) (kv : PName × List Directive) : Except Err TModel :=
  match m.params.get? kv.1 with
  | none => .error .assertion
  | some p => do
    let p' ← kv.2.foldlM (execDirective opt upd) p
    return { m with params := m.params.set kv.1 p' }

/-- Selection of a running statistic (thinning.py:485-492). -/
def execRunning (l : TLayer) (kv : RAttr × List ℕ) : Except Err TLayer :=
  match l.running.get? kv.1 with
  | none => .error .attribute
  | some t => do
    let n ← t.size 0
    if n ≠ kv.2.length then
      let t' ← t.indexSelect 0 kv.2
      return { l with running := l.running.set kv.1 t' }
    else return l

/-- All directives of one module (thinning.py:482-495): attributes and statistics are independent, the
model sets the attributes first. -/
def execModule (m : TModel) (kv : String × ModDirs) : Except Err TModel := do
  let l ← m.layers.getE kv.1
  let l := { l with attrs := kv.2.nums.foldl (fun a (av : Attr × ℕ) => a.set av.1 av.2) l.attrs }
  let l ← kv.2.runs.foldlM execRunning l
  return { m with layers := m.layers.set kv.1 l }

/-- `execute_thinning_recipe` (thinning.py:476-552); `upd` is
`not loaded_from_file and zeros_mask_dict`. -/
def execRecipe (opt : OptKind) (upd : Bool) (m : TModel) (r : Recipe) : Except Err TModel := do
  let m ← r.modules.foldlM execModule m
  if r.parameters = [] then throw .assertion
  r.parameters.foldlM (execParam opt upd) m

/-- `apply_and_save_recipe` (thinning.py:173-186): the new model and the stored recipe, if any. -/
def applyAndSave (opt : OptKind) (upd : Bool) (m : TModel) (saved : List Recipe) (r : Recipe) :
    Except Err (TModel × List Recipe) :=
  if r.modules = [] ∧ r.parameters = [] then .ok (m, saved)
  else do
    let m' ← execRecipe opt upd m r
    return (m', saved ++ [r])

/-- `execute_thinning_recipes_list` (thinning.py:431-440). -/
def execRecipes (m : TModel) (rs : List Recipe) : Except Err TModel :=
  rs.foldlM (execRecipe .none false) m

/-- `remove_filters` (thinning.py:88-93). -/
def removeFilters (g : TGraph) (opt : OptKind) (upd : Bool) (m : TModel) (saved : List Recipe) :
    Except Err (TModel × List Recipe) := do
  let r ← createFilters g m
  applyAndSave opt upd m saved r

/-- `remove_channels` (thinning.py:80-85). -/
def removeChannels (g : TGraph) (opt : OptKind) (upd : Bool) (m : TModel) (saved : List Recipe) :
    Except Err (TModel × List Recipe) := do
  let r ← createChannels g m
  applyAndSave opt upd m saved r

end Verif
