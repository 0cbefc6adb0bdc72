import Verif.Model.PTQSearch
import Verif.Model.QUtils
/-!
# Initialization of the coordinate search (distiller/quantization/ptq_coordinate_search.py:104-269)

What building a wrapper, applying parameters and evaluating the loss do is arbitrary (`InitEnv`); modelled is which
layers are rebuilt, from which arguments, and in which state they are left.
-/
namespace Verif

/-- An initialization mode of one layer (ptq_coordinate_search.py:195-204): a clipping mode, a loss function
(1, 2, 3: `l1_loss`, `l2_loss`, `l3_loss`; others: the user's), or a string. -/
inductive IMode where
  | clip (c : ClipMode)
  | loss (l : ℕ)
  | str (s : List Char)
  deriving DecidableEq, Repr

/-- The argument `init_mode` (ptq_coordinate_search.py:239-241): one mode, or one per layer. -/
inductive IModeArg where
  | one (m : IMode)
  | each (d : Dict (List Char) IMode)

/-- `_INIT_MODES` (ptq_coordinate_search.py:109-112). -/
def searchInitModes : Dict (List Char) IMode :=
  [("NONE".toList, .clip .none), ("AVG".toList, .clip .avg), ("LAPLACE".toList, .clip .laplace),
   ("GAUSS".toList, .clip .gauss), ("L1".toList, .loss 1), ("L2".toList, .loss 2), ("L3".toList, .loss 3)]

/-- `_init_mode_from_str` (ptq_coordinate_search.py:115-120) for strings; other modes are taken as they are (211-212). -/
def IMode.resolve : IMode → Except Err IMode
  | .str s =>
    match Dict.get? searchInitModes (s.map Char.toUpper) with
    | some m => .ok m
    | none => .error .value
  | m => .ok m

/-- A module of the quantized model: a post-training quantization wrapper in some state, or not a wrapper. -/
inductive QObj (Q : Type) where
  | plain
  | wrap (q : Q)
  deriving DecidableEq, Repr

/-- The environment: `build name clip_acts` re-creates the layer's wrapper from the original layer with the stored
arguments (ptq_coordinate_search.py:217-218); `cs name l` applies parameters to a wrapper and computes the loss `l`
between the outputs (145-160); `evals name l q` are the vectors at which the minimizer evaluates the loss (162), starting
with the wrapper `q`. -/
structure InitEnv (Q : Type) where
  build : List Char → ClipMode → QObj Q
  cs : List Char → ℕ → CSEnv Q
  evals : List Char → ℕ → Q → List (List ℚ)

/-- The quantizer's model and the stored `clip_acts` arguments of the wrappers (`modules_processed_args`). -/
structure InitState (Q : Type) where
  model : Dict (List Char) (QObj Q)
  args : Dict (List Char) ClipMode

/-- `optimize_for_layer` (ptq_coordinate_search.py:123-163): every evaluation applies its vector to the wrapper; the
minimizer's result is not used. -/
def optimizeLayer {Q : Type} (e : CSEnv Q) (vs : List (List ℚ)) (q : Q) : Except Err Q :=
  vs.foldlM (fun q v => (e.feed q v).map Prod.fst) q

/-- The wrapper after optimization, if the mode is a loss (ptq_coordinate_search.py:223-226). -/
def initOptimize {Q : Type} (e : InitEnv Q) (name : List Char) (m : IMode) (q : Q) : Except Err Q :=
  match m with
  | .loss l => optimizeLayer (e.cs name l) (e.evals name l q) q
  | _ => .ok q

/-- The clipping argument used: that of the mode, or the stored one (ptq_coordinate_search.py:215-216). -/
def initClip (m : IMode) (stored : ClipMode) : ClipMode :=
  match m with
  | .clip c => c
  | _ => stored

/-- The replacement in the model (ptq_coordinate_search.py:217-229), given the (changed) arguments: nothing if the layer is
not quantized. -/
def initReplace {Q : Type} (e : InitEnv Q) (m : IMode) (name : List Char) (c : ClipMode) (model : Dict (List Char) (QObj Q))
    (args : Dict (List Char) ClipMode) : Except Err (InitState Q) :=
  match e.build name c with
  | .plain => .ok ⟨model, args⟩
  | .wrap q => (initOptimize e name m q).map fun q => ⟨model.set name (.wrap q), args⟩

/-- `init_layer_linear_quant_params` (ptq_coordinate_search.py:182-230).  The stored arguments are changed in place
(216) also when nothing is replaced. -/
def initLayer {Q : Type} (e : InitEnv Q) (m : IMode) (name : List Char) (s : InitState Q) : Except Err (InitState Q) := do
  let m ← m.resolve
  let stored ← Dict.getE s.args name
  initReplace e m name (initClip m stored) s.model (s.args.set name (initClip m stored))

/-- `init_mode[module_name] if isinstance(init_mode, dict) else init_mode` (ptq_coordinate_search.py:258). -/
def IModeArg.of (a : IModeArg) (name : List Char) : Except Err IMode :=
  match a with
  | .one m => .ok m
  | .each d => Dict.getE d name

/-- Body of the loop of `init_linear_quant_params` (ptq_coordinate_search.py:253-263): whether the layer was quantized is
read from the modules before the loop. -/
def initStep {Q : Type} (e : InitEnv Q) (a : IModeArg) (orig : Dict (List Char) (QObj Q)) (s : InitState Q) (name : List Char) :
    Except Err (InitState Q) := do
  match ← Dict.getE orig name with
  | .plain => return s
  | .wrap _ => do
    let m ← a.of name
    initLayer e m name s

/-- `init_linear_quant_params` (ptq_coordinate_search.py:233-264) over the layers in topological order. -/
def initAll {Q : Type} (e : InitEnv Q) (a : IModeArg) (topo : List (List Char)) (s : InitState Q) : Except Err (InitState Q) :=
  topo.foldlM (initStep e a s.model) s

end Verif
