import Verif.Model.PTQConfig
import Verif.Model.PTQFuse
/-!
# The per-layer report of the post-training quantizer, and models with bidirectional LSTMs
(distiller/quantization/range_linear.py:1928-2006, 2139-2147; distiller/quantization/ptq_coordinate_search.py:366-403)
-/
namespace Verif

/-- A value of the report file. -/
inductive RVal where
  | none
  | int (n : ℕ)
  | real (q : ℚ)
  | flag (b : Bool)
  | str (s : String)
  | modes (acts wts : String)
  deriving DecidableEq, Repr

/-- The number of bits, or `None`. -/
def RVal.ofBits : Option ℕ → RVal
  | .none => .none
  | some n => .int n

/-- What `save_per_layer_parameters` asks about a module of the prepared model (range_linear.py:1937). -/
structure RMod where
  /-- `distiller.has_children(m)` -/
  children : Bool
  /-- `is_post_train_quant_wrapper(m, include_fpwrapper=False)` -/
  wrapper : Bool
  deriving DecidableEq, Repr

/-- `defaults.pop(k)` (range_linear.py:1930-1932). -/
def popKey (d : Dict String RVal) (k : String) : Except Err (Dict String RVal) :=
  if d.has k then .ok (d.filter fun kv => kv.1 ≠ k) else .error .key

/-- The default settings: the arguments the quantizer was built with except the numbers of bits (range_linear.py:1929-1932). -/
def reportDefaults (params : Dict String RVal) : Except Err (Dict String RVal) := do
  let d ← popKey params "bits_activations"
  let d ← popKey d "bits_parameters"
  popKey d "bits_accum"

/-- The entry of one layer (range_linear.py:1940-1946). -/
def reportEntry (defaults ov : Dict String RVal) (q : QBits) : Dict String RVal :=
  defaults.foldl (fun d kv => d.set kv.1 ((Dict.get? ov kv.1).getD kv.2))
    [("bits_activations", RVal.ofBits q.acts), ("bits_weights", RVal.ofBits q.wts), ("bits_bias", RVal.ofBits q.bias)]

/-- The report: an entry per layer, and the scalar quantization parameters if there are any. -/
structure QReport where
  layers : Dict Name (Dict String RVal)
  lqp : Option (Dict String ℚ)
  deriving DecidableEq, Repr

/-- One turn of the loop over `module_overrides_map` (range_linear.py:1934-1947). -/
def reportStep (mods : Dict Name RMod) (qbits : Dict Name QBits) (defaults : Dict String RVal)
    (out : Dict Name (Dict String RVal)) (no : Name × Dict String RVal) : Except Err (Dict Name (Dict String RVal)) := do
  let m ← mods.getE no.1
  if m.children && !m.wrapper then return out
  let q ← qbits.getE no.1
  return out.set no.1 (reportEntry defaults no.2 q)

/-- `if v.numel() == 1` (range_linear.py:1951-1952). -/
def scalarStep (d : Dict String ℚ) (kv : String × List ℚ) : Dict String ℚ :=
  match kv.2 with
  | [v] => d.set kv.1 v
  | _ => d

/-- The scalar ones among the quantization parameters (range_linear.py:1949-1952). -/
def scalarParams (lqp : Dict String (List ℚ)) : Dict String ℚ := lqp.foldl scalarStep []

/-- `save_per_layer_parameters` (range_linear.py:1928-1956).  Simplified: the parameters are kept apart from the
layers, in the file they are under the key 'linear_quant_params' (which a module of that name would lose). -/
def savePerLayer (params : Dict String RVal) (overrides : Dict Name (Dict String RVal)) (qbits : Dict Name QBits)
    (mods : Dict Name RMod) (lqp : Dict String (List ℚ)) : Except Err QReport := do
  let defaults ← reportDefaults params
  let layers ← overrides.foldlM (reportStep mods qbits defaults) []
  return ⟨layers, if lqp.isEmpty then Option.none else some (scalarParams lqp)⟩

/-! ## `prepare_model` -/

/-- The branch of `prepare_model` and `_pre_prepare_model` (range_linear.py:1969-1992): the traced input that the
rest of the preparation gets; UnsatisfiedRequirements is `runtime`. -/
def prepareInput {α : Type} (bidi : Bool) (dummy : Option α) : Except Err (Option α) :=
  if bidi then .ok .none
  else match dummy with
    | .none => .error .runtime
    | some x => .ok (some x)

/-- `_apply_bidi_distiller_lstm_stats_fusion` (range_linear.py:2139-2147), one cell. -/
def bidiStep (st : StatsMap) (cell : Name) : Except Err StatsMap := do
  let s ← st.getE (cell ++ ["eltwiseadd_gate"])
  return st.set (cell ++ ["eltwiseadd_gate"]) { s with output := clipStats s.output (-6) 6 }

/-- `_apply_bidi_distiller_lstm_stats_fusion` (range_linear.py:2139-2147); `cells`: the names of the
`DistillerLSTMCell`s of the model. -/
def bidiFusion (cells : List Name) (st : StatsMap) : Except Err StatsMap := cells.foldlM bidiStep st

/-! ## The beginning of the coordinate search -/

/-- What the search does to the quantizer ahead of `prepare_model` (ptq_coordinate_search.py:366-397). -/
structure SearchQuantizer where
  /-- it is a `PostTrainLinearQuantizer` -/
  ptq : Bool
  prepared : Bool
  stats : Option StatsMap
  saveFp : Bool
  alsoClip : Bool
  clip : ClipMode
  overrides : Dict Name (Dict String RVal)
  /-- `model.quantizer_metadata['params']['model_activation_stats']` -/
  metaStats : Option StatsMap
  deriving DecidableEq, Repr

/-- `overrides_dict.pop('clip_acts', None)` (ptq_coordinate_search.py:396-397). -/
def popClip (ov : Dict String RVal) : Dict String RVal := ov.filter fun kv => kv.1 ≠ "clip_acts"

/-- The prologue of `ptq_coordinate_search` (ptq_coordinate_search.py:366-397); `collect`: the statistics
that `collect_quant_stats` finds; an empty dictionary of statistics is no statistics. -/
def searchPrologue (collect : StatsMap) (q : SearchQuantizer) : Except Err SearchQuantizer :=
  if !q.ptq then .error .value
  else if q.prepared then .error .value
  else
    let q := if (q.stats.getD []).isEmpty then { q with stats := some collect, metaStats := some collect } else q
    .ok { q with saveFp := true, alsoClip := true, clip := .none, overrides := q.overrides.mapVals fun _ o => popClip o }

/-- One item of the comprehension (ptq_coordinate_search.py:313). -/
def cmdlineStep (d : Dict String RVal) (kv : String × RVal) : Dict String RVal :=
  if kv.1.toList.take 5 = "lapq_".toList then Dict.set d (String.ofList (kv.1.toList.drop 5)) kv.2 else d

/-- `cmdline_args_to_dict` (ptq_coordinate_search.py:297-316): the arguments with the prefix, without it. -/
def cmdlineArgs (args : Dict String RVal) : Except Err (Dict String RVal) := do
  let d ← popKey (args.foldl cmdlineStep []) "eval_size"
  popKey d "eval_memoize_dataloader"

/-- One text, split at '#' (ptq_greedy_search.py:118-121); `defaultdict(list)`. -/
def inputStep (pyInt : String → Option ℕ) (d : Dict String (List ℕ)) (s : List String) : Except Err (Dict String (List ℕ)) :=
  match s with
  | [n, i] => match pyInt i with
    | some k => .ok (Dict.set d n ((Dict.get? d n).getD [] ++ [k]))
    | .none => .error .value
  | _ => .error .value

/-- `get_inputs_to_quantize` (ptq_greedy_search.py:104-122); `specs`: the texts split at '#'; `pyInt`: `int`,
for numbers that are not negative. -/
def inputsToQuantize (pyInt : String → Option ℕ) (specs : List (List String)) : Except Err (Dict String (List ℕ)) :=
  specs.foldlM (inputStep pyInt) []

end Verif
