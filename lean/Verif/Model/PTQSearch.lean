import Verif.Basic.Py
import Verif.Basic.Tensor
/-!
# Searches over post-training quantization settings
(distiller/quantization/ptq_coordinate_search.py, distiller/quantization/ptq_greedy_search.py)

The network, the quantizer's effect on it and the evaluation function are arbitrary; what is
modelled is the book-keeping of the searches.  Evaluation functions are deterministic.  Strings
whose suffixes matter are lists of characters.
-/
namespace Verif

/-! ## ptq_coordinate_search.py -/

abbrev PKey := List Char

/-- A value of the dictionary of quantization parameters: a scalar tensor or a (min, max) pair. -/
inductive PVal where
  | scalar (v : ℚ)
  | pair (a b : ℚ)
  deriving DecidableEq, Repr

def sfxMin : PKey := "_min".toList
def sfxMax : PKey := "_max".toList

/-- Body of the loop of `quant_params_dict2vec` (ptq_coordinate_search.py:60-67).  A tuple without
`search_clipping` has no `item`. -/
def dict2vecItem (sc : Bool) (acc : List PKey × List ℚ) (kv : PKey × PVal) : Except Err (List PKey × List ℚ) :=
  match kv.2, sc with
  | .pair a b, true => .ok (acc.1 ++ [kv.1 ++ sfxMin, kv.1 ++ sfxMax], acc.2 ++ [a, b])
  | .pair _ _, false => .error .attribute
  | .scalar v, _ => .ok (acc.1 ++ [kv.1], acc.2 ++ [v])

/-- `quant_params_dict2vec` (ptq_coordinate_search.py:53-69). -/
def dict2vec (d : Dict PKey PVal) (sc : Bool) : Except Err (List PKey × List ℚ) :=
  d.foldlM (dict2vecItem sc) ([], [])

/-- `vals[i]`. -/
def vecGet (vals : List ℚ) (i : ℕ) : Except Err ℚ :=
  match vals[i]? with
  | some v => .ok v
  | none => .error .index

/-- `sorted((a, b))`. -/
def sortedPair (a b : ℚ) : PVal := if a ≤ b then .pair a b else .pair b a

/-- Loop of `quant_params_vec2dict` (ptq_coordinate_search.py:77-84). -/
def vec2dictGo (sc : Bool) (vals : List ℚ) : List PKey → ℕ → Dict PKey PVal → Except Err (Dict PKey PVal)
  | [], _, res => .ok res
  | k :: ks, i, res =>
    if sc ∧ sfxMin <:+ k then do
      let a ← vecGet vals i
      let b ← vecGet vals (i + 1)
      vec2dictGo sc vals ks (i + 1) (res.set (k.take (k.length - 4)) (sortedPair a b))
    else if sc ∧ sfxMax <:+ k then vec2dictGo sc vals ks (i + 1) res
    else do
      let a ← vecGet vals i
      vec2dictGo sc vals ks (i + 1) (res.set k (.scalar |a|))

/-- `quant_params_vec2dict` (ptq_coordinate_search.py:72-85). -/
def vec2dict (keys : List PKey) (vals : List ℚ) (sc : Bool) : Except Err (Dict PKey PVal) :=
  vec2dictGo sc vals keys 0 []

/-- What the search needs to know of a quantized module: activations' bits (`None` = not
quantized), asymmetric activations, fused ReLU, statistics given, asymmetric weights, float
weights kept. -/
structure PtqMod where
  name : PKey
  isEmbedding : Bool := false
  hasParams : Bool := false
  bits : Option ℕ
  actsAsym : Bool
  halfRange : Bool
  preset : Bool
  wtsAsym : Bool := false
  saveFp : Bool := true
  deriving DecidableEq, Repr

/-- `named_linear_quant_params(filter=True)` of the wrappers (range_linear.py:489-494, 837-842,
1361-1365): names only. -/
def PtqMod.filteredParams (m : PtqMod) : List PKey :=
  let w := if m.isEmbedding || (m.hasParams && m.saveFp) then
    "w_scale".toList :: (if m.wtsAsym then ["w_zero_point".toList] else []) else []
  let a := if !m.isEmbedding && m.bits.isSome && m.preset then
    "output_scale".toList :: (if m.actsAsym && !m.halfRange then ["output_zero_point".toList] else []) else []
  w ++ a

/-- The quantizer's `named_linear_quant_params(filter=True)` (range_linear.py:1805-1813): full names. -/
def namedFiltered (ms : List PtqMod) : List PKey :=
  ms.flatMap fun m => m.filteredParams.map fun p => m.name ++ ['.'] ++ p

/-- `validate_quantization_settings` (ptq_coordinate_search.py:319-335). -/
def validateSettings (ms : List PtqMod) (sc : Bool) : Except Err Unit :=
  if sc then .ok ()
  else ms.foldlM (fun _ m =>
    if !m.isEmbedding && ((m.bits.getD 0 != 0) && m.actsAsym && !m.halfRange) then .error .value
    else if (m.isEmbedding || m.hasParams) && m.wtsAsym then .error .value
    else .ok ()) ()

/-- What scipy's minimizer does with the two functions it is given: evaluate a vector, or report an
iteration's vector to the callback. -/
inductive MinEvent where
  | eval (v : List ℚ)
  | callback (v : List ℚ)
  deriving DecidableEq, Repr

/-- State of the search: the quantized model and `best_data`. -/
structure CSState (σ : Type) where
  model : σ
  score : ℚ
  qp : Dict PKey PVal
  deriving DecidableEq

/-- The environment of a coordinate search: `update_linear_quant_params` and `eval_fn`, the keys of
the vector, `search_clipping`. -/
structure CSEnv (σ : Type) where
  update : σ → Dict PKey PVal → Except Err σ
  score : σ → ℚ
  keys : List PKey
  sc : Bool

/-- `feed_forward_fn` (ptq_coordinate_search.py:427-438). -/
def CSEnv.feed {σ : Type} (e : CSEnv σ) (m : σ) (v : List ℚ) : Except Err (σ × Dict PKey PVal) := do
  let d ← vec2dict e.keys v e.sc
  let m' ← e.update m d
  return (m', d)

/-- One event.  `callback` (ptq_coordinate_search.py:440-453) takes one argument; scipy's
`basinhopping` calls it with three. -/
def CSEnv.step {σ : Type} (e : CSEnv σ) (basinhopping : Bool) (s : CSState σ) : MinEvent → Except Err (CSState σ)
  | .eval v => do
    let r ← e.feed s.model v
    return { s with model := r.1 }
  | .callback v =>
    if basinhopping then .error .type
    else do
      let r ← e.feed s.model v
      let sc := e.score r.1
      if sc < s.score then return ⟨r.1, sc, r.2⟩
      else return { s with model := r.1 }

/-- `ptq_coordinate_search` from the initial evaluation on (ptq_coordinate_search.py:409-473): the
initial score and parameters, the minimizer's events, the returned pair (with the best score). -/
def coordinateSearch {σ : Type} (e : CSEnv σ) (basinhopping : Bool) (m0 : σ) (qp0 : Dict PKey PVal)
    (events : List MinEvent) : Except Err (CSState σ) :=
  events.foldlM (e.step basinhopping) ⟨m0, e.score m0, qp0⟩

/-! ## ptq_greedy_search.py -/

/-- A value in an overrides dictionary. -/
inductive OVal where
  | none
  | num (n : ℕ)
  | bool (b : Bool)
  | str (s : String)
  | inputs (d : Dict ℕ (ℕ × String))
  deriving DecidableEq, Repr

/-- Python truth value. -/
def OVal.truthy : OVal → Bool
  | .none => false
  | .num n => n != 0
  | .bool b => b
  | .str s => s != ""
  | .inputs d => !d.isEmpty

abbrev GOverride := Dict String OVal
abbrev GOverrides := Dict String GOverride

/-- `d.update(c)`. -/
def odUpdate {α β : Type} [DecidableEq α] (d c : Dict α β) : Dict α β := c.foldl (fun d kv => d.set kv.1 kv.2) d

/-- `d.get(k, None)` is truthy. -/
def ovTruthy (d : GOverride) (k : String) : Bool := ((d.get? k).map OVal.truthy).getD false

def clipModes : List String := ["NONE", "AVG", "GAUSS", "LAPLACE"]

/-- `input_override_generator` (ptq_greedy_search.py:125-149). -/
def inputOverrideGen (bitsActs bitsWts : ℕ) (isParam : Bool) (idx : ℕ) : List GOverride :=
  clipModes.map fun c =>
    [("input_overrides", .inputs [(idx, (bitsActs, c))]), ("bits_activations", .num bitsActs)] ++
      (if isParam then [("bits_weights", .num bitsWts)] else [])

/-- What `module_override_generator` looks at; `succs`: for each successor that is a module, is it
a ReLU. -/
structure GKind where
  isReLU : Bool := false
  isParam : Bool
  isFp16 : Bool := false
  isQuantized : Bool
  isUnquantized : Bool := false
  succs : List Bool
  deriving DecidableEq, Repr

/-- `module_override_generator` (ptq_greedy_search.py:152-195). -/
def moduleOverrideGen (bitsActs bitsWts : ℕ) (k : GKind) : List GOverride :=
  if k.isReLU then
    [[("make_identity", .bool true), ("bits_weights", .num bitsWts), ("bits_activations", .num bitsActs)]]
  else
    let fpq : OVal := if k.isUnquantized || !k.isQuantized then .num 32 else if k.isFp16 then .num 16 else .none
    let fake := k.isUnquantized || !k.isQuantized || k.isFp16
    clipModes.map fun c =>
      (if k.isParam then
        [("clip_acts", .str c), ("bits_weights", .num bitsWts), ("bits_activations", .num bitsActs),
          ("bits_bias", .num 32)]
      else
        [("clip_acts", .str c), ("fpq_module", fpq), ("fake", .bool fake), ("bits_weights", .num bitsWts),
          ("bits_activations", .num bitsActs)]) ++
      [("clip_half_range", .bool (k.succs.all id && (c == "GAUSS" || c == "LAPLACE")))]

/-- `if not d.get(name, None): d[name] = OrderedDict()` (ptq_greedy_search.py:207-208, 363-364, 396-397). -/
def ensureEntry (d : GOverrides) (n : String) : GOverrides :=
  match d.get? n with
  | some (_ :: _) => d
  | _ => d.set n []

/-- Body of the loop of `search_best_local_settings` (ptq_greedy_search.py:206-234).  Before the
first candidate the best score is minus infinity (202).  `perf` is the evaluation of the model
quantized with the given overrides (the quantizer gets deep copies). -/
def tryOverride (perf : GOverrides → ℚ) (n : String) (s : GOverrides × Option (ℚ × GOverride)) (c : GOverride) :
    GOverrides × Option (ℚ × GOverride) :=
  let d := ensureEntry s.1 n
  let d := d.set n (odUpdate ((d.get? n).getD []) c)
  let p := perf d
  (d, match s.2 with
    | none => some (p, c)
    | some (b, _) => if p > b then some (p, c) else s.2)

/-- `search_best_local_settings` (ptq_greedy_search.py:198-237): the candidate returned; an empty
dictionary if there is none. -/
def searchBestLocal (perf : GOverrides → ℚ) (n : String) (best : GOverrides) (cands : List GOverride) : GOverride :=
  ((cands.foldl (tryOverride perf n) (best, none)).2.map Prod.snd).getD []

/-- State of `ptq_greedy_search`: `best_overrides_dict`, `loaded_from_checkpoint`. -/
structure GSState where
  best : GOverrides
  loaded : List String
  deriving DecidableEq, Repr

/-- A module whose inputs are to be quantized: indices in the order given by the user. -/
structure GInput where
  name : String
  skip : Bool
  isParam : Bool
  idxs : List ℕ
  deriving DecidableEq, Repr

/-- One iteration of the loop over input modules (ptq_greedy_search.py:344-375). -/
def greedyInput (perf : GOverrides → ℚ) (gen : GInput → ℕ → List GOverride) (s : GSState) (m : GInput) :
    Except Err GSState :=
  if m.skip then .ok s
  else if ovTruthy ((s.best.get? m.name).getD []) "input_overrides" then
    .ok (if ovTruthy ((s.best.get? m.name).getD []) "bits_activations" then
      { s with loaded := s.loaded ++ [m.name] } else s)
  else
    let b := ensureEntry s.best m.name
    let b := m.idxs.foldl (fun b i =>
      b.set m.name (odUpdate ((b.get? m.name).getD []) (searchBestLocal perf m.name b (gen m i)))) b
    match ((b.get? m.name).getD []).get? "input_overrides" with
    | none => .error .key
    | some v => .ok { s with best := b.set m.name [("input_overrides", v)] }

/-- A module of the second phase; `cands` is what the generator yields for it. -/
structure GMod where
  name : String
  skip : Bool
  cands : List GOverride
  deriving DecidableEq, Repr

/-- The work-around for a layer called 'fc' (ptq_greedy_search.py:398-406). -/
def fcWorkaround (b : GOverrides) (n : String) : GOverrides :=
  if n = "fc" then
    b.set "fc" (odUpdate ((b.get? "fc").getD []) [("input_overrides", .inputs [(0, (8, "NONE"))])])
  else b

/-- One iteration of the loop over layers (ptq_greedy_search.py:378-414). -/
def greedyModule (perf : GOverrides → ℚ) (s : GSState) (m : GMod) : GSState :=
  if m.skip then s
  else if ovTruthy ((s.best.get? m.name).getD []) "bits_activations" ∧ m.name ∉ s.loaded then
    { s with loaded := s.loaded ++ [m.name] }
  else
    let b := fcWorkaround (ensureEntry s.best m.name) m.name
    let c := searchBestLocal perf m.name b m.cands
    { s with best := b.set m.name (odUpdate ((b.get? m.name).getD []) c) }

/-- `ptq_greedy_search` (ptq_greedy_search.py:240-432): `asScript` – the file is run as a script,
which is the only way its global `msglogger` (line 39), `model` and `dummy_input` (used by
`search_best_local_settings`) become defined; otherwise the first `msglogger.info` raises. -/
def ptqGreedySearch (asScript : Bool) (perf : GOverrides → ℚ) (gen : GInput → ℕ → List GOverride)
    (resume : GOverrides) (inputs : List GInput) (mods : List GMod) : Except Err GOverrides :=
  if asScript then do
    let s ← inputs.foldlM (greedyInput perf gen) ⟨resume, []⟩
    return (mods.foldl (greedyModule perf) s).best
  else .error .attribute

end Verif
