import Verif.Model.Quantizer
import Verif.Model.QUtils
/-!
# What the post-training quantizer makes of each module
(distiller/quantization/range_linear.py:1605-1805, 1888-1926; distiller/quantization/quantizer.py:141-178, 304-341)
-/
namespace Verif

/-- Classes of modules, as the replacement functions see them (range_linear.py:1769-1797).
`arith`: Concat, EltwiseAdd, EltwiseMult; `matmul`: Matmul, BatchMatmul. -/
inductive PtqClass where
  | layer | embedding | arith | matmul | relu | leaf | container | dropout | identity
  deriving DecidableEq, Repr

/-- The class has weights that can be quantized (quantizer.py:196). -/
def PtqClass.weighted : PtqClass → Bool
  | .layer | .embedding => true
  | _ => false

/-- Names of override arguments. -/
inductive OvKey where
  | perChannel | mode | fp16 | approx | clip | nStds | half | inputs | autoFallback | fpq | fake | makeIdentity | quantInputs
  deriving DecidableEq, Repr

/-- The override arguments of a module: the names given, and the values of those that decide about the
replacement (the others only go to the wrapper). -/
structure PtqOv where
  keys : List OvKey := []
  mode : QMode × QMode := (.symmetric, .symmetric)
  fp16 : Bool := false
  clip : Option ClipMode := none
  fpq : Option ℕ := none
  fake : Bool := false
  makeIdentity : Bool := false
  quantInputs : Bool := false
  deriving DecidableEq, Repr

/-- The arguments of the quantizer. -/
structure PtqEnv where
  mode : QMode × QMode
  clip : ClipMode
  fp16 : Bool
  fpq : Option ℕ
  alsoClipWts : Bool
  deriving DecidableEq, Repr

/-- What stands in the place of a module after `prepare_model`. -/
inductive PtqRepl where
  /-- the original module -/
  | keep
  /-- `FPWrapper` -/
  | fp (bits : ℕ) (convertInput : Bool)
  /-- `RangeLinearFakeQuantWrapper`: float computation, output quantized to `acts` bits -/
  | fake (acts : Option ℕ) (mode : QMode × QMode) (clip : ClipMode) (fpq : Option ℕ) (inputs : Bool)
  /-- `RangeLinearQuantParamLayerWrapper` -/
  | layer (acts : Option ℕ) (wts : ℕ) (mode : QMode × QMode) (clip : ClipMode)
  /-- `RangeLinearQuant{Concat,EltwiseAdd,EltwiseMult,Matmul}Wrapper` -/
  | op (acts : Option ℕ) (mode : QMode × QMode) (clip : ClipMode)
  /-- `RangeLinearEmbeddingWrapper` -/
  | table (wts : ℕ) (mode : QMode × QMode) (clip : ClipMode)
  /-- `nn.Identity` in the place of a ReLU that was fused -/
  | identity
  deriving DecidableEq, Repr

/-- `_check_fp16_arg` (range_linear.py:1648-1653); zero is false. -/
def checkFp16 (fp16 : Bool) (fpq : Option ℕ) : Option ℕ :=
  let fpq := fpq.filter (· ≠ 0)
  if fp16 then some (fpq.getD 16) else fpq

/-- `FPWrapper.__init__` (range_linear.py:1291-1297): the table of types. -/
def fpWrapper (bits : ℕ) (convertInput : Bool) : Except Err PtqRepl :=
  if bits = 16 ∨ bits = 32 ∨ bits = 64 then .ok (.fp bits convertInput) else .error .key

/-- `RangeLinearFakeQuantWrapper.__init__` (range_linear.py:1469-1474): the table of types.  Simplified: a ReLU with
GAUSS or LAPLACE clipping and no statistics is a TypeError (1455-1461), which is not modelled. -/
def fakeWrapper (acts : Option ℕ) (mode : QMode × QMode) (clip : ClipMode) (fpq : Option ℕ) (inputs : Bool) : Except Err PtqRepl :=
  match fpq with
  | none => .ok (.fake acts mode clip none inputs)
  | some b => if b = 16 ∨ b = 32 ∨ b = 64 then .ok (.fake acts mode clip (some b) inputs) else .error .key

/-- The value of an override argument or else the default. -/
def PtqOv.or {α : Type} (o : PtqOv) (k : OvKey) (v d : α) : α := if k ∈ o.keys then v else d

/-- `verify_clip_mode(clip_acts or self.clip_acts)` (range_linear.py:1665, 1702, 1757): no override, or `None`, is the default. -/
def PtqOv.clipOr (o : PtqOv) (e : PtqEnv) : ClipMode := (o.or .clip o.clip none).getD e.clip

/-- `replace_param_layer` (range_linear.py:1655-1689).  A layer without bits for weights is a TypeError in
`get_quantized_range` (767-771). -/
def replaceParamLayer (e : PtqEnv) (o : PtqOv) (q : QBits) : Except Err PtqRepl :=
  let fpq := checkFp16 (o.or .fp16 o.fp16 e.fp16) (o.or .fpq o.fpq e.fpq)
  let fake := o.or .fake o.fake false
  let mode := o.or .mode o.mode e.mode
  match fpq, fake with
  | some b, false => fpWrapper b true
  | _, _ =>
    if fake || (q.acts.isSome && q.wts.isNone) then fakeWrapper q.acts mode (o.clipOr e) fpq false
    else match q.wts with
      | none => .error .type
      | some w => .ok (.layer q.acts w mode (o.clipOr e))

/-- `replace_non_param_layer` (range_linear.py:1691-1723); `needs`: the wrapper raises NoStatsError without
statistics (1134, 1184, 1231). -/
def replaceNonParam (needs stats : Bool) (e : PtqEnv) (o : PtqOv) (q : QBits) : Except Err PtqRepl :=
  let fpq := checkFp16 (o.or .fp16 o.fp16 e.fp16) (o.or .fpq o.fpq e.fpq)
  let fake := o.or .fake o.fake false
  match fpq, fake with
  | some b, false => fpWrapper b true
  | _, _ =>
    if fake then fakeWrapper q.acts e.mode (o.clipOr e) fpq false
    else if needs && !stats then .ok .keep
    else .ok (.op q.acts e.mode (o.clipOr e))

/-- `replace_embedding` (range_linear.py:1725-1736). -/
def replaceEmbedding (e : PtqEnv) (o : PtqOv) (q : QBits) : Except Err PtqRepl :=
  match checkFp16 (o.or .fp16 o.fp16 e.fp16) (o.or .fpq o.fpq e.fpq) with
  | some b => fpWrapper b false
  | none =>
    match q.wts with
    | none => .error .type
    | some w => .ok (.table w e.mode (if e.alsoClipWts then (o.or .clip o.clip none).getD e.clip else .none))

/-- `replace_fake_quant` (range_linear.py:1738-1767); `pred`: the predecessor of the ReLU in the graph is by now a
`RangeLinearQuantWrapper`; `FPWrapper(module, None)` is a KeyError. -/
def replaceFake (isRelu hasChildren pred : Bool) (e : PtqEnv) (o : PtqOv) (q : QBits) : Except Err PtqRepl :=
  let fpq := checkFp16 (o.or .fp16 o.fp16 e.fp16) (o.or .fpq o.fpq e.fpq)
  if isRelu && o.or .makeIdentity o.makeIdentity false && pred then .ok .identity
  else if hasChildren then .ok .keep
  else if !(o.or .fake o.fake true) then
    match fpq with
    | some b => fpWrapper b true
    | none => .error .key
  else fakeWrapper q.acts e.mode (o.clipOr e) fpq (o.or .quantInputs o.quantInputs true)

/-- The arguments accepted by the replacement function of a class (utils.py:726-743). -/
def PtqClass.accepts : PtqClass → List OvKey
  | .layer => [.perChannel, .mode, .fp16, .approx, .clip, .nStds, .half, .inputs, .fpq, .fake]
  | .arith | .matmul => [.fp16, .approx, .clip, .nStds, .half, .inputs, .autoFallback, .fpq, .fake]
  | .embedding => [.fp16, .fpq, .clip, .nStds, .half]
  | _ => [.fp16, .clip, .nStds, .half, .approx, .inputs, .autoFallback, .fpq, .fake, .makeIdentity, .quantInputs]

/-- One module in `_pre_process_container` (quantizer.py:290-341) with the replacement functions of
`PostTrainLinearQuantizer` (range_linear.py:1769-1800).  `q` is the entry of `module_qbits_map`. -/
def ptqReplace (e : PtqEnv) (c : PtqClass) (o : PtqOv) (q : QBits) (stats pred : Bool) : Except Err PtqRepl :=
  if c = .dropout then .ok .keep
  else if q.acts = none ∧ q.wts = none ∧ o.keys = [] then .ok .keep
  else if c = .identity then .ok .keep
  else if o.keys.any (fun k => !(c.accepts.contains k)) then .error .type
  else match c with
    | .layer => replaceParamLayer e o q
    | .embedding => replaceEmbedding e o q
    | .arith => replaceNonParam true stats e o q
    | .matmul => replaceNonParam false stats e o q
    | .relu => replaceFake true false pred e o q
    | .container => replaceFake false true pred e o q
    | _ => replaceFake false false pred e o q


/-! ## The command line (range_linear.py:271-354, 1888-1926) -/

/-- The arguments that decide about layers. -/
structure PtqArgs where
  bitsActs : ℕ
  bitsWts : ℕ
  bitsAccum : ℕ
  mode : QMode
  modeActs : Option QMode
  modeWts : Option QMode
  clip : ClipMode
  noClip : List (List Char)
  noQuant : List (List Char)

/-- The layer name used as a pattern: a dot stands for any character.  Simplified: names consist of letters,
digits, underscores and dots. -/
def nameRe : List Char → Re
  | [] => .eps
  | c :: s => .cat (if c = '.' then .any else .chr c) (nameRe s)

/-- `0` bits: not quantized (range_linear.py:1898-1901). -/
def bitsArg (n : ℕ) : Option ℕ := if n = 0 then none else some n

/-- The default bits of the quantizer (1916-1918). -/
def PtqArgs.dflt (a : PtqArgs) : QBits := ⟨bitsArg a.bitsActs, bitsArg a.bitsWts, some a.bitsAccum⟩

/-- An entry of the override dictionary for a name; `extra = 1` stands for `clip_acts: NONE`. -/
def PtqArgs.entry (a : PtqArgs) (n : List Char) (quant : Bool) : Override :=
  if quant then ⟨n, nameRe n, fillBits a.dflt ⟨none, none, none⟩, 1⟩
  else ⟨n, nameRe n, fillBits a.dflt ⟨some none, some none, none⟩, 0⟩

/-- Insertion into an `OrderedDict`. -/
def insertOv (ovs : List Override) (o : Override) : List Override :=
  if ovs.any (fun x => x.key = o.key) then ovs.map fun x => if x.key = o.key then o else x else ovs ++ [o]

/-- The overrides built from the command line (range_linear.py:1902-1911). -/
def PtqArgs.overrides (a : PtqArgs) : List Override :=
  ((a.noQuant.map (a.entry · false)) ++ ((a.noClip.filter fun n => !(a.noQuant.contains n)).map (a.entry · true))).foldl insertOv []

/-- The quantizer built from the command line. -/
def PtqArgs.env (a : PtqArgs) : PtqEnv :=
  ⟨(a.modeActs.getD a.mode, a.modeWts.getD a.mode), a.clip, false, none, false⟩

/-- The override arguments that remain in the entry of a module (quantizer.py:171-176). -/
def ovArgs (o : Option Override) : PtqOv :=
  match o with
  | some o => if o.extra = 1 then { keys := [.clip], clip := some .none } else {}
  | none => {}

/-- From the command line to the module that stands for `name` in the prepared model, for modules that no
optimization touches (no ReLU fusion). -/
def cmdlineReplace (a : PtqArgs) (c : PtqClass) (name : List Char) (stats : Bool) : Except Err PtqRepl := do
  let r ← moduleBits a.overrides a.dflt c.weighted name
  ptqReplace a.env c (ovArgs r.2) r.1 stats false

end Verif
