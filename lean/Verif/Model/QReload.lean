import Verif.Model.PTQFuse
import Verif.Model.PTQConfig
/-!
# Re-creating a quantizer from a checkpoint
(distiller/apputils/checkpoint.py:81-82, 221-229; distiller/quantization/quantizer.py:113-134;
range_linear.py:83-108, 1605-1646, 2266-2295; clipped_linear.py:84-89, 143-148, 173-191)
-/
namespace Verif

/-- Members of `ClipMode` (range_linear.py:71-80). -/
inductive ClipTag where
  | none | avg | nStd | gauss | laplace
  deriving DecidableEq, Repr

/-- The name of the member, `str(enum_val).split('.')[1]` (range_linear.py:54-58). -/
def QMode.toName : QMode → String
  | .symmetric => "SYMMETRIC"
  | .symmetricRestricted => "SYMMETRIC_RESTRICTED"
  | .asymmetricUnsigned => "ASYMMETRIC_UNSIGNED"
  | .asymmetricSigned => "ASYMMETRIC_SIGNED"
/-- The name of the member. -/
def ClipTag.toName : ClipTag → String
  | .none => "NONE"
  | .avg => "AVG"
  | .nStd => "N_STD"
  | .gauss => "GAUSS"
  | .laplace => "LAPLACE"

/-- `_verify_enum_value` of a string (range_linear.py:85-90): the member of that name. -/
def QMode.parse (s : String) : Except Err QMode :=
  match [QMode.symmetric, .symmetricRestricted, .asymmetricUnsigned, .asymmetricSigned].find? fun m => m.toName = s with
  | some m => .ok m
  | .none => .error .value
/-- `_verify_enum_value` of a string. -/
def ClipTag.parse (s : String) : Except Err ClipTag :=
  match [ClipTag.none, .avg, .nStd, .gauss, .laplace].find? fun m => m.toName = s with
  | some m => .ok m
  | .none => .error .value

/-- Values of constructor arguments.  `modeStr` is the dictionary of two names, `data` stands for objects that are
only passed on (statistics, override dictionaries, optimizers; `data 0` is an empty override dictionary). -/
inductive QVal where
  | none
  | bool (b : Bool)
  | num (q : ℚ)
  | mode (acts wts : QMode)
  | modeStr (acts wts : String)
  | str (s : String)
  | clip (c : ClipTag)
  | data (k : ℕ)
  deriving DecidableEq, Repr

/-- The classes of quantizers. -/
inductive QCls where
  | ptq | wrpn | dorefa | pact | qat
  deriving DecidableEq, Repr

/-- Does the quantizer keep a float copy for training? (`train_with_fp_copy`) -/
def QCls.trains : QCls → Bool
  | .ptq => false
  | _ => true

/-- The parameters without default, other than the model (clipped_linear.py:84, 143, 173; range_linear.py:1605, 2267). -/
def QCls.required : QCls → List String
  | .wrpn | .dorefa | .pact => ["optimizer"]
  | _ => []

/-- The parameters with their defaults. -/
def QCls.optional : QCls → Dict String QVal
  | .wrpn | .dorefa => [("bits_activations", .num 32), ("bits_weights", .num 32), ("bits_bias", .none), ("overrides", .none)]
  | .pact => [("bits_activations", .num 32), ("bits_weights", .num 32), ("bits_bias", .none), ("overrides", .none),
      ("act_clip_init_val", .num 8), ("act_clip_decay", .none)]
  | .qat => [("optimizer", .none), ("bits_activations", .num 32), ("bits_weights", .num 32), ("bits_bias", .num 32), ("overrides", .none),
      ("mode", .mode .symmetric .symmetric), ("ema_decay", .num (999 / 1000)), ("per_channel_wts", .bool false),
      ("quantize_inputs", .bool true), ("num_bits_inputs", .none)]
  | .ptq => [("bits_activations", .num 8), ("bits_parameters", .num 8), ("bits_accum", .num 32), ("overrides", .none),
      ("mode", .mode .symmetric .symmetric), ("clip_acts", .clip .none), ("per_channel_wts", .bool false),
      ("model_activation_stats", .none), ("fp16", .bool false), ("clip_n_stds", .none), ("clip_half_range", .bool false),
      ("scale_approx_mult_bits", .none), ("inputs_quant_auto_fallback", .bool true), ("fpq_module", .none),
      ("save_fp_weights", .bool false), ("also_clip_weights", .bool false)]

/-- Calling a constructor with keyword arguments: unknown names and missing required ones are TypeErrors. -/
def bindArgs (c : QCls) (kw : Dict String QVal) : Except Err (String → QVal) :=
  if kw.any fun a => !(c.required.contains a.1 || (c.optional.keys).contains a.1) then .error .type
  else if c.required.any fun r => (kw.get? r).isNone then .error .type
  else .ok fun n => (kw.get? n).getD ((c.optional.get? n).getD .none)

/-- `verify_quant_mode` (range_linear.py:97-106); a single member given for both is written as the pair. -/
def verifyMode : QVal → Except Err (QMode × QMode)
  | .mode a w => .ok (a, w)
  | .modeStr a w => do
    let x ← QMode.parse a
    let y ← QMode.parse w
    return (x, y)
  | .str s => do
    let x ← QMode.parse s
    return (x, x)
  | _ => .error .type

/-- `verify_clip_mode` (range_linear.py:109-110). -/
def verifyClip : QVal → Except Err ClipTag
  | .clip c => .ok c
  | .str s => ClipTag.parse s
  | _ => .error .type

/-- A quantizer: its effective settings, and what it stored as `model.quantizer_metadata['params']`. -/
structure QBuilt where
  settings : String → QVal
  meta' : Dict String QVal

/-- An override dictionary that is not given is an empty one (quantizer.py:114-115). -/
def ovOrEmpty : QVal → QVal
  | .none => .data 0
  | v => v

/-- The settings that all classes derive from the arguments. -/
def baseSettings (a : String → QVal) (n : String) : QVal := if n = "overrides" then ovOrEmpty (a n) else a n

/-- `if fp16 and str(fpq_module) not in ('16', 'None')` (range_linear.py:1616). -/
def fpConflict (fp16 fpq : QVal) : Bool := fp16 = .bool true && !(fpq = .num 16 || fpq = .none || fpq = .str "16" || fpq = .str "None")

/-- What the base class stores (quantizer.py:130-134). -/
def metaBase (a : String → QVal) : Dict String QVal :=
  [("bits_activations", a "bits_activations"), ("bits_weights", a "bits_weights"), ("bits_bias", a "bits_bias"),
   ("overrides", ovOrEmpty (a "overrides"))]

/-- What `QuantAwareTrainRangeLinearQuantizer` adds (range_linear.py:2279-2283). -/
def metaQat (a : String → QVal) (m : QMode × QMode) : Dict String QVal :=
  metaBase a ++ [("mode", .modeStr m.1.toName m.2.toName), ("ema_decay", a "ema_decay"),
    ("per_channel_wts", a "per_channel_wts"), ("quantize_inputs", a "quantize_inputs")]

/-- Its settings (range_linear.py:2277-2293): without bits for the inputs those of the activations are used. -/
def settingsQat (a : String → QVal) (m : QMode × QMode) (n : String) : QVal :=
  if n = "mode" then .mode m.1 m.2
  else if n = "num_bits_inputs" then (if a "num_bits_inputs" = .none then a "bits_activations" else a "num_bits_inputs")
  else baseSettings a n

/-- What `PostTrainLinearQuantizer` stores (range_linear.py:1632-1646). -/
def metaPtq (a : String → QVal) (m : QMode × QMode) (cl : ClipTag) : Dict String QVal :=
  [("bits_activations", a "bits_activations"), ("bits_parameters", a "bits_parameters"), ("bits_accum", a "bits_accum"),
   ("mode", .modeStr m.1.toName m.2.toName), ("clip_acts", .str cl.toName), ("clip_n_stds", a "clip_n_stds"),
   ("clip_half_range", a "clip_half_range"), ("per_channel_wts", a "per_channel_wts"),
   ("scale_approx_mult_bits", a "scale_approx_mult_bits"), ("inputs_quant_auto_fallback", a "inputs_quant_auto_fallback"),
   ("fpq_module", a "fpq_module"), ("model_activation_stats", a "model_activation_stats"), ("overrides", a "overrides")]

/-- Its settings. -/
def settingsPtq (a : String → QVal) (m : QMode × QMode) (cl : ClipTag) (n : String) : QVal :=
  if n = "mode" then .mode m.1 m.2 else if n = "clip_acts" then .clip cl else baseSettings a n

/-- `PostTrainLinearQuantizer.__init__` after the base class (range_linear.py:1616-1646).  Simplified: statistics are
already loaded. -/
def buildPtq (a : String → QVal) : Except Err QBuilt :=
  if fpConflict (a "fp16") (a "fpq_module") then .error .value
  else match verifyMode (a "mode") with
    | .error e => .error e
    | .ok m => match verifyClip (a "clip_acts") with
      | .error e => .error e
      | .ok cl =>
        if cl = .nStd ∧ a "clip_n_stds" = .none then .error .value
        else .ok ⟨settingsPtq a m cl, metaPtq a m cl⟩

/-- `QuantAwareTrainRangeLinearQuantizer.__init__` after the base class (range_linear.py:2277-2295). -/
def buildQat (a : String → QVal) : Except Err QBuilt :=
  match verifyMode (a "mode") with
  | .error e => .error e
  | .ok m => .ok ⟨settingsQat a m, metaQat a m⟩

/-- The constructors.  Base class (quantizer.py:113-134): a training quantizer needs an optimizer. -/
def construct (c : QCls) (kw : Dict String QVal) : Except Err QBuilt :=
  match bindArgs c kw with
  | .error e => .error e
  | .ok a =>
    if c.trains = true ∧ a "optimizer" = .none then .error .value
    else match c with
      | .ptq => buildPtq a
      | .qat => buildQat a
      | _ => .ok ⟨baseSettings a, metaBase a⟩

/-- `qmd['type'](model, **qmd['params'])` when a checkpoint is loaded (checkpoint.py:221-225). -/
def reload (c : QCls) (b : QBuilt) : Except Err QBuilt := construct c b.meta'

/-- The part of the settings that decides about the wrappers of modules. -/
def QBuilt.env (b : QBuilt) : PtqEnv :=
  { mode := (match b.settings "mode" with | .mode a w => (a, w) | _ => (.symmetric, .symmetric))
    clip := .none
    fp16 := b.settings "fp16" = .bool true
    fpq := (match b.settings "fpq_module" with | .num q => some q.num.toNat | _ => Option.none)
    alsoClipWts := b.settings "also_clip_weights" = .bool true }

/-- What `prepare_model` does to the statistics, which are the object in the metadata (range_linear.py:1645, 1768,
1987-1991): it is this changed dictionary that the checkpoint contains. -/
def prepStats (mods : List PMod) (adj : PAdjMap) (st : StatsMap) : Except Err StatsMap := (bnStats mods st).bind (fuseStats mods adj)

end Verif
