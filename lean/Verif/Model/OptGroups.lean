import Verif.Basic.Tensor
import Verif.Basic.Py
/-!
# Parameters and optimizer when a model is prepared for quantized training
(distiller/quantization/quantizer.py:39-59, 205-256, 346-357; distiller/quantization/clipped_linear.py:84-205)
-/
namespace Verif

/-- What a training quantizer sees of a leaf module. -/
inductive OKind where
  /-- convolution, linear or embedding, with its bits for weights and bias -/
  | layer (wts bias : Option ℕ)
  /-- `nn.ReLU` with its bits for activations -/
  | relu (acts : Option ℕ)
  | other
  deriving DecidableEq, Repr

/-- A leaf module: path, kind, and its parameters, each with the identity of the Parameter object. -/
structure OMod where
  path : List String
  kind : OKind
  params : List (String × ℕ)
  deriving DecidableEq, Repr

/-- `'clip_val' in name` for a name made of components joined by dots: the text has no dot, so it is inside one
of them. -/
def hasClipVal (name : List String) : Bool := name.any fun c => decide ("clip_val".toList <:+: c.toList)

/-- `param_name.endswith('bias')` (quantizer.py:238). -/
def isBias (p : String) : Bool := "bias".toList.isSuffixOf p.toList

/-- Bits of a parameter: `qbits.bias if param_name.endswith('bias') else qbits.wts` (quantizer.py:238). -/
def OKind.bits (k : OKind) (p : String) : Option ℕ :=
  match k with
  | .layer w b => if isBias p then b else w
  | _ => none

/-- `hack_float_backup_parameter` (quantizer.py:39-47): the same Parameter object is registered as `float_<name>`, at the
end; under the old name there is a buffer. -/
def backup (ps : List (String × ℕ)) (p : String × ℕ) : List (String × ℕ) := ps.filter (fun x => x.1 ≠ p.1) ++ [("float_" ++ p.1, p.2)]

/-- The loop over the parameters of a module (quantizer.py:234-249). -/
def backupAll (m : OMod) : OMod :=
  { m with params := (m.params.filter fun p => (m.kind.bits p.1).isSome).foldl backup m.params }

/-- Replacement of ReLUs: PACT's module has a parameter `clip_val` (clipped_linear.py:52-57, 180-186), those of WRPN and
DoReFa have none. `next` is the identity of the next new object. -/
def replaceRelu (pact : Bool) (m : OMod) (next : ℕ) : OMod × ℕ :=
  match m.kind with
  | .relu (some _) => if pact then ({ m with params := [("clip_val", next)] }, next + 1) else ({ m with params := [] }, next)
  | _ => (m, next)

/-- `_pre_process_container` over the model. -/
def replaceRelus (pact : Bool) : List OMod → ℕ → List OMod
  | [], _ => []
  | m :: ms, next => (replaceRelu pact m next).1 :: replaceRelus pact ms (replaceRelu pact m next).2

/-- Full names and identities of all parameters. -/
def allParams (ms : List OMod) : List (List String × ℕ) := ms.flatMap fun m => m.params.map fun p => (m.path ++ [p.1], p.2)

/-- `model.named_parameters()`: a Parameter object reached a second time is left out. -/
def namedParams (ms : List OMod) : List (List String × ℕ) :=
  (allParams ms).foldl (fun acc p => if acc.any fun a => a.2 = p.2 then acc else acc ++ [p]) []

/-- A parameter group; no `decay`: the optimizer's default. -/
structure OGroup where
  params : List ℕ
  decay : Option ℚ
  deriving DecidableEq, Repr

/-- `Optimizer.add_param_group`: a parameter that is in a group already is a ValueError. -/
def addGroup (gs : List OGroup) (g : OGroup) : Except Err (List OGroup) :=
  if g.params.any fun p => gs.any fun g' => g'.params.contains p then .error .value else .ok (gs ++ [g])

/-- The quantizers for training. -/
inductive OQuant where
  | wrpn | dorefa
  | pact (decay : Option ℚ)
  deriving DecidableEq, Repr

/-- Is it PACT? -/
def OQuant.isPact : OQuant → Bool
  | .pact _ => true
  | _ => false

/-- `_get_new_optimizer_params_groups` (quantizer.py:346-357, clipped_linear.py:200-205). -/
def OQuant.groups (q : OQuant) (ms : List OMod) : List OGroup :=
  match q with
  | .pact d => [⟨((namedParams ms).filter fun p => hasClipVal p.1).map Prod.snd, d⟩]
  | _ => []

/-- `prepare_model` as far as parameters and optimizer go (quantizer.py:230-256). -/
def prepTrain (q : OQuant) (ms : List OMod) (next : ℕ) (gs : List OGroup) : Except Err (List OMod × List OGroup) := do
  let ms' := (replaceRelus q.isPact ms next).map backupAll
  let gs' ← (q.groups ms').foldlM addGroup gs
  return (ms', gs')

end Verif
