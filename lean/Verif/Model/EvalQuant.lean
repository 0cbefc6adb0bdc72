import Verif.Basic.Py
import Verif.Basic.Tensor
/-!
# Evaluating with post-training quantization (`distiller/apputils/image_classifier.py`)

Modelled: `evaluate_model` (882-899), `quantize_and_test_model` (902-948), `acts_quant_stats_collection` (951-967),
`_convert_ptq_to_pytorch` (873-879), as functions of the argument object they change.  Collecting statistics, quantizing,
converting and testing are arbitrary functions (modelled elsewhere: `QuantStats`, `PTQConfig`, `TorchConvert`); devices, logging and
the checkpoint written at the end are dropped.  The models are values: cloning (964, 928-930) is the identity on them, and that
quantization acts on the clone is the difference between `M` and `Q`.
-/
namespace Verif

/-- The fields of `args` that matter; `stats = none`: no `qe_stats_file`. -/
structure EvalArgs (S : Type) where
  quantizeEval : Bool := true
  convert : Bool := false
  dynamic : Bool := false
  configFile : Bool := false
  stats : Option S := none
  calibration : Option ℚ := none
  batchSize : ℕ := 256
  testSize : ℚ := 1
  deriving DecidableEq, Repr

/-- The arbitrary parts.  `quantType m`: the `type` of `m.quantizer_metadata`, if it has that attribute; `collect m size batch`:
statistics of `m` on the given part of the test set with the given batch size; `falsy`: the value is empty, so that Python takes it
for missing; `quantize`: `from_args` and `prepare_model` on a clone; `asIs`: the model itself as something to convert or test. -/
structure EvalEnv (M Q S R : Type) where
  quantType : M → Option String
  collect : M → ℚ → ℕ → S
  falsy : S → Bool
  quantize : M → EvalArgs S → Except Err Q
  convert : Q → Except Err Q
  test : Q → ℚ → R
  asIs : M → Q

variable {M Q S R : Type}

/-- The condition at image_classifier.py:917. -/
def EvalEnv.hasSettings (V : EvalEnv M Q S R) (a : EvalArgs S) : Bool :=
  a.dynamic || (match a.stats with | some s => !V.falsy s | none => false) || a.configFile

/-- `acts_quant_stats_collection` (image_classifier.py:951-967) without a loader: part of the test set, batches of at most 128. -/
def EvalEnv.actsStats (V : EvalEnv M Q S R) (m : M) (calibration : ℚ) (batch : ℕ) : S :=
  V.collect m calibration (min 128 batch)

/-- The arguments after the first stage (image_classifier.py:917-923). -/
def EvalEnv.prepareArgs (V : EvalEnv M Q S R) (m : M) (a : EvalArgs S) : EvalArgs S :=
  if V.hasSettings a then a
  else { a with stats := some (V.actsStats m (match a.calibration with | some c => c | none => 1/20) a.batchSize) }

/-- `quantize_and_test_model` (image_classifier.py:902-948): the arguments afterwards and the result. -/
def EvalEnv.quantizeAndTest (V : EvalEnv M Q S R) (m : M) (a : EvalArgs S) : EvalArgs S × Except Err R :=
  if V.quantType m = some "PostTrainLinearQuantizer" then (a, .error .runtime)
  else
    let a' := V.prepareArgs m a
    (a', do
      let q ← V.quantize m a'
      let q ← (if a'.convert then V.convert q else .ok q)
      return V.test q a'.testSize)

/-- `evaluate_model` (image_classifier.py:882-899). -/
def EvalEnv.evaluate (V : EvalEnv M Q S R) (m : M) (a : EvalArgs S) : EvalArgs S × Except Err R :=
  if a.quantizeEval then V.quantizeAndTest m a
  else (a, do
    let q ← (if a.convert then V.convert (V.asIs m) else .ok (V.asIs m))
    return V.test q a.testSize)

/-- A session: models evaluated one after the other with one argument object. -/
def EvalEnv.session (V : EvalEnv M Q S R) : List M → EvalArgs S → EvalArgs S × List (Except Err R)
  | [], a => (a, [])
  | m :: ms, a =>
    let r := V.evaluate m a
    let t := V.session ms r.1
    (t.1, r.2 :: t.2)

end Verif
