import Verif.Model.Scheduler
/-!
# Model of the training loop of `distiller/apputils/image_classifier.py`

`ClassifierCompressor.run_training_loop` with the calls it makes into the compression scheduler.  The
model's forward/backward computation and the optimizer are an arbitrary weight update per minibatch.
-/
namespace Verif

/-- What the user gives: epochs `[start, ending)`, number of training samples per epoch and batch size
(`len(train_loader.sampler)`, `train_loader.batch_size`), and what the optimizer does to the weights in
minibatch `i` of epoch `e` (arbitrary). -/
structure TrainArgs where
  start : Int
  ending : Int
  samples : Nat
  batch : Nat
  upd : Int → Nat → Name → Tensor → Tensor

/-- `steps_per_epoch = math.ceil(total_samples / batch_size)` (image_classifier.py:558-560).  A torch
`DataLoader` without `drop_last` yields the same number of batches. -/
def stepsPerEpoch (a : TrainArgs) : Except Err Nat :=
  if a.batch = 0 then .error .zeroDiv else .ok ((a.samples + a.batch - 1) / a.batch)

/-- The scheduler calls of one training step (image_classifier.py:568-638): `on_minibatch_begin`, forward
and backward, `before_parameter_optimization`, `optimizer.step()`, `on_minibatch_end`. -/
def stepEvents (a : TrainArgs) (e : Int) (steps i : Nat) : List Ev :=
  [.mbBegin e i steps, .beforeOpt e i steps, .write (a.upd e i), .mbEnd e i steps]

/-- `train` (image_classifier.py:500-653): all training steps of one epoch. -/
def trainEvents (a : TrainArgs) (e : Int) (steps : Nat) : List Ev :=
  (List.range steps).flatMap (stepEvents a e steps)

/-- What one epoch leaves behind: the model `validate` ran on and the model `save_checkpoint` stored. -/
structure EpochLog where
  epoch : Int
  validated : Store
  saved : Store

/-- `train_validate_with_scheduling` (image_classifier.py:126-139) followed by `_finalize_epoch`
(158-170).  Validation does not change weights or masks (`torch.no_grad`, `model.eval()`). -/
def trainEpoch (env : Env) (a : TrainArgs) (steps : Nat) (st : State) (e : Int) : Except Err (State × EpochLog) := do
  let st1 ← onEpochBegin env st e
  let st2 ← run env st1 (trainEvents a e steps)
  let st3 ← onEpochEnd st2 e
  return (st3, ⟨e, st2.store, st3.store⟩)

/-- The loop of `run_training_loop` over a list of epochs (image_classifier.py:192-196). -/
def trainEpochs (env : Env) (a : TrainArgs) (steps : Nat) (st : State) : List Int → Except Err (State × List EpochLog)
  | [] => .ok (st, [])
  | e :: es => do
    let r ← trainEpoch env a steps st e
    let r' ← trainEpochs env a steps r.1 es
    return (r'.1, r.2 :: r'.2)

/-- `run_training_loop` (image_classifier.py:172-197). -/
def runTrainingLoop (env : Env) (a : TrainArgs) (st : State) : Except Err (State × List EpochLog) :=
  if a.start ≥ a.ending then .error .value
  else do
    let steps ← stepsPerEpoch a
    trainEpochs env a steps st (pyRange a.start a.ending 1)

end Verif
