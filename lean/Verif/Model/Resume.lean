import Verif.Model.TrainLoop
import Verif.Model.Checkpoint
import Verif.Model.Training
/-!
# Model of starting, stopping and resuming a training session
(distiller/apputils/image_classifier.py:158-170, 172-197, 381-424)

The scheduler, the training loop and checkpoints are those of `Scheduler`, `TrainLoop` and `Checkpoint`.
-/
namespace Verif

/-- The command-line arguments that `_init_learner` reads; checkpoint files are given by their
contents.  `compress` is what the schedule file configures: policies and their epochs. -/
structure LearnerArgs where
  resumed : Option Ckpt := none
  deprecatedResume : Option Ckpt := none
  loadModel : Option Ckpt := none
  resetOpt : Bool := false
  evaluate : Bool := false
  compress : Option (Sched × (Nat → Policy)) := none
  epochs : Int

/-- What `_init_learner` returns.  `lrEpoch` is the `resumed_epoch` given to the schedule file's
learning-rate schedules. -/
structure Learner where
  model : NetState
  maskers : Dict Name Masker
  sched : Sched
  pols : Nat → Policy
  opt : Option OptState
  start : Int
  ending : Int
  lrEpoch : Option Int

/-- The handling of the deprecated `--resume` flag (386-393): afterwards the optimizer is reset,
whether the user asked for it or not. -/
def LearnerArgs.deprecate (a : LearnerArgs) : LearnerArgs :=
  match a.deprecatedResume with
  | some c => { a with resetOpt := true, resumed := some c }
  | none => a

/-- Loading (395-401): model, masks, optimizer and first epoch. -/
def loadStage (m : NetState) (a : LearnerArgs) : Except Err (NetState × Loaded) :=
  match a.resumed with
  | some c =>
    match loadCkpt m c false with
    | (m', .ok l) => .ok (m', l)
    | (_, .error e) => .error e
  | none =>
    match a.loadModel with
    | some c =>
      match loadCkpt m c true with
      | (m', .ok _) => .ok (m', ⟨none, none, 0⟩)
      | (_, .error e) => .error e
    | none => .ok (m, ⟨none, none, 0⟩)

/-- `_init_learner` (image_classifier.py:381-424) for the created model `m`; `sgd` is the new
optimizer (409-413).  Configured policies are added to the loaded scheduler, which has masks but no
policies (415-422; config.py:142-148). -/
def initLearner (m : NetState) (sgd : OptState) (args : LearnerArgs) : Except Err Learner := do
  let a := args.deprecate
  let (m, l) ← loadStage m a
  let start := if a.resetOpt then 0 else l.startEpoch
  let opt := if a.resetOpt then none else l.opt
  let opt := if opt.isNone && !a.evaluate then some sgd else opt
  return { model := m
           maskers := l.sched.getD (createModelMasksDict m.params)
           sched := (a.compress.map Prod.fst).getD {}
           pols := (a.compress.map Prod.snd).getD (fun _ => .other)
           opt := opt
           start := start
           ending := a.epochs
           lrEpoch := if a.resumed.isSome then some (start - 1) else none }

/-- The state in which the training loop starts. -/
def Learner.state (L : Learner) : State := ⟨⟨L.model.params, L.maskers, 0⟩, L.sched, L.pols⟩

/-- The files of checkpoints: the entries for which `checkpoint.pth.tar` and `best.pth.tar` were last
written (checkpoint.py:55-87). -/
structure CkptFiles where
  last : Option Perf := none
  best : Option Perf := none
  deriving DecidableEq, Repr

/-- `_finalize_epoch` (image_classifier.py:158-170): `best_scores()[0]` raises IndexError if there is
none. -/
def finalizeEpoch (s : Tracker × CkptFiles) (p : Perf) : Except Err (Tracker × CkptFiles) :=
  let t := s.1.step p
  match t.best 1 with
  | [] => .error .index
  | b :: _ => .ok (t, { last := some p, best := if p.epoch = b.epoch then some p else s.2.best })

/-- The checkpoints of a training session (`run_training_loop`, 189-196): the tracker is reset first.
`ps` are the results of the epochs. -/
def sessionFiles (maxLen : ℕ) (f : CkptFiles) (ps : List Perf) : Except Err (Tracker × CkptFiles) :=
  ps.foldlM finalizeEpoch (⟨[], maxLen⟩, f)

end Verif
