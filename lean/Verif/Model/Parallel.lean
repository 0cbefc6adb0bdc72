import Verif.Basic.Py
import Mathlib.Data.Multiset.Basic
import Mathlib.Data.Rat.Floor
import Mathlib.Algebra.Order.Ring.Rat
/-!
# Fine-tuning many checkpoints in parallel
(examples/auto_compression/amc/parallel-finetune.py: `FinetuningProcess.run` 78-91, `finetune_directory` 94-163, `finetune_checkpoint` 166-190)
-/
namespace Verif

/-- The tasks of `finetune_directory` (lines 129-133): a checkpoint and the GPU for it; `% 0` is a ZeroDivisionError.  No checkpoints is an
AssertionError (line 104). -/
def ftTasks {C : Type} (nGpus : ℕ) (ckpts : List C) : Except Err (List (C × ℕ)) :=
  if ckpts.isEmpty then .error .assertion
  else if nGpus = 0 then .error .zeroDiv
  else .ok (ckpts.mapIdx fun i c => (c, i % nGpus))

/-- Where the main program is: putting tasks and markers into the queue and then waiting in `tasks.join()`; reading the results;
past that. -/
inductive FtPhase where
  | putting | collecting | finished
  deriving DecidableEq, Repr

/-- A state of the main program and its worker processes.  Workers are alike, so they are counted only: `idle` ones wait for the queue, `busy`
ones execute a task, `reporting` ones have called `task_done` but not `result_queue.put`, `crashed` ones died of an exception in
their task.  `queue` is the joinable queue with its number of `unfinished` items, `none` being the end marker; `buf` are results that
are put but not yet written to the pipe (the queue's feeder threads do this later), `pipe` the results that the main program can read, `got` those it
has read. -/
structure Ft (T : Type) where
  toPut : List (Option T)
  queue : List (Option T)
  unfinished : ℕ
  idle : ℕ
  busy : Multiset T
  reporting : Multiset T
  buf : Multiset T
  exited : ℕ
  crashed : Multiset T
  pipe : List T
  got : List T
  phase : FtPhase

variable {T : Type}

/-- The start (lines 112-137): `min(processes, len(checkpoints))` workers; one marker for each is put after the tasks. -/
def Ft.init (processes : ℕ) (tasks : List T) : Ft T :=
  ⟨tasks.map some ++ List.replicate (min processes tasks.length) none, [], 0, min processes tasks.length, 0, 0, 0, 0, 0, [], [], .putting⟩

/-- One step of any of the processes. -/
inductive FtStep : Ft T → Ft T → Prop
  /-- `tasks.put(x)` (133, 137) -/
  | put (s : Ft T) (x : Option T) (r : List (Option T)) (h : s.toPut = x :: r) (hp : s.phase = .putting) :
      FtStep s { s with toPut := r, queue := s.queue ++ [x], unfinished := s.unfinished + 1 }
  /-- `next_task = task_queue.get()`, a task (81) -/
  | getTask (s : Ft T) (t : T) (q : List (Option T)) (k : ℕ) (h : s.queue = some t :: q) (hi : s.idle = k + 1) :
      FtStep s { s with queue := q, idle := k, busy := t ::ₘ s.busy }
  /-- a marker: `task_done()` and the end of the process (82-85) -/
  | getMarker (s : Ft T) (q : List (Option T)) (k u : ℕ) (h : s.queue = none :: q) (hi : s.idle = k + 1) (hu : s.unfinished = u + 1) :
      FtStep s { s with queue := q, idle := k, exited := s.exited + 1, unfinished := u }
  /-- the task is executed, `task_done()` (88-89) -/
  | done (s : Ft T) (t : T) (b : Multiset T) (u : ℕ) (h : s.busy = t ::ₘ b) (hu : s.unfinished = u + 1) :
      FtStep s { s with busy := b, reporting := t ::ₘ s.reporting, unfinished := u }
  /-- the task raises: the process dies (88) -/
  | crash (s : Ft T) (t : T) (b : Multiset T) (h : s.busy = t ::ₘ b) :
      FtStep s { s with busy := b, crashed := t ::ₘ s.crashed }
  /-- `result_queue.put(answer)` (90) -/
  | report (s : Ft T) (t : T) (b : Multiset T) (h : s.reporting = t ::ₘ b) :
      FtStep s { s with reporting := b, idle := s.idle + 1, buf := t ::ₘ s.buf }
  /-- a feeder thread writes a result to the pipe -/
  | flush (s : Ft T) (t : T) (b : Multiset T) (h : s.buf = t ::ₘ b) :
      FtStep s { s with buf := b, pipe := s.pipe ++ [t] }
  /-- `tasks.join()` returns (140) -/
  | join (s : Ft T) (h : s.toPut = []) (hu : s.unfinished = 0) (hp : s.phase = .putting) :
      FtStep s { s with phase := .collecting }
  /-- `results.get()` after `results.empty()` was False (144-146) -/
  | collect (s : Ft T) (t : T) (p : List T) (h : s.pipe = t :: p) (hp : s.phase = .collecting) :
      FtStep s { s with pipe := p, got := s.got ++ [t] }
  /-- `results.empty()` is True (144) -/
  | finish (s : Ft T) (h : s.pipe = []) (hp : s.phase = .collecting) :
      FtStep s { s with phase := .finished }

/-- Any number of steps. -/
inductive FtSteps : ℕ → Ft T → Ft T → Prop
  | refl (s : Ft T) : FtSteps 0 s s
  | tail {n : ℕ} {s t u : Ft T} (h : FtSteps n s t) (h' : FtStep t u) : FtSteps (n + 1) s u

/-! ## Fine-tuning one checkpoint -/

/-- Scores of an epoch. -/
structure FtScore where
  top1 : ℚ
  top5 : ℚ
  loss : ℚ
  deriving DecidableEq, Repr

/-- Line 182: the epochs that are validated. -/
def ftValidate (factor : ℚ) (epochs : ℕ) (e : ℕ) : Bool := decide (⌊(1 - factor) * epochs⌋ ≤ (e : ℤ))

/-- Lines 184-186: the best score so far; `none` is the initial one with `-inf`. -/
def ftBetter (best : Option FtScore) (s : FtScore) : Option FtScore :=
  match best with
  | none => some s
  | some b => if b.top1 < s.top1 then some s else some b

/-- One epoch (181-186). -/
def ftEpoch (factor : ℚ) (epochs : ℕ) (scores : ℕ → FtScore) (best : Option FtScore) (e : ℕ) : Option FtScore :=
  if ftValidate factor epochs e then ftBetter best (scores e) else best

/-- `finetune_checkpoint` (lines 166-190): `scores e` are the results of epoch `e`, `test` those of the test set; `none` stands for
`[-inf, -inf, inf]`. -/
def finetuneCheckpoint (factor : ℚ) (epochs : ℕ) (scores : ℕ → FtScore) (test : FtScore) : Option FtScore :=
  if factor = 0 then some test
  else (List.range epochs).foldl (ftEpoch factor epochs scores) none

end Verif
