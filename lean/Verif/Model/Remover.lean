import Verif.Model.Scheduler
/-!
# The structure remover (distiller/thinning.py:389-423)

A scheduled policy that runs a thinning function.
-/
namespace Verif

/-- What a structure remover sees in an epoch it is scheduled for: its callbacks, and everything else that
happens to the model in between (other policies, forward passes, optimizer steps). -/
inductive RmEv (M : Type) where
  | mbBegin
  | mbEnd
  | other (g : M → M)

/-- `StructureRemover.__apply` (thinning.py:404-409); the state is the flag `done` and the model.  A thinning
function that raises leaves the flag alone and aborts the training. -/
def rmApply {M : Type} (thin : M → Except Err M) (s : Bool × M) : Except Err (Bool × M) :=
  if s.1 then .ok s else (thin s.2).map fun m => (true, m)

/-- One event (thinning.py:411-422): `active_cb` is always `"on_minibatch_begin"`, so that the end of a
minibatch does nothing. -/
def rmStep {M : Type} (thin : M → Except Err M) (s : Bool × M) (e : RmEv M) : Except Err (Bool × M) :=
  match e with
  | .mbBegin => rmApply thin s
  | .mbEnd => .ok s
  | .other g => .ok (s.1, g s.2)

/-- An epoch: its events and `on_epoch_end` (thinning.py:424-426). -/
def rmEpoch {M : Type} (thin : M → Except Err M) (s : Bool × M) (ep : List (RmEv M)) : Except Err (Bool × M) :=
  (ep.foldlM (rmStep thin) s).map fun s => (false, s.2)

/-- A training: `done` is initially `False` (thinning.py:401). -/
def rmTrain {M : Type} (thin : M → Except Err M) (m : M) (eps : List (List (RmEv M))) : Except Err M :=
  (eps.foldlM (rmEpoch thin) (false, m)).map Prod.snd

/-- `CompressionScheduler.on_minibatch_begin` (scheduler.py:87-93) when the policies of the epoch are `before`,
the remover, and `after`, in this order. -/
def mbBeginWithRemover (env : Env) (e : Int) (mb mpe : Nat) (thin : State → Except Err State)
    (before after : List Nat) (s : Bool × State) : Except Err (Bool × State) := do
  let st1 ← before.foldlM (policyMbBegin env e mb mpe) s.2
  let s2 ← rmApply thin (s.1, st1)
  let st3 ← after.foldlM (policyMbBegin env e mb mpe) s2.2
  return (s2.1, st3)

end Verif
