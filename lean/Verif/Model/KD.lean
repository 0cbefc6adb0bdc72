import Mathlib.Analysis.SpecialFunctions.Log.Basic
import Verif.Basic.Py
/-!
# Knowledge distillation (`distiller/knowledge_distillation.py`)

Modelled: `KnowledgeDistillationPolicy` (87-169) as a state machine driven by the scheduler's epoch
callbacks, the script's `forward` calls and the scheduler's `before_backward_pass`.  Real numbers
stand for floats.  The two networks are not modelled: a `forward` event carries what each network
would output on the inputs at that moment.
-/
namespace Verif

/-- A batch of logits: one row per sample. -/
abbrev Logits := List (List ℝ)

/-- `DistillationLossWeights` (knowledge_distillation.py:24-25). -/
structure KDWeights where
  distill : ℝ
  student : ℝ
  teacher : ℝ

/-- The attributes of the policy (95-104). -/
structure KDState where
  active : Bool := false
  lastTeacher : Option Logits := none
  lastStudent : Option Logits := none

/-- The constructor (87-104): a teacher-vs-labels weight is refused (91-93). -/
noncomputable def kdInit (w : KDWeights) : Except Err KDState :=
  open Classical in if w.teacher ≠ 0 then .error .notImplemented else .ok {}

/-- `F.softmax(z, dim=1)` on one row: `exp(z_i) / sum_j exp(z_j)`. -/
noncomputable def softmaxRow (z : List ℝ) : List ℝ := z.map (fun a => Real.exp a / (z.map Real.exp).sum)

/-- One row of `F.kl_div(log_softmax(s), softmax(t), reduction='sum')`: `sum p*(log p - log q)`
(152-157).  The logarithm of the softmax is taken after the softmax here. -/
noncomputable def klRow (s t : List ℝ) : ℝ :=
  (List.zipWith (fun p q => p * (Real.log p - Real.log q)) (softmaxRow t) (softmaxRow s)).sum

/-- Lines 152-157: both logits divided by the temperature, `reduction='batchmean'` divides the sum
by the number of rows of the input. -/
noncomputable def kdLoss (temp : ℝ) (s t : Logits) : ℝ :=
  (List.zipWith (fun a b => klRow (a.map (· / temp)) (b.map (· / temp))) s t).sum / s.length

/-- What happens to the policy. -/
inductive KDEvent where
  /-- `on_epoch_begin`: the scheduler calls it in the scheduled epochs only. -/
  | epochBegin
  | epochEnd
  /-- The script calls `forward` on inputs where the student answers `s` and the teacher would
  answer `t`. -/
  | forward (s t : Logits)
  /-- `before_backward_pass` with the student's loss against the labels. -/
  | backward (loss : ℝ)

/-- What the caller sees. -/
inductive KDObs where
  | unit
  /-- `forward` returned this; `teacherRan`: the teacher was run too. -/
  | out (s : Logits) (teacherRan : Bool)
  /-- `before_backward_pass` returned `None`: the scheduler keeps the loss. -/
  | noLoss
  /-- A `PolicyLoss`: the overall loss and the one component `'Distill Loss'`. -/
  | loss (overall distill : ℝ)
  | raised (e : Err)

/-- One callback or call (knowledge_distillation.py:106-169). -/
noncomputable def kdStep (w : KDWeights) (temp : ℝ) (st : KDState) : KDEvent → KDState × KDObs
  | .epochBegin => ({ st with active := true }, .unit)
  | .epochEnd => ({ st with active := false }, .unit)
  | .forward s t =>
    if st.active then ({ st with lastTeacher := some t, lastStudent := some s }, .out s true)
    else (st, .out s false)
  | .backward loss =>
    if st.active then
      match st.lastTeacher, st.lastStudent with
      | some t, some s =>
        let d := kdLoss temp s t
        (st, .loss (w.student * loss + w.distill * (d * temp ^ 2)) d)
      | _, _ => (st, .raised .runtime)
    else (st, .noLoss)

/-- The policy after a history of events. -/
noncomputable def kdRun (w : KDWeights) (temp : ℝ) (st : KDState) (h : List KDEvent) : KDState :=
  h.foldl (fun st e => (kdStep w temp st e).1) st

end Verif
