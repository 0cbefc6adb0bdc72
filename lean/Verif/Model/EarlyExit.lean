import Verif.Basic.Py
import Verif.Basic.Tensor
/-!
# Model of early exits

`distiller/apputils/image_classifier.py` (`earlyexit_loss`, `earlyexit_validate_loss`,
`earlyexit_validate_stats`), `distiller/early_exit.py` and `BranchPoint` of
`distiller/modules/topology.py`.
-/
namespace Verif

/-! ## Validation -/

/-- One validation sample: its cross-entropy loss at every exit and whether the exit's classification is
among the top 1 / top 5.  The network and the loss are arbitrary. -/
structure EESample where
  loss : ℕ → ℚ
  hit1 : ℕ → Bool
  hit5 : ℕ → Bool

/-- `tnt.ClassErrorMeter(accuracy=True, topk=(1, 5))`: correct answers and number of samples. -/
structure ErrMeter where
  n : ℕ := 0
  ok1 : ℕ := 0
  ok5 : ℕ := 0
  deriving DecidableEq, Repr

/-- `ClassErrorMeter.add` of a single sample (image_classifier.py:834, 842). -/
def ErrMeter.add (m : ErrMeter) (h1 h5 : Bool) : ErrMeter :=
  ⟨m.n + 1, m.ok1 + (if h1 then 1 else 0), m.ok5 + (if h5 then 1 else 0)⟩

/-- `ClassErrorMeter.value(k)`: accuracy in percent (only asked for when `n > 0`). -/
def ErrMeter.value1 (m : ErrMeter) : ℚ := 100 * m.ok1 / m.n
def ErrMeter.value5 (m : ErrMeter) : ℚ := 100 * m.ok5 / m.n

/-- What `_validate` accumulates in `args` (image_classifier.py:697-704): per exit the error meter, the
average of the batch-mean losses (`AverageValueMeter`: sum and count), and how often it was taken. -/
structure EEStats where
  errors : List ErrMeter
  lossSum : List ℚ
  batches : ℕ
  taken : List ℕ
  deriving DecidableEq, Repr

/-- image_classifier.py:697-704. -/
def EEStats.init (exits : ℕ) : EEStats :=
  ⟨List.replicate exits {}, List.replicate exits 0, 0, List.replicate exits 0⟩

/-- The loop of image_classifier.py:829-843 over the exits: the exit a sample takes.  `thr` are the
remaining thresholds, `i` the number of the next exit. -/
def takeExit : List ℚ → ℕ → EESample → ℕ
  | [], i, _ => i
  | t :: ts, i, s => if s.loss i < t then i else takeExit ts (i + 1) s

/-- One sample (image_classifier.py:827-843). -/
def EEStats.addSample (thr : List ℚ) (st : EEStats) (s : EESample) : EEStats :=
  let e := takeExit thr 0 s
  { st with
    errors := st.errors.modify e fun m => m.add (s.hit1 e) (s.hit5 e)
    taken := st.taken.modify e (· + 1) }

/-- `earlyexit_validate_loss` (image_classifier.py:813-843); `num_exits = len(thresholds) + 1`
(examples/classifier_compression/compress_classifier.py:155). -/
def EEStats.addBatch (thr : List ℚ) (st : EEStats) (batch : List EESample) : EEStats :=
  let st := { st with
    batches := st.batches + 1
    lossSum := st.lossSum.mapIdx fun e acc => acc + (batch.map fun s => s.loss e).sum / batch.length }
  batch.foldl (EEStats.addSample thr) st

/-- What `_validate` returns for an early-exit model: top1, top5, loss. -/
structure EEResult where
  top1 : ℚ
  top5 : ℚ
  loss : ℚ
  deriving DecidableEq, Repr

/-- `earlyexit_validate_stats` (image_classifier.py:846-870): per-exit accuracies are 0 for exits never
taken; dividing by the number of samples raises `ZeroDivisionError` when there were none. -/
def EEStats.result (st : EEStats) : Except Err EEResult :=
  let sumTaken := st.taken.sum
  if sumTaken = 0 then .error .zeroDiv
  else
    let acc (v : ErrMeter → ℚ) : ℚ :=
      (List.zipWith (fun (m : ErrMeter) (t : ℕ) => (if t = 0 then 0 else v m) * ((t : ℚ) / (sumTaken : ℚ))) st.errors st.taken).sum
    let loss := match st.taken.getLast?, st.lossSum.getLast? with
      | some t, some l => if t = 0 then 0 else l / st.batches
      | _, _ => 0
    .ok ⟨acc ErrMeter.value1, acc ErrMeter.value5, loss⟩

/-- The early-exit path of `_validate` (image_classifier.py:669-751). -/
def eeValidate (thr : List ℚ) (batches : List (List EESample)) : Except Err EEResult :=
  (batches.foldl (EEStats.addBatch thr) (EEStats.init (thr.length + 1))).result

/-! ## Training loss -/

/-- One iteration of the loop over the early exits (image_classifier.py:801-806). -/
def earlyexitStep (weights : List ℚ) (acc : ℚ) (x : Option ℚ × ℕ) : Except Err ℚ :=
  match x.1 with
  | none => .ok acc
  | some l => match weights[x.2]? with
    | none => .error .index
    | some w => .ok (acc + w * l)

/-- `earlyexit_loss` (image_classifier.py:792-810).  `losses` are `criterion(output[e], target)` per exit,
`none` for an exit without output; `weights` is `args.earlyexit_lossweights`.  A missing weight is an
`IndexError`; a missing output of the last exit is a `TypeError` of the criterion. -/
def earlyexitLoss (weights : List ℚ) (losses : List (Option ℚ)) : Except Err ℚ :=
  let s := weights.sum
  if ¬ s < 1 then .error .assertion
  else do
    let early ← (losses.dropLast.zipIdx).foldlM (earlyexitStep weights) 0
    match losses.getLast? with
    | some (some l) => .ok (early + (1 - s) * l)
    | some none => .error .type
    | none => .error .index

/-! ## Attaching exits -/

/-- A module: a layer, a `Sequential` given by its first child and the rest, or a `BranchPoint` with its
cached output (modules/topology.py:20-35).  Layers are arbitrary functions on activations. -/
inductive NMod (X : Type) where
  | leaf (f : X → X)
  | nil
  | cons (name : String) (child rest : NMod X)
  | branch (inner net : NMod X) (out : Option X)

namespace NMod
variable {X : Type}

/-- `forward`: the module afterwards (outputs cached) and the activation returned. -/
def forward : NMod X → X → NMod X × X
  | leaf f, x => (leaf f, f x)
  | nil, x => (nil, x)
  | cons n c r, x =>
    let c' := c.forward x
    let r' := r.forward c'.2
    (cons n c'.1 r'.1, r'.2)
  | branch i b _, x =>
    let i' := i.forward x
    let b' := b.forward i'.2
    (branch i'.1 b'.1 (some b'.2), i'.2)

/-- `_find_module` (early_exit.py:68-73): dotted names as lists of attribute names. -/
def find : NMod X → List String → Option (NMod X)
  | m, [] => some m
  | leaf _, _ :: _ => none
  | nil, _ :: _ => none
  | cons n c r, a :: as => if a = n then c.find as else r.find (a :: as)
  | branch i b _, a :: as =>
    if a = "branched_module" then i.find as else if a = "branch_net" then b.find as else none

/-- `parent_module.__setattr__(node_name, m)` for an existing attribute (early_exit.py:37). -/
def replace : NMod X → List String → NMod X → NMod X
  | _, [], new => new
  | leaf f, _ :: _, _ => leaf f
  | nil, _ :: _, _ => nil
  | cons n c r, a :: as, new => if a = n then cons n (c.replace as new) r else cons n c (r.replace (a :: as) new)
  | branch i b o, a :: as, new =>
    if a = "branched_module" then branch (i.replace as new) b o
    else if a = "branch_net" then branch i (b.replace as new) o else branch i b o

end NMod

/-- `EarlyExitMgr.attach_exits` (early_exit.py:26-37).  An empty exit point name makes torch raise
`KeyError` (module name can't be empty string). -/
def attachExits {X : Type} (m : NMod X) : List (List String × NMod X) → Except Err (NMod X)
  | [] => .ok m
  | d :: ds =>
    match m.find d.1 with
    | none => .error .assertion
    | some r => if d.1 = [] then .error .key else attachExits (m.replace d.1 (.branch r d.2 none)) ds

/-- `get_exits_outputs` (early_exit.py:39-50) with `_get_branch_point_module` (83-95): the module at the
exit point must exist (`AttributeError` otherwise) and be a branch point with a cached output.  A module
without attribute `output` raises `AttributeError` too. -/
def getExitsOutputs {X : Type} (m : NMod X) (points : List (List String)) : Except Err (List X) :=
  points.mapM fun p =>
    match m.find p with
    | some (.branch _ _ (some o)) => .ok o
    | some (.branch _ _ none) => .error .assertion
    | _ => .error .attribute

/-- `branch_point.output = None` at one exit point. -/
def NMod.clearAt {X : Type} : NMod X → List String → NMod X
  | .branch i b _, [] => .branch i b none
  | .leaf f, [] => .leaf f
  | .nil, [] => .nil
  | .cons n c r, [] => .cons n c r
  | .leaf f, _ :: _ => .leaf f
  | .nil, _ :: _ => .nil
  | .cons n c r, a :: as => if a = n then .cons n (c.clearAt as) r else .cons n c (r.clearAt (a :: as))
  | .branch i b o, a :: as =>
    if a = "branched_module" then .branch (i.clearAt as) b o
    else if a = "branch_net" then .branch i (b.clearAt as) o else .branch i b o

/-- `delete_exits_outputs` (early_exit.py:52-64); exit points are assumed attached. -/
def deleteExitsOutputs {X : Type} (m : NMod X) (points : List (List String)) : NMod X :=
  points.foldl NMod.clearAt m

end Verif
