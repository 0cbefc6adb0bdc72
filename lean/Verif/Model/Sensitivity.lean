import Verif.Model.Scheduler
import Verif.Model.Pruners
import Verif.Model.Structures
/-!
# Model of `distiller/sensitivity.py`: `perform_sensitivity_analysis`
-/
namespace Verif

/-- Shape of a parameter, as far as the analysis looks at it. -/
inductive PShape where
  | d2 (r c : ℕ)
  | d4 (f c h w : ℕ)
  | other
  deriving DecidableEq, Repr

/-- The `group` argument; every other string is `illegal`. -/
inductive SGroup where
  | element | filter | channel | illegal
  deriving DecidableEq, Repr

/-- The characters of the dotted name. -/
def dotted (n : Name) : List Char := (".".intercalate n).toList

/-- `param_name in self.params_names` (ranked_structures_pruner.py:62-63) where `weights` was given as a
*string* (sensitivity.py:94-97): Python's substring test. -/
def supportedBy (weights n : Name) : Bool := decide (dotted n <:+: dotted weights)

/-- Mask left by `L1RankedStructureParameterPruner` (ranked_structures_pruner.py:68-78, 126-186) on a
parameter.  Simplification: a supported parameter that is neither 4-D (filters) nor 2-D/4-D (channels)
raises `AssertionError` whenever the level is not 0. -/
def rankedMask (gt : GroupType) (level : ℚ) (sh : PShape) (w : Tensor) (old : Option Tensor) : Except Err (Option Tensor) :=
  if level = 0 then .ok old
  else do
    let out ← (match sh, gt with
      | .d4 f c h k, gt => lpPruneGroup gt l1Norm 1 level ⟨f, c, h, k, w⟩ true none
      | .d2 r c, .channels => rankAndPruneChannels2 level ⟨r, c, w⟩ true none l1Norm none 1 Int.floor
      | _, _ => .error .assertion)
    return (match out.mask with
      | some m => some m
      | none => old)

/-- The pruner built for one parameter and level (sensitivity.py:83-104). -/
def sensEnv (g : SGroup) (shapes : Name → PShape) (param : Name) (level : ℚ) : Env where
  prune := fun _ _ n w old _ =>
    match g with
    | .element => levelSetMask [(param, level)] n w old
    | .filter => if supportedBy param n then rankedMask .filters level (shapes n) w old else .ok old
    | .channel => if supportedBy param n then rankedMask .channels level (shapes n) w old else .ok old
    | .illegal => .ok old
  thresh := fun _ _ _ _ => none
  folded := fun _ _ _ => none

/-- A new policy and scheduler for the current copy of the model (sensitivity.py:106-108). -/
def sensState (params : Dict Name Tensor) : State :=
  ⟨⟨params, createModelMasksDict params, 0⟩, (({} : Sched).addPolicy { policy := 0, epochs := some [0] }).1,
    fun _ => .prune {} false false⟩

/-- `on_epoch_begin(0)` and `mask_all_weights()` on the copy (sensitivity.py:111-112). -/
def sensPrune (env : Env) (params : Dict Name Tensor) : Except Err (Dict Name Tensor) := do
  let st ← onEpochBegin env (sensState params) 0
  let s ← maskAllWeights st.store
  return s.params

/-- The inner loop over the sparsity levels on *one* copy of the model (sensitivity.py:77-117).  `test` is the
user's test function: it sees the weights of the model it is given. -/
def sensLevels {R : Type} (test : (Name → Option Tensor) → R) (g : SGroup) (shapes : Name → PShape) (param : Name) :
    List ℚ → Dict Name Tensor → Dict ℚ R → Except Err (Dict ℚ R)
  | [], _, acc => .ok acc
  | s :: ss, params, acc => do
    let params' ← sensPrune (sensEnv g shapes param s) params
    sensLevels test g shapes param ss params' (acc.set s (test params'.get?))

/-- One parameter: `none` if it gets no entry in the result (sensitivity.py:68-70, 91, 100; an empty list of
sparsities gives no entry either). -/
def sensParam {R : Type} (test : (Name → Option Tensor) → R) (g : SGroup) (shapes : Name → PShape)
    (params : Dict Name Tensor) (levels : List ℚ) (param : Name) : Except Err (Option (Dict ℚ R)) :=
  match shapes param, g, levels with
  | .other, _, _ => .ok none
  | .d2 .., .filter, _ => .ok none
  | .d2 .., .channel, _ => .ok none
  | _, _, [] => .ok none
  | _, _, l => do
    let d ← sensLevels test g shapes param l params []
    return some d

/-- One iteration of the outer loop (sensitivity.py:68-118). -/
def sensStep {R : Type} (test : (Name → Option Tensor) → R) (g : SGroup) (shapes : Name → PShape)
    (params : Dict Name Tensor) (levels : List ℚ) (acc : Dict Name (Dict ℚ R)) (p : Name) : Except Err (Dict Name (Dict ℚ R)) := do
  let _ ← params.getE p
  let o ← sensParam test g shapes params levels p
  return (match o with
    | none => acc
    | some d => acc.set p d)

/-- `perform_sensitivity_analysis` (sensitivity.py:41-118); a parameter name which the model does not have
is a `KeyError`. -/
def sensitivityAnalysis {R : Type} (test : (Name → Option Tensor) → R) (g : SGroup) (shapes : Name → PShape)
    (params : Dict Name Tensor) (netParams : List Name) (levels : List ℚ) : Except Err (Dict Name (Dict ℚ R)) :=
  if g = .illegal then .error .value
  else netParams.foldlM (sensStep test g shapes params levels) []

end Verif
