import Verif.Basic.Py
import Mathlib.Data.Rat.Floor
import Mathlib.Algebra.Order.Ring.Rat
import Mathlib.Data.Prod.Lex
import Mathlib.Data.List.Sort
import Mathlib.Algebra.BigOperators.Group.List.Basic
/-!
# Model of training support: learning-rate schedules, performance tracking, data-set splitting

distiller/learning_rate.py, distiller/policy.py (LRPolicy), distiller/apputils/performance_tracker.py,
distiller/apputils/data_loaders.py
-/
namespace Verif

/-! ## Learning rate (learning_rate.py) -/

/-- CPython's `bisect.bisect_right`: binary search between `lo` and `hi`; the first argument bounds the
number of iterations. -/
def bisectGo (a : List ℤ) (x : ℤ) : ℕ → ℕ → ℕ → ℕ
  | 0, lo, _ => lo
  | f + 1, lo, hi =>
    if lo < hi then
      let mid := (lo + hi) / 2
      if x < a.getD mid 0 then bisectGo a x f lo mid else bisectGo a x f (mid + 1) hi
    else lo

def bisectRight (a : List ℤ) (x : ℤ) : ℕ := bisectGo a x a.length 0 a.length

/-- `multiplicative_gammas` (learning_rate.py:60-62). -/
def multGammas (gammas : List ℚ) : List ℚ :=
  gammas.foldl (fun acc g => acc ++ [g * acc.getLastD 1]) [1]

/-- `MultiStepMultiGammaLR`: milestones and the products. -/
structure MultiStep where
  milestones : List ℤ
  mult : List ℚ
  deriving DecidableEq, Repr

/-- `MultiStepMultiGammaLR.__init__` (learning_rate.py:52-64); `sorted(m) == m` is spelled as "every
entry at most the next". -/
def MultiStep.new (milestones : List ℤ) (gammas : List ℚ) : Except Err MultiStep :=
  if ¬ milestones.IsChain (· ≤ ·) then .error .value
  else if milestones.length ≠ gammas.length then .error .value
  else .ok ⟨milestones, multGammas gammas⟩

/-- `MultiStepMultiGammaLR.get_lr` (learning_rate.py:66-68) for one base rate. -/
def MultiStep.lr (s : MultiStep) (base : ℚ) (epoch : ℤ) : ℚ :=
  base * s.mult.getD (bisectRight s.milestones epoch) 0

/-- `PolynomialLR.get_lr` (learning_rate.py:36-40) for one base rate and a natural power. -/
def polyLR (base : ℚ) (tMax : ℤ) (power : ℕ) (epoch : ℤ) : ℚ := base * (1 - epoch / tMax) ^ power

/-- An optimizer parameter group: current rate and `initial_lr`. -/
structure OptGroup where
  lr : ℚ
  initial : Option ℚ
  deriving DecidableEq, Repr

/-- torch's `_LRScheduler.__init__` and `step(epoch)`: with `last_epoch = -1` the initial rate is taken
from the group, otherwise it must be there (KeyError); then the rate of `last_epoch + 1` is set.
`f base e` is the schedule's `get_lr`. -/
def lrConstruct (f : ℚ → ℤ → ℚ) (last : ℤ) (g : OptGroup) : Except Err OptGroup :=
  if last = -1 then
    let b := g.initial.getD g.lr
    .ok ⟨f b (last + 1), some b⟩
  else
    match g.initial with
    | none => .error .key
    | some b => .ok ⟨f b (last + 1), some b⟩

/-- `LRPolicy.on_epoch_end` (policy.py:308-315) at epoch `e`, when the policy is active. -/
def lrEpochEnd (f : ℚ → ℤ → ℚ) (active : ℤ → Bool) (g : OptGroup) (e : ℤ) : OptGroup :=
  if active e then ⟨f (g.initial.getD 0) (e + 1), g.initial⟩ else g

/-! ## Performance tracker (performance_tracker.py) -/

/-- One entry of the history: `params_nnz_cnt` holds the negated number of non-zero parameters. -/
structure Perf where
  nnzNeg : ℚ
  top1 : ℚ
  top5 : ℚ
  epoch : ℤ
  deriving DecidableEq, Repr

/-- The sort key (performance_tracker.py:66-68): Python compares the tuples lexicographically. -/
def Perf.key (p : Perf) : ℚ ×ₗ ℚ ×ₗ ℚ ×ₗ ℤ := toLex (p.nnzNeg, toLex (p.top1, toLex (p.top5, p.epoch)))

/-- `TrainingPerformanceTracker` (performance_tracker.py:26-45). -/
structure Tracker where
  history : List Perf
  maxLen : ℕ
  deriving DecidableEq, Repr

/-- `SparsityAccuracyTracker.step` (performance_tracker.py:56-68): `sort(key, reverse=True)` is a stable sort by
decreasing key (insertion sort here: all stable sorts agree). -/
def Tracker.step (t : Tracker) (p : Perf) : Tracker :=
  { t with history := (t.history ++ [p]).insertionSort fun a b => b.key ≤ a.key }

/-- `best_scores` (performance_tracker.py:40-45). -/
def Tracker.best (t : Tracker) (howMany : ℤ) : List Perf :=
  let k := if howMany < 1 then t.maxLen else howMany.toNat
  t.history.take (min k t.maxLen)

/-! ## Data sets (data_loaders.py) -/

/-- `__split_list` (data_loaders.py:225-227) for a ratio in `[0, 1]`. -/
def splitList (l : List ℕ) (ratio : ℚ) : List ℕ × List ℕ :=
  let k := ⌊ratio * l.length⌋.toNat
  (l.take k, l.drop k)

/-- `_get_subset_length` (data_loaders.py:270-273). -/
def subsetLength (src : List ℕ) (eff : ℚ) : Except Err ℕ :=
  if eff ≤ 0 ∨ 1 < eff then .error .value else .ok ⌊src.length * eff⌋.toNat

/-- The data-set indices delivered in one enumeration by `SwitchingSubsetRandomSampler`
(data_loaders.py:240-248); `perm` is what `torch.randperm(len(data_source))` returned. -/
def switchingEpoch (src perm : List ℕ) (eff : ℚ) : Except Err (List ℕ) := do
  let n ← subsetLength src eff
  return (perm.take n).map fun i => src.getD i 0

/-- The data-set indices delivered with `fixed_subset=True` (data_loaders.py:277-284), up to the order
in which the sampler delivers them; `perm` is `np.random.permutation(len(data_source))`. -/
def fixedEpoch (src perm : List ℕ) (eff : ℚ) : Except Err (List ℕ) := do
  let n ← subsetLength src eff
  return perm.take n

/-- Indices delivered by the training and the validation loader in one epoch of `get_data_loaders`
(data_loaders.py:308-332).  `shuffled` is `range(num_train)` after shuffling. -/
def loaderIndices (fixed : Bool) (shuffled : List ℕ) (split effT effV : ℚ) (permT permV : List ℕ) :
    Except Err (List ℕ × List ℕ) := do
  let vt := splitList shuffled split
  let sample := if fixed then fixedEpoch else switchingEpoch
  let t ← sample vt.2 permT effT
  let v ← (if vt.1 = [] then .ok [] else sample vt.1 permV effV)
  return (t, v)

end Verif
