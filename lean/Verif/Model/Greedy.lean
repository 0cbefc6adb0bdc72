import Mathlib.Data.Rat.Defs
import Verif.Model.Scheduler
/-!
# Greedy filter pruning (`distiller/pruning/greedy_filter_pruning.py`)

Modelled: `find_most_robust_layer` (119-142) and the loop of `greedy_pruner` (266-330).  Training,
testing, filter removal and the MACs of a model are parameters.  Accuracies and losses are
rationals (no NaN).  `M` is the type of models.
-/
namespace Verif

/-- What `prune_finetune_test` (86-116) yields for one layer, and the pruned copy. -/
structure GRes (M : Type) where
  prec1 : Rat
  prec5 : Rat
  loss : Rat
  model : M
  deriving DecidableEq, Repr

/-- Python's tuple comparison `(prec1, prec5, -loss) > (best1, best5, -best_loss)`
(greedy_filter_pruning.py:138): the first differing component decides. -/
def keyGt {M : Type} (a b : GRes M) : Bool :=
  if a.prec1 ≠ b.prec1 then decide (a.prec1 > b.prec1)
  else if a.prec5 ≠ b.prec5 then decide (a.prec5 > b.prec5)
  else decide (-a.loss > -b.loss)

/-- One iteration of the loop over the tensors (129-141).  `best = none` is the initial tuple of
infinities, which every result beats. -/
def robustStep {M : Type} (dim : Dict Name Nat) (eval : Name → GRes M) (best : Option (Name × GRes M)) (n : Name) :
    Except Err (Option (Name × GRes M)) :=
  match dim.get? n with
  | none => .error .key
  | some d =>
    if d ≠ 4 then .ok best
    else
      match best with
      | none => .ok (some (n, eval n))
      | some b => if keyGt (eval n) b.2 then .ok (some (n, eval n)) else .ok (some b)

/-- `find_most_robust_layer` (119-142): `dim` are the dimensions of the tensors of
`model.state_dict()`, `names` the tensors to try, `eval` prunes, fine-tunes and tests a copy.  The
result `none` is the tuple with `None` for the layer and the model. -/
def findMostRobust {M : Type} (dim : Dict Name Nat) (names : List Name) (eval : Name → GRes M) :
    Except Err (Option (Name × GRes M)) :=
  names.foldlM (robustStep dim eval) none

/-- What a run of `greedy_pruner` leaves: the models saved after each iteration, in order, the model
it holds at the end, whether the `while` loop was left through its condition, and what the function
raised (`none`: it returned). -/
structure GreedyEnd (M : Type) where
  saved : List M
  model : M
  leftLoop : Bool
  raised : Option Err

/-- The `while` loop (294-317) with `fuel` more iterations allowed; `none`: still running.
`pick i m` is `find_most_robust_layer`'s model in iteration `i` (`none` when no tensor qualified; the
`None` model then raises in `get_model_compute_budget`, AttributeError).  After the loop (319-325):
the assertion, the test, and `create_scheduler(pruned_model, zeros_mask_dict)` where the variable was
deleted by line 316, `UnboundLocalError`. -/
def greedyLoop {M : Type} (macs : M → Nat) (frac : Rat) (dense : Nat) (pick : Nat → M → Except Err (Option M)) :
    Nat → Nat → M → List M → Option (GreedyEnd M)
  | fuel, it, m, saved =>
    if frac * dense < macs m then
      match fuel with
      | 0 => none
      | fuel + 1 =>
        match pick (it + 1) m with
        | .error e => some ⟨saved, m, false, some e⟩
        | .ok none => some ⟨saved, m, false, some .attribute⟩
        | .ok (some m') => greedyLoop macs frac dense pick fuel (it + 1) m' (saved ++ [m'])
    else if it = 0 then some ⟨saved, m, true, some .assertion⟩
    else some ⟨saved, m, true, some .name⟩

/-- `greedy_pruner` (266-330). -/
def greedyPruner {M : Type} (macs : M → Nat) (frac : Rat) (pick : Nat → M → Except Err (Option M)) (fuel : Nat) (m : M) :
    Option (GreedyEnd M) :=
  greedyLoop macs frac (macs m) pick fuel 0 m []

end Verif
