import Verif.Model.Collectors
import Verif.Model.Scheduler
/-!
# Collecting quantization statistics: `collect_quant_stats` (distiller/data_loggers/collector.py:845-889)

A module is a number; one statistics record per module is modelled (its output; the records of its inputs are treated the
same way).  `test_fn` is a list of activations `(module, batch)`; it does not raise.
-/
namespace Verif

/-- The model as the collector sees it: the modules in the order of `named_modules`, the subtree of every named module in the order
of `apply`, and the eligible modules (`_should_collect`, collector.py:164-184). -/
structure QSModel where
  all : List ℕ
  subtree : Dict Name (List ℕ)
  eligible : ℕ → Bool

/-- The statistics records of the modules that have one (attribute `quant_stats`). -/
abbrev QSRecs := Dict ℕ QRec

/-- `_reset_counter` on all modules (collector.py:610-614). -/
def qsReset (r : QSRecs) : QSRecs := Dict.mapVals (fun _ _ => QRec.init) r

/-- The modules visited by `start(modules_list)` (collector.py:108-122); an unknown name raises `KeyError`. -/
def QSModel.visited (m : QSModel) (root : List ℕ) (sel : List Name) : Except Err (List ℕ) :=
  if sel = [] then .ok root else (sel.mapM fun n => Dict.getE m.subtree n).map List.flatten

/-- `_start_counter` on the hooked modules (collector.py:605-608). -/
def qsStart (hooks : List ℕ) (r : QSRecs) : QSRecs := hooks.foldl (fun r i => Dict.set r i QRec.init) r

/-- The callbacks of one activation (collector.py:518-603). -/
def qsFeed (upd : QRec → Batch → QRec) (hooks : List ℕ) (r : QSRecs) (e : ℕ × Batch) : QSRecs :=
  (hooks.filter (· = e.1)).foldl (fun r i => Dict.set r i (upd ((Dict.get? r i).getD QRec.init) e.2)) r

/-- `_check_required_stats` (collector.py:486-504): every eligible module of the model must have records. -/
def QSModel.check (m : QSModel) (r : QSRecs) : Except Err Unit :=
  if ∀ i ∈ m.all, m.eligible i = true → (Dict.get? r i).isSome then .ok () else .error .runtime

/-- `start_second_pass` (collector.py:506-516). -/
def qsSecond (m : QSModel) (r : QSRecs) : QSRecs :=
  Dict.mapVals (fun i q => if i ∈ m.all ∧ m.eligible i = true then q.second else q) r

/-- `collect_quant_stats` (collector.py:845-889) on a model whose modules have the records `r0` of earlier collections; `root` are
the modules visited by `model.apply`, `run1` and `run2` the activations of the two passes.  The result are the records of all
modules that have one (`value`, 102-106, 617-626). -/
def collectQuantStats (m : QSModel) (root : List ℕ) (sel : List Name) (run1 run2 : List (ℕ × Batch)) (r0 : QSRecs) :
    Except Err QSRecs := do
  let v ← m.visited root sel
  let hooks := v.filter m.eligible
  let r := run1.foldl (qsFeed QRec.update1 hooks) (qsStart hooks (qsReset r0))
  let _ ← m.check r
  return run2.foldl (qsFeed QRec.update2 hooks) (qsSecond m r)

end Verif
