import Verif.Model.Collectors
/-!
# Summaries of activations
(distiller/data_loggers/collector.py:73-99, 167-296; distiller/utils.py:411-486)
-/
namespace Verif

/-! ## The statistics of one activation -/

/-- An activation of a convolution: samples × channels × elements of the channel (`h * w`). -/
abbrev Act4 := List (List (List ℚ))

/-- The per-channel statistics. -/
inductive ChanStat where
  | l1 | mean | apoz
  deriving DecidableEq, Repr

/-- The number made of the elements of one channel of one sample, before the mean over the batch:
`norm(p=1, dim=1)` (utils.py:432), `mean(dim=1)` (459), `abs().gt(0).sum(dim=1) / (h * w)` (480). -/
def ChanStat.one : ChanStat → List ℚ → ℚ
  | .l1, v => (v.map fun x => |x|).sum
  | .mean, v => v.sum / v.length
  | .apoz, v => ((v.filter fun x => 0 < |x|).length : ℚ) / v.length

/-- The last step: `100 - m.mul(100)` for the percentage of zeros (utils.py:486), nothing for the others. -/
def ChanStat.last : ChanStat → ℚ → ℚ
  | .apoz, m => 100 - m * 100
  | _, m => m

/-- `mean(dim=0)` over the samples, for channel `c`. -/
def batchMean (st : ChanStat) (x : Act4) (c : ℕ) : ℚ := (x.map fun s => st.one (s.getD c [])).sum / x.length

/-- `activation_channels_l1/means/apoz` of a 4-D activation (utils.py:430-439, 457-466, 478-486): one number
per channel. -/
def chanSummary4 (st : ChanStat) (chans : ℕ) (x : Act4) : List ℚ := (List.range chans).map fun c => st.last (batchMean st x c)

/-- The same functions for a 2-D activation, samples × features (utils.py:434-435, 461-462, 482-483): the
statistic is taken over the features of each sample, which leaves one number. -/
def chanSummary2 (st : ChanStat) (x : List (List ℚ)) : ℚ := st.last ((x.map st.one).sum / x.length)

/-- `100 * sparsity(t)`, the summary of the `sparsity_ofm` collector (image_classifier.py:445-446). -/
def sparsityPct (t : List ℚ) : ℚ := 100 * (((t.filter fun x => x = 0).length : ℚ) / t.length)

/-! ## The meter of a module -/

/-- A `WeightedAverageValueMeter` that is given vectors (collector.py:187-206): the arithmetic is per component.
A vector of another length than before is a RuntimeError of torch (simplified: also if the length is one, where
torch would repeat the number). -/
def vecAdd (ms : Option (List WMeter)) (v : List ℚ) (n : ℚ) : Except Err (List WMeter) :=
  match ms with
  | none => if n ≤ 0 then .error .value else .ok (v.map fun x => (WMeter.init.add x n).1)
  | some ms =>
    if ms.length ≠ v.length then .error .runtime
    else if n ≤ 0 then .error .value
    else .ok (List.zipWith (fun m x => (m.add x n).1) ms v)

/-- The hook on every activation of the module (collector.py:230-237): the weight is the number of elements. -/
def summaryRun (st : ChanStat) (chans size : ℕ) (ms : Option (List WMeter)) : List Act4 → Except Err (Option (List WMeter))
  | [] => .ok ms
  | x :: xs => do
    let m ← vecAdd ms (chanSummary4 st chans x) ((x.length * (chans * size) : ℕ) : ℚ)
    summaryRun st chans size (some m) xs

/-- The hook with the fraction of zeros of whole activations, of any shapes. -/
def sparsityRun (xs : List (List ℚ)) : WMeter := xs.foldl (fun m t => (m.add (sparsityPct t) t.length).1) WMeter.init

/-! ## Which modules have the hook -/

/-- Kinds of modules for `_should_collect` (collector.py:167-184). -/
inductive AKind where
  | plain | ptq | qfunc | identity
  deriving DecidableEq, Repr

mutual
/-- A module with its fully-qualified name, whether it is an instance of the classes to monitor, and its
sub-modules.  The first sub-module of a quantization wrapper is its `wrapped_module`. -/
inductive ATree where
  | node (name : ℕ) (kind : AKind) (cls : Bool) (ch : AForest)
inductive AForest where
  | nil
  | cons (t : ATree) (r : AForest)
end

/-- The name of the module. -/
def ATree.name : ATree → ℕ
  | .node n _ _ _ => n
/-- Its kind. -/
def ATree.kind : ATree → AKind
  | .node _ k _ _ => k
/-- Is it one of the classes? -/
def ATree.cls : ATree → Bool
  | .node _ _ c _ => c
/-- Its sub-modules. -/
def ATree.ch : ATree → AForest
  | .node _ _ _ ch => ch

/-- The modules of a forest, as a list. -/
def AForest.toList : AForest → List ATree
  | .nil => []
  | .cons t r => t :: r.toList

mutual
/-- `model.modules()`. -/
def ATree.all : ATree → List ATree
  | .node n k c ch => .node n k c ch :: ch.all
def AForest.all : AForest → List ATree
  | .nil => []
  | .cons t r => t.all ++ r.all
end

/-- `_dont_collect_list` (collector.py:98-99). -/
def ATree.wrappedNames (root : ATree) : List ℕ :=
  (root.all.filter fun t => t.kind = .ptq).flatMap fun t => (t.ch.toList.take 1).map ATree.name

/-- `_should_collect` (collector.py:167-184); `anyClass`: no classes were given. -/
def shouldCollect (skip : List ℕ) (anyClass : Bool) (t : ATree) : Bool :=
  if skip.contains t.name then false
  else if !t.ch.toList.isEmpty && !(t.kind = .ptq || t.kind = .qfunc) then false
  else if t.kind = .identity then false
  else anyClass || t.cls

/-- The modules with a hook after `start` (collector.py:124-131). -/
def ATree.hooked (root : ATree) (anyClass : Bool) : List ATree := root.all.filter (shouldCollect root.wrappedNames anyClass)

/-! ## The collectors of several phases -/

/-- The counters of a module, by name of the statistic: an attribute of the module (collector.py:251-259), so
collectors with the same name share it.  `phase reads` of what it was last given since the last reset. -/
structure PhaseRun where
  /-- the collector's statistic name -/
  stat : ℕ
  /-- activations seen by the module while the collector is active -/
  data : List (List ℚ)

/-- `with collectors_context(...)` once per phase, in order (collector.py:964-974, image_classifier.py:127-170): the
counter of that name is reset, then fed. -/
def phases (counters : ℕ → WMeter) (runs : List PhaseRun) : ℕ → WMeter :=
  runs.foldl (fun cs r => fun k => if k = r.stat then sparsityRun r.data else cs k) counters

end Verif
