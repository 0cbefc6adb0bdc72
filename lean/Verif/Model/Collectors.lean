import Verif.Basic.Py
import Verif.Basic.Tensor
import Verif.Model.QUtils
import Mathlib.Algebra.Order.Floor.Ring
import Mathlib.Data.Rat.Floor
import Mathlib.Algebra.Order.AbsoluteValue.Basic
/-!
# Model of the activation statistics collectors: distiller/data_loggers/collector.py

A batch is the list of its samples, each sample flattened (`act = tensor.view(tensor.size(0), -1)`).
Arithmetic is exact.
-/
namespace Verif

abbrev Batch := List Tensor

/-- `sys.float_info.max`. -/
def fltMax : ℚ := ((2 ^ 1024 - 2 ^ 971 : ℕ) : ℤ)

/-- `t.min()` / `t.max()` of a non-empty tensor (0 for the empty one, which torch rejects). -/
def minL : Tensor → ℚ
  | [] => 0
  | a :: l => l.foldl min a
def maxL : Tensor → ℚ
  | [] => 0
  | a :: l => l.foldl max a

/-- One statistics record (collector.py:394-409).  The field `var` stands for the square of the
stored `std` (`update_std` squares the stored value first and takes the root last). -/
structure QRec where
  min : ℚ
  max : ℚ
  avgMin : ℚ
  avgMax : ℚ
  mean : ℚ
  var : ℚ
  b : ℚ
  total : ℕ
  deriving DecidableEq, Repr

/-- `create_records_dict` (collector.py:395-403). -/
def QRec.init : QRec := ⟨fltMax, -fltMax, 0, 0, 0, 0, 0, 0⟩

/-- `update_running_mean` (collector.py:525-535). -/
def runMean (values : Tensor) (prev : ℚ) (n : ℕ) : ℚ :=
  (n * prev + values.sum) / (n + values.length)

/-- `min_per_sample` (collector.py:573-575): over the whole batch if every sample is one value. -/
def minPerSample (x : Batch) : Tensor :=
  if x.flatten.length = x.length then [minL x.flatten] else x.map minL

/-- `max_per_sample` (collector.py:576). -/
def maxPerSample (x : Batch) : Tensor :=
  if x.flatten.length = x.length then [maxL x.flatten] else x.map maxL

/-- `update_record`, first pass (collector.py:567-583). -/
def QRec.update1 (r : QRec) (x : Batch) : QRec :=
  let mn := minPerSample x
  let mx := maxPerSample x
  { r with
    min := Min.min r.min (minL mn)
    max := Max.max r.max (maxL mx)
    avgMin := runMean mn r.avgMin r.total
    avgMax := runMean mx r.avgMax r.total
    mean := runMean x.flatten r.mean r.total
    total := r.total + x.flatten.length }

/-- `update_record`, second pass (collector.py:561-565): `update_b` and `update_std`. -/
def QRec.update2 (r : QRec) (x : Batch) : QRec :=
  { r with
    b := runMean (x.flatten.map fun v => |v - r.mean|) r.b r.total
    var := runMean (x.flatten.map fun v => (v - r.mean) ^ 2) r.var r.total
    total := r.total + x.flatten.length }

/-- `start_second_pass` on one record (collector.py:506-516). -/
def QRec.second (r : QRec) : QRec := { r with total := 0 }

/-! ## `WeightedAverageValueMeter` (collector.py:187-208) -/

/-- Meter state; `var = none` stands for infinity (after the first value) or NaN (initially). -/
structure WMeter where
  n : ℚ
  sum : ℚ
  mean : ℚ
  ms : ℚ
  var : Option ℚ
  deriving DecidableEq, Repr

/-- torchnet's `AverageValueMeter.reset` (the initial mean is NaN, 0 here; it is never read). -/
def WMeter.init : WMeter := ⟨0, 0, 0, 0, none⟩

/-- `add` (collector.py:192-208).  On a non-positive weight the exception is raised after `sum` was
updated: the new state is returned together with the outcome. -/
def WMeter.add (m : WMeter) (value n : ℚ) : WMeter × Except Err Unit :=
  let m1 := { m with sum := m.sum + value * n }
  if n ≤ 0 then (m1, .error .value)
  else if m.n = 0 then ({ m1 with mean := value, ms := 0, var := none, n := m.n + n }, .ok ())
  else
    let mean := m.mean + n * (value - m.mean) / (m.n + n)
    let ms := m.ms + n * (value - m.mean) * (value - mean)
    ({ m1 with mean := mean, ms := ms, var := some (ms / (m.n + n - 1)), n := m.n + n }, .ok ())

/-! ## `RecordsActivationStatsCollector` (collector.py:330-358) -/

/-- The lists recorded per module (standard deviation and L2 norm are handled alike and left out). -/
structure ARec where
  min : List ℚ
  max : List ℚ
  mean : List ℚ
  deriving DecidableEq, Repr

/-- `_activation_stats_cb` of the records collector. -/
def ARec.update (r : ARec) (x : Batch) : ARec :=
  ⟨r.min ++ x.map minL, r.max ++ x.map maxL, r.mean ++ x.map fun s => s.sum / (s.length : ℚ)⟩

/-! ## `ActivationHistogramsCollector` (collector.py:700-718) -/

/-- Bin of a value in `torch.histc(t, bins, lo, hi)` for `lo < hi`: equal-width bins, the last one
closed; values outside are ignored. -/
def histBin (nbins : ℕ) (lo hi x : ℚ) : Option ℕ :=
  if x < lo ∨ hi < x then none
  else
    let k := ⌊(x - lo) * nbins / (hi - lo)⌋.toNat
    some (if k = nbins then nbins - 1 else k)

/-- `torch.histc`. -/
def histc (nbins : ℕ) (lo hi : ℚ) (t : Tensor) : List ℕ :=
  (List.range nbins).map fun k => t.countP fun x => histBin nbins lo hi x = some k

/-- `get_hist` (collector.py:702-708). -/
def getHist (nbins : ℕ) (lo hi : ℚ) (t : Tensor) : List ℕ := histc nbins lo hi (t.map fun x => clampQ x lo hi)

/-- `module.output_hist += curr_hist` (collector.py:716-718). -/
def histAdd (h : List ℕ) (nbins : ℕ) (lo hi : ℚ) (t : Tensor) : List ℕ :=
  List.zipWith (· + ·) h (getHist nbins lo hi t)

/-- `_reset` (collector.py:720-723). -/
def histInit (nbins : ℕ) : List ℕ := List.replicate nbins 0

/-- Centre of bin `k` (collector.py:737-741): `linspace(lo + w/2, hi - w/2, nbins)` (for `nbins ≥ 2`). -/
def binCentroid (nbins : ℕ) (lo hi : ℚ) (k : ℕ) : ℚ :=
  let w := (hi - lo) / nbins
  (lo + w / 2) + k * (((hi - w / 2) - (lo + w / 2)) / (nbins - 1))

/-! ## Life cycle of a collector: hooks (collector.py:108-147, 954-961) -/

/-- State of one collector: which modules have its forward hook (a module visited twice has it twice),
and the data seen by each module. -/
structure CState (δ : Type) where
  hooks : List ℕ
  seen : Dict ℕ (List δ)

/-- How `_start_counter` treats what a module already has: `QuantCalibration` and histograms start
afresh, summary and records collectors keep it (collector.py:241-243, 380-382, 605-608, 725-726). -/
inductive CKind where
  | fresh | keeps
  deriving DecidableEq, Repr

variable {δ : Type}

/-- `start_module` (collector.py:124-131) on an eligible module. -/
def CState.startModule (k : CKind) (s : CState δ) (i : ℕ) : CState δ :=
  ⟨s.hooks ++ [i], match k with
    | .fresh => s.seen.set i []
    | .keeps => if s.seen.has i then s.seen else s.seen.set i []⟩

/-- `start` (collector.py:108-122): `visit` are the modules visited by `apply`, in order. -/
def CState.start (k : CKind) (eligible : ℕ → Bool) (visit : List ℕ) (s : CState δ) : Except Err (CState δ) :=
  if s.hooks ≠ [] then .error .assertion
  else .ok ((visit.filter eligible).foldl (CState.startModule k) s)

/-- `stop` (collector.py:133-139). -/
def CState.stop (s : CState δ) : CState δ := { s with hooks := [] }

/-- `reset` (collector.py:141-144): every module that has a counter. -/
def CState.reset (s : CState δ) : CState δ := { s with seen := s.seen.mapVals fun _ _ => [] }

/-- Forward pass of module `i` with data `d`: every registered hook of the module is called. -/
def CState.forward (s : CState δ) (e : ℕ × δ) : CState δ :=
  (s.hooks.filter (· = e.1)).foldl
    (fun s i => { s with seen := s.seen.set i ((s.seen.get? i).getD [] ++ [e.2]) }) s

/-- `with collector_context(c): body` (collector.py:954-961): `body` performs forward passes and may
raise; there is no `finally`, so `stop` is only reached when it does not. -/
def CState.context (k : CKind) (eligible : ℕ → Bool) (visit : List ℕ) (body : List (ℕ × δ)) (raises : Bool)
    (s : CState δ) : Except Err (CState δ × Bool) := do
  let s ← s.reset.start k eligible visit
  let s := body.foldl CState.forward s
  if raises then return (s, true) else return (s.stop, false)

end Verif
