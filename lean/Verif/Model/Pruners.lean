import Verif.Basic.Py
import Verif.Basic.Tensor
import Verif.Model.Scheduler
import Mathlib.Data.Rat.Floor
import Mathlib.Data.List.Sort
import Mathlib.Algebra.Order.Group.Abs
/-!
# Model of the element-wise pruners
(distiller/pruning/__init__.py, magnitude_pruner.py, level_pruner.py,
sensitivity_pruner.py, splicing_pruner.py, automated_gradual_pruner.py,
baidu_rnn_pruner.py)

A pruner's `set_param_mask(param, param_name, zeros_mask_dict, meta)` is modelled by
what it does to the one masker it touches: old mask in, new mask (or exception) out.
-/
namespace Verif

/-- `create_mask_threshold_criterion` (pruning/__init__.py:71-84). -/
def createMaskThreshold (t : Tensor) (thr : ℚ) : Tensor :=
  t.map fun x => if |x| > thr then 1 else 0

/-- Python's `int(q)`: truncation toward zero. -/
def pyInt (q : ℚ) : Int := if 0 ≤ q then ⌊q⌋ else ⌈q⌉

/-- `torch.topk(l, k, largest=False, sorted=True)[0]`: the `k` smallest, ascending.
torch raises when `k` is negative or exceeds the number of elements. -/
def bottomK (l : List ℚ) (k : Int) : Except Err (List ℚ) :=
  if 0 ≤ k ∧ k ≤ l.length then .ok ((l.insertionSort (· ≤ ·)).take k.toNat)
  else .error .runtime

/-- `create_mask_level_criterion` (pruning/__init__.py:87-116); `bottomk.data[-1]`
raises `IndexError` when nothing is selected. -/
def createMaskLevel (t : Tensor) (s : ℚ) : Except Err Tensor := do
  let b ← bottomK (t.map fun x => |x|) (pyInt (s * t.length))
  match b.getLast? with
  | none => .error .index
  | some thr => return createMaskThreshold t thr

/-- The key `'*'` of a settings dictionary. -/
def star : Name := ["*"]

/-! ## Magnitude and level pruners -/

/-- `MagnitudeParameterPruner.__init__` (magnitude_pruner.py:29-49). -/
def magnitudeCtor (thresholds : Dict Name ℚ) : Except Err (Dict Name ℚ) :=
  if thresholds.has star then .ok thresholds else .error .assertion

/-- `MagnitudeParameterPruner.set_param_mask` (magnitude_pruner.py:51-53);
`self.thresholds['*']` is evaluated first. -/
def magnitudeSetMask (thresholds : Dict Name ℚ) (n : Name) (w : Tensor) (_old : Option Tensor) :
    Except Err (Option Tensor) := do
  let dflt ← thresholds.getE star
  return some (createMaskThreshold w ((thresholds.get? n).getD dflt))

/-- `SparsityLevelParameterPruner.set_param_mask` (level_pruner.py:36-42). -/
def levelSetMask (levels : Dict Name ℚ) (n : Name) (w : Tensor) (old : Option Tensor) :
    Except Err (Option Tensor) :=
  let desired := (levels.get? n).getD ((levels.get? star).getD 0)
  if desired = 0 then .ok old
  else do
    let m ← createMaskLevel w desired
    return some m

/-! ## Sensitivity pruner -/

/-- A parameter tensor object together with the attributes the pruners attach to it:
`stddev` (pruning/__init__.py:132-133) and `_mean`, `_std` (splicing_pruner.py:71-74).
The attributes stay with the object while its data changes in place. -/
structure PObj where
  data : Tensor
  stddev : Option ℚ := none
  meanStd : Option (ℚ × ℚ) := none
  deriving DecidableEq, Repr

/-- `create_mask_sensitivity_criterion` (pruning/__init__.py:119-137).  `std` stands for
`torch.std`, which is irrational in general: it is an arbitrary function here. -/
def createMaskSensitivity (std : Tensor → ℚ) (p : PObj) (sens : ℚ) : PObj × Tensor :=
  let p := match p.stddev with
    | some _ => p
    | none => { p with stddev := some (std p.data) }
  (p, createMaskThreshold p.data (p.stddev.getD 0 * sens))

/-- The lookup shared by `SensitivityPruner.set_param_mask` (sensitivity_pruner.py:47-53)
and `SplicingPruner.set_param_mask` (splicing_pruner.py:45-51); `none` = `return`. -/
def sensLookup (d : Dict Name ℚ) (n : Name) : Option ℚ :=
  match d.get? n with
  | some v => some v
  | none => d.get? star

/-- `SensitivityPruner.set_param_mask` (sensitivity_pruner.py:46-55). -/
def sensitivitySetMask (std : Tensor → ℚ) (d : Dict Name ℚ) (n : Name) (p : PObj)
    (old : Option Tensor) : PObj × Option Tensor :=
  match sensLookup d n with
  | none => (p, old)
  | some s => let r := createMaskSensitivity std p s; (r.1, some r.2)

/-! ## Splicing pruner -/

/-- `SplicingPruner` configuration (splicing_pruner.py:35-42). -/
structure SplicingCfg where
  sensitivities : Dict Name ℚ
  lowMult : ℚ
  hiMult : ℚ
  sensMult : ℚ := 0

/-- `torch.mean(param.abs())`. -/
def meanAbs (t : Tensor) : ℚ := (t.map fun x => |x|).sum / t.length

/-- `SplicingPruner.create_mask` (splicing_pruner.py:68-95). -/
def splicingCreateMask (std : Tensor → ℚ) (p : PObj) (cur : Tensor) (sens low hi : ℚ) :
    PObj × Tensor :=
  let p := match p.meanStd with
    | some _ => p
    | none => { p with meanStd := some (meanAbs p.data, std (p.data.map fun x => |x|)) }
  let ms := p.meanStd.getD (0, 0)
  let tlow := (ms.1 + ms.2 * sens) * low
  let thi := (ms.1 + ms.2 * sens) * hi
  let m1 := List.zipWith (fun c x => if tlow > |x| then 0 else c) cur p.data
  let m2 := List.zipWith (fun c x => if thi ≤ |x| then 1 else c) m1 p.data
  (p, m2)

/-- `SplicingPruner.set_param_mask` (splicing_pruner.py:44-65). -/
def splicingSetMask (std : Tensor → ℚ) (cfg : SplicingCfg) (n : Name) (p : PObj)
    (starting current : Int) (old : Option Tensor) : PObj × Option Tensor :=
  match sensLookup cfg.sensitivities n with
  | none => (p, old)
  | some s =>
    let s := if cfg.sensMult > 0 then s * (((current - starting : Int) : ℚ) * cfg.sensMult + 1) else s
    let m := old.getD (p.data.map fun _ => 1)
    let r := splicingCreateMask std p m s cfg.lowMult cfg.hiMult
    (r.1, some r.2)

/-! ## Automated gradual pruning -/

/-- `AgpPruningRate.__init__` (automated_gradual_pruner.py:24-27). -/
def agpCtor (initial final : ℚ) : Except Err (ℚ × ℚ) :=
  if final > initial then .ok (initial, final) else .error .assertion

/-- `AgpPruningRate.step` (automated_gradual_pruner.py:29-37).  `freq = none` is what the
scheduler records for the `epochs=[...]` form of `add_policy`: `//` with `None` is a
`TypeError`. -/
def agpStep (initial final : ℚ) (current starting ending : Int) (freq : Option Int) :
    Except Err ℚ :=
  match freq with
  | none => .error .type
  | some f =>
    if f = 0 then .error .zeroDiv else
    let span := ((ending - starting - 1).fdiv f) * f
    if 0 < span then
      .ok (final + (initial - final) * (1 - (((current - starting : Int) : ℚ) / (span : ℚ))) ^ 3)
    else .error .assertion

/-- `AutomatedGradualPruner.set_param_mask` (automated_gradual_pruner.py:62-65, 84-90). -/
def agpSetMask (initial final : ℚ) (weights : List Name) (mt : Meta) (n : Name) (w : Tensor)
    (old : Option Tensor) : Except Err (Option Tensor) :=
  if n ∉ weights then .ok old
  else do
    let s ← agpStep initial final (mt.current.getD 0) mt.starting mt.ending mt.freq
    let m ← createMaskLevel w s
    return some m

/-! ## Baidu RNN pruner -/

/-- `BaiduRNNPruner` (baidu_rnn_pruner.py:49-67) with its cached slopes. -/
structure Baidu where
  q : ℚ
  rampOffset : Int
  slopeMult : ℚ
  slopes : Option (ℚ × ℚ) := none     -- (start_slope, ramp_slope)
  deriving DecidableEq, Repr

/-- The threshold `eps` of `BaiduRNNPruner.set_param_mask` (baidu_rnn_pruner.py:73-90). -/
def baiduEps (b : Baidu) (current starting ending freq : Int) : Baidu × Except Err ℚ :=
  let ramp := b.rampOffset + starting
  let denom := 2 * (ramp - starting) + 3 * (ending - ramp)
  if b.slopes = none ∧ denom = 0 then (b, .error .zeroDiv)
  else
    let b := match b.slopes with
      | some _ => b
      | none =>
        let ss := (2 * b.q * freq) / (denom : ℚ)
        { b with slopes := some (ss, ss * b.slopeMult) }
    let sl := b.slopes.getD (0, 0)
    if freq = 0 then (b, .error .zeroDiv)
    else if current < ramp then
      (b, .ok (sl.1 * ((current - starting + 1 : Int) : ℚ) / freq))
    else
      (b, .ok ((sl.1 * ((ramp - starting + 1 : Int) : ℚ)
                + sl.2 * ((current - ramp + 1 : Int) : ℚ)) / freq))

/-- `BaiduRNNPruner.set_param_mask` (baidu_rnn_pruner.py:69-93) for a listed parameter. -/
def baiduSetMask (b : Baidu) (w : Tensor) (current starting ending freq : Int) :
    Baidu × Except Err Tensor :=
  let r := baiduEps b current starting ending freq
  (r.1, r.2.map (createMaskThreshold w))

end Verif
