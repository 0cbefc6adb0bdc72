import Verif.Model.Structures
import Mathlib.Data.Int.Log
import Mathlib.Algebra.Order.Floor.Ring
/-!
# Model of distiller/quantization/q_utils.py
and of the parameter computation in distiller/quantization/range_linear.py:110-222

Floats are exact rationals, `torch.round` is round-half-to-even.  Functions that torch applies
elementwise are modelled on one element; lists appear where the code reduces over a tensor.
`inplace` variants compute the same values and are not distinguished.
-/
namespace Verif

/-- `LinearQuantMode` (q_utils.py:21-25). -/
inductive QMode where
  | symmetric | symmetricRestricted | asymmetricUnsigned | asymmetricSigned
  deriving DecidableEq, Repr

/-- `is_linear_quant_mode_symmetric` (q_utils.py:28-29). -/
def QMode.isSym : QMode → Bool
  | .symmetric | .symmetricRestricted => true
  | _ => false

/-- `symmetric_linear_quantization_params` (q_utils.py:46-76) on one saturation value:
(scale, zero_point).  With `restrict` and 1 bit the code divides 0 by 0 (NaN); not modelled. -/
def symParams (numBits : ℕ) (sat : ℚ) (restrict : Bool) : Except Err (ℚ × ℚ) :=
  if sat < 0 then .error .value
  else
    let n : ℚ := if restrict then 2 ^ (numBits - 1) - 1 else (2 ^ numBits - 1) / 2
    let sat := if sat = 0 then n else sat
    .ok (n / sat, 0)

/-- `asymmetric_linear_quantization_params` (q_utils.py:79-112) on one pair of values. -/
def asymParams (numBits : ℕ) (satMin satMax : ℚ) (integralZp signed : Bool) : Except Err (ℚ × ℚ) :=
  if satMax < satMin then .error .value
  else
    let n : ℚ := 2 ^ numBits - 1
    let satMin := min satMin 0
    let satMax := max satMax 0
    let diff := satMax - satMin
    let diff := if diff = 0 then n else diff
    let scale := n / diff
    let zp := scale * satMin
    let zp := if integralZp then (roundHalfEven zp : ℚ) else zp
    let zp := if signed then zp + 2 ^ (numBits - 1) else zp
    .ok (scale, zp)

/-- `clamp` (q_utils.py:115-119), `torch.clamp`. -/
def clampQ (x lo hi : ℚ) : ℚ := min (max x lo) hi

/-- `linear_quantize` (q_utils.py:122-126). -/
def linearQuantize (x scale zp : ℚ) : ℚ := roundHalfEven (scale * x - zp)

/-- `linear_quantize_clamp` (q_utils.py:129-131). -/
def linearQuantizeClamp (x scale zp lo hi : ℚ) : ℚ := clampQ (linearQuantize x scale zp) lo hi

/-- `linear_dequantize` (q_utils.py:134-138). -/
def linearDequantize (q scale zp : ℚ) : ℚ := (q + zp) / scale

/-- `t.min()` / `t.max()` of a tensor; torch raises `RuntimeError` on an empty one. -/
def tensorMin : Tensor → Except Err ℚ
  | [] => .error .runtime
  | x :: l => .ok (l.foldl min x)
def tensorMax : Tensor → Except Err ℚ
  | [] => .error .runtime
  | x :: l => .ok (l.foldl max x)

/-- `get_tensor_min_max(t)` (q_utils.py:141-148, `per_dim = None`); per-channel use
(`per_dim = 0`) applies it to every row. -/
def tensorMinMax (t : Tensor) : Except Err (ℚ × ℚ) := do
  let lo ← tensorMin t
  let hi ← tensorMax t
  return (lo, hi)

/-- Mean of a list of numbers. -/
def meanQ (l : List ℚ) : ℚ := l.sum / l.length

/-- `get_tensor_avg_min_max(t, across_dim=0)` (q_utils.py:151-153): rows are the samples. -/
def tensorAvgMinMax (rows : List Tensor) : Except Err (ℚ × ℚ) := do
  let mm ← rows.mapM tensorMinMax
  return (meanQ (mm.map Prod.fst), meanQ (mm.map Prod.snd))

/-- `get_tensor_max_abs` (q_utils.py:156-158). -/
def tensorMaxAbs (t : Tensor) : Except Err ℚ := do
  let mm ← tensorMinMax t
  return max |mm.1| |mm.2|

/-- `get_tensor_avg_max_abs` (q_utils.py:161-163). -/
def tensorAvgMaxAbs (rows : List Tensor) : Except Err ℚ := do
  let mm ← tensorAvgMinMax rows
  return max |mm.1| |mm.2|

/-- `get_scale_approximation_shift_bits` (q_utils.py:184-188): `floor(log2((2^m - 1) / scale))`.
`Int.log 2` is the exact floor of the binary logarithm of a positive number. -/
def shiftBits (scale : ℚ) (multBits : ℕ) (limit : Bool) : ℤ :=
  let s := Int.log 2 ((2 ^ multBits - 1) / scale)
  if limit then min (multBits : ℤ) s else s

/-- `get_scale_approximation_mult` (q_utils.py:191-192). -/
def approxMult (scale : ℚ) (shift : ℤ) : ℤ := ⌊scale * 2 ^ shift⌋

/-- `approx_scale_as_mult_and_shift` (q_utils.py:201-203). -/
def approxScale (scale : ℚ) (multBits : ℕ) (limit : Bool) : ℚ :=
  let s := shiftBits scale multBits limit
  (approxMult scale s : ℚ) / 2 ^ s

/-- `get_quantized_range` (q_utils.py:285-312). -/
def quantizedRange (numBits : ℕ) (signed restrict : Bool) : ℤ × ℤ :=
  if signed then
    let qmax : ℤ := 2 ^ (numBits - 1) - 1
    let qmin : ℤ := if restrict then -qmax else -qmax - 1
    (qmin, qmax)
  else (0, 2 ^ numBits - 1)

/-- The integer range used for a mode, everywhere in range_linear.py (for example 455-458,
470-473, 759-763). -/
def modeRange (mode : QMode) (numBits : ℕ) : ℤ × ℤ :=
  quantizedRange numBits (mode ≠ .asymmetricUnsigned) (mode = .symmetricRestricted)

/-- Parameters of a mode from a range, as selected in `_get_quant_params_from_tensor`
(range_linear.py:142-154) and `_get_quant_params_from_stats_dict` (range_linear.py:192-198). -/
def modeParams (mode : QMode) (numBits : ℕ) (lo hi : ℚ) : Except Err (ℚ × ℚ) :=
  if mode.isSym then symParams numBits (max |lo| |hi|) (mode = .symmetricRestricted)
  else asymParams numBits lo hi true (mode = .asymmetricSigned)

/-- `ClipMode.NONE` / `ClipMode.AVG` of `_get_quant_params_from_tensor`
(range_linear.py:130-166). -/
inductive TensorClip where
  | none | avg
  deriving DecidableEq, Repr

/-- `_get_quant_params_from_tensor` (range_linear.py:130-166), per-tensor, clip NONE or AVG; a
tensor is the list of its rows along dimension 0.  (N_STD and the ACIQ modes need square roots or
tables and are modelled from statistics, `paramsFromStats`.) -/
def paramsFromTensor (rows : List Tensor) (numBits : ℕ) (mode : QMode) (clip : TensorClip)
    (approxBits : Option ℕ) : Except Err (ℚ × ℚ) := do
  let p ← (if mode.isSym then do
      let sat ← (match clip with
        | .none => tensorMaxAbs rows.flatten
        | .avg => tensorAvgMaxAbs rows)
      symParams numBits sat (mode = .symmetricRestricted)
    else do
      let mm ← (match clip with
        | .none => tensorMinMax rows.flatten
        | .avg => tensorAvgMinMax rows)
      asymParams numBits mm.1 mm.2 true (mode = .asymmetricSigned))
  match approxBits with
  | Option.none => return p
  | some m => return (approxScale p.1 m false, p.2)

/-- `_get_quant_params_from_tensor` with `per_channel=True` and clip NONE
(range_linear.py:130-166): parameters of every row along dimension 0. -/
def paramsPerChannel (rows : List Tensor) (numBits : ℕ) (mode : QMode) (approxBits : Option ℕ) :
    Except Err (List (ℚ × ℚ)) :=
  rows.mapM fun r => paramsFromTensor [r] numBits mode .none approxBits

/-- The calibration statistics of one tensor (keys of the stats dictionaries). -/
structure Stats where
  min : ℚ
  max : ℚ
  avgMin : ℚ
  avgMax : ℚ
  mean : ℚ
  std : ℚ
  b : ℚ
  deriving DecidableEq, Repr

/-- `ClipMode` (range_linear.py:71-80); `nStd` carries `num_stds`. -/
inductive ClipMode where
  | none | avg | nStd (n : Option ℚ) | gauss | laplace
  deriving DecidableEq, Repr

/-- The tables of `AciqClipper` (q_utils.py:210-213); a missing bit width is a `KeyError`. -/
def alphaLaplace (half : Bool) (bits : ℕ) : Except Err ℚ :=
  let tbl : List ℚ := if half then [1.86, 2.83, 3.89, 5.02, 6.2, 7.41, 8.64, 9.89, 11.16]
    else [1.05, 1.86, 2.83, 3.89, 5.03, 6.2, 7.41, 8.64, 9.89]
  match tbl[bits]? with
  | some a => .ok a
  | Option.none => .error .key
def alphaGauss (half : Bool) (bits : ℕ) : Except Err ℚ :=
  let tbl : List ℚ := if half then [1.71, 2.15, 2.55, 2.93, 3.28, 3.61, 3.92, 4.2]
    else [1.24, 1.71, 2.15, 2.55, 2.93, 3.28, 3.61, 3.92]
  if bits = 0 then .error .key
  else match tbl[bits - 1]? with
  | some a => .ok a
  | Option.none => .error .key

/-- `AciqSymmetricClipper.__call__` on a stats dictionary (q_utils.py:251-262). -/
def aciqSym (s : Stats) (laplace : Bool) (bits : ℕ) : Except Err (ℚ × ℚ) := do
  let alpha ← (if laplace then do
      let a ← alphaLaplace false bits
      return s.b * a
    else do
      let a ← alphaGauss false bits
      return s.std * a)
  let c := |s.mean| + alpha
  return (-c, c)

/-- `AciqAsymmetricClipper.__call__` on a stats dictionary (q_utils.py:270-282). -/
def aciqAsym (s : Stats) (laplace half : Bool) (bits : ℕ) : Except Err (ℚ × ℚ) := do
  let alpha ← (if laplace then do
      let a ← alphaLaplace half bits
      return s.b * a
    else do
      let a ← alphaGauss half bits
      return s.std * a)
  let lo := max s.avgMin (s.mean - alpha)
  let delta := if half then alpha else 2 * alpha
  return (lo, lo + delta)

/-- The saturation range chosen by `_get_quant_params_from_stats_dict`
(range_linear.py:170-190). -/
def satFromStats (s : Stats) (numBits : ℕ) (mode : QMode) (clip : ClipMode) (half : Bool) :
    Except Err (ℚ × ℚ) :=
  match clip with
  | .none => .ok (s.min, s.max)
  | .avg => .ok (s.avgMin, s.avgMax)
  | .nStd Option.none => .error .value
  | .nStd (some k) =>
    if k ≤ 0 then .error .value
    else .ok (max s.min (s.mean - k * s.std), min s.max (s.mean + k * s.std))
  | .gauss => if mode.isSym then aciqSym s false numBits else aciqAsym s false half numBits
  | .laplace => if mode.isSym then aciqSym s true numBits else aciqAsym s true half numBits

/-- `_get_quant_params_from_stats_dict` (range_linear.py:170-203). -/
def paramsFromStats (s : Stats) (numBits : ℕ) (mode : QMode) (clip : ClipMode) (half : Bool)
    (approxBits : Option ℕ) : Except Err (ℚ × ℚ) := do
  let r ← satFromStats s numBits mode clip half
  let p ← modeParams mode numBits r.1 r.2
  match approxBits with
  | Option.none => return p
  | some m => return (approxScale p.1 m false, p.2)

/-- `_get_clipping_values` (range_linear.py:206-222). -/
def clippingValues (scale zp : ℚ) (numBits : ℕ) (mode : QMode) : ℚ × ℚ :=
  let t : ℚ × ℚ := if mode.isSym then (-2 ^ (numBits - 1), 2 ^ (numBits - 1) - 1) else (0, 2 ^ numBits - 1)
  (linearDequantize t.1 scale zp, linearDequantize t.2 scale zp)

end Verif
