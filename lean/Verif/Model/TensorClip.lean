import Verif.Model.QUtils
/-!
# Quantization parameters computed from a tensor, all clipping modes
(distiller/quantization/range_linear.py:111-166, distiller/quantization/q_utils.py:141-282)

A tensor is the list of its rows along the first dimension.  Its standard deviation is irrational in general and is a parameter.
-/
namespace Verif

/-- `torch.mean(torch.abs(t - t.mean()))` (q_utils.py:223). -/
def tensorB (t : Tensor) : ℚ := meanQ (t.map fun x => |x - meanQ t|)

/-- `get_alpha_laplace`, `get_alpha_gauss` on a tensor (q_utils.py:220-245). -/
def aciqAlphaT (t : Tensor) (std : ℚ) (laplace half : Bool) (bits : ℕ) : Except Err ℚ :=
  if laplace then do
    let a ← alphaLaplace half bits
    return tensorB t * a
  else do
    let a ← alphaGauss half bits
    return std * a

/-- `AciqSymmetricClipper.__call__` on a tensor (q_utils.py:253-264); the caller takes the larger of the two values
(range_linear.py:146-148). -/
def aciqSymT (t : Tensor) (std : ℚ) (laplace : Bool) (bits : ℕ) : Except Err ℚ := do
  let alpha ← aciqAlphaT t std laplace false bits
  let c := |meanQ t| + alpha
  return max (-c) c

/-- `AciqAsymmetricClipper.__call__` on a tensor (q_utils.py:272-285), `across_dim=None`: the minimum of the whole tensor. -/
def aciqAsymT (t : Tensor) (std : ℚ) (laplace half : Bool) (bits : ℕ) : Except Err (ℚ × ℚ) := do
  let m ← tensorMin t
  let alpha ← aciqAlphaT t std laplace half bits
  let lo := max m (meanQ t - alpha)
  let delta := if half then alpha else 2 * alpha
  return (lo, lo + delta)

/-- `get_tensor_mean_n_stds_min_max` (q_utils.py:166-176). -/
def nStdsMinMaxT (t : Tensor) (std n : ℚ) : Except Err (ℚ × ℚ) :=
  if n ≤ 0 then .error .value
  else do
    let mm ← tensorMinMax t
    return (max mm.1 (meanQ t - n * std), min mm.2 (meanQ t + n * std))

/-- The saturation value of a symmetric mode (range_linear.py:111-127, 143-148). -/
def satSymT (rows : List Tensor) (std : ℚ) (bits : ℕ) : ClipMode → Except Err ℚ
  | .none => tensorMaxAbs rows.flatten
  | .avg => tensorAvgMaxAbs rows
  | .nStd Option.none => .error .value
  | .nStd (some n) => do
    let mm ← nStdsMinMaxT rows.flatten std n
    return max |mm.1| |mm.2|
  | .gauss => aciqSymT rows.flatten std false bits
  | .laplace => aciqSymT rows.flatten std true bits

/-- The saturation range of an asymmetric mode (range_linear.py:111-127, 151-153). -/
def satAsymT (rows : List Tensor) (std : ℚ) (bits : ℕ) (half : Bool) : ClipMode → Except Err (ℚ × ℚ)
  | .none => tensorMinMax rows.flatten
  | .avg => tensorAvgMinMax rows
  | .nStd Option.none => .error .value
  | .nStd (some n) => nStdsMinMaxT rows.flatten std n
  | .gauss => aciqAsymT rows.flatten std false half bits
  | .laplace => aciqAsymT rows.flatten std true half bits

/-- `_get_quant_params_from_tensor` for the whole tensor (range_linear.py:130-166).  A missing number of deviations raises
`UnsatisfiedRequirements` here, reported as `value`. -/
def paramsFromTensorC (rows : List Tensor) (std : ℚ) (bits : ℕ) (mode : QMode) (clip : ClipMode) (half : Bool)
    (approxBits : Option ℕ) : Except Err (ℚ × ℚ) := do
  let p ← (if mode.isSym then do
      let sat ← satSymT rows std bits clip
      symParams bits sat (mode = .symmetricRestricted)
    else do
      let mm ← satAsymT rows std bits half clip
      asymParams bits mm.1 mm.2 true (mode = .asymmetricSigned))
  match approxBits with
  | Option.none => return p
  | some m => return (approxScale p.1 m false, p.2)

/-- `_get_quant_params_from_tensor(per_channel=True)` (range_linear.py:130-166) for a matrix or a 4-D tensor: with averaged extremes
or an analytical mode the saturation value is one number, the scale has no dimension and `scale.shape[0]` raises `IndexError`
(line 158).  (The analytical asymmetric modes average the minima of the channels here; their value is not returned.) -/
def paramsPerChannelC (rows : List Tensor) (std : ℚ) (bits : ℕ) (mode : QMode) (clip : ClipMode) (half : Bool)
    (approxBits : Option ℕ) : Except Err (List (ℚ × ℚ)) :=
  match clip with
  | .none => paramsPerChannel rows bits mode approxBits
  | .nStd _ => .error .value
  | c => do
    let _ ← paramsFromTensorC rows std bits mode c half approxBits
    .error .index

end Verif
