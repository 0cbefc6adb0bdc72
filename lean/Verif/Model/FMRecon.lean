import Verif.Basic.Py
import Verif.Basic.Tensor
import Mathlib.Algebra.BigOperators.Group.Finset.Basic
/-!
# Model of channel pruning with feature-map reconstruction
(distiller/pruning/ranked_structures_pruner.py:517-534, 537-728, and
examples/auto_compression/amc/utils/features_collector.py:43-82)

2D convolutions without groups.  Tensors are functions on indices together with their sizes.  The
choice of channels (`rank_channels`) is a given binary map; the regression of sklearn is a parameter.
-/
namespace Verif

/-- A `Conv2d` without groups, and the size of its input feature-maps. -/
structure FMConv where
  filters : ℕ
  channels : ℕ
  kernel : ℕ × ℕ
  stride : ℕ × ℕ
  pad : ℕ × ℕ
  dil : ℕ × ℕ
  inSize : ℕ × ℕ
  deriving DecidableEq, Repr

/-- Number of positions of a window along one dimension (PyTorch's formula for convolutions and for
`unfold`). -/
def windows (size pad dil kernel stride : ℕ) : ℕ := (size + 2 * pad - dil * (kernel - 1) - 1) / stride + 1

/-- Size of the output feature-maps. -/
def FMConv.outSize (L : FMConv) : ℕ × ℕ :=
  (windows L.inSize.1 L.pad.1 L.dil.1 L.kernel.1 L.stride.1, windows L.inSize.2 L.pad.2 L.dil.2 L.kernel.2 L.stride.2)

/-- Offsets within the kernel, row by row. -/
def FMConv.offsets (L : FMConv) : List (ℕ × ℕ) :=
  (List.range L.kernel.1).flatMap fun u => (List.range L.kernel.2).map fun v => (u, v)

/-- Input feature-maps of one batch: sample, channel, row, column. -/
abbrev FMs := ℕ → ℕ → ℕ → ℕ → ℚ

/-- Weights of a convolution: filter, channel, position in the kernel. -/
abbrev FMWeights := ℕ → ℕ → ℕ × ℕ → ℚ

/-- The input with zero padding, at a position counted from the corner of the padding. -/
def FMConv.padded (L : FMConv) (x : FMs) (b c I J : ℕ) : ℚ :=
  if L.pad.1 ≤ I ∧ I < L.pad.1 + L.inSize.1 ∧ L.pad.2 ≤ J ∧ J < L.pad.2 + L.inSize.2 then x b c (I - L.pad.1) (J - L.pad.2) else 0

/-- The convolution (PyTorch): output of filter `f` for sample `b` at row `i` and column `j`. -/
def FMConv.out (L : FMConv) (w : FMWeights) (bias : ℕ → ℚ) (x : FMs) (b f i j : ℕ) : ℚ :=
  ((List.range L.channels).map fun c => (L.offsets.map fun o =>
    w f c o * L.padded x b c (i * L.stride.1 + o.1 * L.dil.1) (j * L.stride.2 + o.2 * L.dil.2)).sum).sum + bias f

/-- One forward pass seen by the hook: batch size, input, and the sampled points (587-591). -/
structure FMBatch where
  n : ℕ
  x : FMs
  pts : List (ℕ × ℕ)

/-- `f.unfold` without dilation (582-584): the value for channel `c` and offset `o` in column `q`. -/
def FMConv.unfold (L : FMConv) (x : FMs) (b c : ℕ) (o : ℕ × ℕ) (q : ℕ) : ℚ :=
  L.padded x b c (q / windows L.inSize.2 L.pad.2 1 L.kernel.2 L.stride.2 * L.stride.1 + o.1)
    (q % windows L.inSize.2 L.pad.2 1 L.kernel.2 L.stride.2 * L.stride.2 + o.2)

/-- Number of columns of `f.unfold` (582-584). -/
def FMConv.unfoldCols (L : FMConv) : ℕ :=
  windows L.inSize.1 L.pad.1 1 L.kernel.1 L.stride.1 * windows L.inSize.2 L.pad.2 1 L.kernel.2 L.stride.2

/-- Column of the unfolded input used for a sampled point (602-603). -/
def FMConv.column (L : FMConv) (p : ℕ × ℕ) : ℕ := p.1 * L.outSize.1 + p.2

/-- The input sample for a point, by channel and offset (593-605). -/
def FMConv.inputAt (L : FMConv) (x : FMs) (b : ℕ) (p : ℕ × ℕ) (c : ℕ) (o : ℕ × ℕ) : ℚ :=
  if L.kernel = (1, 1) then x b c p.1 p.2 else L.unfold x b c o (L.column p)

/-- Whether the hook's indexing succeeds (593-605): `squeeze` removes the dimension of samples or
of columns if its size is 1, and indices must be in range. -/
def FMConv.hookOk (L : FMConv) (B : FMBatch) : Bool :=
  if L.kernel = (1, 1) then B.pts.all fun p => p.1 < L.inSize.1 ∧ p.2 < L.inSize.2
  else B.n ≠ 1 ∧ L.unfoldCols ≠ 1 ∧ B.pts.all fun p => L.column p < L.unfoldCols

/-- Rows of the regression for one batch (593-615, 686-699): input samples of the kept channels, and
outputs of all filters; rows are ordered by sample, then point. -/
def FMConv.rows (L : FMConv) (w : FMWeights) (bias : ℕ → ℚ) (kept : List ℕ) (B : FMBatch) : List (List ℚ × List ℚ) :=
  (List.range B.n).flatMap fun b => B.pts.map fun p =>
    (kept.flatMap fun c => L.offsets.map (L.inputAt B.x b p c),
     (List.range L.filters).map fun f => L.out w bias B.x b f p.1 p.2)

/-- Collection over several forward passes (features_collector.py:43-82). -/
def FMConv.collect (L : FMConv) (w : FMWeights) (bias : ℕ → ℚ) (kept : List ℕ) (Bs : List FMBatch) :
    Except Err (List (List ℚ × List ℚ)) :=
  if Bs.all L.hookOk then .ok (Bs.flatMap (L.rows w bias kept)) else .error .index

/-- The kept channels (667-673). -/
def keptChannels (map : List Bool) : List ℕ := (List.range map.length).filter fun c => map.getD c false

/-- The coefficients placed in the weights (701-716): `coef` has one list per filter. -/
def FMConv.place (L : FMConv) (kept : List ℕ) (coef : List (List ℚ)) (w : FMWeights) : FMWeights := fun f c o =>
  if c ∈ kept then (coef.getD f []).getD (kept.idxOf c * L.offsets.length + (o.1 * L.kernel.2 + o.2)) 0 else w f c o

/-- The mask (720-723) applied to weights: channels that are not kept are zero. -/
def maskChannels (kept : List ℕ) (w : FMWeights) : FMWeights := fun f c o => if c ∈ kept then w f c o else 0

/-- `rank_and_prune_channels` (645-728) followed by the application of the mask: the new weights.
`lsq` is the regression without intercept (517-522), which fails without columns or rows. -/
def FMConv.reconstruct (L : FMConv) (lsq : List (List ℚ × List ℚ) → List (List ℚ)) (map : List Bool) (w : FMWeights)
    (bias : ℕ → ℚ) (Bs : List FMBatch) : Except Err FMWeights := do
  let kept := keptChannels map
  let rows ← L.collect w bias kept Bs
  if kept = [] ∨ rows = [] then .error .value
  else return maskChannels kept (L.place kept (lsq rows) w)

end Verif
