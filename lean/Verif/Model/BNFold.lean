import Verif.Basic.Py
import Mathlib.Algebra.Field.Basic
import Mathlib.Algebra.BigOperators.Group.List.Basic
/-!
# Model of batch-norm folding
distiller/quantization/sim_bn_fold.py, distiller/model_transforms.py and the folded weights of
distiller/policy.py:143-165.

Generic over a field `K` (think of ℝ): `sig v` stands for `sqrt(v + eps)` and `torch.rsqrt` is its
reciprocal.  A linear or convolution layer is, per output channel, the dot product of the weights
with the input patch of an output position.  `param_quant_fn` is `None` (no quantization).
-/
namespace Verif
variable {K : Type} [Field K]

/-- Dot product. -/
def dotK (w x : List K) : K := (List.zipWith (· * ·) w x).sum

/-- One channel of the layer and of the batch-norm following it; without affine parameters
`gamma = 1`, `beta = 0` (sim_bn_fold.py:246-251). -/
structure BNChan (K : Type) where
  w : List K
  b : Option K
  gamma : K
  beta : K
  rmean : K
  rvar : K

/-- The module: channels, `bn.num_batches_tracked`, `frozen`. -/
structure SimBN (K : Type) where
  chans : List (BNChan K)
  nbt : ℕ
  frozen : Bool

/-- The wrapped layer alone on one patch. -/
def BNChan.layer (c : BNChan K) (x : List K) : K := dotK c.w x + c.b.getD 0

/-- `freeze` on one channel (sim_bn_fold.py:231-242). -/
def BNChan.fold (sig : K → K) (c : BNChan K) : BNChan K :=
  let recip := 1 / sig c.rvar
  { c with
    w := c.w.map (· * (c.gamma * recip))
    b := some (c.beta - c.gamma * (c.rmean - c.b.getD 0) * recip) }

/-- `freeze` (sim_bn_fold.py:231-242). -/
def SimBN.freeze (sig : K → K) (s : SimBN K) : SimBN K :=
  { s with chans := s.chans.map (BNChan.fold sig), frozen := true }

/-- `forward` in evaluation mode (sim_bn_fold.py:118-131) on one patch, all channels. -/
def SimBN.evalForward (sig : K → K) (s : SimBN K) (x : List K) : List K :=
  s.chans.map fun c =>
    if s.frozen then dotK c.w x + c.b.getD 0
    else
      let recip := 1 / sig c.rvar
      dotK (c.w.map (· * (c.gamma * recip))) x + (c.beta - c.gamma * (c.rmean - c.b.getD 0) * recip)

/-- Mean of the values of a channel over the batch. -/
def meanK (l : List K) : K := l.sum / l.length

/-- Biased variance (`var(1, unbiased=False)`, sim_bn_fold.py:192). -/
def varK (l : List K) : K := meanK (l.map fun y => (y - meanK l) * (y - meanK l))

/-- Update of the running statistics in `batch_stats` (sim_bn_fold.py:195-207); `mom` is the momentum
after the `None` case has been replaced by `1/num_batches_tracked`. -/
def BNChan.track (mom : K) (ys : List K) (c : BNChan K) : BNChan K :=
  let n : K := ys.length
  { c with
    rmean := c.rmean * (1 - mom) + mom * (meanK ys + c.b.getD 0)
    rvar := c.rvar * (1 - mom) + mom * (varK ys * (n / (n - 1))) }

/-- `forward` in training mode (sim_bn_fold.py:101-131, 165-213) on a batch of patches: new state and
outputs per patch.  `batch_stats` may freeze the module: the weights are then scaled in place, and
`w` in `forward` denotes the scaled weights from there on. -/
def SimBN.trainForward (sig : K → K) (momentum : Option K) (delay : ℕ) (s : SimBN K) (xs : List (List K)) :
    SimBN K × List (List K) :=
  if s.frozen then (s, xs.map fun x => s.chans.map fun c => dotK c.w x + c.b.getD 0)
  else
    let nbt := s.nbt + 1
    let mom : K := momentum.getD (1 / (nbt : K))
    let stats := s.chans.map fun c =>
      let ys := xs.map (dotK c.w)
      (meanK ys, varK ys)
    let tracked : SimBN K := ⟨s.chans.map fun c => c.track mom (xs.map (dotK c.w)), nbt, false⟩
    let s' := if delay < nbt then tracked.freeze sig else tracked
    let out := xs.map fun x => (List.zip s'.chans stats).map fun cs =>
      let c := cs.1
      let mean := cs.2.1
      let recipB := 1 / sig cs.2.2
      let sigR := sig c.rvar
      dotK (c.w.map (· * (c.gamma / sigR))) x * (sigR * recipB) + (c.beta - c.gamma * mean * recipB)
    (s', out)

/-- Folded weights used for ranking by `PruningPolicy._fold_batchnorm` (policy.py:151-165). -/
def policyFold (sig : K → K) (c : BNChan K) : List K := c.w.map (· * (c.gamma / sig c.rvar))

/-! ## `fuse_modules` (model_transforms.py:31-99) -/

/-- One entry of the adjacency map: name, whether it is a module of the model, the positions `i` of
the type sequence for which it is an instance of `types_sequence[i]`, names of its successors. -/
structure FNode where
  name : String
  isModule : Bool
  types : List ℕ
  succs : List String
  deriving DecidableEq, Repr

/-- Loop state: `in_sequence_idx`, `curr_sequence`, and the sequences handed to `_fuse_sequence`. -/
structure FState where
  idx : ℕ
  seq : List FNode
  out : List (List FNode)
  deriving DecidableEq, Repr

/-- One iteration (model_transforms.py:77-98); `n` is `len(types_sequence)`. -/
def FState.step (n : ℕ) (s : FState) (node : FNode) : FState :=
  if node.isModule = false then ⟨0, [], s.out⟩
  else if s.idx ∈ node.types then
    if s.idx + 1 = n then ⟨0, [], s.out ++ [s.seq ++ [node]]⟩
    else if 1 < node.succs.length then ⟨0, [], s.out⟩
    else ⟨s.idx + 1, s.seq ++ [node], s.out⟩
  else if 0 ∈ node.types then ⟨1, [node], s.out⟩
  else ⟨0, [], s.out⟩

/-- The sequences `fuse_modules` fuses. -/
def fusedSequences (n : ℕ) (nodes : List FNode) : List (List FNode) :=
  (nodes.foldl (FState.step n) ⟨0, [], []⟩).out

end Verif
