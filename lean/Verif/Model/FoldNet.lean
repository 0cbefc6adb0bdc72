import Verif.Model.BNFold
import Mathlib.Logic.Function.Basic
/-!
# Model of folding all batch-norms of a model
(distiller/model_transforms.py:102-166, distiller/quantization/sim_bn_fold.py:27-88, 118-131, 231-251)

`fold_batch_norms` looks for convolution or linear modules followed by batch-norms in the traced graph
(`fusedSequences`, Model/BNFold), folds each pair, and puts `nn.Identity` in the place of the batch-norm.
Generic over a field `K`; `sig v` stands for `sqrt(v + eps)`.
-/
namespace Verif
variable {K : Type} [Field K]

/-- An activation: channel and position (sample and pixel) to value. -/
abbrev FVal (K : Type) := ℕ → ℕ → K

/-- Classes of parameter layers that can be folded (model_transforms.py:132). -/
inductive FoldKind where
  | linear | conv1d | conv2d | conv3d
  deriving DecidableEq, Repr

/-- Classes of batch-norms (model_transforms.py:133). -/
inductive NormKind where
  | bn1d | bn2d | bn3d | frozen2d
  deriving DecidableEq, Repr

/-- A layer: `geom c p x` is the patch of the input that output channel `c` reads at position `p`
(kernel, stride, padding, dilation, groups), `w c` the weights of the channel. -/
structure FoldLayer (K : Type) where
  kind : FoldKind
  geom : ℕ → ℕ → FVal K → List K
  w : ℕ → List K
  b : Option (ℕ → K)

/-- A batch-norm; without affine parameters `gamma = 1`, `beta = 0`.  `batch` is what a batch-norm that does
not track statistics computes (from the statistics of its input). -/
structure FoldNorm (K : Type) where
  kind : NormKind
  tracks : Bool
  gamma : ℕ → K
  beta : ℕ → K
  mean : ℕ → K
  var : ℕ → K
  batch : FVal K → FVal K

/-- A module of `named_modules()`. -/
inductive FoldMod (K : Type) where
  | layer (l : FoldLayer K)
  | bn (n : FoldNorm K)
  | sim (l : FoldLayer K) (n : FoldNorm K)
  | identity
  | other (f : List (FVal K) → FVal K)

/-- Forward of a layer. -/
def FoldLayer.fwd (l : FoldLayer K) (x : FVal K) : FVal K :=
  fun c p => dotK (l.w c) (l.geom c p x) + (l.b.map (· c)).getD 0

/-- Channel `c` of a layer and its batch-norm, as in `SimBN`. -/
def foldChan (l : FoldLayer K) (n : FoldNorm K) (c : ℕ) : BNChan K :=
  ⟨l.w c, l.b.map (· c), n.gamma c, n.beta c, n.mean c, n.var c⟩

/-- Forward of a batch-norm in evaluation mode (torch). -/
def FoldNorm.fwd (sig : K → K) (n : FoldNorm K) (x : FVal K) : FVal K :=
  if n.tracks then fun c p => n.gamma c * ((x c p - n.mean c) / sig (n.var c)) + n.beta c else n.batch x

/-- `freeze` (sim_bn_fold.py:231-242) on the layer. -/
def FoldLayer.folded (sig : K → K) (l : FoldLayer K) (n : FoldNorm K) : FoldLayer K :=
  { l with
    w := fun c => ((foldChan l n c).fold sig).w
    b := some fun c => ((foldChan l n c).fold sig).b.getD 0 }

/-- Forward of `SimulatedFoldedBatchNorm` in evaluation mode (sim_bn_fold.py:118-131). -/
def simFwd (sig : K → K) (l : FoldLayer K) (n : FoldNorm K) (x : FVal K) : FVal K :=
  fun c p => (SimBN.evalForward sig ⟨[foldChan l n c], 0, false⟩ (l.geom c p x)).headD 0

/-- Forward of a module in evaluation mode. -/
def FoldMod.fwd (sig : K → K) (m : FoldMod K) (xs : List (FVal K)) : FVal K :=
  match m with
  | .layer l => l.fwd (xs.headD 0)
  | .bn n => n.fwd sig (xs.headD 0)
  | .sim l n => simFwd sig l n (xs.headD 0)
  | .identity => xs.headD 0
  | .other f => f xs

/-- `SimulatedFoldedBatchNorm.verify_module_types` (sim_bn_fold.py:73-88). -/
def kindsMatch : FoldKind → NormKind → Bool
  | .linear, .bn1d => true
  | .conv1d, .bn1d => true
  | .conv2d, .bn2d => true
  | .conv3d, .bn3d => true
  | _, _ => false

/-- `fold_bn` (model_transforms.py:119-130) with the constructor of `SimulatedFoldedBatchNorm`
(sim_bn_fold.py:38-47): torchvision's `FrozenBatchNorm2d` has no attribute `track_running_stats`; only
ValueError is caught. -/
def foldBn (sig : K → K) (inference : Bool) (l : FoldLayer K) (n : FoldNorm K) : Except Err (Option (FoldMod K)) :=
  if n.kind = .frozen2d then
    if l.kind = .conv2d then .error .attribute else .error .type
  else if kindsMatch l.kind n.kind = false then .error .type
  else if n.tracks = false then .ok none
  else if inference then .ok (some (.layer (l.folded sig n)))
  else .ok (some (.sim l n))

/-- One operation of the traced model: name, module called (`none`: functional), wires. -/
structure FOp where
  name : String
  mod : Option String
  ins : List ℕ
  out : ℕ
  deriving DecidableEq, Repr

/-- The positions of `(foldables, batchnorms)` of which the module is an instance. -/
def FoldMod.types : FoldMod K → List ℕ
  | .layer _ => [0]
  | .bn _ => [1]
  | _ => []

/-- The entry of the adjacency map for an operation (summary_graph.py:512-547) with what `fuse_modules`
asks about the module of that name (model_transforms.py:77-92). -/
def foldNode (mods : Dict String (FoldMod K)) (P : List FOp) (o : FOp) : FNode :=
  { name := o.name
    isModule := (mods.get? o.name).isSome
    types := ((mods.get? o.name).map FoldMod.types).getD []
    succs := (P.filter fun b => b.ins.contains o.out).map FOp.name }

/-- `_fuse_sequence` (model_transforms.py:139-166): `named_modules` was listed before fusing.
Simplified: every module is registered under one name only. -/
def fuseSeq (sig : K → K) (inference : Bool) (orig : Dict String (FoldMod K)) (mods : Dict String (FoldMod K)) (q : List FNode) :
    Except Err (Dict String (FoldMod K)) :=
  match q with
  | [a, b] =>
    match orig.get? a.name, orig.get? b.name with
    | some (.layer l), some (.bn n) =>
      (foldBn sig inference l n).map fun r => match r with
        | none => mods
        | some m => (mods.set a.name m).set b.name .identity
    | _, _ => .error .type
  | _ => .error .type

/-- Whether there is a batch-norm in the model (model_transforms.py:134). -/
def hasNorm (mods : Dict String (FoldMod K)) : Bool :=
  mods.any fun m => match m.2 with
    | .bn _ => true
    | _ => false

/-- `fold_batch_norms` (model_transforms.py:102-136). -/
def foldBatchNorms (sig : K → K) (inference : Bool) (mods : Dict String (FoldMod K)) (P : List FOp) :
    Except Err (Dict String (FoldMod K)) :=
  if hasNorm mods then (fusedSequences 2 (P.map (foldNode mods P))).foldlM (fuseSeq sig inference mods) mods
  else .ok mods

/-- Execution of one operation; `call` is what functional operations compute. -/
def foldRunOp (sig : K → K) (call : String → List (FVal K) → FVal K) (mods : Dict String (FoldMod K)) (env : ℕ → FVal K) (o : FOp) :
    ℕ → FVal K :=
  Function.update env o.out
    (match o.mod with
     | none => call o.name (o.ins.map env)
     | some m => ((mods.get? m).getD .identity).fwd sig (o.ins.map env))

/-- Execution of a model in evaluation mode on the input `env`. -/
def foldRun (sig : K → K) (call : String → List (FVal K) → FVal K) (mods : Dict String (FoldMod K)) (P : List FOp) (env : ℕ → FVal K) :
    ℕ → FVal K :=
  P.foldl (foldRunOp sig call mods) env

end Verif
