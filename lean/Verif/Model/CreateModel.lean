import Verif.Basic.Py
import Verif.Basic.Tensor
import Verif.Model.Inputs
/-!
# Creating models (`distiller/models/__init__.py`)

Modelled: `create_model` (107-157), `is_inception` (160-165), `_create_imagenet_model` (168-202), `_create_cifar10_model` (205-212),
`_create_mnist_model` (215-222), `_set_model_input_shape_attr` (225-235), `register_user_model` and its lookup (238-252),
`patch_torchvision_mobilenet_v2` (67-102).  Model constructors are arbitrary functions.
-/
namespace Verif

/-- The libraries.  A constructor takes the value of `pretrained` (torchvision's also: whether `transform_input=False` is passed)
and gives a model or raises. -/
structure ModelZoo (M : Type) where
  /-- `distiller.models.imagenet` -/
  own : Dict String (Bool → Except Err M)
  /-- `TORCHVISION_MODEL_NAMES` -/
  tv : Dict String (Bool → Bool → Except Err M)
  /-- `pretrainedmodels.model_names` -/
  cadene : Dict String (Bool → Except Err M)
  cifar : Dict String (Except Err M)
  mnist : Dict String (Except Err M)
  /-- `_model_extensions`; `none`: the value `None` was registered. -/
  user : Dict (String × String) (Option (Except Err M))
  /-- `patch_torchvision_mobilenet_v2` as a function on models -/
  patch : M → Except Err M
  /-- the attributes `input_shape` and `input_size`, and whether there is an attribute `features` -/
  inputShape : M → Option ShapeObj
  inputSize : M → Option (List Int)
  hasFeatures : M → Bool

variable {M : Type}

/-- `RESNET_SYMS` (models/__init__.py:40-41). -/
def resnetSyms : List String :=
  ["ResNet", "resnet18", "resnet34", "resnet50", "resnet101", "resnet152", "resnext50_32x4d", "resnext101_32x8d",
   "wide_resnet50_2", "wide_resnet101_2"]

/-- `is_inception` (models/__init__.py:160-165). -/
def isInception (arch : String) : Bool :=
  decide (arch ∈ ["inception_v3", "googlenet", "inceptionv3", "inceptionv4", "inceptionresnetv2"])

/-- The call of a torchvision constructor (models/__init__.py:176-181). -/
def ModelZoo.tvBuild (Z : ModelZoo M) (c : Bool → Bool → Except Err M) (arch : String) (pre : Bool) : Except Err M :=
  match c (isInception arch) pre with
  | .error e => .error e
  | .ok m => if arch = "mobilenet_v2" then Z.patch m else .ok m

/-- The `try` statement around it (models/__init__.py:175-187). -/
def ModelZoo.tvTry (Z : ModelZoo M) (c : Bool → Bool → Except Err M) (arch : String) (pre : Bool) : Except Err (Option M) :=
  match Z.tvBuild c arch pre with
  | .ok m => .ok (some m)
  | .error .notImplemented => if pre then .ok none else .error .notImplemented
  | .error e => .error e

/-- The first choice: Distiller's own ResNets, then torchvision (models/__init__.py:172-187). -/
def ModelZoo.firstChoice (Z : ModelZoo M) (arch : String) (pre : Bool) : Except Err (Option M) :=
  if arch ∈ resnetSyms then
    match Dict.get? Z.own arch with
    | none => .error .key
    | some c => (c pre).map some
  else match Dict.get? Z.tv arch with
    | none => .ok none
    | some c => Z.tvTry c arch pre

/-- The second and third choice: Distiller's other ImageNet models (not for pretrained ones), Cadene's (models/__init__.py:188-202). -/
def ModelZoo.laterChoice (Z : ModelZoo M) (arch : String) (pre : Bool) : Except Err (M × Bool) :=
  match (if pre then none else Dict.get? Z.own arch) with
  | some c => (c false).map (fun m => (m, false))
  | none =>
    match Dict.get? Z.cadene arch with
    | some c => (c pre).map (fun m => (m, true))
    | none => .error .value

/-- `_create_imagenet_model` (models/__init__.py:168-202): the model and whether it is one of Cadene's. -/
def ModelZoo.imagenet (Z : ModelZoo M) (arch : String) (pre : Bool) : Except Err (M × Bool) :=
  match Z.firstChoice arch pre with
  | .error e => .error e
  | .ok (some m) => .ok (m, false)
  | .ok none => Z.laterChoice arch pre

/-- `_create_cifar10_model`, `_create_mnist_model` (models/__init__.py:205-222); a `KeyError` inside the constructor is caught too. -/
def smallModel (d : Dict String (Except Err M)) (arch : String) (pre : Bool) : Except Err (M × Bool) :=
  if pre then .error .value
  else match Dict.get? d arch with
    | none => .error .value
    | some (.error .key) => .error .value
    | some r => r.map (fun m => (m, false))

/-- The choice by data set (models/__init__.py:126-132). -/
def ModelZoo.builtin (Z : ModelZoo M) (ds arch : String) (pre : Bool) : Except Err (M × Bool) :=
  if ds = "imagenet" then Z.imagenet arch pre
  else if ds = "cifar10" then smallModel Z.cifar arch pre
  else smallModel Z.mnist arch pre

/-- The models registered by the user (models/__init__.py:243-252); the flag says whether it is one of Cadene's. -/
def ModelZoo.extension (Z : ModelZoo M) (ds arch : String) : Except Err (M × Bool) :=
  match Dict.get? Z.user (arch, ds) with
  | some (some c) => c.map (fun m => (m, false))
  | _ => .error .value

/-- The `try` statement (models/__init__.py:125-137). -/
def ModelZoo.build (Z : ModelZoo M) (ds arch : String) (pre : Bool) : Except Err (M × Bool) :=
  match Z.builtin ds arch pre with
  | .error .value => Z.extension ds arch
  | r => r

/-- How the model is wrapped in `DataParallel`. -/
inductive DPWrap where
  | no | whole | features
  deriving DecidableEq, Repr

/-- `s.startswith(p)`. -/
def startsWithStr (s p : String) : Bool := decide (s.toList.take p.toList.length = p.toList)

/-- The wrapping (models/__init__.py:141-151), given that a GPU is used and `parallel`. -/
def ModelZoo.wrapAs (Z : ModelZoo M) (m : M) (arch : String) (gpu parallel : Bool) : Except Err DPWrap :=
  if gpu && parallel then
    if startsWithStr arch "alexnet" || startsWithStr arch "vgg" then
      (if Z.hasFeatures m then .ok .features else .error .attribute)
    else .ok .whole
  else .ok .no

/-- The attribute `input_shape` that the returned object has before `_set_model_input_shape_attr`: the wrapper does not pass on
attributes. -/
def ModelZoo.shapeBefore (Z : ModelZoo M) (m : M) : DPWrap → Option ShapeObj
  | .whole => none
  | _ => Z.inputShape m

/-- `_set_model_input_shape_attr` (models/__init__.py:225-235). -/
def ModelZoo.shapeAfter (Z : ModelZoo M) (m : M) (w : DPWrap) (arch ds : String) (pre cadene : Bool) : Except Err (Option ShapeObj) :=
  if cadene && pre then
    match Z.inputSize m with
    | none => .error .attribute
    | some l => setInputShape (Z.shapeBefore m w) none (some (.tup (.int 1 :: l.map .int)))
  else if arch = "inception_v3" then
    setInputShape (Z.shapeBefore m w) none (some (.tup [.int 1, .int 3, .int 299, .int 299]))
  else setInputShape (Z.shapeBefore m w) (some ds) none

/-- What `create_model` returns. -/
structure Created (M : Type) where
  model : M
  wrap : DPWrap
  isParallel : Bool
  device : String
  arch : String
  dataset : String
  shape : Option ShapeObj

/-- `create_model` (models/__init__.py:107-157).  `cuda`: a GPU is available; `dev`: `device_ids` (`none`: `None`). -/
def ModelZoo.create (Z : ModelZoo M) (cuda : Bool) (pre : Bool) (dataset arch : String) (parallel : Bool) (dev : Option Int) :
    Except Err (Created M) := do
  let ds := dataset.toLower
  if ds ∉ ["imagenet", "cifar10", "mnist"] then throw .value
  let r ← Z.build ds arch pre
  let gpu := cuda && decide (dev ≠ some (-1))
  let w ← Z.wrapAs r.1 arch gpu parallel
  let shape ← Z.shapeAfter r.1 w arch ds pre r.2
  return { model := r.1, wrap := w, isParallel := gpu && parallel, device := if gpu then "cuda" else "cpu"
           arch := arch, dataset := ds, shape := shape }

/-- `register_user_model` (models/__init__.py:238-240). -/
def ModelZoo.register (Z : ModelZoo M) (arch dataset : String) (c : Option (Except Err M)) : ModelZoo M :=
  { Z with user := Dict.set Z.user (arch, dataset) c }

/-! ## MobileNet v2 -/

/-- An instance of torchvision's `MobileNetV2`: its blocks and the rest.  `added`: the instance got the modules for additions
and means. -/
structure MobileNet where
  /-- the part of `features` before the blocks, as channels × rows × columns -/
  stem : Tensor → List (List (List ℚ))
  /-- the blocks: `use_res_connect` and `conv` -/
  blocks : List (Bool × (List (List (List ℚ)) → List (List (List ℚ))))
  /-- the rest of `features` -/
  top : List (List (List ℚ)) → List (List (List ℚ))
  classifier : List ℚ → Tensor
  added : Bool

/-- Element-wise sum of feature maps. -/
def fmAdd (a b : List (List (List ℚ))) : List (List (List ℚ)) :=
  List.zipWith (List.zipWith (List.zipWith (· + ·))) a b

/-- Mean of a list. -/
def qmean (l : List ℚ) : ℚ := l.sum / l.length

/-- torchvision's `InvertedResidual.forward`: `x + self.conv(x)`. -/
def resBlock (x : List (List (List ℚ))) (b : Bool × (List (List (List ℚ)) → List (List (List ℚ)))) : List (List (List ℚ)) :=
  if b.1 then fmAdd x (b.2 x) else b.2 x

/-- torchvision's `MobileNetV2.forward`: mean over both spatial dimensions. -/
def MobileNet.forward (m : MobileNet) (x : Tensor) : Tensor :=
  m.classifier ((m.top (m.blocks.foldl resBlock (m.stem x))).map (fun ch => qmean ch.flatten))

/-- `patched_forward_invertedresidual` (models/__init__.py:91-95): needs the module `residual_eltwiseadd` of the instance. -/
def resBlockP (added : Bool) (x : List (List (List ℚ))) (b : Bool × (List (List (List ℚ)) → List (List (List ℚ)))) :
    Except Err (List (List (List ℚ))) :=
  if b.1 then (if added then .ok (fmAdd (b.2 x) x) else .error .attribute) else .ok (b.2 x)

/-- `patched_forward_mobilenet_v2` (models/__init__.py:77-82): `mean32` takes the means of the columns, then of the rows. -/
def MobileNet.forwardP (m : MobileNet) (x : Tensor) : Except Err Tensor := do
  let f ← m.blocks.foldlM (resBlockP m.added) (m.stem x)
  if m.added then return m.classifier ((m.top f).map (fun ch => qmean (ch.map qmean)))
  else throw .attribute

/-- `patch_torchvision_mobilenet_v2` (models/__init__.py:67-102) on one instance; the `forward` functions are set on the *classes*. -/
def MobileNet.patched (m : MobileNet) : MobileNet := { m with added := true }

/-- Calling an instance; `classPatched`: some instance has been patched in this process. -/
def MobileNet.call (classPatched : Bool) (m : MobileNet) (x : Tensor) : Except Err Tensor :=
  if classPatched then m.forwardP x else .ok (m.forward x)

end Verif
