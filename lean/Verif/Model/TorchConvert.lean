import Verif.Basic.Py
import Mathlib.Data.Rat.Defs
/-!
# Model of distiller/quantization/pytorch_quant_conversion.py:148-330, 386-442
The two passes that turn a model quantized by `PostTrainLinearQuantizer` into one made of native
PyTorch quantized modules, and the conditional quantize / de-quantize wrappers they insert.

The payload of a tensor is an arbitrary type `D`; quantization and de-quantization of a payload
are arbitrary functions.  The `forward` code of the model is an arbitrary program that calls its
sub-modules and computes with their results.
-/
namespace Verif

/-- A value passed between modules: a tensor (with `is_quantized`), a tuple or list, or anything
else. -/
inductive TVal (D : Type) where
  | tensor (quantized : Bool) (data : D)
  | seq (items : List (TVal D))
  | other (o : ℤ)

/-- `nnq.Quantize(scale, zero_point, dtype)` and `Tensor.dequantize` on payloads. -/
structure TOps (D : Type) where
  quantize : ℚ × ℤ → D → D
  dequantize : D → D

section
variable {D : Type}

mutual
/-- `dequant_recursively` (pytorch_quant_conversion.py:391-396). -/
def dequantRec (ops : TOps D) : TVal D → TVal D
  | .tensor q d => if q then .tensor false (ops.dequantize d) else .tensor q d
  | .seq xs => .seq (dequantRecs ops xs)
  | .other o => .other o
/-- The generator in `type(x)(dequant_recursively(item) for item in x)` (394-395). -/
def dequantRecs (ops : TOps D) : List (TVal D) → List (TVal D)
  | [] => []
  | x :: xs => dequantRec ops x :: dequantRecs ops xs
end

/-- The loop body of `ConditionalQuantize.forward` (422-428) on the input at position `idx`. -/
def condQuantItem (ops : TOps D) (qs : Dict ℕ (ℚ × ℤ)) (idx : ℕ) (item : TVal D) : Except Err (TVal D) :=
  match qs.get? idx with
  | none => .ok item
  | some p =>
    match item with
    | .tensor q d => .ok (if q then .tensor q d else .tensor true (ops.quantize p d))
    | _ => .error .assertion

/-- `ConditionalQuantize.forward` (420-430), from position `i` on. -/
def condQuantFrom (ops : TOps D) (qs : Dict ℕ (ℚ × ℤ)) : ℕ → List (TVal D) → Except Err (List (TVal D))
  | _, [] => .ok []
  | i, x :: xs => do
    let y ← condQuantItem ops qs i x
    let ys ← condQuantFrom ops qs (i + 1) xs
    return y :: ys

/-- The code of a wrapped module: positional arguments to a result. -/
abbrev ModFn (D : Type) := List (TVal D) → Except Err (TVal D)

/-- A module called by the model's `forward`: a `ConditionalQuantizeWrapper` with its quantizers,
a `ConditionalDeQuantizeWrapper`, or any other module. -/
inductive CMod (D : Type) where
  | quant (qs : Dict ℕ (ℚ × ℤ)) (wrapped : ModFn D)
  | dequant (wrapped : ModFn D)
  | plain (f : ModFn D)

/-- What the wrapped module receives (408, 440). -/
def CMod.feed (ops : TOps D) : CMod D → List (TVal D) → Except Err (List (TVal D))
  | .quant qs _, xs => condQuantFrom ops qs 0 xs
  | .dequant _, xs => .ok (dequantRecs ops xs)
  | .plain _, xs => .ok xs

/-- The wrapped module. -/
def CMod.leaf : CMod D → ModFn D
  | .quant _ f => f
  | .dequant f => f
  | .plain f => f

/-- Calling the module (407-410, 439-442). -/
def CMod.call (ops : TOps D) (m : CMod D) (xs : List (TVal D)) : Except Err (TVal D) := do
  let ys ← m.feed ops xs
  m.leaf ys

/-- The model's own `forward` code (of the model and of all its containers): it ends with a value
or an exception, or calls a module by its full name and goes on with the result. -/
inductive Fwd (D : Type) where
  | ret (v : TVal D)
  | fail (e : Err)
  | call (name : String) (args : List (TVal D)) (k : TVal D → Fwd D)

/-- Running `forward` with the given modules. -/
def Fwd.run (ops : TOps D) (ms : Dict String (CMod D)) : Fwd D → Except Err (TVal D)
  | .ret v => .ok v
  | .fail e => .error e
  | .call n args k => do
    let m ← (match ms.get? n with
      | some m => .ok m
      | none => .error Err.attribute)
    let v ← m.call ops args
    (k v).run ops ms

/-- The module calls made by `forward`, in order, with their arguments. -/
def Fwd.calls (ops : TOps D) (ms : Dict String (CMod D)) : Fwd D → List (String × List (TVal D))
  | .ret _ => []
  | .fail _ => []
  | .call n args k =>
    (n, args) :: (match ms.get? n with
      | some m => (match m.call ops args with
        | .ok v => (k v).calls ops ms
        | .error _ => [])
      | none => [])

mutual
/-- `check_recursively` (pytorch_quant_conversion.py:215-220). -/
def anyQuant : TVal D → Bool
  | .tensor q _ => q
  | .seq xs => anyQuants xs
  | .other _ => false
/-- The loop over a tuple or list (218-220). -/
def anyQuants : List (TVal D) → Bool
  | [] => false
  | x :: xs => anyQuant x || anyQuants xs
end

/-- `t.is_quantized` for tensors (203-207); other objects are skipped. -/
def isQTensor : TVal D → Bool
  | .tensor q _ => q
  | _ => false

/-- Positions of quantized tensors (`q_inputs`, 202-207), from position `i` on. -/
def quantIdxsFrom : ℕ → List (TVal D) → List ℕ
  | _, [] => []
  | i, x :: xs => if isQTensor x then i :: quantIdxsFrom (i + 1) xs else quantIdxsFrom (i + 1) xs

/-- What the two hooks store on a wrapper: `already_quantized` and `any_quantized` (199-222).  One
record serves both kinds of wrapper; each reads its own field. -/
structure Seen where
  already : List ℕ
  anyQ : Bool
  deriving DecidableEq, Repr

/-- The hooks on one call (199-222). -/
def observe (args : List (TVal D)) : Seen := ⟨quantIdxsFrom 0 args, anyQuants args⟩

/-- One hook call overwrites what the previous call stored (208, 213). -/
def recordCall (d : Dict String Seen) (c : String × List (TVal D)) : Dict String Seen := d.set c.1 (observe c.2)

/-- State of the hooks after the dummy forward pass (245-256). -/
def recordAll (cs : List (String × List (TVal D))) : Dict String Seen := cs.foldl recordCall []

/-- `cleanup` on one module (228-236).  An attribute no hook has stored raises AttributeError. -/
def cleanMod (seen : Option Seen) : CMod D → Except Err (CMod D)
  | .quant qs f =>
    (match seen with
    | none => .error .attribute
    | some s =>
      let qs' := qs.filter fun kv => !s.already.contains kv.1
      .ok (if qs'.isEmpty then .plain f else .quant qs' f))
  | .dequant f =>
    (match seen with
    | none => .error .attribute
    | some s => .ok (if s.anyQ then .dequant f else .plain f))
  | .plain f => .ok (.plain f)

/-- `cleanup` over the whole model (224-243). -/
def cleanAll (d : Dict String Seen) : Dict String (CMod D) → Except Err (Dict String (CMod D))
  | [] => .ok []
  | (n, m) :: ms => do
    let m' ← cleanMod (d.get? n) m
    let ms' ← cleanAll d ms
    return (n, m') :: ms'

/-- The converted model: modules, and whether `forward` is patched with the final
de-quantization (186-195). -/
structure ConvModel (D : Type) where
  mods : Dict String (CMod D)
  patched : Bool

/-- `_ptq_convert_pass_remove_redundant_quant_dequant` (198-263).  `fwd` is the model's forward
code as a function of its positional inputs. -/
def removeRedundant (ops : TOps D) (fwd : List (TVal D) → Fwd D) (ms : Dict String (CMod D)) (dummy : List (TVal D)) :
    Except Err (ConvModel D) := do
  let out ← (fwd dummy).run ops ms
  let ms' ← cleanAll (recordAll ((fwd dummy).calls ops ms)) ms
  match out with
  | .tensor q _ => return ⟨ms', q⟩
  | _ => .error .attribute

/-- `nnq.DeQuantize()` on the model's output (189, 192): only quantized tensors can be
de-quantized. -/
def outDequant (ops : TOps D) : TVal D → Except Err (TVal D)
  | .tensor true d => .ok (.tensor false (ops.dequantize d))
  | .tensor false _ => .error .runtime
  | _ => .error .attribute

/-- `model(*inputs)` of the converted model; the patched forward takes exactly one input
(187-190). -/
def ConvModel.forward (ops : TOps D) (fwd : List (TVal D) → Fwd D) (c : ConvModel D) (inputs : List (TVal D)) :
    Except Err (TVal D) :=
  if c.patched then
    if inputs.length = 1 then do
      let out ← (fwd inputs).run ops c.mods
      outDequant ops out
    else .error .type
  else (fwd inputs).run ops c.mods

end

/-! ## First pass -/

/-- Classes of modules the first pass distinguishes (pytorch_quant_conversion.py:154-178), and the
classes it creates. -/
inductive MKind where
  /-- a Distiller `RangeLinearQuantWrapper`; `fakes` = its conversion starts with a
  `ConditionalDeQuantizeWrapper` (159-160) -/
  | distWrapper (fakes : Bool)
  | distEmbedding
  | identity
  | condQuantWrapper | condDequantWrapper | condQuantize | condDequantize
  | torchQuant
  | torchEmbedding
  | user (label : ℕ)
  deriving DecidableEq, Repr

/-- A module tree: the object's class and its children by name. -/
inductive MTree where
  | node (kind : MKind) (children : List (String × MTree))

def MTree.kind : MTree → MKind
  | .node k _ => k

/-- `distiller.has_children` (utils.py:560-566). -/
def MTree.hasChildren : MTree → Bool
  | .node _ cs => !cs.isEmpty

/-- `ConditionalDeQuantizeWrapper(m)` (402-405). -/
def deqWrap (m : MTree) : MTree :=
  .node .condDequantWrapper [("dequant", .node .condDequantize []), ("wrapped", m)]

/-- `ConditionalQuantizeWrapper(m, d)` (434-437) with one quantizer (the number plays no role). -/
def quantWrap (m : MTree) : MTree :=
  .node .condQuantWrapper [("quant", .node .condQuantize [("quantizers", .node (.user 2) [("0", .node .torchQuant [])])]), ("wrapped", m)]

mutual
/-- One child in the first pass (155-178).  A converted Distiller wrapper is a `torchQuant` leaf,
or a sequence starting with a de-quantize wrapper around the original module. -/
def convertChild : MTree → MTree
  | .node (.distWrapper fakes) _ =>
    if fakes then .node (.user 0) [("0", deqWrap (.node (.user 1) [])), ("1", .node .torchQuant [])]
    else quantWrap (.node .torchQuant [])
  | .node .distEmbedding _ => .node .torchEmbedding []
  | .node k cs =>
    if !cs.isEmpty then .node k (convertKids cs)
    else if k = .identity then .node k cs
    else deqWrap (.node k cs)
/-- `_ptq_convert_pass_replace_range_linear_wrappers` on the children (155-181). -/
def convertKids : List (String × MTree) → List (String × MTree)
  | [] => []
  | nm :: ms => (nm.1, convertChild nm.2) :: convertKids ms
end

/-- The first pass on a model (148-183). -/
def convertPass1 : MTree → MTree
  | .node k cs => .node k (convertKids cs)

end Verif
