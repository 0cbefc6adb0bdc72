import Verif.Basic.Tensor
import Verif.Basic.Py
/-!
# Quantizing the inputs of a model by changing its class
(distiller/quantization/range_linear.py:2183-2185, 2323-2335)
-/
namespace Verif

/-- A function that a class has as its method `forward` or `original_forward`: the one written in class `c`, or
`inputs_quantize_wrapped_forward`. -/
inductive FwdFn where
  | written (c : ℕ)
  | wrapped
  deriving DecidableEq, Repr

/-- The state of the interpreter that matters: methods of the classes themselves (not inherited), and which model
objects have an attribute `inputs_quant`. -/
structure PyState where
  fwd : ℕ → Option FwdFn
  orig : ℕ → Option FwdFn
  quant : ℕ → Bool

/-- What does not change: the class of each model object, the method resolution order of each class (the class
itself first), the functions written in the classes and the input quantizers. -/
structure PyEnv (V : Type) where
  cls : ℕ → ℕ
  mro : ℕ → List ℕ
  sem : ℕ → ℕ → List V → V
  q : ℕ → V → V

/-- Attribute lookup along the method resolution order. -/
def findAttr (mro : List ℕ) (t : ℕ → Option FwdFn) : Option FwdFn := mro.findSome? t

/-- The part of `_post_prepare_model` about inputs for model object `i` (range_linear.py:2323-2335):
`m.inputs_quant = …`, `m.__class__.original_forward = m.__class__.forward`, `m.__class__.forward = wrapped`. -/
def patchInputs {V : Type} (e : PyEnv V) (s : PyState) (i : ℕ) : Except Err PyState :=
  match findAttr (e.mro (e.cls i)) s.fwd with
  | none => .error .attribute
  | some f => .ok
    { fwd := fun c => if c = e.cls i then some .wrapped else s.fwd c
      orig := fun c => if c = e.cls i then some f else s.orig c
      quant := fun j => if j = i then true else s.quant j }

/-- `prepare_model` of several models, one after the other. -/
def patchAll {V : Type} (e : PyEnv V) (s : PyState) (is : List ℕ) : Except Err PyState := is.foldlM (patchInputs e) s

/-- Running a method on model object `i`; `fuel` is the number of stack frames left, after which Python raises
RecursionError.  `inputs_quantize_wrapped_forward` (range_linear.py:2183-2185) takes one argument. -/
def runFwd {V : Type} (e : PyEnv V) (s : PyState) (i : ℕ) : ℕ → FwdFn → List V → Except Err V
  | 0, _, _ => .error .runtime
  | _ + 1, .written c, xs => .ok (e.sem c i xs)
  | n + 1, .wrapped, [x] =>
    if s.quant i = false then .error .attribute
    else match findAttr (e.mro (e.cls i)) s.orig with
      | none => .error .attribute
      | some f => runFwd e s i n f [e.q i x]
  | _ + 1, .wrapped, _ => .error .type

/-- `model(*xs)`. -/
def callModel {V : Type} (e : PyEnv V) (s : PyState) (fuel i : ℕ) (xs : List V) : Except Err V :=
  match findAttr (e.mro (e.cls i)) s.fwd with
  | none => .error .attribute
  | some f => runFwd e s i fuel f xs

/-- A fresh interpreter: every class has at most its written method, and no model is prepared. -/
def PyState.fresh (defines : ℕ → Bool) : PyState :=
  { fwd := fun c => if defines c then some (.written c) else none, orig := fun _ => none, quant := fun _ => false }

end Verif
