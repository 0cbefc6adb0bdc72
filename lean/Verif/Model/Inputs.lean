import Verif.Basic.Py
import Verif.Basic.Tensor
/-!
# Input shapes, dummy inputs and nested values (`distiller/utils.py`, `distiller/apputils/data_loaders.py`)

Modelled: `_validate_input_shape` (utils.py:568-589), `get_dummy_input` (592-615) up to the random values,
`set_model_input_shape_attr` (618-628), `classification_get_input_shape` (data_loaders.py:51-59),
`convert_tensors_recursively_to` (utils.py:746-754), `float_range_argparse_checker` (712-723).
-/
namespace Verif

/-- A Python value passed as a shape: integers (booleans count as integers), tuples, anything else. -/
inductive ShapeObj where
  | int (n : Int)
  | tup (l : List ShapeObj)
  | other
  deriving Repr

/-- `isinstance(x, int)`. -/
def ShapeObj.isInt : ShapeObj → Bool
  | .int _ => true
  | _ => false

/-- `isinstance(x, tuple)`. -/
def ShapeObj.isTup : ShapeObj → Bool
  | .tup _ => true
  | _ => false

/-- `x < 0` for an integer. -/
def ShapeObj.negative : ShapeObj → Bool
  | .int n => decide (n < 0)
  | _ => false

mutual
/-- `val_recurse` (utils.py:580-587) on one object (the code only calls it on tuples). -/
def valShape : ShapeObj → Except Err ShapeObj
  | .tup l =>
    if l.all ShapeObj.isInt then
      if l.any ShapeObj.negative then .error .value else .ok (.tup l)
    else if l.all ShapeObj.isTup then (valShapes l).map .tup
    else .error .type
  | _ => .error .type
/-- `tuple(val_recurse(x) for x in in_shape)` (utils.py:586). -/
def valShapes : List ShapeObj → Except Err (List ShapeObj)
  | [] => .ok []
  | x :: l =>
    match valShape x with
    | .error e => .error e
    | .ok y => (valShapes l).map (y :: ·)
end

/-- `classification_get_input_shape` (data_loaders.py:51-59). -/
def datasetShape (ds : String) : Except Err ShapeObj :=
  if ds = "imagenet" then .ok (.tup [.int 1, .int 3, .int 224, .int 224])
  else if ds = "cifar10" then .ok (.tup [.int 1, .int 3, .int 32, .int 32])
  else if ds = "mnist" then .ok (.tup [.int 1, .int 1, .int 28, .int 28])
  else .error .value

/-- `_validate_input_shape` (utils.py:568-589); `""` and `none` are both false. -/
def validateInputShape (ds : Option String) (shape : Option ShapeObj) : Except Err ShapeObj :=
  if ds.getD "" ≠ "" then datasetShape (ds.getD "")
  else match shape with
    | none => .error .value
    | some (.tup l) => valShape (.tup l)
    | some _ => .error .type

/-- A value made of tensors (their shape and device) and tuples. -/
inductive DummyTree where
  | tensor (shape : List Int) (dev : Option String)
  | tup (l : List DummyTree)
  deriving Repr

/-- The dimensions in a tuple of integers. -/
def ShapeObj.dims (l : List ShapeObj) : List Int := l.map (fun x => match x with | .int n => n | _ => 0)

mutual
/-- `create_recurse` (utils.py:609-612) with `create_single` (603-607).  (The code only calls it on validated tuples; for other
values the result here is arbitrary.) -/
def createDummy (dev : Option String) : ShapeObj → DummyTree
  | .tup l => if l.all ShapeObj.isInt then .tensor (ShapeObj.dims l) dev else .tup (createDummies dev l)
  | _ => .tup []
/-- `tuple(create_recurse(s) for s in shape)` (utils.py:612). -/
def createDummies (dev : Option String) : List ShapeObj → List DummyTree
  | [] => []
  | x :: l => createDummy dev x :: createDummies dev l
end

/-- `get_dummy_input` (utils.py:592-615). -/
def getDummyInput (ds : Option String) (dev : Option String) (shape : Option ShapeObj) : Except Err DummyTree :=
  (validateInputShape ds shape).map (createDummy dev)

/-- `set_model_input_shape_attr` (utils.py:618-628): the attribute afterwards (`cur = none`: the model has none). -/
def setInputShape (cur : Option ShapeObj) (ds : Option String) (shape : Option ShapeObj) : Except Err (Option ShapeObj) :=
  match cur with
  | some s => .ok (some s)
  | none => (validateInputShape ds shape).map some

/-! ## Nested values -/

/-- A Python value with tensors in it; `named`: a named tuple, `obj`: a dictionary or any other object, with the tensors in it. -/
inductive ValTree where
  | tensor (id : ℕ) (dev : String)
  | tup (l : List ValTree)
  | list (l : List ValTree)
  | named (cls : String) (l : List ValTree)
  | obj (cls : String) (l : List ValTree)
  deriving Repr

mutual
/-- `convert_tensors_recursively_to(val, device)` (utils.py:746-754).  `type(val)(generator)` is called with one argument: a
named tuple of another number of fields than one raises `TypeError`; with one field, the field becomes the generator itself. -/
def moveTo (dev : String) : ValTree → Except Err ValTree
  | .tensor i _ => .ok (.tensor i dev)
  | .tup l => (moveAll dev l).map .tup
  | .list l => (moveAll dev l).map .list
  | .named c [_] => .ok (.named c [.obj "generator" []])
  | .named _ _ => .error .type
  | .obj c l => .ok (.obj c l)
/-- The elements of a tuple or list (utils.py:752). -/
def moveAll (dev : String) : List ValTree → Except Err (List ValTree)
  | [] => .ok []
  | x :: l =>
    match moveTo dev x with
    | .error e => .error e
    | .ok y => (moveAll dev l).map (y :: ·)
end

/-! ## Range checks of command-line arguments -/

/-- The result of `float(s)`: a number, one of the infinities, or NaN. -/
inductive FloatArg where
  | num (x : ℚ) | posInf | negInf | nan
  deriving DecidableEq, Repr

/-- Python's `x > b` or `x >= b` for a finite bound. -/
def FloatArg.above (x : FloatArg) (b : ℚ) (exc : Bool) : Bool :=
  match x with
  | .num v => if exc then decide (v > b) else decide (v ≥ b)
  | .posInf => true
  | .negInf | .nan => false

/-- Python's `x < b` or `x <= b` for a finite bound. -/
def FloatArg.below (x : FloatArg) (b : ℚ) (exc : Bool) : Bool :=
  match x with
  | .num v => if exc then decide (v < b) else decide (v ≤ b)
  | .negInf => true
  | .posInf | .nan => false

/-- `float_range_argparse_checker` (utils.py:712-723): `parse` is `float`, which raises `ValueError` on other strings. -/
def floatRange (lo hi : ℚ) (excMin excMax : Bool) (parse : String → Option FloatArg) :
    Except Err (String → Except Err FloatArg) :=
  if lo ≥ hi then .error .value
  else .ok (fun s => match parse s with
    | none => .error .value
    | some v => if v.above lo excMin && v.below hi excMax then .ok v else .error .type)

end Verif
