import Verif.Basic.Py
/-!
# Addressing attributes by name, converting nested inputs (distiller/utils.py:746-786)
-/
namespace Verif

/-- The loop of `model_setattr` (utils.py:773-776) on the reversed, `'.'`-split container name: walk up until the
container is a module, prepending the components passed (without a dot) to the attribute. -/
def attrWalk (isModule : List String → Bool) : List String → String → List String × String
  | [], a => ([], a)
  | c :: cs, a => if isModule (c :: cs).reverse then ((c :: cs).reverse, a) else attrWalk isModule cs (c ++ a)

/-- `model_setattr` (utils.py:757-786).  The model is `dict(model.named_modules())`, here with the attributes of each
module; the root is called `""`, here `[]`.  The name is given `'.'`-split: container and last component.
`register` decides how the attribute is stored, not where, and is left out. -/
def modelSetattr {V : Type} (m : Dict (List String) (Dict String V)) (container : List String) (attr : String) (v : V) :
    Except Err (Dict (List String) (Dict String V)) :=
  let loc := attrWalk (fun n => (m.get? n).isSome) container.reverse attr
  match m.get? loc.1 with
  | some attrs => .ok (m.set loc.1 (attrs.set loc.2 v))
  | none => .error .key

/-- Values passed to a module: tensors, lists and tuples, named tuples (`cls` with named fields), dictionaries, and
other values. -/
inductive PyVal (T : Type) where
  | tensor (t : T)
  | list (l : List (PyVal T))
  | tuple (l : List (PyVal T))
  | named (fields : List (String × PyVal T))
  | dict (l : List (String × PyVal T))
  | other (s : String)

mutual

/-- `convert_tensors_recursively_to` (utils.py:746-754); `f` is `.to(...)`.  A named tuple is a tuple, but its type is
called with one argument (the generator): with one field this makes a named tuple of a generator (here: of an
opaque value), otherwise `TypeError`. -/
def convertRec {T : Type} (f : T → T) : PyVal T → Except Err (PyVal T)
  | .tensor t => .ok (.tensor (f t))
  | .list l => (convertRecL f l).map .list
  | .tuple l => (convertRecL f l).map .tuple
  | .named [(n, _)] => .ok (.named [(n, .other "generator")])
  | .named _ => .error .type
  | .dict l => .ok (.dict l)
  | .other s => .ok (.other s)
def convertRecL {T : Type} (f : T → T) : List (PyVal T) → Except Err (List (PyVal T))
  | [] => .ok []
  | v :: vs => (convertRec f v).bind fun v' => (convertRecL f vs).map fun vs' => v' :: vs'

end

end Verif
