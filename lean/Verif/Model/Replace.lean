import Verif.Basic.Py
import Verif.Model.Quantizer
/-!
# Module replacement by a quantizer (distiller/quantization/quantizer.py:161-178, 276-345)

A model is the tree of its modules as reached through names; a module object reachable through several
names occurs several times with the same identity (and the same subtree).  Names are paths.
-/
namespace Verif

/-- A module: identity, class name, named children. -/
inductive MT where
  | mk (id : ℕ) (ty : String) (children : List (String × MT))

def MT.id : MT → ℕ | .mk i _ _ => i
def MT.ty : MT → String | .mk _ t _ => t
def MT.children : MT → List (String × MT) | .mk _ _ c => c

/-- A module after processing: an original module (its children may have been replaced) or the
replacement created for the module with the given full name. -/
inductive QT where
  | plain (id : ℕ) (children : List (String × QT))
  | wrap (name : List String) (inner : QT)

mutual
/-- An untouched module. -/
def embedT : MT → QT
  | .mk i _ cs => .plain i (embedC cs)
def embedC : List (String × MT) → List (String × QT)
  | [] => []
  | (n, t) :: cs => (n, embedT t) :: embedC cs
end

mutual
/-- `named_modules()`: every module object once, under the first name reached (torch); memo and names. -/
def namedModsT : List ℕ × List (List String) → List String → MT → List ℕ × List (List String)
  | acc, pre, .mk i _ cs => if i ∈ acc.1 then acc else namedModsC (i :: acc.1, acc.2 ++ [pre]) pre cs
def namedModsC : List ℕ × List (List String) → List String → List (String × MT) → List ℕ × List (List String)
  | acc, _, [] => acc
  | acc, pre, (n, t) :: cs => namedModsC (namedModsT acc (pre ++ [n]) t) pre cs
end

/-- What the quantizer knows. -/
structure ReplEnv where
  /-- `isinstance(module, tuple(self.replacement_blacklist))` -/
  black : String → Bool
  /-- names with an entry in `module_qbits_map`, i.e. those of `named_modules()` -/
  avail : List (List String)
  /-- their bit-widths -/
  bits : List String → QBits
  /-- `module_overrides_map`: further override arguments -/
  overrides : List String → List String
  /-- `replacement_factory.get(type(module), default)`: accepted arguments, and whether the function
  returns a new module -/
  factory : String → Option (List String × (List String → Bool))

/-- State: `modules_processed` (`none`: not replaced), the original objects as mutated so far, and the
calls of replacement functions (object, full name) made so far. -/
structure ReplState where
  processed : Dict ℕ (Option QT)
  objs : Dict ℕ QT
  calls : List (ℕ × List String)

/-- The current state of an original object. -/
def ReplState.obj (s : ReplState) (t : MT) : QT := (s.objs.get? t.id).getD (embedT t)

/-- What happens to a module before its children are visited (quantizer.py:304-340): error, or whether
it is marked as processed, and replaced. -/
inductive Verdict where
  | keep | unmarked | replace | returnsSame
  deriving DecidableEq, Repr

/-- quantizer.py:304-341: the decision for a module under a full name. -/
def ReplEnv.verdict (e : ReplEnv) (ty : String) (name : List String) : Except Err Verdict :=
  if name ∉ e.avail then .error .key
  else if (e.bits name).acts = none ∧ (e.bits name).wts = none ∧ e.overrides name = [] then .ok .keep
  else match e.factory ty with
    | none => .ok .unmarked
    | some (ok, isNew) =>
      if (e.overrides name).any (fun a => !ok.contains a) then .error .type
      else .ok (if isNew name then .replace else .returnsSame)

/-- The call of the replacement function, if any, is made before the children are visited
(quantizer.py:321). -/
def ReplState.called (s : ReplState) (i : ℕ) (name : List String) (v : Verdict) : ReplState :=
  match v with
  | .replace | .returnsSame => { s with calls := s.calls ++ [(i, name)] }
  | .keep | .unmarked => s

/-- Bookkeeping after the children of a module were visited: what the container's attribute becomes. -/
def finish (s : ReplState) (i : ℕ) (name : List String) (v : Verdict) (cs : List (String × QT)) : ReplState × QT :=
  let o := QT.plain i cs
  let s := { s with objs := s.objs.set i o }
  match v with
  | .keep => ({ s with processed := s.processed.set i none }, o)
  | .unmarked => (s, o)
  | .replace =>
    ({ s with processed := s.processed.set i (some (.wrap name o)) }, .wrap name o)
  | .returnsSame => ({ s with processed := s.processed.set i none }, o)

mutual
/-- One iteration of the loop of `_pre_process_container` for a child not yet yielded by this
container's `named_children()` (quantizer.py:288-345).  Simplification: the marking is recorded after
the recursive visit, which cannot meet the module itself; the bit-widths added for new sub-layers of a
replacement (334-338) are not recorded. -/
def procChild (e : ReplEnv) (s : ReplState) (name : List String) : MT → Except Err (ReplState × QT)
  | .mk i ty cs =>
    if e.black ty then .ok (s, s.obj (.mk i ty cs))
    else match s.processed.get? i with
      | some (some w) => .ok (s, w)
      | some none => .ok (s, s.obj (.mk i ty cs))
      | none =>
        (e.verdict ty name).bind fun v =>
          (procChildren e (s.called i name v) name [] cs).map fun r => finish r.1 i name v r.2
/-- The loop of `_pre_process_container` over `named_children()`, which yields an object once
(`memo`); a further name of an object in the same container keeps its reference. -/
def procChildren (e : ReplEnv) (s : ReplState) (pre : List String) (memo : List ℕ) :
    List (String × MT) → Except Err (ReplState × List (String × QT))
  | [] => .ok (s, [])
  | (n, t) :: cs =>
    if t.id ∈ memo then
      (procChildren e s pre memo cs).map fun r => (r.1, (n, s.obj t) :: r.2)
    else
      (procChild e s (pre ++ [n]) t).bind fun r =>
        (procChildren e r.1 pre (t.id :: memo) cs).map fun r' => (r'.1, (n, r.2) :: r'.2)
end

/-- The part of `prepare_model` that replaces modules (quantizer.py:230): the children of the model. -/
def replaceModules (e : ReplEnv) (model : MT) : Except Err (ReplState × List (String × QT)) :=
  procChildren e ⟨[], [], []⟩ [] [] model.children

end Verif
