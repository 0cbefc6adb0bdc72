import Verif.Basic.Py
/-!
# Model of the conversion of module lists ahead of tracing
(distiller/summary_graph.py:654-767, 786-838)

`SummaryGraph` replaces `nn.ModuleList`s by lists whose members are registered in the parent module, since
the names of `nn.ModuleList`s do not appear in traces, and maps the names found in the trace back.
-/
namespace Verif

mutual
/-- A module: an object identity, the names of its attributes that are not modules, and its registered
sub-modules; or an `nn.ModuleList`. -/
inductive ModTree where
  | mod (id : Nat) (attrs : List String) (ch : ModForest)
  | list (items : ModForest)
/-- Registered sub-modules with their names. -/
inductive ModForest where
  | nil
  | cons (name : String) (t : ModTree) (rest : ModForest)
end

/-- The state of a container during its conversion: `_modules`, and the other attributes. -/
structure MReg where
  reg : Dict String ModTree
  attrs : List String

/-- A dictionary of sub-modules. -/
def ModForest.ofDict : Dict String ModTree → ModForest
  | [] => .nil
  | (n, t) :: d => .cons n t (.ofDict d)

/-- `nn.Module.add_module` (torch): refuses a name that is an attribute but not a sub-module. -/
def MReg.addModule (s : MReg) (n : String) (t : ModTree) : Except Err MReg :=
  if n ∈ s.attrs ∧ s.reg.has n = false then .error .key else .ok { s with reg := s.reg.set n t }

/-- `setattr(container, name, child)` with a module (torch): another attribute of the name is removed. -/
def MReg.setModule (s : MReg) (n : String) (t : ModTree) : MReg := ⟨s.reg.set n t, s.attrs.filter (· ≠ n)⟩

/-- `setattr(container, name, child)` with a `_DistillerModuleList`, which is not a module (torch): refused
if a sub-module of the name is registered. -/
def MReg.setList (s : MReg) (n : String) : Except Err MReg :=
  if s.reg.has n then .error .type else .ok { s with attrs := n :: s.attrs }

/-- `_name_for_idx` (summary_graph.py:721-722). -/
def itemName (n : String) (i : Nat) : String := n ++ "_" ++ toString i

mutual
/-- `convert_container` (summary_graph.py:810-830): all sub-modules are unregistered and registered again.
Simplified: sub-modules are converted when they are registered, not after all members of their list
are; a module that is registered several times is converted at each occurrence. -/
def convForest (s : MReg) : ModForest → Except Err MReg
  | .nil => .ok s
  | .cons n t r => do
    let s ← convChild n s t
    convForest s r
/-- One iteration of the loop of `convert_container` (818-829). -/
def convChild (n : String) (s : MReg) : ModTree → Except Err MReg
  | .list items => do
    let s ← convItems n 0 s items
    s.setList n
  | .mod id attrs ch => do
    let c ← convForest ⟨[], attrs⟩ ch
    return s.setModule n (.mod id c.attrs (.ofDict c.reg))
/-- `_DistillerModuleList.extend` from position `i` on (summary_graph.py:745-750). -/
def convItems (n : String) (i : Nat) (s : MReg) : ModForest → Except Err MReg
  | .nil => .ok s
  | .cons _ t r => do
    let s ← convItem (itemName n i) s t
    convItems n (i + 1) s r
/-- `_DistillerModuleList.append` (summary_graph.py:739-743); nested lists become nested lists of the same
parent (724-731). -/
def convItem (n : String) (s : MReg) : ModTree → Except Err MReg
  | .list items => convItems n 0 s items
  | .mod id attrs ch => do
    let c ← convForest ⟨[], attrs⟩ ch
    s.addModule n (.mod id c.attrs (.ofDict c.reg))
end

mutual
/-- `_named_modules_with_duplicates` (summary_graph.py:793-801) without `nn.ModuleList`s (832-833): names, as
lists of their parts, and objects. -/
def ModTree.named (pre : List String) : ModTree → List (List String × Nat)
  | .list items => items.named pre
  | .mod id _ ch => (pre, id) :: ch.named pre
def ModForest.named (pre : List String) : ModForest → List (List String × Nat)
  | .nil => []
  | .cons n t r => t.named (pre ++ [n]) ++ r.named pre
end

/-- `_to_distiller_modulelist` (summary_graph.py:804-838) for a model that is not itself a list: the
converted model, and the map from its names to the original names. -/
def toDistillerModuleList (id : Nat) (attrs : List String) (ch : ModForest) : Except Err (ModTree × Dict (List String) (List String)) := do
  let c ← convForest ⟨[], attrs⟩ ch
  let t : ModTree := .mod id c.attrs (.ofDict c.reg)
  return (t, List.zip ((t.named []).map Prod.fst) (((ModTree.mod id attrs ch).named []).map Prod.fst))

end Verif
