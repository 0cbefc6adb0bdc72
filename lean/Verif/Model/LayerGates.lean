import Verif.Basic.Py
import Verif.Model.Scheduler
/-!
# Removing layers of ResNet for CIFAR (`distiller/thinning.py`, `distiller/models/cifar10/resnet_cifar.py`)

Modelled: `resnet_cifar_remove_layers` (thinning.py:555-581) and `BasicBlock.forward` (resnet_cifar.py:68-86).  Parameter names are
given split at the dots.  Convolutions and batch normalizations are arbitrary functions.
-/
namespace Verif

/-- A decimal digit. -/
def digitOf (c : Char) : Option ℕ := if c.isDigit then some (c.toNat - '0'.toNat) else none

/-- `int(s)` for a string of decimal digits (signs, blanks and underscores, which Python accepts too, are refused here; they do
not occur in parameter names' positions). -/
def pyIntOf (s : String) : Except Err ℕ :=
  if s.toList = [] then .error .value
  else s.toList.foldlM (fun n c => match digitOf c with | some d => .ok (10 * n + d) | none => .error .value) 0

/-- `int(s[-1])`. -/
def lastDigit (s : String) : Except Err ℕ :=
  match s.toList.getLast? with
  | none => .error .index
  | some c => match digitOf c with | some d => .ok d | none => .error .value

/-- `int(s[0])`. -/
def firstDigit (s : String) : Except Err ℕ :=
  match s.toList.head? with
  | none => .error .index
  | some c => match digitOf c with | some d => .ok d | none => .error .value

/-- `parts[i]`. -/
def partAt (n : Name) (i : ℕ) : Except Err String :=
  match n[i]? with
  | some s => .ok s
  | none => .error .index

/-- A Python list index: negative ones count from the end. -/
def pyIndex (len : ℕ) (i : Int) : Except Err ℕ :=
  if 0 ≤ i ∧ i < len then .ok i.toNat
  else if -len ≤ i ∧ i < 0 then .ok (len + i).toNat
  else .error .index

/-- `layer_gates[layer][block][conv]` for all layers, blocks and the two convolutions. -/
abbrev Gates := List (List (List Bool))

/-- `model.module.layer_gates[layer][block][conv] = False` (thinning.py:581). -/
def closeGate (g : Gates) (layer block conv : Int) : Except Err Gates := do
  let i ← pyIndex g.length layer
  let bs := g.getD i []
  let j ← pyIndex bs.length block
  let cs := bs.getD j []
  let k ← pyIndex cs.length conv
  return g.set i (bs.set j (cs.set k false))

/-- The local variable `conv` after the `if` (thinning.py:572-579): a downsample parameter leaves it as it is. -/
def convOf (parts : Name) (cur : Option Int) : Except Err (Option Int) := do
  let p3 ← partAt parts 3
  if p3 = "downsample" then do
    let p4 ← partAt parts 4
    let _ ← firstDigit p4
    return cur
  else do
    let d ← lastDigit p3
    return some ((d : Int) - 1)

/-- One round of the loop (thinning.py:568-581): the gates and the local variable `conv`. -/
def removeOne (st : Gates × Option Int) (parts : Name) : Except Err (Gates × Option Int) := do
  let p1 ← partAt parts 1
  let d1 ← lastDigit p1
  let p2 ← partAt parts 2
  let block ← pyIntOf p2
  let conv ← convOf parts st.2
  match conv with
  | none => .error .name
  | some c =>
    let g ← closeGate st.1 ((d1 : Int) - 1) block c
    return (g, some c)

/-- `distiller.density(param) == 0` for a parameter that is not empty. -/
def allZero (w : Tensor) : Bool := w.all (fun x => decide (x = 0))

/-- `resnet_cifar_remove_layers` (thinning.py:556-581) on a data-parallel model: the gates afterwards. -/
def removeLayers (params : Dict Name Tensor) (g : Gates) : Except Err Gates :=
  (((params.filter (fun q => allZero q.2)).map Prod.fst).foldlM removeOne (g, none)).map Prod.fst

/-- The layers of a block. -/
structure GateBlock where
  conv1 : Tensor → Tensor
  bn1 : Tensor → Tensor
  conv2 : Tensor → Tensor
  bn2 : Tensor → Tensor
  down : Option (Tensor → Tensor) := none

/-- `nn.ReLU`. -/
def gRelu (t : Tensor) : Tensor := t.map (fun x => max x 0)

/-- `EltwiseAdd` of two tensors of one size. -/
def gAdd (a b : Tensor) : Tensor := List.zipWith (· + ·) a b

/-- The residual: the input, or the result of the shortcut layers (resnet_cifar.py:69, 80-81). -/
def GateBlock.shortcut (b : GateBlock) (x : Tensor) : Tensor := match b.down with | some d => d x | none => x

/-- `BasicBlock.forward` (resnet_cifar.py:68-86); a missing gate raises `IndexError`, and adding tensors of different sizes
`RuntimeError`. -/
def blockForward (b : GateBlock) (gates : List Bool) (x : Tensor) : Except Err Tensor := do
  match gates[0]?, gates[1]? with
  | some g0, some g1 =>
    let out := if g0 then gRelu (b.bn1 (b.conv1 x)) else x
    let out := if g1 then b.bn2 (b.conv2 out) else out
    if (b.shortcut x).length = out.length then .ok (gRelu (gAdd (b.shortcut x) out)) else .error .runtime
  | _, _ => .error .index

end Verif
