import Verif.Basic.Py
import Verif.Basic.Tensor
import Verif.Model.Scheduler
import Verif.Model.Replace
/-!
# Directives and module names (`distiller/directives.py`, `distiller/utils.py`)

Modelled: `freeze_training` (directives.py:38-55), `freeze_all` (58-61), `adjust_dropout` (64-87), `assign_layer_fq_names`
(utils.py:98-105), `find_module_by_fq_name` (108-123).  A model is the tree of its modules (`MT`): an object reachable through
several names occurs several times with the same identity.  Attributes of objects are functions of the identity.
-/
namespace Verif

/-- The classes `adjust_dropout` tests for, by exact type (directives.py:79-82). -/
def dropTypes : List String := ["Dropout", "Dropout2d", "Dropout3d", "AlphaDropout"]

mutual
/-- `adjust_dropout(module, new_probability)` (directives.py:64-87): the attribute `p` of every object afterwards. -/
def adjustDropout (q : ℚ) (prob : ℕ → ℚ) : MT → (ℕ → ℚ)
  | .mk i ty cs => if ty ∈ dropTypes then (fun j => if j = i then q else prob j) else adjustDropouts q prob cs
/-- `for child in module.children()` (directives.py:86-87).  (`children()` lists an object once: a second call changes nothing.) -/
def adjustDropouts (q : ℚ) (prob : ℕ → ℚ) : List (String × MT) → (ℕ → ℚ)
  | [] => prob
  | (_, t) :: cs => adjustDropouts q (adjustDropout q prob t) cs
end

mutual
/-- `model.parameters()`: the parameters (`own`: those of a module object) of all modules.  (Torch lists each once; repetitions
do not matter here.) -/
def modelParams (own : ℕ → List ℕ) : MT → List ℕ
  | .mk i _ cs => own i ++ modelParamsC own cs
/-- The parameters of the children. -/
def modelParamsC (own : ℕ → List ℕ) : List (String × MT) → List ℕ
  | [] => []
  | (_, t) :: cs => modelParams own t ++ modelParamsC own cs
end

/-- `freeze_all(model, freeze)` (directives.py:58-61): `requires_grad` of every parameter afterwards. -/
def freezeAll (own : ℕ → List ℕ) (t : MT) (freeze : Bool) (req : ℕ → Bool) : ℕ → Bool :=
  (modelParams own t).foldl (fun r p => fun x => if x = p then !freeze else r x) req

/-- `freeze_training(model, which_params, freeze)` (directives.py:38-55): the body of the loop starts with a call of
`model_find_param_name`, which `directives.py` neither defines nor imports. -/
def freezeTraining (own : ℕ → List ℕ) (t : MT) (_which : List String) (_freeze : Bool) (req : ℕ → Bool) :
    Except Err (ℕ → Bool) :=
  (modelParams own t).foldlM (fun (_ : ℕ → Bool) _ => (.error .name : Except Err (ℕ → Bool))) req

/-- Weights, gradients (`none`: `p.grad is None`) and SGD momentum buffers, by parameter. -/
structure TrainSt where
  w : ℕ → ℚ
  grad : ℕ → Option ℚ
  buf : ℕ → Option ℚ

/-- Hyper-parameters of `torch.optim.SGD`. -/
structure SGDParams where
  lr : ℚ
  momentum : ℚ
  decay : ℚ

/-- `optimizer.zero_grad()` (torch: existing gradients are set to zero). -/
def TrainSt.zeroGrad (s : TrainSt) : TrainSt := { s with grad := fun p => (s.grad p).map (fun _ => 0) }

/-- `loss.backward()`: gradients are accumulated in the parameters that require them; `g` is the gradient of the loss. -/
def TrainSt.backward (s : TrainSt) (req : ℕ → Bool) (g : ℕ → ℚ) : TrainSt :=
  { s with grad := fun p => if req p then some ((s.grad p).getD 0 + g p) else s.grad p }

/-- The new momentum buffer in `torch.optim.SGD.step`. -/
def SGDParams.newBuf (h : SGDParams) (buf : Option ℚ) (d : ℚ) : ℚ :=
  match buf with
  | none => d
  | some b => h.momentum * b + d

/-- `optimizer.step()` of `torch.optim.SGD`: parameters without gradient are skipped. -/
def TrainSt.step (s : TrainSt) (h : SGDParams) : TrainSt where
  w := fun p => match s.grad p with
    | none => s.w p
    | some g =>
      if h.momentum = 0 then s.w p - h.lr * (g + h.decay * s.w p)
      else s.w p - h.lr * h.newBuf (s.buf p) (g + h.decay * s.w p)
  grad := s.grad
  buf := fun p => match s.grad p with
    | none => s.buf p
    | some g => if h.momentum = 0 then s.buf p else some (h.newBuf (s.buf p) (g + h.decay * s.w p))

/-- A training step: `optimizer.zero_grad()`, `loss.backward()`, `optimizer.step()` (image_classifier.py:619-623). -/
def TrainSt.trainStep (h : SGDParams) (req : ℕ → Bool) (s : TrainSt) (g : ℕ → ℚ) : TrainSt :=
  ((s.zeroGrad).backward req g).step h

/-! ## Names -/

mutual
/-- `named_modules()` (torch): objects already listed are skipped, together with what they contain. -/
def namedPairs (acc : List (ℕ × Name)) (pre : Name) : MT → List (ℕ × Name)
  | .mk i _ cs => if i ∈ acc.map Prod.fst then acc else namedPairsC (acc ++ [(i, pre)]) pre cs
/-- The children of a module. -/
def namedPairsC (acc : List (ℕ × Name)) (pre : Name) : List (String × MT) → List (ℕ × Name)
  | [] => acc
  | (n, t) :: cs => namedPairsC (namedPairs acc (pre ++ [n]) t) pre cs
end

/-- `assign_layer_fq_names` (utils.py:98-105): the attribute `distiller_name` of every object afterwards. -/
def assignNames (t : MT) (dn : ℕ → Option Name) : ℕ → Option Name :=
  (namedPairs [] [] t).foldl (fun d p => fun j => if j = p.1 then some p.2 else d j) dn

/-- `find_module_by_fq_name` (utils.py:108-123). -/
def findByName (t : MT) (dn : ℕ → Option Name) (nm : Name) : Option ℕ :=
  ((namedPairs [] [] t).map Prod.fst).find? (fun i => decide (dn i = some nm))

end Verif
