import Verif.Model.Checkpoint
import Verif.Model.Metrics
/-!
# Lottery tickets (`examples/lottery_ticket/lottery.py`)

Modelled: `extract_lottery_ticket` (50-70) from the two loaded checkpoints to the saved one.  Loading the two checkpoints (51-55)
is `loadCkpt` (checkpoint.py:189-255); here their results are the arguments.  The printed table is dropped, but the sparsity it
needs is computed, since computing it can fail.
-/
namespace Verif

/-- `torch.ne(param, 0).type(param.type())` (lottery.py:58). -/
def nonzeroMask (w : Tensor) : Tensor := w.map (fun x => if x = 0 then 0 else 1)

/-- `masks_dict` (lottery.py:58-60): a mask for every parameter of the pruned model that has an entry in the scheduler's
dictionary. -/
def ticketMasks (params : Dict Name Tensor) (mk : Dict Name Masker) : Dict Name Tensor :=
  (params.filter (fun q => mk.has q.1)).map (fun q => (q.1, nonzeroMask q.2))

/-- `untrained_model.state_dict()[pname].mul_(mask)` (lottery.py:62): `KeyError` for an unknown name, `RuntimeError` for another
size.  (Simplified: only the parameters are searched, and masks that torch would broadcast are refused.) -/
def maskInPlace (params : Dict Name Tensor) (q : Name × Tensor) : Except Err (Dict Name Tensor) :=
  match Dict.get? params q.1 with
  | none => .error .key
  | some w => if w.length = q.2.length then .ok (Dict.set params q.1 (tmul w q.2)) else .error .runtime

/-- `extract_lottery_ticket` (lottery.py:57-70): the checkpoint written.  `u` is the untrained model, `p` the pruned one, `mk` its
scheduler's masks and `opt` its optimizer (line 55 overwrites the optimizer of the untrained checkpoint). -/
def extractTicket (u p : NetState) (mk : Dict Name Masker) (opt : Option OptState) : Except Err Ckpt := do
  let masks := ticketMasks p.params mk
  let params ← masks.foldlM maskInPlace u.params
  let _ ← masks.mapM (fun q => sparsity q.2)
  let r := initFromMasksDict mk (masks.map (fun q => (q.1, some q.2)))
  let _ ← r.2
  match p.arch with
  | none => .error .attribute
  | some a => .ok (saveCkpt 0 a { u with params := params } opt (some r.1))

end Verif
