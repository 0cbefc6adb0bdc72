import Verif.Basic.Py
import Verif.Basic.Tensor
/-!
# Model of `distiller/scheduler.py` and `distiller/policy.py`

Python objects are modelled by state passing.  A dotted parameter name is the
list of its components.  The pruner and the regularizer a policy owns are
*arbitrary*: every call to `pruner.set_param_mask` / `regularizer.threshold` is
answered by an oracle (`Env`) which sees a global clock, so that the theorems
hold for every, possibly stateful, pruner.  Likewise the optimizer step is an
arbitrary function.
-/
namespace Verif

/-- A dotted name, `'.'`-split: `"conv1.weight"` is `["conv1", "weight"]`. -/
abbrev Name := List String

/-- `ParameterMasker` (distiller/scheduler.py:245-257).  `param_name` (debug only)
is dropped; `backward_hook_handle` is split in `handle` (is a handle stored?) and
`liveHooks` (how many gradient hooks are registered on the parameter), because a
second registration overwrites the stored handle but leaves the first hook alive. -/
structure Masker where
  mask : Option Tensor := none
  isReg : Bool := false
  dbl : Bool := false
  fwdOnly : Bool := false
  copy : Option Tensor := none
  handle : Bool := false
  liveHooks : Nat := 0
  deriving DecidableEq, Repr

namespace Masker

/-- `ParameterMasker.mask_tensor` (scheduler.py:270-272); returns the new tensor. -/
def maskTensor (m : Masker) (w : Tensor) : Tensor :=
  match m.mask with
  | none => w
  | some k => tmul w k

/-- `ParameterMasker.apply_mask` (scheduler.py:259-268). -/
def applyMask (m : Masker) (w : Tensor) : Masker × Tensor :=
  match m.mask with
  | none => (m, w)
  | some _ =>
    let m1 := if m.dbl then { m with copy := some w } else m
    let w1 := m1.maskTensor w
    let m2 := if m1.isReg then { m1 with mask := none } else m1
    (m2, w1)

/-- `ParameterMasker.mask_gradient` (scheduler.py:274-276).  The hook returning
`None` means "gradient unchanged" to torch. -/
def maskGradient (m : Masker) (g : Tensor) : Tensor :=
  match m.mask with
  | none => g
  | some k => tmul g k

/-- `ParameterMasker.revert_weights` (scheduler.py:278-283). -/
def revertWeights (m : Masker) (w : Tensor) : Masker × Tensor :=
  if !m.dbl then (m, w)
  else match m.copy with
    | none => (m, w)
    | some c => ({ m with copy := none }, c)

end Masker

/-- `create_model_masks_dict` (scheduler.py:286-292). -/
def createModelMasksDict (params : Dict Name Tensor) : Dict Name Masker :=
  params.map fun p => (p.1, {})

/-! ## add_policy -/

/-- Metadata kept per policy (`sched_metadata[policy]`, scheduler.py:76-78, 83). -/
structure Meta where
  starting : Int
  ending : Int
  freq : Option Int
  current : Option Int := none
  deriving DecidableEq, Repr

/-- Python's `list(range(a, b, f))` for `f > 0`. -/
def pyRange (a b f : Int) : List Int :=
  (List.range ((b - a + f - 1) / f).toNat).map fun (i : Nat) => a + f * (i : Int)

/-- `self.policies` and `self.sched_metadata` (scheduler.py:40-41); policies are
identified by a number (Python: object identity). -/
structure Sched where
  policies : Dict Int (List Nat) := []
  md : Dict Nat Meta := []
  deriving DecidableEq, Repr

/-- Arguments of one `add_policy` call (scheduler.py:45); `none` = Python `None`.
The Python default of `frequency` is `1`. -/
structure AddArgs where
  policy : Nat
  epochs : Option (List Int) := none
  starting : Option Int := none
  ending : Option Int := none
  freq : Option Int := some 1
  deriving DecidableEq, Repr

/-- One iteration of the loop at scheduler.py:69-74. -/
def appendPolicy (p : Nat) (d : Dict Int (List Nat)) (e : Int) : Dict Int (List Nat) :=
  match d.get? e with
  | none => d.set e [p]
  | some l => d.set e (l ++ [p])

/-- The common tail of `add_policy` (scheduler.py:69-78). -/
def Sched.install (s : Sched) (p : Nat) (epochs : List Int) (st en : Int) (fr : Option Int) :
    Sched :=
  { policies := epochs.foldl (appendPolicy p) s.policies
    md := s.md.set p { starting := st, ending := en, freq := fr } }

/-- `CompressionScheduler.add_policy` (scheduler.py:45-78): the scheduler afterwards
and the exception, if one is raised. -/
def Sched.addPolicy (s : Sched) (a : AddArgs) : Sched × Except Err Unit :=
  match a.epochs with
  | none =>
    match a.starting, a.ending, a.freq with
    | some st, some en, some fr =>
      if 0 ≤ st ∧ st < en then
        if 0 < fr ∧ fr ≤ en - st then
          (s.install a.policy (pyRange st en fr) st en (some fr), .ok ())
        else (s, .error .assertion)
      else (s, .error .assertion)
    | _, _, _ => (s, .error .assertion)
  | some es =>
    match a.starting, a.ending with
    | none, none =>
      match es.head?, es.getLast? with           -- epochs[0], epochs[-1]
      | some first, some last => (s.install a.policy es first (last + 1) none, .ok ())
      | _, _ => (s, .error .index)
    | _, _ => (s, .error .assertion)

/-- The policies a callback of epoch `e` iterates over
(`self.policies.get(epoch, list())`, scheduler.py:81, 88-89, 137). -/
def Sched.active (s : Sched) (e : Int) : List Nat := (s.policies.get? e).getD []

/-! ## Policies and the store they act on -/

/-- Configuration of `PruningPolicy` (policy.py:123-134); `levels` is folded into
the pruner oracle. -/
structure PruneCfg where
  keepMask : Bool := false
  mbFreq : Nat := 0
  fwdOnly : Bool := false
  maskGrads : Bool := false
  dbl : Bool := false
  discard : Bool := false
  skipFirst : Bool := false
  foldBn : Bool := false
  deriving DecidableEq, Repr

/-- A scheduled policy with its mutable state.  `other` stands for policies which
touch neither parameters nor masks (`LRPolicy`, policy.py:300-314; distillation). -/
inductive Policy where
  | prune (cfg : PruneCfg) (isLast isInit : Bool)
  | reg (keepMask hasThresh : Bool) (isLast : Bool)
  | other
  deriving DecidableEq, Repr

/-- `PruningPolicy.__init__` (policy.py:89-140): the only rejected configuration. -/
def mkPrune (cfg : PruneCfg) : Except Err Policy :=
  if cfg.maskGrads ∧ ¬ cfg.fwdOnly then .error .value
  else .ok (.prune cfg false false)

/-- Model parameters (`named_parameters()`), maskers, and a clock counting oracle
calls. -/
structure Store where
  params : Dict Name Tensor
  maskers : Dict Name Masker
  clock : Nat := 0
  deriving DecidableEq, Repr

/-- The arbitrary parts.
`prune t pol name w old meta` – the mask left behind by `pruner.set_param_mask`
(or the exception it raises); `thresh t pol name w` – `some m` if
`regularizer.threshold` installs the mask `m`, `none` if the parameter is not
regularized; `folded pol name w` – `some w'` if `_fold_batchnorm` (policy.py:143-177)
returns a new tensor `w'`, `none` if it returns the parameter itself. -/
structure Env where
  prune : Nat → Nat → Name → Tensor → Option Tensor → Meta → Except Err (Option Tensor)
  thresh : Nat → Nat → Name → Tensor → Option Tensor
  folded : Nat → Name → Tensor → Option Tensor

namespace Store

/-- Loop `for param_name, param in model.named_parameters()`.  The set of names is
fixed by the model and not changed by the loop bodies modelled here. -/
def forParams (s : Store) (body : Store → Name → Except Err Store) : Except Err Store :=
  (s.params.map Prod.fst).foldlM body s

/-- The current value of a parameter. -/
def param (s : Store) (n : Name) : Tensor := (s.params.get? n).getD []

def setParam (s : Store) (n : Name) (w : Tensor) : Store := { s with params := s.params.set n w }
def setMasker (s : Store) (n : Name) (m : Masker) : Store := { s with maskers := s.maskers.set n m }

end Store

/-- `pruner.set_param_mask(param, param_name, zeros_mask_dict, meta)`: the oracle
decides the new mask of `param_name`.  A missing masker is a `KeyError` (all
pruners of the library index `zeros_mask_dict[param_name]`; a pruner which skips
the parameter without indexing is covered by giving it a masker). -/
def setParamMask (env : Env) (pol : Nat) (mt : Meta) (s : Store) (n : Name) (w : Tensor) :
    Except Err Store := do
  let m ← s.maskers.getE n
  let k ← env.prune s.clock pol n w m.mask mt
  return { s.setMasker n { m with mask := k } with clock := s.clock + 1 }

/-- Masker initialisation in `PruningPolicy.on_epoch_begin` (policy.py:198-204).
Registering a hook on a BN-folded tensor (it carries no gradient) raises in torch. -/
def initMasker (cfg : PruneCfg) (isFolded : Bool) (m : Masker) : Except Err Masker :=
  let m := { m with dbl := cfg.dbl, fwdOnly := cfg.fwdOnly }
  if cfg.maskGrads then
    if isFolded then .error .runtime
    else .ok { m with handle := true, liveHooks := m.liveHooks + 1 }
  else .ok m

/-- Body of the loop in `PruningPolicy.on_epoch_begin` (policy.py:194-210). -/
def pruneEpochBeginBody (env : Env) (pol : Nat) (cfg : PruneCfg) (isInit : Bool) (mt : Meta)
    (s : Store) (n : Name) : Except Err Store :=
  let w := s.param n
  let fw := if cfg.foldBn then env.folded pol n w else none
  if isInit then setParamMask env pol mt s n (fw.getD w)
  else do
    let m ← s.maskers.getE n
    let m ← initMasker cfg fw.isSome m
    let s := s.setMasker n m
    if cfg.skipFirst then .ok s else setParamMask env pol mt s n (fw.getD w)

/-- The decision `set_masks` in `PruningPolicy.on_minibatch_begin`
(policy.py:214-225). -/
def setMasksNow (cfg : PruneCfg) (epoch : Int) (mb mpe : Nat) : Bool :=
  let gid : Int := epoch * mpe + mb
  (decide (0 < mb) && decide (cfg.mbFreq ≠ 0) && decide (gid % cfg.mbFreq = 0))
    || (cfg.skipFirst && decide (gid = 1))

/-- Body of the loop in `PruningPolicy.on_minibatch_begin` (policy.py:227-232).
Note that after BN folding `param` names the folded temporary, so the mask is
applied to (and the "unmasked copy" taken from) the temporary. -/
def pruneMbBeginBody (env : Env) (pol : Nat) (cfg : PruneCfg) (setMasks : Bool) (mt : Meta)
    (s : Store) (n : Name) : Except Err Store := do
  let w := s.param n
  let fw := if setMasks && cfg.foldBn then env.folded pol n w else none
  let s ← (if setMasks then setParamMask env pol mt s n (fw.getD w) else .ok s)
  let m ← s.maskers.getE n
  match fw with
  | some w' => return s.setMasker n (m.applyMask w').1
  | none =>
    let r := m.applyMask w
    return (s.setMasker n r.1).setParam n r.2

/-- Body of `PruningPolicy.before_parameter_optimization` (policy.py:236-237). -/
def revertBody (s : Store) (n : Name) : Except Err Store := do
  let m ← s.maskers.getE n
  let r := m.revertWeights (s.param n)
  return (s.setMasker n r.1).setParam n r.2

/-- Body of `PruningPolicy.on_minibatch_end` (policy.py:241-242). -/
def discardBody (s : Store) (n : Name) : Except Err Store := do
  let m ← s.maskers.getE n
  return s.setMasker n { m with mask := none }

/-- Body of `PruningPolicy.on_epoch_end` (policy.py:247-255). -/
def pruneEpochEndBody (cfg : PruneCfg) (s : Store) (n : Name) : Except Err Store := do
  let m ← s.maskers.getE n
  let m1 := if cfg.keepMask then { m with dbl := false, fwdOnly := false } else m
  let w1 := if cfg.keepMask then m1.maskTensor (s.param n) else s.param n
  let m2 := if m1.handle then { m1 with handle := false, liveHooks := m1.liveHooks - 1 } else m1
  return (s.setMasker n m2).setParam n w1

/-- Body of the loop in `RegularizationPolicy.on_minibatch_end` (policy.py:293-297)
together with `_Regularizer.threshold` (regularization/l1_regularizer.py:92-99 of the
class file, group_regularizer.py:85-92): when it installs a mask it also sets
`is_regularization_mask`. -/
def regMbEndBody (env : Env) (pol : Nat) (keep : Bool) (s : Store) (n : Name) :
    Except Err Store := do
  let w := s.param n
  let m ← s.maskers.getE n
  let m := match env.thresh s.clock pol n w with
    | some k => { m with mask := some k, isReg := true }
    | none => m
  let m := if keep then { m with isReg := false } else m
  let r := m.applyMask w
  return { (s.setMasker n r.1).setParam n r.2 with clock := s.clock + 1 }

/-! ## The scheduler as a transition system -/

/-- `CompressionScheduler` + the training loop's view of it. -/
structure State where
  store : Store
  sched : Sched
  pols : Nat → Policy

/-- `meta['current_epoch'] = epoch` on the shared metadata (scheduler.py:82-83). -/
def touchMeta (st : State) (p : Nat) (e : Int) : Except Err (State × Meta) := do
  let m ← st.sched.md.getE p
  let m := { m with current := some e }
  return ({ st with sched := { st.sched with md := st.sched.md.set p m } }, m)

def setPol (st : State) (p : Nat) (q : Policy) : State :=
  { st with pols := fun j => if j = p then q else st.pols j }

/-- One policy's share of `on_epoch_begin` (scheduler.py:82-85; policy.py:179-210, 268-269). -/
def policyEpochBegin (env : Env) (e : Int) (st : State) (p : Nat) : Except Err State := do
  let (st, mt) ← touchMeta st p e
  match st.pols p with
  | .prune cfg _ isInit =>
    let isLast := decide (e = mt.ending - 1)
    let s ← st.store.forParams (pruneEpochBeginBody env p cfg isInit mt)
    -- `is_initialized` becomes True inside the loop, i.e. if there is a parameter
    let st := setPol st p (.prune cfg isLast (isInit || !st.store.params.isEmpty))
    return { st with store := s }
  | .reg k h _ => return setPol st p (.reg k h (decide (e = mt.ending - 1)))
  | .other => return st

/-- One policy's share of `on_minibatch_begin` (scheduler.py:90-93). -/
def policyMbBegin (env : Env) (e : Int) (mb mpe : Nat) (st : State) (p : Nat) :
    Except Err State := do
  let (st, mt) ← touchMeta st p e
  match st.pols p with
  | .prune cfg _ _ =>
    let s ← st.store.forParams (pruneMbBeginBody env p cfg (setMasksNow cfg e mb mpe) mt)
    return { st with store := s }
  | _ => return st

/-- One policy's share of `before_parameter_optimization` (scheduler.py:117-120). -/
def policyBeforeOpt (e : Int) (st : State) (p : Nat) : Except Err State := do
  let (st, _) ← touchMeta st p e
  match st.pols p with
  | .prune _ _ _ =>
    let s ← st.store.forParams revertBody
    return { st with store := s }
  | _ => return st

/-- One policy's share of `on_minibatch_end` (scheduler.py:132-134; policy.py:239-242,
282-297). -/
def policyMbEnd (env : Env) (mb mpe : Nat) (st : State) (p : Nat) : Except Err State := do
  match st.pols p with
  | .prune cfg _ _ =>
    if cfg.discard then
      let s ← st.store.forParams discardBody
      return { st with store := s }
    else return st
  | .reg k h isLast =>
    if h then
      let keep := decide ((mpe : Int) - 1 = mb) && isLast && k
      let s ← st.store.forParams (regMbEndBody env p keep)
      return { st with store := s }
    else return st
  | .other => return st

/-- One policy's share of `on_epoch_end` (scheduler.py:138-142; policy.py:244-255). -/
def policyEpochEnd (e : Int) (st : State) (p : Nat) : Except Err State := do
  let (st, _) ← touchMeta st p e
  match st.pols p with
  | .prune cfg isLast _ =>
    if isLast then
      let s ← st.store.forParams (pruneEpochEndBody cfg)
      return { st with store := s }
    else return st
  | _ => return st

/-- `FP_BKP_PREFIX` (quantization/quantizer.py:32). -/
def fpBkpPrefix : String := "float_"

/-- The name a quantizer-modified parameter is looked up under
(scheduler.py:163-172): drop a `float_` prefix of the last component and a
`wrapped_module` parent.  `name_parts[-2]` raises `IndexError` on an undotted name;
`none` means the parameter is ignored. -/
def fallbackName (n : Name) : Except Err (Option Name) :=
  match n.reverse with
  | last :: parent :: rest =>
    let prefixed := fpBkpPrefix.toList.isPrefixOf last.toList
    let wrapped := parent == "wrapped_module"
    if prefixed || wrapped then
      let last' := if prefixed then String.ofList (last.toList.drop fpBkpPrefix.toList.length) else last
      let tl := if wrapped then rest else parent :: rest
      .ok (some ((last' :: tl).reverse))
    else .ok none
  | _ => .error .index

/-- Body of `mask_all_weights` (scheduler.py:145-172). -/
def maskAllBody (isForward : Bool) (s : Store) (n : Name) : Except Err Store :=
  match s.maskers.get? n with
  | some m =>
    if isForward || !m.fwdOnly then .ok (s.setParam n (m.maskTensor (s.param n)))
    else .ok s
  | none => do
    match ← fallbackName n with
    | none => return s
    | some n' =>
      let m ← s.maskers.getE n'
      let r := m.applyMask (s.param n)
      return (s.setMasker n' r.1).setParam n r.2

/-- `CompressionScheduler.mask_all_weights` (scheduler.py:144-172). -/
def maskAllWeights (s : Store) (isForward : Bool := true) : Except Err Store :=
  s.forParams (maskAllBody isForward)

/-- `CompressionScheduler.on_epoch_begin` (scheduler.py:80-85). -/
def onEpochBegin (env : Env) (st : State) (e : Int) : Except Err State :=
  (st.sched.active e).foldlM (policyEpochBegin env e) st

/-- `CompressionScheduler.on_minibatch_begin` (scheduler.py:87-93). -/
def onMbBegin (env : Env) (st : State) (e : Int) (mb mpe : Nat) : Except Err State :=
  (st.sched.active e).foldlM (policyMbBegin env e mb mpe) st

/-- `CompressionScheduler.before_parameter_optimization` (scheduler.py:114-120). -/
def beforeOpt (st : State) (e : Int) : Except Err State :=
  (st.sched.active e).foldlM (policyBeforeOpt e) st

/-- `CompressionScheduler.on_minibatch_end` (scheduler.py:122-134). -/
def onMbEnd (env : Env) (st : State) (e : Int) (mb mpe : Nat) : Except Err State := do
  let s ← maskAllWeights st.store (isForward := false)
  (st.sched.active e).foldlM (policyMbEnd env mb mpe) { st with store := s }

/-- `CompressionScheduler.on_epoch_end` (scheduler.py:136-142). -/
def onEpochEnd (st : State) (e : Int) : Except Err State :=
  (st.sched.active e).foldlM (policyEpochEnd e) st

/-- What the training loop can do: call a scheduler callback, or write the weights
(optimizer step; `f` arbitrary). -/
inductive Ev where
  | epochBegin (e : Int)
  | mbBegin (e : Int) (mb mpe : Nat)
  | beforeOpt (e : Int) (mb mpe : Nat)
  | write (f : Name → Tensor → Tensor)
  | mbEnd (e : Int) (mb mpe : Nat)
  | epochEnd (e : Int)

/-- One step of a training loop. -/
def step (env : Env) (st : State) : Ev → Except Err State
  | .epochBegin e => onEpochBegin env st e
  | .mbBegin e mb mpe => onMbBegin env st e mb mpe
  | .beforeOpt e _ _ => beforeOpt st e
  | .write f => .ok { st with store := { st.store with params := st.store.params.mapVals f } }
  | .mbEnd e mb mpe => onMbEnd env st e mb mpe
  | .epochEnd e => onEpochEnd st e

/-- A whole history. -/
def run (env : Env) (st : State) (evs : List Ev) : Except Err State := evs.foldlM (step env) st

end Verif
