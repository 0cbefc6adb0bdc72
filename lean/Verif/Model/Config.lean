import Verif.Basic.Py
import Verif.Model.Scheduler
/-!
# Building a compression schedule from a configuration (`distiller/config.py`)

Modelled: `filter_kwargs` (utils.py:726-743), `build_component` (config.py:190-211), `__factory`
(174-187), `__policy_params` (214-217), `add_policy_to_scheduler` (133-139) and `dict_config`
(52-130), including the in-place changes they make to the configuration dictionary and to the
scheduler.  Not modelled: what the constructors of the components do with their arguments (only
Python's own binding of keyword arguments is), the effects of `QuantizationPolicy.__init__` on the
model, logging and printing.
-/
namespace Verif

/-- A configuration value: a string, an integer, a boolean, or some other object identified by a number. -/
inductive YVal where
  | str (s : String)
  | int (n : Int)
  | obj (n : Nat)
  | bool (b : Bool)
  deriving DecidableEq, Repr

/-- Kinds of parameters (`inspect.Parameter.kind`). -/
inductive PKind where
  | posOrKw | kwOnly | varPos | varKw
  deriving DecidableEq, Repr

/-- One parameter of `class_.__init__` as seen by `inspect.signature`. -/
structure SigParam where
  name : String
  kind : PKind := .posOrKw
  hasDefault : Bool := false
  deriving DecidableEq, Repr

abbrev Sig := List SigParam

/-- `filter_keys` (utils.py:734). -/
def Sig.filterKeys (s : Sig) : List String := (s.filter (fun p => decide (p.kind = .posOrKw))).map SigParam.name

/-- `filter_kwargs` (utils.py:726-743). -/
def filterKwargs (d : Dict String YVal) (s : Sig) : Dict String YVal × Dict String YVal :=
  d.foldl (fun acc kv =>
    if kv.1 ∈ s.filterKeys then (acc.1.set kv.1 kv.2, acc.2) else (acc.1, acc.2.set kv.1 kv.2)) ([], [])

/-- A constructed component: the class and the keyword arguments its constructor received. -/
structure Comp where
  cls : String
  kwargs : Dict String YVal
  deriving DecidableEq, Repr

/-- Python's binding of `class_(**kwargs)` for keyword arguments that all name ordinary parameters
(config.py:210): `self` is given already, and parameters without a default must be present. -/
def callClass (cls : String) (s : Sig) (kwargs : Dict String YVal) : Except Err Comp :=
  if kwargs.has "self" then .error .type
  else if ∃ p ∈ s, (p.kind = .posOrKw ∨ p.kind = .kwOnly) ∧ p.name ≠ "self" ∧ p.hasDefault = false ∧ kwargs.has p.name = false
  then .error .type
  else .ok ⟨cls, kwargs⟩

/-- `dict.update` -/
def Dict.update {β : Type} (d e : Dict String β) : Dict String β := e.foldl (fun acc kv => acc.set kv.1 kv.2) d

/-- `dict.pop(k)` without a default: the value, and the dictionary without the key. -/
def Dict.popE {β : Type} (d : Dict String β) (k : String) : Except Err (β × Dict String β) :=
  match d.get? k with
  | some v => .ok (v, d.filter (fun kv => decide (kv.1 ≠ k)))
  | none => .error .key

/-- `build_component` (config.py:190-211): the result, and the caller's `user_args` afterwards
(`pop('class')` removes the key from it). `classes` is `globals()` restricted to classes. -/
def buildComponent (classes : Dict String Sig) (model : YVal) (name : String) (user : Dict String YVal)
    (extra : Dict String YVal) : Except Err Comp × Dict String YVal :=
  match user.popE "class" with
  | .error e => (.error e, user)
  | .ok (cls, user') =>
    match cls with
    | .str c =>
      match classes.get? c with
      | none => (.error .value, user')
      | some sig =>
        let f := filterKwargs user' sig
        if f.2 ≠ [] then (.error .value, user')
        else
          let v := ((f.1.update extra).set "model" model).set "name" (.str name)
          (callClass c sig (filterKwargs v sig).1, user')
    | _ => (.error .value, user')

/-- `__factory` (config.py:174-187) on one section of the configuration: the container and the
section afterwards. -/
def factory (classes : Dict String Sig) (model : YVal) (extra : Dict String YVal) :
    Dict String (Dict String YVal) → Except Err (Dict String Comp) × Dict String (Dict String YVal)
  | [] => (.ok [], [])
  | (name, user) :: rest =>
    match buildComponent classes model name user extra with
    | (.error e, user') => (.error e, (name, user') :: rest)
    | (.ok c, user') =>
      match factory classes model extra rest with
      | (.error e, rest') => (.error e, (name, user') :: rest')
      | (.ok cs, rest') => (.ok ((name, c) :: cs), (name, user') :: rest')

/-- What a policy definition refers to: `{'instance_name': ..., 'args': ...}`. -/
structure PolRef where
  inst : Option String
  args : Option (Dict String YVal) := none
  deriving DecidableEq, Repr

/-- The five kinds of policies, in the order `dict_config` tests for them. -/
inductive PolKind where
  | pruner | regularizer | quantizer | lrScheduler | extension
  deriving DecidableEq, Repr

/-- One entry of `sched_dict['policies']`.  `refs` are the keys naming a component; a null value
(YAML `pruner:`) is `none`. -/
structure PolicyDef where
  refs : Dict PolKind (Option PolRef)
  epochs : Option (List Int) := none
  starting : Option Int := none
  ending : Option Int := none
  freq : Option Int := none
  deriving DecidableEq, Repr

/-- `__policy_params` (config.py:214-217). -/
def policyParams (r : Option PolRef) : Except Err (String × Option (Dict String YVal)) :=
  match r with
  | none => .error .type
  | some r => match r.inst with
    | none => .error .key
    | some i => .ok (i, r.args)

/-- Python truthiness of the flags given in `args`. -/
def argFlag (args : Dict String YVal) (k : String) : Bool :=
  match args.get? k with
  | some (.bool b) => b
  | some (.int n) => decide (n ≠ 0)
  | some (.obj _) => true
  | some (.str s) => decide (s ≠ "")
  | none => false

/-- `PruningPolicy.__init__` (policy.py:118-140) applied to the `args` of the policy: keys it does
not know are ignored. -/
def pruneCfgOf (args : Option (Dict String YVal)) : PruneCfg :=
  let a := args.getD []
  { keepMask := argFlag a "keep_mask"
    mbFreq := match a.get? "mini_batch_pruning_frequency" with | some (.int n) => n.toNat | _ => 0
    fwdOnly := argFlag a "mask_on_forward_only"
    maskGrads := argFlag a "mask_gradients"
    dbl := argFlag a "use_double_copies"
    discard := argFlag a "discard_masks_at_minibatch_end"
    skipFirst := argFlag a "skip_first_minibatch"
    foldBn := argFlag a "fold_batchnorm" }

/-- `RegularizationPolicy(regularizer, **args)` (config.py:79-85, policy.py:262): `keep_mask` is the
only accepted argument. -/
def regPolicyArgs (args : Option (Dict String YVal)) : Except Err Bool :=
  match args with
  | none => .ok false
  | some a => if ∀ k ∈ a.map Prod.fst, k = "keep_mask" then .ok (argFlag a "keep_mask") else .error .type

/-- A policy object made by `dict_config`. -/
inductive PolObj where
  | prune (inst : String) (cfg : PruneCfg)
  | reg (inst : String) (keep : Bool)
  | quant (inst : String)
  | lr (inst : String)
  | ext (inst : String)
  deriving DecidableEq, Repr

/-- The scheduler being filled: the schedule, the policy objects by number, and the numbers of the
extensions (an extension *is* the policy object, so it keeps its identity when used twice). -/
structure CfgState where
  sched : Sched := {}
  objs : List PolObj := []
  extIds : Dict String Nat := []
  deriving DecidableEq, Repr

/-- The containers built from the sections. -/
structure Containers where
  pruners : Dict String Comp := []
  regularizers : Dict String Comp := []
  quantizers : Dict String Comp := []
  extensions : Dict String Comp := []
  deriving DecidableEq, Repr

/-- The arguments `add_policy_to_scheduler` passes on (config.py:133-139). -/
def PolicyDef.addArgs (d : PolicyDef) (id : Nat) : Except Err AddArgs :=
  match d.epochs with
  | some es => .ok { policy := id, epochs := some es }
  | none =>
    match d.starting, d.ending, d.freq with
    | some s, some e, some f => .ok { policy := id, starting := some s, ending := some e, freq := some f }
    | _, _, _ => .error .key

/-- `add_policy_to_scheduler` (config.py:133-139). -/
def CfgState.add (st : CfgState) (d : PolicyDef) (id : Nat) : CfgState × Except Err Unit :=
  match d.addArgs id with
  | .error e => (st, .error e)
  | .ok a => ({ st with sched := (st.sched.addPolicy a).1 }, (st.sched.addPolicy a).2)

/-- A new policy object, numbered by the order of creation. -/
def CfgState.newObj (st : CfgState) (o : PolObj) : CfgState := { st with objs := st.objs ++ [o] }

/-- One pass of the loop over the policy definitions (config.py:68-112); LR policies are put off.
Returns whether the definition was put off. -/
def processDef (cs : Containers) (st : CfgState) (d : PolicyDef) : CfgState × Except Err Bool :=
  let finish (r : CfgState × Except Err Unit) : CfgState × Except Err Bool := (r.1, r.2.map (fun _ => false))
  match d.refs.get? .pruner with
  | some r =>
    match policyParams r with
    | .error e => (st, .error e)
    | .ok (i, args) =>
      if cs.pruners.has i then
        match mkPrune (pruneCfgOf args) with
        | .error e => (st, .error e)
        | .ok _ => finish ((st.newObj (.prune i (pruneCfgOf args))).add d st.objs.length)
      else (st, .error .assertion)
  | none =>
  match d.refs.get? .regularizer with
  | some r =>
    match policyParams r with
    | .error e => (st, .error e)
    | .ok (i, args) =>
      if cs.regularizers.has i then
        match regPolicyArgs args with
        | .error e => (st, .error e)
        | .ok k => finish ((st.newObj (.reg i k)).add d st.objs.length)
      else (st, .error .assertion)
  | none =>
  match d.refs.get? .quantizer with
  | some r =>
    match policyParams r with
    | .error e => (st, .error e)
    | .ok (i, _) =>
      if cs.quantizers.has i then finish ((st.newObj (.quant i)).add d st.objs.length)
      else (st, .error .assertion)
  | none =>
  match d.refs.get? .lrScheduler with
  | some _ => (st, .ok true)
  | none =>
  match d.refs.get? .extension with
  | some r =>
    match policyParams r with
    | .error e => (st, .error e)
    | .ok (i, _) =>
      if cs.extensions.has i then
        match st.extIds.get? i with
        | some id => finish (st.add d id)
        | none => finish (({ st.newObj (.ext i) with extIds := st.extIds.set i st.objs.length }).add d st.objs.length)
      else (st, .error .assertion)
  | none => (st, .error .value)

/-- The loop (config.py:68-112), collecting the LR policy definitions. -/
def processDefs (cs : Containers) : CfgState → List PolicyDef → CfgState × Except Err (List PolicyDef)
  | st, [] => (st, .ok [])
  | st, d :: ds =>
    match processDef cs st d with
    | (st', .error e) => (st', .error e)
    | (st', .ok put) =>
      match processDefs cs st' ds with
      | (st'', .error e) => (st'', .error e)
      | (st'', .ok lrs) => (st'', .ok (if put then d :: lrs else lrs))

/-- The second loop, over the LR policies (config.py:117-123). -/
def processLr (lrs : Dict String Comp) : CfgState → List PolicyDef → CfgState × Except Err Unit
  | st, [] => (st, .ok ())
  | st, d :: ds =>
    match policyParams ((d.refs.get? .lrScheduler).getD none) with
    | .error e => (st, .error e)
    | .ok (i, _) =>
      if lrs.has i then
        match (st.newObj (.lr i)).add d st.objs.length with
        | (st', .error e) => (st', .error e)
        | (st', .ok ()) => processLr lrs st' ds
      else (st, .error .assertion)

/-- The configuration dictionary; missing sections are empty. -/
structure SchedDict where
  pruners : Dict String (Dict String YVal) := []
  regularizers : Dict String (Dict String YVal) := []
  quantizers : Dict String (Dict String YVal) := []
  extensions : Dict String (Dict String YVal) := []
  lrSchedulers : Dict String (Dict String YVal) := []
  policies : List PolicyDef := []
  deriving DecidableEq, Repr

/-- `dict_config` (config.py:52-130): the configuration dictionary afterwards, the scheduler
afterwards, and the exception if one is raised.  `resumed` is `resumed_epoch`. -/
def dictConfig (classes : Dict String Sig) (model optimizer : YVal) (resumed : Option Nat) (sd : SchedDict)
    (st : CfgState) : SchedDict × CfgState × Except Err Unit :=
  let p := factory classes model [] sd.pruners
  let sd := { sd with pruners := p.2 }
  match p.1 with
  | .error e => (sd, st, .error e)
  | .ok prs =>
  let r := factory classes model [] sd.regularizers
  let sd := { sd with regularizers := r.2 }
  match r.1 with
  | .error e => (sd, st, .error e)
  | .ok regs =>
  let q := factory classes model [("optimizer", optimizer)] sd.quantizers
  let sd := { sd with quantizers := q.2 }
  match q.1 with
  | .error e => (sd, st, .error e)
  | .ok qs =>
  if 1 < qs.length then (sd, st, .error .value) else
  let x := factory classes model [] sd.extensions
  let sd := { sd with extensions := x.2 }
  match x.1 with
  | .error e => (sd, st, .error e)
  | .ok exts =>
  match processDefs ⟨prs, regs, qs, exts⟩ st sd.policies with
  | (st, .error e) => (sd, st, .error e)
  | (st, .ok lrDefs) =>
    let l := factory classes model [("optimizer", optimizer), ("last_epoch", match resumed with | some e => .int e | none => .int (-1))] sd.lrSchedulers
    let sd := { sd with lrSchedulers := l.2 }
    match l.1 with
    | .error e => (sd, st, .error e)
    | .ok lrs =>
      match processLr lrs st lrDefs with
      | (st, .error e) => (sd, st, .error e)
      | (st, .ok ()) => (sd, st, .ok ())

end Verif
