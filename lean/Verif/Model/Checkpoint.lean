import Verif.Model.SchedulerState
/-!
# Checkpoints (`distiller/apputils/checkpoint.py`)

Modelled: `save_checkpoint` (35-87) and `load_checkpoint` (108-255) with a model given, up to the
file itself.  Not modelled: creating a model from the checkpoint's metadata, quantizer metadata
(228-236), moving to a device, the file system.  Thinning recipes stored in the checkpoint are an
arbitrary function `thin` (see the thinning model for what executing them does).
-/
namespace Verif

/-- The part of a model that checkpoints deal with: `named_parameters()`, the buffers, `model.arch`. -/
structure NetState where
  params : Dict Name Tensor
  buffers : Dict Name Tensor := []
  arch : Option String := none
  deriving DecidableEq, Repr

/-- An optimizer's `state_dict()` and type; `payload` stands for everything in it except the number
of parameters it is for. -/
structure OptState where
  type : String
  nparams : Nat
  payload : Nat
  deriving DecidableEq, Repr

/-- The dictionary saved in the file; `none` = the key is missing.  `sched = some none` is a
`compression_sched` entry without `masks_dict`. -/
structure Ckpt where
  stateDict : Option (Dict Name Tensor) := none
  epoch : Option Int := none
  arch : Option String := none
  opt : Option OptState := none
  sched : Option (Option MasksDict) := none
  deriving DecidableEq, Repr

/-- `save_checkpoint` (checkpoint.py:64-86) for a model without stored recipes: `arch` falls back
on `model.arch` (68-70; the fallback needs `is_parallel` and `dataset` too, which models made by
`create_model` have). -/
def saveCkpt (epoch : Int) (arch : String) (m : NetState) (opt : Option OptState) (sched : Option (Dict Name Masker)) : Ckpt :=
  { stateDict := some (m.params ++ m.buffers)
    epoch := some epoch
    arch := some (if arch = "" then m.arch.getD arch else arch)
    opt := opt
    sched := sched.map (fun mk => some (stateDict mk)) }

/-- `Module.load_state_dict(state, strict=False)` on one dictionary of the model: entries present
with the right size are copied; the others keep their value. -/
def copyInto (own state : Dict Name Tensor) : Dict Name Tensor :=
  own.mapVals (fun n w => match state.get? n with
    | some v => if v.length = w.length then v else w
    | none => w)

/-- A tensor of the model meets one of another size in the checkpoint: `RuntimeError` in torch. -/
def sizeClash (own state : Dict Name Tensor) : Bool :=
  own.any (fun kv => match state.get? kv.1 with
    | some v => decide (v.length ≠ kv.2.length)
    | none => false)

/-- `missing_keys` is not empty (checkpoint.py:241-249). -/
def missingKeys (own state : Dict Name Tensor) : Bool := own.any (fun kv => !state.has kv.1)

/-- `_load_compression_scheduler` (checkpoint.py:125-137) on a new scheduler: first with the keys as
they are, and after a `KeyError` again with normalized keys.  Returns whether it normalized. -/
def loadSched (params : Dict Name Tensor) (state : Option MasksDict) : Except Err (Dict Name Masker × Bool) :=
  let r := loadStateDict (createModelMasksDict params) state false
  match r.2 with
  | .ok () => .ok (r.1, false)
  | .error .key =>
    let r' := loadStateDict r.1 state true
    match r'.2 with
    | .ok () => .ok (r'.1, true)
    | .error e => .error e
  | .error e => .error e

/-- What `load_checkpoint` returns besides the model. -/
structure Loaded where
  sched : Option (Dict Name Masker)
  opt : Option OptState
  startEpoch : Int
  deriving DecidableEq, Repr

/-- The stored recipes: given whether names are to be normalized, they act on the parameters and
masks (checkpoint.py:139-150). -/
abbrev StoredThin := Bool → NetState → Dict Name Masker → Except Err (NetState × Dict Name Masker)

/-- `_load_optimizer` (checkpoint.py:152-172): torch refuses a state for another number of
parameters. -/
def loadOpt (m : NetState) (o : Option OptState) : Except Err (Option OptState) :=
  match o with
  | none => .ok none
  | some s => if s.nparams = m.params.length then .ok (some s) else .error .value

/-- `_sanity_check` (checkpoint.py:181-187). -/
def archOk (m : NetState) (c : Ckpt) : Bool :=
  match m.arch, c.arch with
  | some a, some b => decide (a = b)
  | _, _ => true

/-- The scheduler and recipes (checkpoint.py:209-226): masks (if any), whether keys were
normalized, and the model. -/
def loadSchedStage (m : NetState) (c : Ckpt) (thin : Option StoredThin) :
    Except Err (NetState × Option (Dict Name Masker) × Bool) :=
  let s : Except Err (Option (Dict Name Masker) × Bool) :=
    match c.sched with
    | some st => (loadSched m.params st).map (fun r => (some r.1, r.2))
    | none => .ok (none, false)
  match s with
  | .error e => .error e
  | .ok (mk, norm) =>
    match thin with
    | none => .ok (m, mk, norm)
    | some t => (t norm m (mk.getD (createModelMasksDict m.params))).map (fun r => (r.1, some r.2, norm))

/-- The state dictionary after the optional renaming (checkpoint.py:238-239). -/
def effState (sd : Dict Name Tensor) (norm : Bool) : Dict Name Tensor :=
  if norm then Dict.mapKeys normalizeName sd else sd

/-- `load_checkpoint` (checkpoint.py:189-255) into a given model: the model afterwards, and what is
returned or raised. -/
def loadCkpt (m : NetState) (c : Ckpt) (lean : Bool) (thin : Option StoredThin := none) : NetState × Except Err Loaded :=
  match c.stateDict with
  | none => (m, .error .value)
  | some sd =>
    match loadSchedStage m c thin with
    | .error e => (m, .error e)
    | .ok (m, mk, norm) =>
      let own := m.params ++ m.buffers
      let sd := effState sd norm
      let m' := { m with params := copyInto m.params sd, buffers := copyInto m.buffers sd }
      if sizeClash own sd then (m', .error .runtime)
      else if missingKeys own sd then (m', .error .value)
      else if lean then (m', .ok ⟨none, none, 0⟩)
      else
        match loadOpt m' c.opt with
        | .error e => (m', .error e)
        | .ok o =>
          if archOk m' c then (m', .ok ⟨mk, o, match c.epoch with | some e => e + 1 | none => 0⟩)
          else (m', .error .value)

end Verif
