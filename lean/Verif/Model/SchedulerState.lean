import Verif.Model.Scheduler
/-!
# Model of the scheduler's checkpointing and loss handling
(distiller/scheduler.py:95-112, 174-242; distiller/utils.py:126-154)
-/
namespace Verif

/-- `normalize_module_name` (utils.py:126-142) on the `'.'`-split name: delete the first
component equal to `module`. -/
def normalizeName : Name → Name
  | [] => []
  | c :: cs => if c = "module" then cs else c :: normalizeName cs

/-- `denormalize_module_name` (utils.py:145-154): the last module of the parallel model
whose normalized name is the given one, else the name itself. -/
def denormalizeName (modules : List Name) (n : Name) : Name :=
  ((modules.filter fun x => normalizeName x = n).getLast?).getD n

/-- The saved masks (`state['masks_dict']`): `none` = the parameter has no mask. -/
abbrev MasksDict := Dict Name (Option Tensor)

/-- `CompressionScheduler.state_dict` (scheduler.py:174-183). -/
def stateDict (mk : Dict Name Masker) : MasksDict := mk.map fun p => (p.1, p.2.mask)

/-- The loop of `load_state_dict` (scheduler.py:211-215): masks are replaced one by one
until a name is missing (`KeyError`); device transfer dropped. -/
def loadLoop (loaded : MasksDict) : Dict Name Masker → Dict Name Masker × Except Err Unit
  | [] => ([], .ok ())
  | (n, m) :: rest =>
    match loaded.get? n with
    | none => ((n, m) :: rest, .error .key)
    | some v =>
      let r := loadLoop loaded rest
      ((n, { m with mask := v }) :: r.1, r.2)

/-- `CompressionScheduler.load_state_dict` (scheduler.py:185-215).  `state = none` models a
state object without `'masks_dict'`. -/
def loadStateDict (mk : Dict Name Masker) (state : Option MasksDict) (normalize : Bool := false) :
    Dict Name Masker × Except Err Unit :=
  match state with
  | none => (mk, .error .key)
  | some loaded =>
    loadLoop (if normalize then Dict.mapKeys normalizeName loaded else loaded) mk

/-- The loop of `init_from_masks_dict` (scheduler.py:225-227): it adds `None` entries to
the caller's dictionary for every parameter missing from it. -/
def fillMissing (names : List Name) (d : MasksDict) : MasksDict :=
  names.foldl (fun acc n => if acc.has n then acc else acc.set n none) d

/-- `CompressionScheduler.init_from_masks_dict` (scheduler.py:217-229). -/
def initFromMasksDict (mk : Dict Name Masker) (masks : MasksDict) (normalize : Bool := false) :
    Dict Name Masker × Except Err Unit :=
  loadStateDict mk (some (fillMissing (mk.map Prod.fst) masks)) normalize

/-! ## before_backward_pass -/

/-- `LossComponent` (policy.py:37). -/
structure LossComp where
  name : String
  value : ℚ
  deriving DecidableEq, Repr

/-- The `loss_components` field a policy returned: a list, or a single object; `none`
stands for an object which is not a `LossComponent`. -/
inductive RetComps where
  | list (l : List (Option LossComp))
  | single (c : Option LossComp)

/-- What a policy's `before_backward_pass` returned. -/
inductive PolicyRet where
  | nothing                                   -- `None`
  | notPolicyLoss                             -- some other object
  | loss (overall : ℚ) (comps : RetComps)     -- a `PolicyLoss`

/-- `verify_policy_loss` (scheduler.py:231-242). -/
def verifyComps (r : RetComps) : Except Err (List LossComp) :=
  let l := match r with
    | .list l => l
    | .single c => [c]
  if l.all Option.isSome then .ok (l.filterMap id) else .error .type

/-- `CompressionScheduler.before_backward_pass` (scheduler.py:95-112) with
`return_loss_components=True`; the policies of the epoch are given as functions of the
loss they receive.  Without the flag the first component is returned. -/
def beforeBackward (pols : List (ℚ → PolicyRet)) (loss : ℚ) : Except Err (ℚ × List LossComp) :=
  pols.foldlM (fun (acc : ℚ × List LossComp) pol =>
    match pol acc.1 with
    | .nothing => .ok acc
    | .notPolicyLoss => .error .type
    | .loss o cs => do
      let l ← verifyComps cs
      return (o, acc.2 ++ l)) (loss, [])

/-- `RegularizationPolicy.before_backward_pass` (policy.py:271-280): `terms` are the
values `regularizer.loss` added for each parameter, in order. -/
def regBackward (nm : String) (terms : List ℚ) (loss : ℚ) : PolicyRet :=
  let r := terms.foldl (· + ·) 0
  .loss (loss + r) (.list [some ⟨nm ++ "_loss", r⟩])

end Verif
