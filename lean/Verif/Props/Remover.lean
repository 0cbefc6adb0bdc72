import Verif.Model.Remover
import Verif.Props.Masking
/-!
# C104: the structure remover thins once per epoch, after pruning
-/
namespace Verif

/-! ## Specification -/

/-- The model after everything in `evs` except thinning. -/
def untouched {M : Type} (m : M) : List (RmEv M) → M
  | [] => m
  | .other g :: evs => untouched (g m) evs
  | _ :: evs => untouched m evs

/-- No minibatch starts in `evs`. -/
def NoBegin {M : Type} (evs : List (RmEv M)) : Prop := ∀ e ∈ evs, e ≠ RmEv.mbBegin

/-- One epoch as documented: the network is thinned when the first minibatch starts, and at no other time. -/
inductive ThinsOnce {M : Type} (thin : M → Except Err M) : List (RmEv M) → M → Except Err M → Prop
  | empty (ep m) (h : NoBegin ep) : ThinsOnce thin ep m (.ok (untouched m ep))
  | thins (pre post : List (RmEv M)) (m m' : M) (h : NoBegin pre) (ht : thin (untouched m pre) = .ok m') :
      ThinsOnce thin (pre ++ .mbBegin :: post) m (.ok (untouched m' post))
  | raises (pre post : List (RmEv M)) (m : M) (e : Err) (h : NoBegin pre) (ht : thin (untouched m pre) = .error e) :
      ThinsOnce thin (pre ++ .mbBegin :: post) m (.error e)

/-! ## Proofs -/

theorem rm_done {M : Type} (thin : M → Except Err M) (evs : List (RmEv M)) (m : M) :
    evs.foldlM (rmStep thin) (true, m) = .ok (true, untouched m evs) := by
  induction evs generalizing m with
  | nil => rfl
  | cons e evs ih =>
    rw [List.foldlM_cons]
    cases e <;> exact ih _

theorem rm_nobegin {M : Type} (thin : M → Except Err M) (evs : List (RmEv M)) (h : NoBegin evs) (m : M) (d : Bool) :
    evs.foldlM (rmStep thin) (d, m) = .ok (d, untouched m evs) := by
  induction evs generalizing m with
  | nil => rfl
  | cons e evs ih =>
    rw [List.foldlM_cons]
    have h' : NoBegin evs := fun x hx => h x (List.mem_cons_of_mem _ hx)
    cases e with
    | mbBegin => exact absurd rfl (h _ List.mem_cons_self)
    | mbEnd => exact ih h' _
    | other g => exact ih h' _

theorem rm_split {M : Type} (ep : List (RmEv M)) :
    NoBegin ep ∨ ∃ pre post, ep = pre ++ .mbBegin :: post ∧ NoBegin pre := by
  induction ep with
  | nil => exact .inl (by simp [NoBegin])
  | cons e ep ih =>
    cases e with
    | mbBegin => exact .inr ⟨[], ep, rfl, by simp [NoBegin]⟩
    | mbEnd =>
      rcases ih with h | ⟨pre, post, rfl, h⟩
      · exact .inl (by intro x hx; rcases List.mem_cons.1 hx with rfl | hx; · simp
                       · exact h x hx)
      · exact .inr ⟨.mbEnd :: pre, post, rfl, by
          intro x hx; rcases List.mem_cons.1 hx with rfl | hx; · simp
          · exact h x hx⟩
    | other g =>
      rcases ih with h | ⟨pre, post, rfl, h⟩
      · exact .inl (by intro x hx; rcases List.mem_cons.1 hx with rfl | hx; · simp
                       · exact h x hx)
      · exact .inr ⟨.other g :: pre, post, rfl, by
          intro x hx; rcases List.mem_cons.1 hx with rfl | hx; · simp
          · exact h x hx⟩

/-- **C104** In every epoch, whatever happens in it, the network is thinned exactly once, namely when its first
minibatch starts; an epoch without minibatches thins nothing. -/
theorem C104_epoch {M : Type} (thin : M → Except Err M) (m : M) (ep : List (RmEv M)) :
    ThinsOnce thin ep m ((rmEpoch thin (false, m) ep).map Prod.snd) := by
  rcases rm_split ep with h | ⟨pre, post, rfl, h⟩
  · unfold rmEpoch
    rw [rm_nobegin thin ep h]
    exact .empty ep m h
  · unfold rmEpoch
    rw [List.foldlM_append, rm_nobegin thin pre h]
    change ThinsOnce thin _ m ((((RmEv.mbBegin :: post).foldlM (rmStep thin) (false, untouched m pre)).map
      (fun s : Bool × M => (false, s.2))).map Prod.snd)
    rw [List.foldlM_cons]
    cases ht : thin (untouched m pre) with
    | error e =>
      have : rmStep thin (false, untouched m pre) .mbBegin = .error e := by simp [rmStep, rmApply, ht, Except.map]
      rw [this]
      exact .raises pre post m e h ht
    | ok m' =>
      have : rmStep thin (false, untouched m pre) .mbBegin = .ok (true, m') := by simp [rmStep, rmApply, ht, Except.map]
      rw [this]
      change ThinsOnce thin _ m (((post.foldlM (rmStep thin) (true, m')).map
        (fun s : Bool × M => (false, s.2))).map Prod.snd)
      rw [rm_done]
      exact .thins pre post m m' h ht

/-- **C104** (training) The same remover serves every epoch it is scheduled for: a training is the sequence of
its epochs, each thinned once. -/
theorem C104_training {M : Type} (thin : M → Except Err M) (m : M) (ep : List (RmEv M)) (eps : List (List (RmEv M))) :
    rmTrain thin m [] = .ok m ∧
    ∃ r, ThinsOnce thin ep m r ∧ rmTrain thin m (ep :: eps) = r.bind fun m' => rmTrain thin m' eps := by
  refine ⟨rfl, _, C104_epoch thin m ep, ?_⟩
  unfold rmTrain
  rw [List.foldlM_cons]
  cases h : rmEpoch thin (false, m) ep with
  | error e => rfl
  | ok s =>
    have : s.1 = false := by
      unfold rmEpoch at h
      cases h' : ep.foldlM (rmStep thin) (false, m) with
      | error e => rw [h'] at h; cases h
      | ok s' => rw [h'] at h; cases h; rfl
    obtain ⟨d, m'⟩ := s
    cases this
    rfl

/-- **C104** (order) When a remover comes after a pruning policy of its epoch, the model it thins already has
the pruned weights at zero. -/
theorem C104_after_pruner (env : Env) (e : Int) (mb mpe : Nat) (thin : State → Except Err State)
    (before after : List Nat) (st : State) (r : Bool × State)
    (hex : ∃ p ∈ before, ∃ cfg a b, st.pols p = .prune cfg a b)
    (hfold : ∀ p ∈ before, ∀ cfg a b, st.pols p = .prune cfg a b → cfg.foldBn = false)
    (h : mbBeginWithRemover env e mb mpe thin before after (false, st) = .ok r) :
    ∃ seen thinned, thin seen = .ok thinned ∧ after.foldlM (policyMbBegin env e mb mpe) thinned = .ok r.2 ∧
      ∀ n w m k, seen.store.params.get? n = some w → seen.store.maskers.get? n = some m → m.mask = some k →
        ZeroWhere k w := by
  unfold mbBeginWithRemover at h
  obtain ⟨st1, h1, h⟩ := ok_bind h
  obtain ⟨s2, h2, h⟩ := ok_bind h
  obtain ⟨st3, h3, h⟩ := ok_bind h
  cases h
  unfold rmApply at h2
  simp only [Bool.false_eq_true, if_false] at h2
  cases ht : thin st1 with
  | error e => rw [ht] at h2; cases h2
  | ok m' =>
    rw [ht] at h2; cases h2
    refine ⟨st1, m', ht, h3, ?_⟩
    intro n w m k hw hm hk
    exact mbBegin_fold_forward env st st1 e mb mpe before st rfl hfold (.inl hex) h1 n w m k hw hm hk

/-- Two epochs of two minibatches each; "thinning" multiplies by 10, a step adds 1. -/
example : rmTrain (fun m : ℕ => .ok (10 * m)) 1
    [[.mbBegin, .other (· + 1), .mbEnd, .mbBegin, .other (· + 1), .mbEnd], [.mbBegin, .other (· + 1), .mbEnd]] = .ok 121 := by
  rfl

def exRmState : State :=
  { store := { params := [(["conv", "weight"], [3, 5])], maskers := [(["conv", "weight"], { mask := some [0, 1] })] },
    sched := (Sched.addPolicy {} { policy := 0, starting := some 0, ending := some 3 }).1,
    pols := fun _ => .prune {} false true }

example : (∃ p ∈ [0], ∃ cfg a b, exRmState.pols p = .prune cfg a b) ∧
    (mbBeginWithRemover exEnv 0 0 5 .ok [0] [] (false, exRmState)).toOption.isSome :=
  ⟨⟨0, by simp, _, _, _, rfl⟩, by decide +kernel⟩

/-- **C104** is violated for a remover registered before the pruning policy of its epoch: it thins the network
while the pruned weights are still there (what the thinning function raises on that model is raised). -/
theorem C104_violated_order : ∃ (env : Env) (st : State) (p : Nat) (k : Tensor) (w : Tensor),
    (∃ cfg a b, st.pols p = .prune cfg a b) ∧
    (st.store.maskers.get? ["conv", "weight"]).bind Masker.mask = some k ∧
    st.store.params.get? ["conv", "weight"] = some w ∧ ¬ ZeroWhere k w ∧
    ∀ (thin : State → Except Err State) (after : List Nat) (err : Err), thin st = .error err →
      mbBeginWithRemover env 0 0 5 thin [] (p :: after) (false, st) = .error err := by
  refine ⟨exEnv, exRmState, 0, [0, 1], [3, 5], ⟨_, _, _, rfl⟩, by decide +kernel, by decide +kernel, by decide +kernel, ?_⟩
  intro thin after err h
  have : rmApply thin (false, exRmState) = .error err := by simp [rmApply, h, Except.map]
  change (rmApply thin (false, exRmState) >>= _) = _
  rw [this]; rfl

end Verif
