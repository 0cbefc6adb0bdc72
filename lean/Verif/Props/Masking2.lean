import Verif.Props.Masking
/-!
# C04, C05, C06, C12, C55: double copies, keep_mask, regularization masks, gradient hooks
-/
namespace Verif
open Dict

theorem touch_spec {st st' : State} {p : Nat} {e : Int} {mt : Meta}
    (h : touchMeta st p e = .ok (st', mt)) : st'.pols = st.pols ∧ st'.store = st.store ∧
      st'.sched.policies = st.sched.policies := by
  unfold touchMeta at h
  obtain ⟨mm, _, h1⟩ := ok_bind h
  injection h1 with h1; injection h1 with h1 h1'; subst h1
  exact ⟨rfl, rfl, rfl⟩

theorem foldlM_single {σ : Type} {f : σ → Nat → Except Err σ} {p : Nat} {s s' : σ}
    (h : [p].foldlM f s = .ok s') : f s p = .ok s' := by
  rw [List.foldlM_cons] at h
  obtain ⟨s1, h1, h⟩ := ok_bind h
  simp [pure, Except.pure] at h; subst h; exact h1

private theorem mbBegin_single {env : Env} {st st' : State} {e : Int} {mb mpe p : Nat} {cfg : PruneCfg}
    {a b : Bool} (hp : st.pols p = .prune cfg a b)
    (h : policyMbBegin env e mb mpe st p = .ok st') :
    st'.pols = st.pols ∧ st'.sched.policies = st.sched.policies ∧
    ∃ mt, st.store.forParams (pruneMbBeginBody env p cfg (setMasksNow cfg e mb mpe) mt) = .ok st'.store := by
  unfold policyMbBegin at h
  obtain ⟨⟨st1, mt⟩, h1, h⟩ := ok_bind h
  obtain ⟨t1, t2, t3⟩ := touch_spec h1
  simp only [t1, hp] at h
  obtain ⟨s, hs, h⟩ := ok_bind h
  injection h with h; subst h
  exact ⟨rfl, t3, mt, by rw [← t2]; exact hs⟩

private theorem beforeOpt_single {st st' : State} {e : Int} {p : Nat} {cfg : PruneCfg}
    {a b : Bool} (hp : st.pols p = .prune cfg a b)
    (h : policyBeforeOpt e st p = .ok st') :
    st.store.forParams revertBody = .ok st'.store := by
  unfold policyBeforeOpt at h
  obtain ⟨⟨st1, mt⟩, h1, h⟩ := ok_bind h
  obtain ⟨t1, t2, t3⟩ := touch_spec h1
  simp only [t1, hp] at h
  obtain ⟨s, hs, h⟩ := ok_bind h
  injection h with h; subst h
  rw [← t2]; exact hs

/-! ## C04 -/

/-- **C04** (partial: one pruning policy active in the epoch, no batch-norm folding)
If every masker is in double-copy mode and holds no stale copy, then after
`on_minibatch_begin` and `before_parameter_optimization` every parameter has exactly
the value it had before the minibatch, whatever masks were computed and applied in
between, and again no masker holds a copy – so the statement applies to the next
minibatch. -/
theorem C04_optimizer_sees_unmasked_partial (env : Env) (st st1 st2 : State) (e : Int)
    (mb mpe p : Nat) (cfg : PruneCfg) (a b : Bool)
    (hact : st.sched.active e = [p]) (hp : st.pols p = .prune cfg a b) (hfold : cfg.foldBn = false)
    (hnd : (st.store.params.map Prod.fst).Nodup)
    (hdbl : ∀ n m, st.store.maskers.get? n = some m → m.dbl = true ∧ m.copy = none)
    (h1 : onMbBegin env st e mb mpe = .ok st1) (h2 : beforeOpt st1 e = .ok st2) :
    (∀ n, st2.store.params.get? n = st.store.params.get? n) ∧
    (∀ n m, n ∈ st.store.params.map Prod.fst → st2.store.maskers.get? n = some m →
        m.dbl = true ∧ m.copy = none) := by
  unfold onMbBegin at h1
  rw [hact] at h1
  obtain ⟨hpol, hsched, mt, hs1⟩ := mbBegin_single hp (foldlM_single h1)
  have hact1 : st1.sched.active e = [p] := by
    unfold Sched.active at hact ⊢; rw [hsched]; exact hact
  unfold beforeOpt at h2
  rw [hact1] at h2
  have hs2 := beforeOpt_single (hpol ▸ hp) (foldlM_single h2)
  have hl1 := pruneMbBeginBody_local env p cfg (setMasksNow cfg e mb mpe) mt
  have hn1 : st1.store.names = st.store.names := forParams_names (fun s n s' hn => hl1.names hn) hs1
  have hn2 : st2.store.names = st1.store.names :=
    forParams_names (fun s n s' hn => revertBody_local.names hn) hs2
  have key : ∀ n ∈ st.store.names, st2.store.params.get? n = st.store.params.get? n ∧
      ∀ m, st2.store.maskers.get? n = some m → m.dbl = true ∧ m.copy = none := by
    intro n hn
    obtain ⟨t, t', ht, hb, ht'⟩ := hl1.forParams_at hnd hs1 hn
    obtain ⟨u, u', hu, hb2, hu'⟩ := revertBody_local.forParams_at (hn1 ▸ hnd) hs2 (hn1 ▸ hn)
    injection ht with ta tb
    injection ht' with ta' tb'
    injection hu with ua ub
    injection hu' with ua' ub'
    rw [← ua', ← ub']
    -- the original value
    obtain ⟨w, hw⟩ := Option.isSome_iff_exists.1 ((get?_isSome_iff st.store.params n).2 hn)
    have htw : t.param n = w := by simp [Store.param, ta, hw]
    -- first loop
    obtain ⟨m, k, hm, _, ⟨w', hf, _⟩ | ⟨_, hpar, hmask⟩⟩ := pruneMbBeginBody_spec hb
    · simp [hfold] at hf
    have hmd := hdbl n m (by rw [← tb]; exact hm)
    rw [htw] at hpar hmask
    have hu_par : u.params.get? n = some (({ m with mask := k } : Masker).maskTensor w) := by
      rw [ua, ← ta', hpar]; simp
    have hu_msk : u.maskers.get? n = some ((({ m with mask := k } : Masker).applyMask w).1) := by
      rw [ub, ← tb', hmask]; simp
    -- second loop
    obtain ⟨m2, hm2, hb2⟩ := ok_bind hb2
    have hm2' := getE_ok hm2
    rw [hu_msk] at hm2'
    injection hm2' with hm2'
    injection hb2 with hb2
    have hup : u.param n = ({ m with mask := k } : Masker).maskTensor w := Store.param_of_get? hu_par
    rw [hup] at hb2
    rw [← hb2, ← hm2', hw]
    cases k with
    | none =>
      simp [Masker.applyMask, Masker.revertWeights, Masker.maskTensor, hmd]
    | some k =>
      cases hr : m.isReg <;>
      simp [Masker.applyMask, Masker.revertWeights, hmd, hr]
  refine ⟨fun n => ?_, fun n m hn => (key n hn).2 m⟩
  by_cases hn : n ∈ st.store.names
  · exact (key n hn).1
  · have hn' : n ∉ st2.store.names := by rw [hn2, hn1]; exact hn
    rw [(get?_eq_none_iff _ _).2 hn', (get?_eq_none_iff _ _).2 hn]

-- non-vacuity: the forward pass sees [0,5], the optimizer sees [3,5]
example : (run exEnv (exState { dbl := true } { policy := 0, starting := some 0, ending := some 3 })
    [.epochBegin 0, .mbBegin 0 0 2]).map (·.store.params) = .ok [(["fc", "weight"], [0, 5])] ∧
  (run exEnv (exState { dbl := true } { policy := 0, starting := some 0, ending := some 3 })
    [.epochBegin 0, .mbBegin 0 0 2, .beforeOpt 0 0 2]).map (·.store.params)
    = .ok [(["fc", "weight"], [3, 5])] := by decide +kernel

/-- **C04 fails** for two pruning policies active in the same epoch: the second
policy's `on_minibatch_begin` saves the already masked weights as the "unmasked"
copy, so the optimizer sees `[0,5]` instead of `[3,5]` – the weight is lost, although
both policies asked for double copies and the second one leaves the mask unchanged. -/
theorem C04_violated_two_policies :
    ∃ (env : Env) (st st' : State),
      st.store.params.get? ["fc", "weight"] = some [3, 5] ∧
      st.sched.active 0 = [0, 1] ∧
      (∀ p, ∃ cfg a b, st.pols p = .prune cfg a b ∧ cfg.dbl = true ∧ cfg.foldBn = false) ∧
      run env st [.epochBegin 0, .mbBegin 0 0 2, .beforeOpt 0 0 2] = .ok st' ∧
      st'.store.params.get? ["fc", "weight"] = some [0, 5] := by
  refine ⟨exEnv, ⟨{ params := [(["fc", "weight"], [3, 5])], maskers := [(["fc", "weight"], {})] },
    ((Sched.addPolicy (Sched.addPolicy {} { policy := 0, starting := some 0, ending := some 3 }).1
      { policy := 1, starting := some 0, ending := some 3 }).1),
    fun _ => .prune { dbl := true } false false⟩, _, rfl, by decide,
    fun p => ⟨_, _, _, rfl, rfl, rfl⟩, rfl, by decide +kernel⟩

/-- **C04 fails** with `fold_batchnorm` and minibatch pruning: the copy is taken from
the batch-norm-folded temporary, so the "restored" weights are the folded ones. -/
theorem C04_violated_fold_bn :
    ∃ (env : Env) (st st' : State),
      st.store.params.get? ["conv", "weight"] = some [3, 5] ∧
      run env st [.epochBegin 0, .mbBegin 0 1 5, .beforeOpt 0 1 5] = .ok st' ∧
      st'.store.params.get? ["conv", "weight"] = some [6, 10] := by
  refine ⟨{ exEnv with folded := fun _ _ w => some (w.map (2 * ·)) },
    ⟨{ params := [(["conv", "weight"], [3, 5])], maskers := [(["conv", "weight"], {})] },
     (Sched.addPolicy {} { policy := 0, starting := some 0, ending := some 3 }).1,
     fun _ => .prune { foldBn := true, mbFreq := 1, dbl := true } false false⟩,
    _, rfl, rfl, by decide +kernel⟩

/-! ## C05 -/

/-- The epoch a scheduler callback refers to; weight updates refer to none. -/
def Ev.epoch? : Ev → Option Int
  | .epochBegin e | .mbBegin e _ _ | .beforeOpt e _ _ | .mbEnd e _ _ | .epochEnd e => some e
  | .write _ => none

theorem maskAll_maskers {s s' : Store} {isF : Bool}
    (hown : ∀ n ∈ s.names, n ∈ s.maskers.map Prod.fst)
    (h : maskAllWeights s isF = .ok s') : s'.maskers = s.maskers := by
  have := foldlM_preserves (P := fun t : Store => t.maskers = s.maskers)
    (fun t a t' ha ht hf => by
      rcases maskAllBody_spec hf with ⟨m0, h1, h2, _, rfl⟩ | ⟨m0, h1, h2, rfl⟩ | ⟨h1, h2, rfl⟩ |
        ⟨n', m0, h1, h2, h3, rfl⟩
      · exact ht
      · exact ht
      · exact ht
      · exfalso
        rw [ht] at h1
        exact (get?_eq_none_iff _ _).1 h1 (hown a ha)) rfl h
  exact this

/-- On epochs without policies nothing but masking and the optimizer touches the store. -/
theorem quiet_step {env : Env} {st st' : State} {ev : Ev}
    (hown : ∀ n ∈ st.store.names, n ∈ st.store.maskers.map Prod.fst)
    (hq : ∀ e, ev.epoch? = some e → st.sched.active e = [])
    (h : step env st ev = .ok st') :
    st'.store.maskers = st.store.maskers ∧ st'.sched = st.sched ∧ st'.store.names = st.store.names := by
  cases ev with
  | epochBegin e =>
    simp only [step, onEpochBegin, hq e rfl] at h
    simp [pure, Except.pure] at h; subst h; exact ⟨rfl, rfl, rfl⟩
  | mbBegin e _ _ =>
    simp only [step, onMbBegin, hq e rfl] at h
    simp [pure, Except.pure] at h; subst h; exact ⟨rfl, rfl, rfl⟩
  | beforeOpt e _ _ =>
    simp only [step, beforeOpt, hq e rfl] at h
    simp [pure, Except.pure] at h; subst h; exact ⟨rfl, rfl, rfl⟩
  | epochEnd e =>
    simp only [step, onEpochEnd, hq e rfl] at h
    simp [pure, Except.pure] at h; subst h; exact ⟨rfl, rfl, rfl⟩
  | write f =>
    simp [step] at h; subst h
    exact ⟨rfl, rfl, keys_mapVals _ _⟩
  | mbEnd e _ _ =>
    simp only [step, onMbEnd, hq e rfl] at h
    obtain ⟨s, hs, h⟩ := ok_bind h
    simp [pure, Except.pure] at h; subst h
    exact ⟨maskAll_maskers hown hs, rfl, maskAllWeights_names hs⟩

theorem quiet_run {env : Env} {st : State} (evs : List Ev) {st' : State}
    (hown : ∀ n ∈ st.store.names, n ∈ st.store.maskers.map Prod.fst)
    (hq : ∀ ev ∈ evs, ∀ e, ev.epoch? = some e → st.sched.active e = [])
    (h : run env st evs = .ok st') :
    st'.store.maskers = st.store.maskers ∧ st'.sched = st.sched ∧ st'.store.names = st.store.names := by
  have := foldlM_preserves (P := fun t : State => t.store.maskers = st.store.maskers ∧
      t.sched = st.sched ∧ t.store.names = st.store.names)
    (fun t a t' ha ht hf => by
      have := quiet_step (st := t) (ev := a)
        (by rw [ht.2.2, ht.1]; exact hown) (by rw [ht.2.1]; exact hq a ha) hf
      exact ⟨this.1.trans ht.1, this.2.1.trans ht.2.1, this.2.2.trans ht.2.2⟩)
    ⟨rfl, rfl, rfl⟩ h
  exact this

/-- What `on_epoch_end` of the last epoch does with `keep_mask`. -/
theorem epochEnd_keep {st st1 : State} {e : Int} {p : Nat} {cfg : PruneCfg} {b : Bool}
    (hact : st.sched.active e = [p]) (hp : st.pols p = .prune cfg true b)
    (h : onEpochEnd st e = .ok st1) :
    st1.sched.policies = st.sched.policies ∧
    st.store.forParams (pruneEpochEndBody cfg) = .ok st1.store := by
  unfold onEpochEnd at h
  rw [hact] at h
  have h := foldlM_single h
  unfold policyEpochEnd at h
  obtain ⟨⟨st', mt⟩, h1, h⟩ := ok_bind h
  obtain ⟨t1, t2, t3⟩ := touch_spec h1
  simp only [t1, hp, if_true] at h
  obtain ⟨s, hs, h⟩ := ok_bind h
  injection h with h; subst h
  exact ⟨t3, by rw [← t2]; exact hs⟩

/-- **C05** (partial: the policy's last-epoch flag is set – see `C05_last_epoch_seen_iff`
and `C05_violated_frequency` – and it is the only policy of that epoch)
With `keep_mask`, once `on_epoch_end` of the last epoch has run, then through any later
history of callbacks (on epochs without policies) and arbitrary weight updates, every
parameter is zero at every minibatch end wherever the mask it had *at that epoch end*
is zero, whatever masking mode the policy used. -/
theorem C05_keep_mask_permanent_partial (env : Env) (st st1 st2 : State) (e e' : Int) (p mb mpe : Nat)
    (cfg : PruneCfg) (b : Bool) (evs : List Ev)
    (hkeep : cfg.keepMask = true) (hact : st.sched.active e = [p])
    (hp : st.pols p = .prune cfg true b)
    (hnd : (st.store.params.map Prod.fst).Nodup)
    (hend : onEpochEnd st e = .ok st1)
    (hquiet : ∀ ev ∈ evs ++ [.mbEnd e' mb mpe], ∀ x, ev.epoch? = some x → st.sched.active x = [])
    (hrun : run env st1 (evs ++ [.mbEnd e' mb mpe]) = .ok st2)
    (n : Name) (m : Masker) (k w : Tensor)
    (hm : st.store.maskers.get? n = some m) (hk : m.mask = some k)
    (hw : st2.store.params.get? n = some w) : ZeroWhere k w := by
  obtain ⟨hpol, hs⟩ := epochEnd_keep hact hp hend
  have hl := pruneEpochEndBody_local cfg
  have hnames := forParams_names (fun s n s' hn => hl.names hn) hs
  have hmn := hl.forParams_maskerNames hs
  have hown : ∀ n ∈ st1.store.names, n ∈ st1.store.maskers.map Prod.fst := by
    intro n hn; rw [hnames] at hn; exact hl.forParams_have hs n hn
  have hq : ∀ ev ∈ evs ++ [.mbEnd e' mb mpe], ∀ x, ev.epoch? = some x → st1.sched.active x = [] := by
    intro ev hev x hx
    have := hquiet ev hev x hx
    unfold Sched.active at this ⊢; rw [hpol]; exact this
  obtain ⟨hmk, _, hnm⟩ := quiet_run _ hown hq hrun
  have hn : n ∈ st.store.names := by
    have : n ∈ st2.store.names := by
      rw [← get?_isSome_iff, hw]; rfl
    rw [hnm, hnames] at this; exact this
  -- the masker after the epoch end
  obtain ⟨t, t', ht, hb, ht'⟩ := hl.forParams_at hnd hs hn
  injection ht with ta tb
  injection ht' with ta' tb'
  have hm1 : ∃ m1, st1.store.maskers.get? n = some m1 ∧ m1.mask = some k ∧ m1.fwdOnly = false := by
    unfold pruneEpochEndBody at hb
    obtain ⟨m0, hm0, hb⟩ := ok_bind hb
    have := getE_ok hm0
    rw [tb, hm] at this
    injection this with this; subst this
    injection hb with hb
    rw [← tb', ← hb]
    cases hh : m.handle <;> simp [hkeep, hh, hk]
  obtain ⟨m1, h1, h2, h3⟩ := hm1
  rw [← hmk] at h1
  exact C03_pruned_weights_zero env st1 st2 evs e' mb mpe hrun n w m1 k hw h1 h3 h2

/-- Whether a range registration ever reaches its own "last epoch" `ending_epoch - 1`,
the epoch at which keep_mask, hook removal and regularization-mask keeping happen:
exactly when the frequency divides the distance. -/
theorem C05_last_epoch_seen_iff (p : Nat) (s n f : Int) (hf : 0 < f) (hsn : s < n) :
    (({ policy := p, starting := some s, ending := some n, freq := some f } : AddArgs).occurrences (n - 1) = 1)
      ↔ f ∣ n - 1 - s := by
  simp only [AddArgs.occurrences]
  constructor
  · intro h; by_contra hc; simp [hc] at h
  · intro h; rw [if_pos ⟨by omega, by omega, h⟩]

/-- For the list form the last-epoch flag is set on the last listed epoch. -/
theorem C05_last_epoch_seen_list (p : Nat) (es : List Int) (last : Int) (h : es.getLast? = some last)
    (s : Sched) : ∃ mt, (s.addPolicy { policy := p, epochs := some es }).1.md.get? p = some mt ∧
      mt.ending - 1 = last ∧ last ∈ es := by
  cases es with
  | nil => simp at h
  | cons x es =>
    refine ⟨⟨x, last + 1, none, none⟩, ?_, by simp, List.mem_of_getLast? h⟩
    have : (x :: es).head? = some x := rfl
    simp [Sched.addPolicy, h, Sched.install]

-- non-vacuity of C05: a forward-only policy with keep_mask, last epoch 2, then free training
example : (run exEnv (exState { fwdOnly := true, keepMask := true }
      { policy := 0, starting := some 0, ending := some 3 })
    ([.epochBegin 0, .mbBegin 0 0 1, .beforeOpt 0 0 1, plus7, .mbEnd 0 0 1, .epochEnd 0,
     .epochBegin 1, .mbBegin 1 0 1, .beforeOpt 1 0 1, plus7, .mbEnd 1 0 1, .epochEnd 1,
     .epochBegin 2, .mbBegin 2 0 1, .beforeOpt 2 0 1, plus7, .mbEnd 2 0 1, .epochEnd 2,
     .epochBegin 3, .mbBegin 3 0 1, .beforeOpt 3 0 1, plus7] ++ [.mbEnd 3 0 1])).map (·.store.params)
    = .ok [(["fc", "weight"], [0, 33])] := by decide +kernel

/-- **C05 fails** when the frequency does not divide `ending_epoch - 1 - starting_epoch`:
the schedule 0, 2 (starting 0, ending 4, frequency 2) never meets "epoch 3", so
`keep_mask` is ignored: after the whole schedule the pruned weight is non-zero again at
a minibatch end. -/
theorem C05_violated_frequency :
    ∃ (st st' : State) (w k : Tensor) (m : Masker),
      (∀ p, ∃ cfg a b, st.pols p = .prune cfg a b ∧ cfg.keepMask = true) ∧
      st.sched.active 0 = [0] ∧ st.sched.active 2 = [0] ∧ (∀ e, 2 < e → st.sched.active e = []) ∧
      run exEnv st
       [.epochBegin 0, .mbBegin 0 0 1, .beforeOpt 0 0 1, plus7, .mbEnd 0 0 1, .epochEnd 0,
        .epochBegin 2, .mbBegin 2 0 1, .beforeOpt 2 0 1, plus7, .mbEnd 2 0 1, .epochEnd 2,
        .epochBegin 3, .mbBegin 3 0 1, .beforeOpt 3 0 1, plus7, .mbEnd 3 0 1, .epochEnd 3,
        .epochBegin 4, .mbBegin 4 0 1, .beforeOpt 4 0 1, plus7, .mbEnd 4 0 1] = .ok st' ∧
      st'.store.maskers.get? ["fc", "weight"] = some m ∧ m.mask = some k ∧
      st'.store.params.get? ["fc", "weight"] = some w ∧ ¬ ZeroWhere k w := by
  refine ⟨exState { fwdOnly := true, keepMask := true }
      { policy := 0, starting := some 0, ending := some 4, freq := some 2 }, _,
      [21, 33], [0, 1], { mask := some [0, 1], fwdOnly := true },
      fun p => ⟨_, _, _, rfl, rfl⟩, by decide, by decide, ?_, rfl, by decide +kernel, rfl,
      by decide +kernel, by decide +kernel⟩
  intro e he
  have : (exState { fwdOnly := true, keepMask := true }
      { policy := 0, starting := some 0, ending := some 4, freq := some 2 }).sched.policies
      = [(0, [0]), (2, [0])] := by decide
  simp only [Sched.active, this, Dict.get?]
  have h0 : ¬ (0 : Int) = e := by omega
  have h2 : ¬ (2 : Int) = e := by omega
  simp [h0, h2]

/-! ## C06 and C55 -/

private theorem regMbEnd_store {env : Env} {mb mpe p : Nat} {st st' : State} {k l : Bool}
    (hp : st.pols p = .reg k true l) (h : policyMbEnd env mb mpe st p = .ok st') :
    st.store.forParams (regMbEndBody env p (decide ((mpe : Int) - 1 = mb) && l && k)) = .ok st'.store := by
  unfold policyMbEnd at h
  simp only [hp, if_true] at h
  obtain ⟨s, hs, h⟩ := ok_bind h
  injection h with h; subst h; exact hs

/-- **C06** One regularization policy's `on_minibatch_end`, for a parameter whose
regularizer installs the threshold mask `k`: the weights become `w * k`; the mask is
then dropped, unless `keep_mask` is set and this is the last minibatch of the last
scheduled epoch, in which case `k` stays as an ordinary (non-regularization) mask. -/
theorem C06_regularization_mask_transient (env : Env) (st st' : State) (mb mpe p : Nat)
    (keepMask isLast : Bool) (hp : st.pols p = .reg keepMask true isLast)
    (hnd : (st.store.params.map Prod.fst).Nodup)
    (h : policyMbEnd env mb mpe st p = .ok st')
    (n : Name) (w k : Tensor) (m : Masker)
    (hw : st.store.params.get? n = some w)
    (hm : st.store.maskers.get? n = some m)
    (hk : ∀ t, env.thresh t p n w = some k) :
    ∃ m', st'.store.params.get? n = some (tmul w k) ∧ st'.store.maskers.get? n = some m' ∧
      m'.mask = (if keepMask = true ∧ isLast = true ∧ mb + 1 = mpe then some k else none) ∧
      m'.isReg = !(decide (keepMask = true ∧ isLast = true ∧ mb + 1 = mpe)) := by
  have hs := regMbEnd_store hp h
  have hl := regMbEndBody_local env p (decide ((mpe : Int) - 1 = mb) && isLast && keepMask)
  have hn : n ∈ st.store.names := by rw [← get?_isSome_iff, hw]; rfl
  obtain ⟨t, t', ht, hb, ht'⟩ := hl.forParams_at hnd hs hn
  injection ht with ta tb
  injection ht' with ta' tb'
  rw [← ta', ← tb']
  unfold regMbEndBody at hb
  obtain ⟨m0, hm0, hb⟩ := ok_bind hb
  have := getE_ok hm0
  rw [tb, hm] at this
  injection this with this; subst this
  have htw : t.param n = w := by simp [Store.param, ta, hw]
  injection hb with hb
  rw [← hb, htw, hk]
  have hiff : (decide ((mpe : Int) - 1 = mb) && isLast && keepMask) =
      decide (keepMask = true ∧ isLast = true ∧ mb + 1 = mpe) := by
    have hmb : ((mpe : Int) - 1 = mb) ↔ mb + 1 = mpe := by omega
    simp only [hmb]
    cases keepMask <;> cases isLast <;> simp
  rw [hiff]
  by_cases hkp : keepMask = true ∧ isLast = true ∧ mb + 1 = mpe
  · simp [hkp, applyMask_snd, Masker.maskTensor]
    cases hd : m.dbl <;> simp [Masker.applyMask]
  · simp only [hkp, decide_false, if_false]
    simp [applyMask_snd, Masker.maskTensor]
    cases hd : m.dbl <;> simp [Masker.applyMask]

-- non-vacuity: the weight below the threshold is zeroed and the mask is gone
example :
    (policyMbEnd { exEnv with thresh := fun _ _ _ w => some (w.map fun x => if |x| > 4 then 1 else 0) }
      0 2 ⟨{ params := [(["fc", "weight"], [3, 5])], maskers := [(["fc", "weight"], {})] }, {},
        fun _ => .reg true true true⟩ 0).map (fun s => (s.store.params, s.store.maskers))
    = .ok ([(["fc", "weight"], [0, 5])], [(["fc", "weight"], { isReg := true })]) := by decide +kernel

/-- **C55 fails**: a pruning mask set in epoch begin does not survive the first minibatch
of a pruning policy if the parameter was thresholded by a regularizer before: the
`is_regularization_mask` flag is never reset, so `apply_mask` drops the pruning mask and
the pruned weight is free to grow back – at the minibatch end it is non-zero. -/
theorem C55_violated_stale_regularization_flag :
    ∃ (env : Env) (st st' : State),
      (∃ m, st.store.maskers.get? ["fc", "weight"] = some m ∧ m.mask = none ∧ m.isReg = false) ∧
      st.sched.active 0 = [1] ∧ st.sched.active 1 = [0] ∧
      (∃ cfg, st.pols 0 = .prune cfg false false) ∧ (∃ k, st.pols 1 = .reg k true false) ∧
      (∀ t n w o mt, env.prune t 0 n w o mt = .ok (some [0, 1])) ∧
      run env st
        [.epochBegin 0, .mbBegin 0 0 1, .beforeOpt 0 0 1, plus7, .mbEnd 0 0 1, .epochEnd 0,
         .epochBegin 1, .mbBegin 1 0 1, .beforeOpt 1 0 1, plus7, .mbEnd 1 0 1] = .ok st' ∧
      st'.store.params.get? ["fc", "weight"] = some [7, 19] := by
  refine ⟨{ exEnv with thresh := fun _ _ _ w => some (w.map fun x => if |x| > 4 then 1 else 0) },
    ⟨{ params := [(["fc", "weight"], [3, 5])], maskers := [(["fc", "weight"], {})] },
     (Sched.addPolicy (Sched.addPolicy {} { policy := 1, starting := some 0, ending := some 1 }).1
       { policy := 0, starting := some 1, ending := some 2 }).1,
     fun p => if p = 0 then .prune {} false false else .reg false true false⟩, _,
    ⟨_, rfl, rfl, rfl⟩, by decide, by decide, ⟨_, rfl⟩, ⟨_, rfl⟩, fun _ _ _ _ _ => rfl, rfl,
    by decide +kernel⟩

/-- **C55** (partial: the masker's regularization flag is not set) the mask in force after
`on_minibatch_begin` of a pruning policy is the one computed (or kept) for it. -/
theorem C55_mask_survives_partial (env : Env) (pol : Nat) (cfg : PruneCfg) (sm : Bool) (mt : Meta)
    (s s' : Store) (n : Name) (m : Masker) (hm : s.maskers.get? n = some m) (hr : m.isReg = false)
    (h : pruneMbBeginBody env pol cfg sm mt s n = .ok s') :
    ∃ m', s'.maskers.get? n = some m' ∧ (sm = false → m'.mask = m.mask) ∧ m'.isReg = false := by
  obtain ⟨m0, k, h1, h2, ⟨w', _, _, h3, h4⟩ | ⟨_, h3, h4⟩⟩ := pruneMbBeginBody_spec h
  all_goals
    rw [hm] at h1; injection h1 with h1; subst h1
    refine ⟨_, by rw [h4]; exact get?_set_self _ _ _, ?_, ?_⟩
    · intro hs
      rw [h2 hs]
      cases hk : m.mask <;> cases hd : m.dbl <;> simp [Masker.applyMask, hk, hd, hr]
    · rw [applyMask_isReg]; exact hr

/-! ## C12 -/

/-- **C12** the constructor refuses exactly `mask_gradients` without
`mask_on_forward_only`. -/
theorem C12_ctor (cfg : PruneCfg) :
    (mkPrune cfg = .error .value ↔ cfg.maskGrads = true ∧ cfg.fwdOnly = false) ∧
    (¬ (cfg.maskGrads = true ∧ cfg.fwdOnly = false) → mkPrune cfg = .ok (.prune cfg false false)) := by
  unfold mkPrune
  cases cfg.maskGrads <;> cases cfg.fwdOnly <;> simp

/-- The gradient the optimizer sees: torch calls every live hook in turn
(scheduler.py:274-276 is the hook). -/
def hookedGrad (m : Masker) : Nat → Tensor → Tensor
  | 0, g => g
  | i + 1, g => hookedGrad m i (m.maskGradient g)

/-- **C12** a parameter with at least one live hook and a mask has zero gradient wherever
the mask is zero, for every gradient. -/
theorem C12_gradient_masked (m : Masker) (k g : Tensor) (hk : m.mask = some k)
    (hh : 0 < m.liveHooks) : ZeroWhere k (hookedGrad m m.liveHooks g) := by
  have aux : ∀ i g, ZeroWhere k g → ZeroWhere k (hookedGrad m i g) := by
    intro i
    induction i with
    | zero => intro g h; exact h
    | succ i ih =>
      intro g _
      apply ih
      simp only [Masker.maskGradient, hk]; exact zeroWhere_tmul k g
  obtain ⟨i, hi⟩ := Nat.exists_eq_succ_of_ne_zero (Nat.pos_iff_ne_zero.1 hh)
  rw [hi]
  show ZeroWhere k (hookedGrad m i (m.maskGradient g))
  apply aux
  simp only [Masker.maskGradient, hk]; exact zeroWhere_tmul k g

/-- **C12** (partial: last-epoch flag reached, one policy per epoch) At the end of the last
epoch every stored hook is removed: a masker with one registered hook has none left. -/
theorem C12_hook_removed_partial (st st1 : State) (e : Int) (p : Nat) (cfg : PruneCfg) (b : Bool)
    (hact : st.sched.active e = [p]) (hp : st.pols p = .prune cfg true b)
    (hnd : (st.store.params.map Prod.fst).Nodup)
    (hend : onEpochEnd st e = .ok st1) (n : Name) (w : Tensor) (m : Masker)
    (hw : st.store.params.get? n = some w)
    (hm : st.store.maskers.get? n = some m) (hh : m.liveHooks = (if m.handle then 1 else 0)) :
    ∃ m1, st1.store.maskers.get? n = some m1 ∧ m1.liveHooks = 0 ∧ m1.handle = false := by
  obtain ⟨_, hs⟩ := epochEnd_keep hact hp hend
  have hl := pruneEpochEndBody_local cfg
  have hn : n ∈ st.store.names := by rw [← get?_isSome_iff, hw]; rfl
  obtain ⟨t, t', ht, hb, ht'⟩ := hl.forParams_at hnd hs hn
  injection ht with ta tb
  injection ht' with ta' tb'
  unfold pruneEpochEndBody at hb
  obtain ⟨m0, hm0, hb⟩ := ok_bind hb
  have := getE_ok hm0
  rw [tb, hm] at this
  injection this with this; subst this
  injection hb with hb
  rw [← tb', ← hb]
  cases hh' : m.handle <;> cases hk : cfg.keepMask <;> simp [hh', hh]

-- non-vacuity
example : (run exEnv (exState { fwdOnly := true, maskGrads := true }
      { policy := 0, starting := some 0, ending := some 2 })
    [.epochBegin 0, .epochEnd 0, .epochBegin 1]).map (fun s => s.store.maskers)
    = .ok [(["fc", "weight"], { mask := some [0, 1], fwdOnly := true, handle := true, liveHooks := 1 })] ∧
  (run exEnv (exState { fwdOnly := true, maskGrads := true }
      { policy := 0, starting := some 0, ending := some 2 })
    [.epochBegin 0, .epochEnd 0, .epochBegin 1, .epochEnd 1]).map (fun s => s.store.maskers)
    = .ok [(["fc", "weight"], { mask := some [0, 1], fwdOnly := true })] := by decide +kernel

/-- **C12 fails** for two gradient-masking policies: the second registration overwrites the
handle of the first, which is therefore never removed. -/
theorem C12_violated_two_policies :
    ∃ (st st' : State) (m : Masker),
      st.sched.active 0 = [0, 1] ∧ (∀ e, 0 < e → st.sched.active e = []) ∧
      run exEnv st [.epochBegin 0, .epochEnd 0] = .ok st' ∧
      st'.store.maskers.get? ["fc", "weight"] = some m ∧ m.handle = false ∧ 0 < m.liveHooks := by
  refine ⟨⟨{ params := [(["fc", "weight"], [3, 5])], maskers := [(["fc", "weight"], {})] },
    ((Sched.addPolicy (Sched.addPolicy {} { policy := 0, starting := some 0, ending := some 1 }).1
      { policy := 1, starting := some 0, ending := some 1 }).1),
    fun _ => .prune { fwdOnly := true, maskGrads := true } false false⟩, _,
    { mask := some [0, 1], fwdOnly := true, liveHooks := 1 }, by decide, ?_, rfl,
    by decide +kernel, rfl, by decide⟩
  intro e he
  have : (Sched.addPolicy (Sched.addPolicy {} { policy := 0, starting := some 0, ending := some 1 }).1
      { policy := 1, starting := some 0, ending := some 1 }).1.policies = [(0, [0, 1])] := by decide
  have h0 : ¬ (0 : Int) = e := by omega
  simp only [Sched.active, this, Dict.get?, h0, if_false, Option.getD]

end Verif
