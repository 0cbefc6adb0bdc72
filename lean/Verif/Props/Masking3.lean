import Verif.Props.Masking2
/-!
# C03 (renamed parameters), C05 (state right after the last epoch), C84 (what a pruner is told)
-/
namespace Verif
open Dict

/-! ## C03: names changed by a training-time quantizer -/

/-- `RenamedFrom n n'`: a training-time quantizer stored parameter `n'` under the name `n`: it put the
full-precision copy under `float_<name>`, wrapped the module as `<module>.wrapped_module`, or both. -/
inductive RenamedFrom : Name → Name → Prop
  | backup (path : Name) (mod leaf : String) (h : mod ≠ "wrapped_module") :
      RenamedFrom (path ++ [mod, "float_" ++ leaf]) (path ++ [mod, leaf])
  | wrapped (path : Name) (leaf : String) (h : ¬ "float_".toList <+: leaf.toList) :
      RenamedFrom (path ++ ["wrapped_module", leaf]) (path ++ [leaf])
  | both (path : Name) (leaf : String) :
      RenamedFrom (path ++ ["wrapped_module", "float_" ++ leaf]) (path ++ [leaf])

theorem fallbackName_renamed {n n' : Name} (h : RenamedFrom n n') : fallbackName n = .ok (some n') := by
  have hpre : ∀ leaf : String, (fpBkpPrefix.toList.isPrefixOf ("float_" ++ leaf).toList) = true := by
    intro leaf
    rw [List.isPrefixOf_iff_prefix, String.toList_append]
    exact List.prefix_append _ _
  have hdrop : ∀ leaf : String, String.ofList (("float_" ++ leaf).toList.drop fpBkpPrefix.toList.length) = leaf := by
    intro leaf
    have e : fpBkpPrefix = "float_" := rfl
    rw [String.toList_append, e, List.drop_left, String.ofList_toList]
  cases h with
  | backup path mod leaf h =>
    unfold fallbackName
    simp only [List.reverse_append, List.reverse_cons, List.reverse_nil, List.nil_append, List.cons_append,
      hpre, hdrop, Bool.true_or, if_true]
    simp [h]
  | wrapped path leaf h =>
    unfold fallbackName
    have h' : (fpBkpPrefix.toList.isPrefixOf leaf.toList) = false := by
      rw [Bool.eq_false_iff]; intro hc; rw [List.isPrefixOf_iff_prefix] at hc; exact h hc
    simp [h']
  | both path leaf =>
    unfold fallbackName
    simp only [List.reverse_append, List.reverse_cons, List.reverse_nil, List.nil_append, List.cons_append,
      hpre, hdrop, Bool.true_or, if_true]
    simp

/-- **C03** for a model rewritten by a training-time quantizer after the scheduler was built: through
every history, when `on_minibatch_end` has returned, a parameter stored under a name the quantizer
gave it is zero wherever the mask of the original parameter is zero. -/
theorem C03_renamed_by_quantizer (env : Env) (st st' : State) (evs : List Ev) (e : Int)
    (mb mpe : Nat) (h : run env st (evs ++ [.mbEnd e mb mpe]) = .ok st')
    (n n' : Name) (hren : RenamedFrom n n') (w : Tensor) (m : Masker) (k : Tensor)
    (hw : st'.store.params.get? n = some w) (hno : st'.store.maskers.get? n = none)
    (hm : st'.store.maskers.get? n' = some m) (hk : m.mask = some k) : ZeroWhere k w :=
  C03_renamed_pruned_weights_zero env st st' evs e mb mpe h n n' w m k hw hno (fallbackName_renamed hren) hm hk

-- non-vacuity: both renamings at once, and a wrapped bias
example : (run exEnv
    ⟨{ params := [(["fc", "wrapped_module", "float_weight"], [3, 5]), (["fc", "wrapped_module", "bias"], [1, 1])],
       maskers := [(["fc", "weight"], { mask := some [0, 1] }), (["fc", "bias"], { mask := some [1, 0] })] }, {},
      fun _ => .other⟩ [plus7, .mbEnd 0 0 2]).map (·.store.params)
    = .ok [(["fc", "wrapped_module", "float_weight"], [0, 12]), (["fc", "wrapped_module", "bias"], [8, 0])] := by
  decide +kernel

/-- Any other parameter the scheduler has no mask for is left alone by the masking itself:
`mask_all_weights` changes a parameter only through its own mask or the mask of the original name. -/
theorem C03_unknown_untouched (s s' : Store) (f : Bool)
    (h : maskAllWeights s f = .ok s') (n : Name) (hno : s.maskers.get? n = none)
    (hall : ∀ n', ¬ RenamedFrom n n') : s'.params.get? n = s.params.get? n := by
  have hfb : ∀ n', fallbackName n ≠ .ok (some n') := by
    intro n' hc
    unfold fallbackName at hc
    split at hc
    · rename_i last parent rest hr
      have hn : n = rest.reverse ++ [parent, last] := by
        have := congrArg List.reverse hr; simpa using this
      by_cases hp : "float_".toList <+: last.toList
      · obtain ⟨t, ht⟩ := hp
        have hl : last = "float_" ++ String.ofList t := by
          have := congrArg String.ofList ht
          rw [String.ofList_append, String.ofList_toList, String.ofList_toList] at this; exact this.symm
        by_cases hw : parent = "wrapped_module"
        · apply hall (rest.reverse ++ [String.ofList t])
          rw [hn, hw, hl]; exact .both _ _
        · apply hall (rest.reverse ++ [parent, String.ofList t])
          rw [hn, hl]; exact .backup _ _ _ hw
      · by_cases hw : parent = "wrapped_module"
        · apply hall (rest.reverse ++ [last])
          rw [hn, hw]; exact .wrapped _ _ hp
        · have h1 : (fpBkpPrefix.toList.isPrefixOf last.toList) = false := by
            rw [Bool.eq_false_iff]; intro hc'; rw [List.isPrefixOf_iff_prefix] at hc'; exact hp hc'
          have h2 : (parent == "wrapped_module") = false := by simpa using hw
          simp [h1, h2] at hc
    · cases hc
  have := foldlM_preserves (P := fun t : Store => t.params.get? n = s.params.get? n ∧ t.maskers.get? n = none)
    (fun t a t' _ ht hf => by
      rcases maskAllBody_spec hf with ⟨m0, h1, h2, _, rfl⟩ | ⟨m0, h1, h2, rfl⟩ | ⟨h1, h2, rfl⟩ |
        ⟨n', m0, h1, h2, h3, rfl⟩
      · exact ht
      · refine ⟨?_, ht.2⟩
        have hne : a ≠ n := by intro hc; rw [hc, ht.2] at h1; cases h1
        simp only [Store.setParam]; rw [get?_set_ne _ _ hne]; exact ht.1
      · exact ht
      · have hne : a ≠ n := by intro hc; rw [hc] at h2; exact hfb _ h2
        have hne' : n' ≠ n := by intro hc; rw [hc, ht.2] at h3; cases h3
        refine ⟨?_, ?_⟩
        · simp only [Store.setParam, Store.setMasker]; rw [get?_set_ne _ _ hne]; exact ht.1
        · simp only [Store.setParam, Store.setMasker]; rw [get?_set_ne _ _ hne']; exact ht.2)
    ⟨rfl, hno⟩ h
  exact this.1

/-! ## C84 -/

/-- The registered part of a policy's metadata. -/
def Meta.registered (m : Meta) : Int × Int × Option Int := (m.starting, m.ending, m.freq)

/-- Two worlds whose pruners answer alike whenever they are told that the epoch is `e` and the range the
policy was registered with in `sched`. -/
structure SameWhenToldTruth (env env2 : Env) (sched : Sched) (e : Int) : Prop where
  thresh : env.thresh = env2.thresh
  folded : env.folded = env2.folded
  prune : ∀ t p n w o mt, mt.current = some e →
    (∃ m0, sched.md.get? p = some m0 ∧ mt.registered = m0.registered) →
    env.prune t p n w o mt = env2.prune t p n w o mt

/-- The metadata of `t` is that of `st` up to the current epoch. -/
def SameReg (s t : Sched) : Prop := ∀ p, (t.md.get? p).map Meta.registered = (s.md.get? p).map Meta.registered

theorem touchMeta_told {st st' : State} {p : Nat} {e : Int} {mt : Meta} (h : touchMeta st p e = .ok (st', mt)) :
    mt.current = some e ∧ (∃ m0, st.sched.md.get? p = some m0 ∧ mt.registered = m0.registered) ∧
    SameReg st.sched st'.sched ∧ st'.store = st.store ∧ st'.pols = st.pols := by
  unfold touchMeta at h
  obtain ⟨m0, h0, h⟩ := ok_bind h
  injection h with h
  injection h with h1 h2
  have h0 := getE_ok h0
  subst h2
  refine ⟨rfl, ⟨m0, h0, rfl⟩, ?_, by rw [← h1], by rw [← h1]⟩
  intro q
  rw [← h1]
  by_cases hq : q = p
  · subst hq; simp [get?_set_self, h0, Meta.registered]
  · dsimp only; rw [get?_set_ne _ _ (Ne.symm hq)]

/-! ## C05: right after the last epoch -/

/-- **C05** (partial as `C05_keep_mask_permanent_partial`: one policy in that epoch, last-epoch flag set)
Right after `on_epoch_end` of the last epoch: with `keep_mask` every parameter is its masked value and its
masker has left the forward-only and double-copy modes; without, weights and modes are what they were.
The mask itself is kept in both cases. -/
theorem C05_epoch_end_effect_partial (st st1 : State) (e : Int) (p : Nat) (cfg : PruneCfg) (b : Bool)
    (hact : st.sched.active e = [p]) (hp : st.pols p = .prune cfg true b)
    (hnd : (st.store.params.map Prod.fst).Nodup) (hend : onEpochEnd st e = .ok st1)
    (n : Name) (w : Tensor) (m : Masker)
    (hw : st.store.params.get? n = some w) (hm : st.store.maskers.get? n = some m) :
    ∃ m1, st1.store.maskers.get? n = some m1 ∧ m1.mask = m.mask ∧
      (cfg.keepMask = true → m1.fwdOnly = false ∧ m1.dbl = false ∧
        st1.store.params.get? n = some (m.mask.elim w (tmul w))) ∧
      (cfg.keepMask = false → m1.fwdOnly = m.fwdOnly ∧ m1.dbl = m.dbl ∧ st1.store.params.get? n = some w) := by
  have hs : st.store.forParams (pruneEpochEndBody cfg) = .ok st1.store := by
    unfold onEpochEnd at hend
    rw [hact] at hend
    rw [List.foldlM_cons] at hend
    obtain ⟨st2, hpe, h2⟩ := ok_bind hend
    simp [pure, Except.pure] at h2; subst h2
    clear hend
    unfold policyEpochEnd at hpe
    obtain ⟨⟨st', mt⟩, h1, hend⟩ := ok_bind hpe
    obtain ⟨-, -, -, t2, t1⟩ := touchMeta_told h1
    simp only [t1, hp, if_true] at hend
    obtain ⟨s, hs, hend⟩ := ok_bind hend
    injection hend with hend; subst hend
    rw [← t2]; exact hs
  have hl := pruneEpochEndBody_local cfg
  have hn : n ∈ st.store.names := by rw [← get?_isSome_iff, hw]; rfl
  obtain ⟨t, t', ht, hb, ht'⟩ := hl.forParams_at hnd hs hn
  injection ht with ta tb
  injection ht' with ta' tb'
  unfold pruneEpochEndBody at hb
  obtain ⟨m0, hm0, hb⟩ := ok_bind hb
  have := getE_ok hm0
  rw [tb, hm] at this
  injection this with this; subst this
  have htw : t.param n = w := by simp [Store.param, ta, hw]
  injection hb with hb
  rw [← ta', ← tb', ← hb, htw]
  cases hh : m.handle <;> cases hk : cfg.keepMask <;> cases hmk : m.mask <;>
    simp [hh, hmk, Masker.maskTensor]

-- non-vacuity: forward-only masking with keep_mask; the weight is cut at the epoch's end only
example : (run exEnv (exState { fwdOnly := true, dbl := true, keepMask := true }
      { policy := 0, starting := some 0, ending := some 1 })
    [.epochBegin 0, .mbBegin 0 0 1, .beforeOpt 0 0 1, plus7, .mbEnd 0 0 1]).map (·.store.params)
    = .ok [(["fc", "weight"], [10, 12])] ∧
  (run exEnv (exState { fwdOnly := true, dbl := true, keepMask := true }
      { policy := 0, starting := some 0, ending := some 1 })
    [.epochBegin 0, .mbBegin 0 0 1, .beforeOpt 0 0 1, plus7, .mbEnd 0 0 1, .epochEnd 0]).map (·.store.params)
    = .ok [(["fc", "weight"], [0, 12])] := by decide +kernel

private theorem bindOk {α β : Type} (a : α) (f : α → Except Err β) : ((.ok a : Except Err α) >>= f) = f a := rfl

theorem foldlM_congr_inv {ε σ α : Type} {f g : σ → α → Except ε σ} {P : σ → Prop} {l : List α} {s : σ}
    (hs : P s) (hp : ∀ t a t', P t → f t a = .ok t' → P t') (heq : ∀ t a, P t → f t a = g t a) :
    l.foldlM f s = l.foldlM g s := by
  induction l generalizing s with
  | nil => rfl
  | cons a l ih =>
    rw [List.foldlM_cons, List.foldlM_cons, ← heq s a hs]
    cases h : f s a with
    | error e => rfl
    | ok t => exact ih (hp s a t hs h)

theorem setParamMask_told {env env2 : Env} {sched : Sched} {e : Int} (H : SameWhenToldTruth env env2 sched e)
    {p : Nat} {mt : Meta} (h1 : mt.current = some e)
    (h2 : ∃ m0, sched.md.get? p = some m0 ∧ mt.registered = m0.registered) (s : Store) (n : Name) (w : Tensor) :
    setParamMask env p mt s n w = setParamMask env2 p mt s n w := by
  unfold setParamMask
  cases s.maskers.getE n with
  | error e => rfl
  | ok m =>
    show (env.prune _ _ _ _ _ _ >>= _) = (env2.prune _ _ _ _ _ _ >>= _)
    rw [H.prune _ _ _ _ _ _ h1 h2]

/-- The metadata of the policies is touched by callbacks only in its current epoch. -/
theorem step_sameReg {env : Env} {st st' : State} {ev : Ev} (h : step env st ev = .ok st') :
    SameReg st.sched st'.sched := by
  have refl : ∀ s, SameReg s s := fun _ _ => rfl
  have trans : ∀ {a b c}, SameReg a b → SameReg b c → SameReg a c := fun h1 h2 p => (h2 p).trans (h1 p)
  have fold : ∀ (f : State → Nat → Except Err State) (l : List Nat) (s s' : State),
      (∀ t a t', f t a = .ok t' → SameReg t.sched t'.sched) → l.foldlM f s = .ok s' → SameReg s.sched s'.sched := by
    intro f l s s' hf h
    exact foldlM_preserves (P := fun t : State => SameReg s.sched t.sched)
      (fun t a t' _ ht hs => trans ht (hf t a t' hs)) (refl _) h
  cases ev with
  | epochBegin e =>
    refine fold _ _ _ _ ?_ h
    intro t a t' h
    unfold policyEpochBegin at h
    obtain ⟨⟨t1, mt⟩, h1, h⟩ := ok_bind h
    have := (touchMeta_told h1).2.2.1
    dsimp only at h
    split at h
    · obtain ⟨s, hs, h⟩ := ok_bind h; injection h with h; subst h; exact this
    · injection h with h; subst h; exact this
    · injection h with h; subst h; exact this
  | mbBegin e mb mpe =>
    refine fold _ _ _ _ ?_ h
    intro t a t' h
    unfold policyMbBegin at h
    obtain ⟨⟨t1, mt⟩, h1, h⟩ := ok_bind h
    have := (touchMeta_told h1).2.2.1
    dsimp only at h
    split at h
    · obtain ⟨s, hs, h⟩ := ok_bind h; injection h with h; subst h; exact this
    · injection h with h; subst h; exact this
  | beforeOpt e mb mpe =>
    refine fold _ _ _ _ ?_ h
    intro t a t' h
    unfold policyBeforeOpt at h
    obtain ⟨⟨t1, mt⟩, h1, h⟩ := ok_bind h
    have := (touchMeta_told h1).2.2.1
    dsimp only at h
    split at h
    · obtain ⟨s, hs, h⟩ := ok_bind h; injection h with h; subst h; exact this
    · injection h with h; subst h; exact this
  | write f => injection h with h; subst h; exact refl _
  | mbEnd e mb mpe =>
    simp only [step, onMbEnd] at h
    obtain ⟨s, _, h⟩ := ok_bind h
    refine fold _ _ { st with store := s } _ ?_ h
    intro t a t' h
    unfold policyMbEnd at h
    split at h
    · split at h
      · obtain ⟨s, hs, h⟩ := ok_bind h; injection h with h; subst h; exact refl _
      · injection h with h; subst h; exact refl _
    · split at h
      · obtain ⟨s, hs, h⟩ := ok_bind h; injection h with h; subst h; exact refl _
      · injection h with h; subst h; exact refl _
    · injection h with h; subst h; exact refl _
  | epochEnd e =>
    refine fold _ _ _ _ ?_ h
    intro t a t' h
    unfold policyEpochEnd at h
    obtain ⟨⟨t1, mt⟩, h1, h⟩ := ok_bind h
    have := (touchMeta_told h1).2.2.1
    dsimp only at h
    split at h
    · split at h
      · obtain ⟨s, hs, h⟩ := ok_bind h; injection h with h; subst h; exact this
      · injection h with h; subst h; exact this
    · injection h with h; subst h; exact this

private theorem told_step {env env2 : Env} {sched : Sched} {st : State} {ev : Ev} (hreg : SameReg sched st.sched)
    (H : ∀ e, ev.epoch? = some e → SameWhenToldTruth env env2 sched e) :
    step env st ev = step env2 st ev := by
  have told : ∀ {e : Int} {t t1 : State} {p : Nat} {mt : Meta}, SameReg sched t.sched →
      touchMeta t p e = .ok (t1, mt) → ∃ m0, sched.md.get? p = some m0 ∧ mt.registered = m0.registered := by
    intro e t t1 p mt ht h
    obtain ⟨m0, h0, h1⟩ := (touchMeta_told h).2.1
    have := ht p
    rw [h0] at this
    cases hs : sched.md.get? p with
    | none => rw [hs] at this; cases this
    | some m1 =>
      rw [hs] at this
      injection this with this
      exact ⟨m1, rfl, h1.trans this⟩
  cases ev with
  | epochBegin e =>
    have H := H e rfl
    refine foldlM_congr_inv (P := fun t : State => SameReg sched t.sched) hreg ?_ ?_
    · intro t a t' ht h
      have : SameReg t.sched t'.sched := by
        unfold policyEpochBegin at h
        obtain ⟨⟨t1, mt⟩, h1, h⟩ := ok_bind h
        have := (touchMeta_told h1).2.2.1
        dsimp only at h
        split at h
        · obtain ⟨s, hs, h⟩ := ok_bind h; injection h with h; subst h; exact this
        · injection h with h; subst h; exact this
        · injection h with h; subst h; exact this
      exact fun p => (this p).trans (ht p)
    · intro t a ht
      unfold policyEpochBegin
      cases h1 : touchMeta t a e with
      | error e => rfl
      | ok r =>
        obtain ⟨t1, mt⟩ := r
        have hc := (touchMeta_told h1).1
        have hr := told ht h1
        rw [bindOk, bindOk]
        dsimp only
        cases hpol : t1.pols a with
        | prune cfg _ isInit =>
          have : pruneEpochBeginBody env a cfg isInit mt = pruneEpochBeginBody env2 a cfg isInit mt := by
            funext s n
            unfold pruneEpochBeginBody
            simp only [setParamMask_told H hc hr, H.folded]
          simp only [this]
        | reg _ _ _ => rfl
        | other => rfl
  | mbBegin e mb mpe =>
    have H := H e rfl
    refine foldlM_congr_inv (P := fun t : State => SameReg sched t.sched) hreg ?_ ?_
    · intro t a t' ht h
      have : SameReg t.sched t'.sched := by
        unfold policyMbBegin at h
        obtain ⟨⟨t1, mt⟩, h1, h⟩ := ok_bind h
        have := (touchMeta_told h1).2.2.1
        dsimp only at h
        split at h
        · obtain ⟨s, hs, h⟩ := ok_bind h; injection h with h; subst h; exact this
        · injection h with h; subst h; exact this
      exact fun p => (this p).trans (ht p)
    · intro t a ht
      unfold policyMbBegin
      cases h1 : touchMeta t a e with
      | error e => rfl
      | ok r =>
        obtain ⟨t1, mt⟩ := r
        have hc := (touchMeta_told h1).1
        have hr := told ht h1
        rw [bindOk, bindOk]
        dsimp only
        cases hpol : t1.pols a with
        | prune cfg _ isInit =>
          have : ∀ sm, pruneMbBeginBody env a cfg sm mt = pruneMbBeginBody env2 a cfg sm mt := by
            intro sm
            funext s n
            unfold pruneMbBeginBody
            simp only [setParamMask_told H hc hr, H.folded]
          simp only [this]
        | reg _ _ _ => rfl
        | other => rfl
  | beforeOpt e mb mpe => rfl
  | write f => rfl
  | mbEnd e mb mpe =>
    have H := H e rfl
    simp only [step, onMbEnd]
    have : policyMbEnd env mb mpe = policyMbEnd env2 mb mpe := by
      funext t a
      unfold policyMbEnd
      have : ∀ k, regMbEndBody env a k = regMbEndBody env2 a k := by
        intro k; funext s n; unfold regMbEndBody; simp only [H.thresh]
      simp only [this]
    rw [this]
  | epochEnd e => rfl

/-- **C84** Through every history of callbacks and weight updates, each time a policy consults its pruner
the pruner is told the epoch of the running callback and the range its policy was registered with:
replacing the pruners by any others that agree when told so changes nothing. -/
theorem C84_pruner_told_epoch (env env2 : Env) (st : State) (evs : List Ev)
    (H : ∀ ev ∈ evs, ∀ e, ev.epoch? = some e → SameWhenToldTruth env env2 st.sched e) :
    run env st evs = run env2 st evs := by
  suffices ∀ (evs : List Ev) (t : State), SameReg st.sched t.sched →
      (∀ ev ∈ evs, ∀ e, ev.epoch? = some e → SameWhenToldTruth env env2 st.sched e) →
      run env t evs = run env2 t evs from this evs st (fun _ => rfl) H
  intro evs
  induction evs with
  | nil => intros; rfl
  | cons ev evs ih =>
    intro t ht H
    unfold run
    rw [List.foldlM_cons, List.foldlM_cons, ← told_step ht (H ev (by simp))]
    cases h : step env t ev with
    | error e => rfl
    | ok t' => exact ih t' (fun p => (step_sameReg h p).trans (ht p)) (fun ev hev => H ev (by simp [hev]))

-- non-vacuity: a pruner that behaves differently when told another epoch or another range
example : (run { exEnv with prune := fun _ _ _ _ _ mt =>
      if (mt.current = some 1 ∧ mt.starting = 1 ∧ mt.ending = 3) then .ok (some [0, 1]) else .error .value }
    (exState {} { policy := 0, starting := some 1, ending := some 3 })
    [.epochBegin 1, .mbBegin 1 0 2, .beforeOpt 1 0 2, plus7, .mbEnd 1 0 2]).map (·.store.params)
    = .ok [(["fc", "weight"], [0, 12])] := by decide +kernel

example : SameWhenToldTruth exEnv { exEnv with prune := fun _ _ _ _ _ mt =>
      if (mt.current = some 1 ∧ mt.starting = 1 ∧ mt.ending = 3) then .ok (some [0, 1]) else .error .value }
    (exState {} { policy := 0, starting := some 1, ending := some 3 }).sched 1 := by
  refine ⟨rfl, rfl, ?_⟩
  intro t p n w o mt h1 ⟨m0, h2, h3⟩
  have hm : (exState {} { policy := 0, starting := some 1, ending := some 3 }).sched.md =
      [(0, { starting := 1, ending := 3, freq := some 1 })] := by decide
  rw [hm] at h2
  simp only [Dict.get?] at h2
  split at h2
  · injection h2 with h2; subst h2
    simp only [Meta.registered, Prod.mk.injEq] at h3
    simp [exEnv, h1, h3]
  · cases h2

end Verif
