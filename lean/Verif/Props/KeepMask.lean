import Verif.Props.DoubleCopy
/-!
# C05: keep_mask next to other policies, over whole histories
-/
namespace Verif
open Dict

/-- `p` is the only pruning policy, no regularizer thresholds, every parameter has a masker. -/
private structure Calm (p : Nat) (sched0 : Sched) (st : State) : Prop where
  pol : st.sched.policies = sched0.policies
  others : ∀ q, q ≠ p → ∀ c a b, st.pols q ≠ .prune c a b
  noThr : ∀ q keep last, st.pols q ≠ .reg keep true last
  own : ∀ n ∈ st.store.names, n ∈ st.store.maskers.map Prod.fst

section
variable {p : Nat} {sched0 : Sched} {env : Env}

private theorem Calm.touch {st st' : State} {q : Nat} {e : Int} {mt : Meta} (h : Calm p sched0 st)
    (ht : touchMeta st q e = .ok (st', mt)) : Calm p sched0 st' ∧ st'.store = st.store := by
  obtain ⟨t1, t2, t3⟩ := touch_spec ht
  exact ⟨⟨t3.trans h.pol, by rw [t1]; exact h.others, by rw [t1]; exact h.noThr, by rw [t2]; exact h.own⟩, t2⟩

/-- A policy other than `p` leaves parameters and maskers alone in every callback but the masking one. -/
private theorem Calm.turn {st st' : State} {q : Nat} (h : Calm p sched0 st) (hq : q ≠ p) (e : Int) (mb mpe : Nat)
    (hs : policyEpochBegin env e st q = .ok st' ∨ policyMbBegin env e mb mpe st q = .ok st' ∨
      policyBeforeOpt e st q = .ok st' ∨ policyMbEnd env mb mpe st q = .ok st' ∨ policyEpochEnd e st q = .ok st') :
    Calm p sched0 st' ∧ st'.store = st.store := by
  rcases hs with hs | hs | hs | hs | hs
  · unfold policyEpochBegin at hs
    obtain ⟨⟨st1, mt⟩, h1, hs⟩ := ok_bind hs
    obtain ⟨h, e1⟩ := h.touch h1
    dsimp only at hs
    cases hp : st1.pols q with
    | prune c a b => exact absurd hp (h.others q hq c a b)
    | reg k t l =>
      simp only [hp] at hs
      injection hs with hs; subst hs
      refine ⟨⟨h.pol, ?_, ?_, h.own⟩, e1⟩
      · intro r hr c a b
        by_cases hrq : r = q
        · simp [setPol, hrq]
        · simp only [setPol, hrq, if_false]; exact h.others r hr c a b
      · intro r k' l'
        by_cases hrq : r = q
        · simp only [setPol, hrq, if_true]
          intro hc; injection hc with c1 c2 c3; subst c2
          exact h.noThr q k l hp
        · simp only [setPol, hrq, if_false]; exact h.noThr r k' l'
    | other => simp only [hp] at hs; injection hs with hs; subst hs; exact ⟨h, e1⟩
  · unfold policyMbBegin at hs
    obtain ⟨⟨st1, mt⟩, h1, hs⟩ := ok_bind hs
    obtain ⟨h, e1⟩ := h.touch h1
    dsimp only at hs
    cases hp : st1.pols q with
    | prune c a b => exact absurd hp (h.others q hq c a b)
    | reg k t l => simp only [hp] at hs; injection hs with hs; subst hs; exact ⟨h, e1⟩
    | other => simp only [hp] at hs; injection hs with hs; subst hs; exact ⟨h, e1⟩
  · unfold policyBeforeOpt at hs
    obtain ⟨⟨st1, mt⟩, h1, hs⟩ := ok_bind hs
    obtain ⟨h, e1⟩ := h.touch h1
    dsimp only at hs
    cases hp : st1.pols q with
    | prune c a b => exact absurd hp (h.others q hq c a b)
    | reg k t l => simp only [hp] at hs; injection hs with hs; subst hs; exact ⟨h, e1⟩
    | other => simp only [hp] at hs; injection hs with hs; subst hs; exact ⟨h, e1⟩
  · unfold policyMbEnd at hs
    cases hp : st.pols q with
    | prune c a b => exact absurd hp (h.others q hq c a b)
    | reg k t l =>
      cases t with
      | true => exact absurd hp (h.noThr q k l)
      | false => simp only [hp] at hs; injection hs with hs; subst hs; exact ⟨h, rfl⟩
    | other => simp only [hp] at hs; injection hs with hs; subst hs; exact ⟨h, rfl⟩
  · unfold policyEpochEnd at hs
    obtain ⟨⟨st1, mt⟩, h1, hs⟩ := ok_bind hs
    obtain ⟨h, e1⟩ := h.touch h1
    dsimp only at hs
    cases hp : st1.pols q with
    | prune c a b => exact absurd hp (h.others q hq c a b)
    | reg k t l => simp only [hp] at hs; injection hs with hs; subst hs; exact ⟨h, e1⟩
    | other => simp only [hp] at hs; injection hs with hs; subst hs; exact ⟨h, e1⟩

private theorem Calm.fold {f : State → Nat → Except Err State} {l : List Nat} {st st' : State} (h : Calm p sched0 st)
    (hl : p ∉ l)
    (hf : ∀ t q t', q ≠ p → Calm p sched0 t → f t q = .ok t' → Calm p sched0 t' ∧ t'.store = t.store)
    (hs : l.foldlM f st = .ok st') : Calm p sched0 st' ∧ st'.store = st.store :=
  foldlM_preserves (P := fun t => Calm p sched0 t ∧ t.store = st.store)
    (fun t q t' hq ht hft => by
      obtain ⟨a, b⟩ := hf t q t' (fun e => hl (e ▸ hq)) ht.1 hft
      exact ⟨a, b.trans ht.2⟩) ⟨h, rfl⟩ hs

/-- A callback of an epoch in which `p` is not active, or an optimizer step. -/
private theorem Calm.step {st st' : State} {ev : Ev} (h : Calm p sched0 st)
    (hq : ∀ e, ev.epoch? = some e → p ∉ sched0.active e) (hs : step env st ev = .ok st') :
    Calm p sched0 st' ∧ st'.store.maskers = st.store.maskers ∧ st'.store.names = st.store.names := by
  have hact : ∀ e, st.sched.active e = sched0.active e := by
    intro e; unfold Sched.active; rw [h.pol]
  cases ev with
  | epochBegin e =>
    have hs : (st.sched.active e).foldlM (policyEpochBegin env e) st = .ok st' := hs
    rw [hact] at hs
    obtain ⟨a, b⟩ := h.fold (hq e rfl) (fun t q t' hne ht hf => ht.turn hne e 0 0 (Or.inl hf)) hs
    exact ⟨a, by rw [b], by rw [b]⟩
  | mbBegin e mb mpe =>
    have hs : (st.sched.active e).foldlM (policyMbBegin env e mb mpe) st = .ok st' := hs
    rw [hact] at hs
    obtain ⟨a, b⟩ := h.fold (hq e rfl) (fun t q t' hne ht hf => ht.turn hne e mb mpe (Or.inr (Or.inl hf))) hs
    exact ⟨a, by rw [b], by rw [b]⟩
  | beforeOpt e mb mpe =>
    have hs : (st.sched.active e).foldlM (policyBeforeOpt e) st = .ok st' := hs
    rw [hact] at hs
    obtain ⟨a, b⟩ := h.fold (hq e rfl)
      (fun t q t' hne ht hf => ht.turn (env := env) hne e 0 0 (Or.inr (Or.inr (Or.inl hf)))) hs
    exact ⟨a, by rw [b], by rw [b]⟩
  | epochEnd e =>
    have hs : (st.sched.active e).foldlM (policyEpochEnd e) st = .ok st' := hs
    rw [hact] at hs
    obtain ⟨a, b⟩ := h.fold (hq e rfl)
      (fun t q t' hne ht hf => ht.turn (env := env) hne e 0 0 (Or.inr (Or.inr (Or.inr (Or.inr hf))))) hs
    exact ⟨a, by rw [b], by rw [b]⟩
  | write f =>
    injection hs with hs; subst hs
    have hk : (Dict.mapVals f st.store.params).map Prod.fst = st.store.params.map Prod.fst := keys_mapVals _ _
    refine ⟨⟨h.pol, h.others, h.noThr, ?_⟩, rfl, hk⟩
    intro n hn
    exact h.own n (by unfold Store.names at hn ⊢; rw [← hk]; exact hn)
  | mbEnd e mb mpe =>
    have hs : onMbEnd env st e mb mpe = .ok st' := hs
    unfold onMbEnd at hs
    obtain ⟨s, hs1, hs⟩ := ok_bind hs
    have hm := maskAll_maskers h.own hs1
    have hn := maskAllWeights_names hs1
    have h0 : Calm p sched0 { st with store := s } := by
      refine ⟨h.pol, h.others, h.noThr, ?_⟩
      intro n hn'
      show n ∈ s.maskers.map Prod.fst
      rw [hm]
      exact h.own n (by rw [← hn]; exact hn')
    change (st.sched.active e).foldlM _ _ = _ at hs
    rw [hact] at hs
    obtain ⟨a, b⟩ := h0.fold (hq e rfl)
      (fun t q t' hne ht hf => ht.turn hne e mb mpe (Or.inr (Or.inr (Or.inr (Or.inl hf))))) hs
    exact ⟨a, by rw [b]; exact hm, by rw [b]; exact hn⟩

private theorem Calm.run {st st' : State} (evs : List Ev) (h : Calm p sched0 st)
    (hq : ∀ ev ∈ evs, ∀ e, ev.epoch? = some e → p ∉ sched0.active e) (hs : run env st evs = .ok st') :
    st'.store.maskers = st.store.maskers ∧ st'.store.names = st.store.names :=
  (foldlM_preserves (P := fun t => Calm p sched0 t ∧ t.store.maskers = st.store.maskers ∧
      t.store.names = st.store.names)
    (fun t ev t' hev ht hf => by
      obtain ⟨a, b, c⟩ := ht.1.step (hq ev hev) hf
      exact ⟨a, b.trans ht.2.1, c.trans ht.2.2⟩) ⟨h, rfl, rfl⟩ hs).2

end

/-- **C05** (partial: one pruning policy, any number of other policies of which no regularizer thresholds; the
schedule contains the policy's last epoch) With `keep_mask`, after any training history in which the policy's last
epoch ended, and then any continuation over epochs in which the policy is not scheduled – other policies may be –
with arbitrary optimizer updates: the mask of every parameter is the one it had when the continuation began, and at
every minibatch end the parameter is zero wherever that mask is zero. -/
theorem C05_history_partial (env : Env) (st st1 st2 : State) (p : Nat) (cfg : PruneCfg) (ending : Int)
    (history : List Item) (after : List Ev) (e : Int) (mb mpe : Nat)
    (hf : FreshPlain st p cfg ending) (hkeep : cfg.keepMask = true) (hfold : cfg.foldBn = false)
    (h1 : run env st (history.flatMap Item.events) = .ok st1)
    (hended : (phaseAfter st.sched.active p ending (history.flatMap Item.events)).ended = true)
    (hafter : ∀ ev ∈ after ++ [.mbEnd e mb mpe], ∀ x, ev.epoch? = some x → p ∉ st.sched.active x)
    (h2 : run env st1 (after ++ [.mbEnd e mb mpe]) = .ok st2)
    (n : Name) (w : Tensor) (m : Masker) (k : Tensor)
    (hw : st2.store.params.get? n = some w) (hm : st1.store.maskers.get? n = some m) (hk : m.mask = some k) :
    st2.store.maskers.get? n = some m ∧ ZeroWhere k w := by
  obtain ⟨b1, b2, b3, b4, b5⟩ := history_between env st st1 p cfg ending history hf hfold h1
  have hcalm : Calm p st.sched st1 := by
    refine ⟨b1, b3, b4, ?_⟩
    intro n hn
    rw [b2] at hn
    exact b5 n hn
  obtain ⟨hmk, hnm⟩ := hcalm.run _ hafter h2
  have hn : n ∈ st.store.names := by
    have : n ∈ st2.store.names := by rw [← get?_isSome_iff, hw]; rfl
    rw [hnm, b2] at this; exact this
  have hmodes := C12_history_partial env st st1 p cfg ending (history.flatMap Item.events) hf.toFreshWith h1 n hn m hm
  have hfw : m.fwdOnly = false := by
    rw [hmodes.2.1]
    cases hb : (phaseAfter st.sched.active p ending (history.flatMap Item.events)).begun <;>
      simp [Phase.modes, hb, hended, hkeep]
  rw [← hmk] at hm
  exact ⟨hm, C03_pruned_weights_zero env st1 st2 after e mb mpe h2 n w m k hw hm hfw hk⟩

/-- The policy is over after epoch 1; the learning-rate policy goes on in epoch 2. -/
private def exKeep : State :=
  { exHist with pols := fun q => if q = 0 then .prune { fwdOnly := true, keepMask := true } false false else .other }

private def exItems2 : List Item :=
  [.epochBegin 0, .minibatch 0 0 1 fun _ w => w.map (· + 7), .epochEnd 0,
   .epochBegin 1, .minibatch 1 0 1 fun _ w => w.map (· + 7), .epochEnd 1]

example : (phaseAfter exKeep.sched.active 0 2 (exItems2.flatMap Item.events)).ended = true ∧
    exKeep.sched.active 2 = [1] ∧
    (run exEnv exKeep (exItems2.flatMap Item.events)).toOption.map (·.store.params) = some [(["fc", "weight"], [0, 19])] ∧
    (run exEnv exKeep (exItems2.flatMap Item.events ++ [.epochBegin 2, .mbBegin 2 0 1, .beforeOpt 2 0 1, plus7] ++
      [.mbEnd 2 0 1])).toOption.map (·.store.params) = some [(["fc", "weight"], [0, 26])] := by decide +kernel

end Verif
