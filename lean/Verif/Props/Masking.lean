import Verif.Lemmas.Masking
import Verif.Props.Schedule
import Mathlib.Tactic.NormNum
/-!
# C03–C06, C12, C55: pruning masks through training

`ZeroWhere k w` (Basic/Tensor.lean) is the only specification vocabulary: wherever
the mask `k` has a 0, the tensor `w` has a 0.
-/
namespace Verif
open Dict

/-! ## C03 -/

/-- **C03** For every pruner/regularizer (`env`), every starting state, every history
of scheduler callbacks and arbitrary weight updates: when `on_minibatch_end` has
returned, a parameter that has a mask and is not forward-only is zero wherever the
mask is zero. -/
theorem C03_pruned_weights_zero (env : Env) (st st' : State) (evs : List Ev) (e : Int)
    (mb mpe : Nat) (h : run env st (evs ++ [.mbEnd e mb mpe]) = .ok st')
    (n : Name) (w : Tensor) (m : Masker) (k : Tensor)
    (hw : st'.store.params.get? n = some w) (hm : st'.store.maskers.get? n = some m)
    (hf : m.fwdOnly = false) (hk : m.mask = some k) : ZeroWhere k w := by
  unfold run at h
  rw [List.foldlM_append] at h
  obtain ⟨st1, _, h⟩ := ok_bind h
  rw [List.foldlM_cons] at h
  obtain ⟨st2, h2, h⟩ := ok_bind h
  simp [pure, Except.pure] at h; subst h
  simp only [step, onMbEnd] at h2
  obtain ⟨s, hs, h2⟩ := ok_bind h2
  have := foldlM_preserves (P := fun t : State => ∀ n, Masked t.store n)
    (fun t a t' _ ht hf => policyMbEnd_masked ht hf) (maskAllWeights_masked hs) h2
  exact (masked_own hm).1 (this n) w k hw hf hk

/-- **C03** for a model rewritten by a training-time quantizer: a parameter without a
masker of its own, whose original name (without the `float_` prefix and
`wrapped_module` level) has a mask, is zero wherever that mask is zero. -/
theorem C03_renamed_pruned_weights_zero (env : Env) (st st' : State) (evs : List Ev) (e : Int)
    (mb mpe : Nat) (h : run env st (evs ++ [.mbEnd e mb mpe]) = .ok st')
    (n n' : Name) (w : Tensor) (m : Masker) (k : Tensor)
    (hw : st'.store.params.get? n = some w) (hno : st'.store.maskers.get? n = none)
    (hren : fallbackName n = .ok (some n')) (hm : st'.store.maskers.get? n' = some m)
    (hk : m.mask = some k) : ZeroWhere k w := by
  unfold run at h
  rw [List.foldlM_append] at h
  obtain ⟨st1, _, h⟩ := ok_bind h
  rw [List.foldlM_cons] at h
  obtain ⟨st2, h2, h⟩ := ok_bind h
  simp [pure, Except.pure] at h; subst h
  simp only [step, onMbEnd] at h2
  obtain ⟨s, hs, h2⟩ := ok_bind h2
  have := foldlM_preserves (P := fun t : State => ∀ n, Masked t.store n)
    (fun t a t' _ ht hf => policyMbEnd_masked ht hf) (maskAllWeights_masked hs) h2
  exact this n w m k hw (by simp [Store.governing, hno, hren, hm]) hk

/-! A concrete training run: a level-like pruner (mask `[0,1]`), an "optimizer" that
revives every weight. -/

/-- The pruner of the examples masks out the first of two weights. -/
def exEnv : Env where
  prune := fun _ _ _ _ _ _ => .ok (some [0, 1])
  thresh := fun _ _ _ _ => none
  folded := fun _ _ _ => none

def exState (cfg : PruneCfg) (a : AddArgs) : State where
  store := { params := [(["fc", "weight"], [3, 5])],
             maskers := [(["fc", "weight"], {})] }
  sched := (Sched.addPolicy {} a).1
  pols := fun _ => .prune cfg false false

/-- The optimizer step "add 7 to every weight". -/
def plus7 : Ev := .write fun _ w => w.map (· + 7)

example : (run exEnv (exState {} { policy := 0, starting := some 0, ending := some 3 })
    [.epochBegin 0, .mbBegin 0 0 2, .beforeOpt 0 0 2, plus7, .mbEnd 0 0 2]).map (·.store.params)
    = .ok [(["fc", "weight"], [0, 12])] := by decide +kernel

/-- the renamed case: a parameter renamed by a quantizer after the scheduler was built. -/
example : (run exEnv
    ⟨{ params := [(["fc", "float_weight"], [3, 5])],
       maskers := [(["fc", "weight"], { mask := some [0, 1] })] }, {}, fun _ => .other⟩
    [plus7, .mbEnd 0 0 2]).map (·.store.params)
    = .ok [(["fc", "float_weight"], [0, 12])] := by decide +kernel

/-! ### The forward pass uses the masked weights -/

/-- Zero where masked, also for forward-only masks. -/
def ForwardMasked (s : Store) (n : Name) : Prop :=
  ∀ w m k, s.params.get? n = some w → s.maskers.get? n = some m → m.mask = some k → ZeroWhere k w

private theorem mbBegin_policy_forward {env : Env} {e : Int} {mb mpe : Nat} {st st' : State} {p : Nat}
    {cfg : PruneCfg} {a b : Bool} (hp : st.pols p = .prune cfg a b) (hfold : cfg.foldBn = false)
    (h : policyMbBegin env e mb mpe st p = .ok st') : ∀ n, ForwardMasked st'.store n := by
  unfold policyMbBegin touchMeta at h
  obtain ⟨⟨st1, mt⟩, h1, h⟩ := ok_bind h
  obtain ⟨mm, _, h1⟩ := ok_bind h1
  injection h1 with h1; injection h1 with h1 h1'; subst h1
  simp only [hp] at h
  obtain ⟨s, hs, h⟩ := ok_bind h
  injection h with h; subst h
  intro n
  have hl := pruneMbBeginBody_local env p cfg (setMasksNow cfg e mb mpe) mt
  have hnames := forParams_names (fun s n s' hn => hl.names hn) hs
  by_cases hn : n ∈ s.names
  · rw [hnames] at hn
    have hbody : ∀ s a s', pruneMbBeginBody env p cfg (setMasksNow cfg e mb mpe) mt s a = .ok s' →
        ForwardMasked s' a := by
      intro s a s' hb
      obtain ⟨m, k, h1, _, ⟨w', hf, _⟩ | ⟨_, h2, h3⟩⟩ := pruneMbBeginBody_spec hb
      · simp [hfold] at hf
      · intro w m' k' hw hm hk
        rw [h2] at hw; rw [h3] at hm
        simp at hw hm; subst hw; subst hm
        exact zeroWhere_maskTensor (applyMask_mask hk).1 _
    refine foldlM_establish (Q := ForwardMasked) hbody ?_ hs n hn
    intro s a b s' hb hQ
    by_cases hab : a = b
    · subst hab; exact hbody _ _ _ hb
    · have := hl.at_other hab hb
      unfold Store.at at this
      injection this with t1 t2
      intro w m k hw hm hk
      rw [t1] at hw; rw [t2] at hm
      exact hQ w m k hw hm hk
  · intro w m k hw
    rw [(get?_eq_none_iff _ _).2 hn] at hw; cases hw

private theorem touchMeta_pols {st st' : State} {p : Nat} {e : Int} {mt : Meta}
    (h : touchMeta st p e = .ok (st', mt)) : st'.pols = st.pols ∧ st'.store = st.store ∧
      st'.sched.policies = st.sched.policies := by
  unfold touchMeta at h
  obtain ⟨mm, _, h1⟩ := ok_bind h
  injection h1 with h1; injection h1 with h1 h1'; subst h1
  exact ⟨rfl, rfl, rfl⟩

private theorem policyMbBegin_pols {env : Env} {e : Int} {mb mpe : Nat} {st st' : State} {p : Nat}
    (h : policyMbBegin env e mb mpe st p = .ok st') : st'.pols = st.pols := by
  unfold policyMbBegin at h
  obtain ⟨⟨st1, mt⟩, h1, h⟩ := ok_bind h
  have := (touchMeta_pols h1).1
  dsimp only at h
  split at h
  · obtain ⟨s, _, h⟩ := ok_bind h
    injection h with h; subst h; exact this
  · injection h with h; subst h; exact this

theorem mbBegin_fold_forward (env : Env) (st st' : State) (e : Int) (mb mpe : Nat) :
    ∀ (l : List Nat) (s : State), s.pols = st.pols →
      (∀ p ∈ l, ∀ cfg a b, st.pols p = .prune cfg a b → cfg.foldBn = false) →
      ((∃ p ∈ l, ∃ cfg a b, st.pols p = .prune cfg a b) ∨ ∀ n, ForwardMasked s.store n) →
      l.foldlM (policyMbBegin env e mb mpe) s = .ok st' → ∀ n, ForwardMasked st'.store n := by
  intro l
  induction l with
  | nil =>
    intro s _ _ hor hh
    simp [pure, Except.pure] at hh; subst hh
    rcases hor with ⟨p, hp, _⟩ | hor
    · simp at hp
    · exact hor
  | cons p l ih =>
    intro s hpol hfold hor hh
    rw [List.foldlM_cons] at hh
    obtain ⟨s1, h1, hh⟩ := ok_bind hh
    refine ih s1 ((policyMbBegin_pols h1).trans hpol)
      (fun q hq => hfold q (List.mem_cons_of_mem _ hq)) ?_ hh
    cases hpp : st.pols p with
    | prune cfg a b =>
      right
      exact mbBegin_policy_forward (hpol ▸ hpp) (hfold p (by simp) cfg a b hpp) h1
    | reg k h l' =>
      have hst : s1.store = s.store := by
        unfold policyMbBegin at h1
        obtain ⟨⟨st1, mt⟩, ht, h1⟩ := ok_bind h1
        obtain ⟨t1, t2, _⟩ := touchMeta_pols ht
        simp only [t1, hpol, hpp] at h1
        injection h1 with h1; subst h1; exact t2
      rcases hor with ⟨q, hq, x⟩ | hor
      · rcases List.mem_cons.1 hq with rfl | hq
        · rw [hpp] at x; obtain ⟨_, _, _, x⟩ := x; cases x
        · exact Or.inl ⟨q, hq, x⟩
      · right; rw [hst]; exact hor
    | other =>
      have hst : s1.store = s.store := by
        unfold policyMbBegin at h1
        obtain ⟨⟨st1, mt⟩, ht, h1⟩ := ok_bind h1
        obtain ⟨t1, t2, _⟩ := touchMeta_pols ht
        simp only [t1, hpol, hpp] at h1
        injection h1 with h1; subst h1; exact t2
      rcases hor with ⟨q, hq, x⟩ | hor
      · rcases List.mem_cons.1 hq with rfl | hq
        · rw [hpp] at x; obtain ⟨_, _, _, x⟩ := x; cases x
        · exact Or.inl ⟨q, hq, x⟩
      · right; rw [hst]; exact hor

/-- **C03** (forward pass) On a minibatch of an epoch with at least one pruning policy
active, and if no active pruning policy folds batch-norms, the weights handed to the
forward pass are zero wherever the parameter's mask is zero – in every masking mode. -/
theorem C03_forward_sees_masked (env : Env) (st st' : State) (e : Int) (mb mpe : Nat)
    (hfold : ∀ p ∈ st.sched.active e, ∀ cfg a b, st.pols p = .prune cfg a b → cfg.foldBn = false)
    (hex : ∃ p ∈ st.sched.active e, ∃ cfg a b, st.pols p = .prune cfg a b)
    (h : onMbBegin env st e mb mpe = .ok st')
    (n : Name) (w : Tensor) (m : Masker) (k : Tensor)
    (hw : st'.store.params.get? n = some w) (hm : st'.store.maskers.get? n = some m)
    (hk : m.mask = some k) : ZeroWhere k w := by
  unfold onMbBegin at h
  exact mbBegin_fold_forward env st st' e mb mpe _ st rfl hfold (Or.inl hex) h n w m k hw hm hk

example : (run exEnv (exState { fwdOnly := true } { policy := 0, starting := some 0, ending := some 3 })
    [.epochBegin 0, .mbBegin 0 0 2]).map (·.store.params)
    = .ok [(["fc", "weight"], [0, 5])] := by decide +kernel

/-- The side condition on batch-norm folding is needed (the code violates the claim
without it): when masks are recomputed at a minibatch with `fold_batchnorm`, the mask
is applied to the folded temporary, and the forward pass runs on unmasked weights. -/
theorem C03_forward_violated_by_fold_bn :
    ∃ (env : Env) (st st' : State) (w : Tensor) (m : Masker) (k : Tensor),
      run env st [.epochBegin 0, .mbBegin 0 1 5] = .ok st' ∧
      st'.store.params.get? ["conv", "weight"] = some w ∧
      st'.store.maskers.get? ["conv", "weight"] = some m ∧ m.mask = some k ∧ ¬ ZeroWhere k w := by
  refine ⟨{ exEnv with folded := fun _ _ w => some (w.map (2 * ·)) },
    { store := { params := [(["conv", "weight"], [3, 5])], maskers := [(["conv", "weight"], {})] },
      sched := (Sched.addPolicy {} { policy := 0, starting := some 0, ending := some 3 }).1,
      pols := fun _ => .prune { foldBn := true, mbFreq := 1 } false false },
    _, [3, 5], { mask := some [0, 1] }, [0, 1], rfl, rfl, rfl, rfl, by decide +kernel⟩

end Verif
