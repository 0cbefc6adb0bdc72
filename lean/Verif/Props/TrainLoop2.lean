import Verif.Props.TrainLoop
/-!
# C86: gradual pruning, end to end

One pruning policy in a fresh scheduler, the training loop of the library, an arbitrary optimizer.
-/
namespace Verif
open Dict

/-- Sizes match and no regularization flag. -/
structure Good (cfg : PruneCfg) (L : ℕ) (w : Tensor) (m : Masker) : Prop where
  len : w.length = L
  reg : m.isReg = false
  mask : ∀ k, m.mask = some k → k.length = L
  copy : ∀ c, m.copy = some c → c.length = L
  fwd : cfg.fwdOnly = false → m.fwdOnly = false

/-- What is known about the store throughout. -/
structure SInv (cfg : PruneCfg) (ns : List Name) (n : Name) (L : ℕ) (s : Store) : Prop where
  names : s.names = ns
  own : ∀ b ∈ ns, b ∈ s.maskers.map Prod.fst
  trk : ∃ w m, s.at n = (some w, some m) ∧ Good cfg L w m

/-- The masker keeps its mask. -/
def KeepsMask (n : Name) (s s' : Store) : Prop :=
  ∀ m, s.maskers.get? n = some m → ∃ m', s'.maskers.get? n = some m' ∧ m'.mask = m.mask ∧
    (m.fwdOnly = false → m'.fwdOnly = false)

theorem KeepsMask.refl (n : Name) (s : Store) : KeepsMask n s s := fun m h => ⟨m, h, rfl, id⟩

theorem KeepsMask.trans {n : Name} {a b c : Store} (h1 : KeepsMask n a b) (h2 : KeepsMask n b c) : KeepsMask n a c := by
  intro m hm
  obtain ⟨m1, e1, e2, e3⟩ := h1 m hm
  obtain ⟨m2, f1, f2, f3⟩ := h2 m1 e1
  exact ⟨m2, f1, f2.trans e2, fun h => f3 (e3 h)⟩

variable {cfg : PruneCfg} {ns : List Name} {n : Name} {L : ℕ}

/-- A local loop, seen from one parameter. -/
theorem SInv.loop {body} (hl : Local body) {s s' : Store} (hnd : ns.Nodup) (hn : n ∈ ns) (h : SInv cfg ns n L s)
    (hs : s.forParams body = .ok s') {R : Masker → Masker → Prop}
    (hb : ∀ t t' w m, t.at n = (some w, some m) → Good cfg L w m → body t n = .ok t' →
      ∃ w' m', t'.at n = (some w', some m') ∧ Good cfg L w' m' ∧ R m m') :
    SInv cfg ns n L s' ∧ ∃ m m', s.maskers.get? n = some m ∧ s'.maskers.get? n = some m' ∧ R m m' := by
  have hnames := forParams_names (fun s n s' hn => hl.names hn) hs
  have hmn := hl.forParams_maskerNames hs
  obtain ⟨w, m, hat, hg⟩ := h.trk
  obtain ⟨t, t', ht, hbt, ht'⟩ := hl.forParams_at (by rw [h.names]; exact hnd) hs (by rw [h.names]; exact hn)
  obtain ⟨w', m', ha', hg', hr⟩ := hb t t' w m (ht.trans hat) hg hbt
  refine ⟨⟨hnames.trans h.names, ?_, w', m', ht'.symm.trans ha', hg'⟩, m, m', ?_, ?_, hr⟩
  · intro b hb; rw [hmn]; exact h.own b hb
  · exact congrArg Prod.snd hat
  · exact congrArg Prod.snd (ht'.symm.trans ha')

theorem length_tmul (a b : Tensor) (h : b.length = a.length) : (tmul a b).length = a.length := by
  unfold tmul; rw [List.length_zipWith, h, min_self]

theorem maskTensor_length {w : Tensor} {m : Masker} (h : Good cfg L w m) : (m.maskTensor w).length = L := by
  unfold Masker.maskTensor
  cases hm : m.mask with
  | none => exact h.len
  | some k => dsimp only; rw [length_tmul _ _ (by rw [h.mask k hm, h.len]), h.len]

theorem applyMask_good {w : Tensor} {m : Masker} (h : Good cfg L w m) :
    Good cfg L (m.maskTensor w) (m.applyMask w).1 ∧ (m.applyMask w).1.mask = m.mask ∧
    (m.applyMask w).1.fwdOnly = m.fwdOnly := by
  have hl := maskTensor_length h
  unfold Masker.applyMask
  cases hm : m.mask with
  | none => exact ⟨by simpa [Masker.maskTensor, hm] using h, by simp [hm], rfl⟩
  | some k =>
    have hreg := h.reg
    have hmask := h.mask
    have hcopy := h.copy
    have hfwd := h.fwd
    cases hd : m.dbl
    · simp only [Bool.false_eq_true, if_false]
      refine ⟨⟨hl, ?_, ?_, ?_, ?_⟩, ?_, ?_⟩ <;> simp_all
    · simp only [if_true]
      refine ⟨⟨hl, ?_, ?_, ?_, ?_⟩, ?_, ?_⟩ <;> simp_all [h.len]

/-- `on_minibatch_begin` without mask updates. -/
theorem mbBegin_inv {env : Env} {p : Nat} {mt : Meta} {s s' : Store} (hnd : ns.Nodup) (hn : n ∈ ns)
    (h : SInv cfg ns n L s) (hs : s.forParams (pruneMbBeginBody env p cfg false mt) = .ok s') :
    SInv cfg ns n L s' ∧ KeepsMask n s s' := by
  obtain ⟨h1, m, m', hm, hm', hr⟩ := h.loop (pruneMbBeginBody_local env p cfg false mt) hnd hn hs
    (R := fun m m' => m'.mask = m.mask ∧ (m.fwdOnly = false → m'.fwdOnly = false)) (by
      intro t t' w m hat hg hb
      obtain ⟨m0, k, e1, e2, ⟨w', c, _⟩ | ⟨_, e3, e4⟩⟩ := pruneMbBeginBody_spec hb
      · simp at c
      · have hm0 : m0 = m := by
          have := congrArg Prod.snd hat; simp only [Store.at] at this; rw [e1] at this; injection this
        have hw0 : t.param n = w := by
          have := congrArg Prod.fst hat; simp only [Store.at] at this; simp [Store.param, this]
        subst hm0
        have hk := e2 rfl
        have hself : ({ m0 with mask := k } : Masker) = m0 := by rw [hk]
        rw [hself, hw0] at e3 e4
        obtain ⟨g1, g2, g3⟩ := applyMask_good hg
        exact ⟨_, _, by simp only [Store.at, e3, e4, get?_set_self], g1, g2, fun h => g3.trans h⟩)
  refine ⟨h1, ?_⟩
  intro x hx
  rw [hm] at hx; cases hx
  exact ⟨m', hm', hr⟩

/-- `before_parameter_optimization`. -/
theorem revert_inv {s s' : Store} (hnd : ns.Nodup) (hn : n ∈ ns)
    (h : SInv cfg ns n L s) (hs : s.forParams revertBody = .ok s') : SInv cfg ns n L s' ∧ KeepsMask n s s' := by
  obtain ⟨h1, m, m', hm, hm', hr⟩ := h.loop revertBody_local hnd hn hs
    (R := fun m m' => m'.mask = m.mask ∧ (m.fwdOnly = false → m'.fwdOnly = false)) (by
      intro t t' w m hat hg hb
      unfold revertBody at hb
      obtain ⟨m0, e1, hb⟩ := ok_bind hb
      have e1 := getE_ok e1
      injection hb with hb
      have hm0 : m0 = m := by
        have := congrArg Prod.snd hat; simp only [Store.at] at this; rw [e1] at this; injection this
      have hw0 : t.param n = w := by
        have := congrArg Prod.fst hat; simp only [Store.at] at this; simp [Store.param, this]
      subst hm0
      rw [hw0] at hb
      subst hb
      refine ⟨_, _, by simp only [Store.at, Store.setParam, Store.setMasker, get?_set_self]; rfl, ?_⟩
      unfold Masker.revertWeights
      split
      · exact ⟨hg, rfl, id⟩
      · split
        · exact ⟨hg, rfl, id⟩
        · next c hc =>
          exact ⟨⟨hg.copy c hc, hg.reg, hg.mask, by simp, hg.fwd⟩, rfl, id⟩)
  refine ⟨h1, ?_⟩
  intro x hx
  rw [hm] at hx; cases hx
  exact ⟨m', hm', hr⟩

/-- `on_epoch_end` of the last epoch. -/
theorem epochEndBody_inv {s s' : Store} (hnd : ns.Nodup) (hn : n ∈ ns)
    (h : SInv cfg ns n L s) (hs : s.forParams (pruneEpochEndBody cfg) = .ok s') :
    SInv cfg ns n L s' ∧ KeepsMask n s s' ∧
      (cfg.keepMask = true → ∃ m', s'.maskers.get? n = some m' ∧ m'.fwdOnly = false) := by
  obtain ⟨h1, m, m', hm, hm', hr, hk⟩ := h.loop (pruneEpochEndBody_local cfg) hnd hn hs
    (R := fun m m' => (m'.mask = m.mask ∧ (m.fwdOnly = false → m'.fwdOnly = false)) ∧
      (cfg.keepMask = true → m'.fwdOnly = false)) (by
      intro t t' w m hat hg hb
      unfold pruneEpochEndBody at hb
      obtain ⟨m0, e1, hb⟩ := ok_bind hb
      have e1 := getE_ok e1
      injection hb with hb
      have hm0 : m0 = m := by
        have := congrArg Prod.snd hat; simp only [Store.at] at this; rw [e1] at this; injection this
      have hw0 : t.param n = w := by
        have := congrArg Prod.fst hat; simp only [Store.at] at this; simp [Store.param, this]
      subst hm0
      rw [hw0] at hb
      subst hb
      refine ⟨_, _, by simp only [Store.at, Store.setParam, Store.setMasker, get?_set_self]; rfl, ?_⟩
      have hl := maskTensor_length hg
      have hreg := hg.reg
      have hmask := hg.mask
      have hcopy := hg.copy
      have hfwd := hg.fwd
      have hlen := hg.len
      cases hk : cfg.keepMask <;> cases hh : m0.handle <;>
        simp only [hh, if_true, Bool.false_eq_true, if_false] <;>
        refine ⟨⟨?_, ?_, ?_, ?_, ?_⟩, ⟨?_, ?_⟩, ?_⟩ <;> simp_all [Masker.maskTensor])
  refine ⟨h1, ?_, fun h => ⟨m', hm', hk h⟩⟩
  intro x hx
  rw [hm] at hx; cases hx
  exact ⟨m', hm', hr⟩

/-- Pruners return masks of the parameter's size. -/
def MaskSizes (env : Env) (p : Nat) : Prop :=
  ∀ t n w o mt k, (∀ k', o = some k' → k'.length = w.length) → env.prune t p n w o mt = .ok (some k) →
    k.length = w.length

theorem initMasker_spec {cfg : PruneCfg} {f : Bool} {m m' : Masker} (h : initMasker cfg f m = .ok m') :
    m'.mask = m.mask ∧ m'.isReg = m.isReg ∧ m'.copy = m.copy ∧ m'.fwdOnly = cfg.fwdOnly := by
  unfold initMasker at h
  dsimp only at h
  split at h
  · split at h
    · cases h
    · injection h with h; subst h; exact ⟨rfl, rfl, rfl, rfl⟩
  · injection h with h; subst h; exact ⟨rfl, rfl, rfl, rfl⟩

theorem pruneEpochBeginBody_spec {env : Env} {p : Nat} {isInit : Bool} {mt : Meta} {s s' : Store} {b : Name}
    (hfold : cfg.foldBn = false) (h : pruneEpochBeginBody env p cfg isInit mt s b = .ok s') :
    ∃ m m', s.maskers.get? b = some m ∧ s'.maskers = s.maskers.set b m' ∧ s'.params = s.params ∧
      m'.isReg = m.isReg ∧ m'.copy = m.copy ∧ (m'.fwdOnly = m.fwdOnly ∨ m'.fwdOnly = cfg.fwdOnly) ∧
      (cfg.skipFirst = false → ∃ t k, env.prune t p b (s.param b) m.mask mt = .ok k ∧ m'.mask = k) ∧
      (m'.mask = m.mask ∨ ∃ t k, env.prune t p b (s.param b) m.mask mt = .ok k ∧ m'.mask = k) := by
  unfold pruneEpochBeginBody at h
  simp only [hfold, Bool.false_eq_true, if_false, Option.getD_none] at h
  split at h
  · obtain ⟨m, k, h1, h2, h3, h4⟩ := setParamMask_spec h
    exact ⟨m, _, h1, h2, h3, rfl, rfl, .inl rfl, fun _ => ⟨_, k, h4, rfl⟩, .inr ⟨_, k, h4, rfl⟩⟩
  · obtain ⟨m, hm, h⟩ := ok_bind h
    obtain ⟨m1, hm1, h⟩ := ok_bind h
    have hm := getE_ok hm
    obtain ⟨i1, i2, i3, i4⟩ := initMasker_spec hm1
    split at h
    · next hsk =>
      injection h with h; subst h
      exact ⟨m, m1, hm, rfl, rfl, i2, i3, .inr i4, (by intro h; rw [hsk] at h; cases h), .inl i1⟩
    · obtain ⟨m2, k, h1, h2, h3, h4⟩ := setParamMask_spec h
      simp at h1; subst h1
      have hp : (s.setMasker b m1).params = s.params := rfl
      rw [i1] at h4
      refine ⟨m, { m1 with mask := k }, hm, ?_, h3.trans hp, i2, i3, .inr i4, fun _ => ⟨_, k, h4, rfl⟩, .inr ⟨_, k, h4, rfl⟩⟩
      rw [h2]; simp [Store.setMasker, set_set]

theorem pruneEpochBeginBody_local (env : Env) (p : Nat) (isInit : Bool) (mt : Meta) (hfold : cfg.foldBn = false) :
    Local (pruneEpochBeginBody env p cfg isInit mt) := by
  constructor
  intro s b s' h
  obtain ⟨m, m', h1, h2, h3, -⟩ := pruneEpochBeginBody_spec hfold h
  exact ⟨m, m', [], h1, h2, .inr h3⟩

/-- `on_epoch_begin`. -/
theorem epochBegin_inv {env : Env} {p : Nat} {isInit : Bool} {mt : Meta} {s s' : Store} (hnd : ns.Nodup) (hn : n ∈ ns)
    (hfold : cfg.foldBn = false) (hskip : cfg.skipFirst = false) (hsz : MaskSizes env p)
    (h : SInv cfg ns n L s) (hs : s.forParams (pruneEpochBeginBody env p cfg isInit mt) = .ok s') :
    SInv cfg ns n L s' ∧ ∃ t w o k m', w.length = L ∧ env.prune t p n w o mt = .ok k ∧
      s'.maskers.get? n = some m' ∧ m'.mask = k := by
  obtain ⟨h1, m, m', hm, hm', w, t, k, hl, hp, hk⟩ := h.loop (pruneEpochBeginBody_local env p isInit mt hfold) hnd hn hs
    (R := fun m m' => ∃ w t k, w.length = L ∧ env.prune t p n w m.mask mt = .ok k ∧ m'.mask = k) (by
      intro t t' w m hat hg hb
      obtain ⟨m0, m1, e1, e2, e3, e4, e5, e6, e7, -⟩ := pruneEpochBeginBody_spec hfold hb
      have hm0 : m0 = m := by
        have := congrArg Prod.snd hat; simp only [Store.at] at this; rw [e1] at this; injection this
      have hw : t.params.get? n = some w := congrArg Prod.fst hat
      have hw0 : t.param n = w := by simp [Store.param, hw]
      subst hm0
      obtain ⟨c, k, hk, hmk⟩ := e7 hskip
      rw [hw0] at hk
      refine ⟨w, m1, by simp only [Store.at, e2, e3, get?_set_self, hw], ⟨hg.len, e4.trans hg.reg, ?_, ?_, ?_⟩,
        w, c, k, hg.len, hk, hmk⟩
      · intro k' hk'
        rw [hmk] at hk'
        subst hk'
        rw [← hg.len]
        exact hsz _ _ _ _ _ _ (fun k'' h'' => (hg.mask k'' h'').trans hg.len.symm) hk
      · rw [e5]; exact hg.copy
      · intro h
        rcases e6 with e6 | e6
        · rw [e6]; exact hg.fwd h
        · rw [e6]; exact h)
  exact ⟨h1, t, w, m.mask, k, m', hl, hp, hm', hk⟩

/-- `mask_all_weights` when every parameter has a masker. -/
theorem maskAll_inv {s s' : Store} {f : Bool} (h : SInv cfg ns n L s) (hs : maskAllWeights s f = .ok s') :
    SInv cfg ns n L s' ∧ KeepsMask n s s' := by
  have hown : ∀ b ∈ s.names, b ∈ s.maskers.map Prod.fst := by rw [h.names]; exact h.own
  have hmk := maskAll_maskers hown hs
  have hnm := maskAllWeights_names hs
  obtain ⟨w, m, hat, hg⟩ := h.trk
  have hm : s.maskers.get? n = some m := congrArg Prod.snd hat
  have hlen : ∃ w', s'.params.get? n = some w' ∧ w'.length = L := by
    have := foldlM_preserves (P := fun t : Store => t.maskers = s.maskers ∧
        ∃ w', t.params.get? n = some w' ∧ w'.length = L)
      (fun t a t' ha ht hf => by
        obtain ⟨ht1, w', ht2, ht3⟩ := ht
        rcases maskAllBody_spec hf with ⟨m0, h1, h2, _, rfl⟩ | ⟨m0, h1, h2, rfl⟩ | ⟨h1, h2, rfl⟩ |
          ⟨n', m0, h1, h2, h3, rfl⟩
        · exact ⟨ht1, w', ht2, ht3⟩
        · refine ⟨ht1, ?_⟩
          by_cases han : a = n
          · subst han
            rw [ht1, hm] at h1; cases h1
            have : t.param a = w' := by simp [Store.param, ht2]
            refine ⟨_, get?_set_self _ _ _, ?_⟩
            rw [this]
            exact maskTensor_length (cfg := cfg) ⟨ht3, hg.reg, hg.mask, hg.copy, hg.fwd⟩
          · exact ⟨w', by simp only [Store.setParam]; rw [get?_set_ne _ _ han]; exact ht2, ht3⟩
        · exact ⟨ht1, w', ht2, ht3⟩
        · exfalso
          rw [ht1] at h1
          exact (get?_eq_none_iff _ _).1 h1 (hown a ha)) ⟨rfl, w, congrArg Prod.fst hat, hg.len⟩ hs
    exact this.2
  obtain ⟨w', hw', hl'⟩ := hlen
  refine ⟨⟨hnm.trans h.names, by rw [hmk]; exact h.own, w', m, by simp only [Store.at, hw', hmk, hm],
    ⟨hl', hg.reg, hg.mask, hg.copy, hg.fwd⟩⟩, ?_⟩
  intro x hx
  exact ⟨x, by rw [hmk]; exact hx, rfl, id⟩

/-! ## The whole state -/

/-- Only policy `p` is scheduled, at most once per epoch. -/
structure TInv (p : Nat) (cfg : PruneCfg) (sched0 : Sched) (ns : List Name) (n : Name) (L : ℕ) (st : State) : Prop where
  pol : st.sched.policies = sched0.policies
  reg : SameReg sched0 st.sched
  flag : ∃ a b, st.pols p = .prune cfg a b
  store : SInv cfg ns n L st.store

/-- The configurations covered: masks are recomputed only in `on_epoch_begin`. -/
structure EpochwiseCfg (cfg : PruneCfg) : Prop where
  mbFreq : cfg.mbFreq = 0
  discard : cfg.discard = false
  skip : cfg.skipFirst = false
  fold : cfg.foldBn = false

theorem setMasksNow_false {cfg : PruneCfg} (h : EpochwiseCfg cfg) (e : Int) (mb mpe : Nat) :
    setMasksNow cfg e mb mpe = false := by
  unfold setMasksNow; simp [h.mbFreq, h.skip]

theorem active_congr {s s' : Sched} (h : s.policies = s'.policies) (e : Int) : s.active e = s'.active e := by
  unfold Sched.active; rw [h]

section
variable {p : Nat} {sched0 : Sched} {env : Env}

/-- One event other than `on_epoch_begin`. -/
theorem TInv.step {st st' : State} {ev : Ev} (hcfg : EpochwiseCfg cfg) (hnd : ns.Nodup) (hn : n ∈ ns)
    (hact : ∀ e, sched0.active e = [p] ∨ sched0.active e = [])
    (hev : ∀ e, ev ≠ .epochBegin e)
    (hw : ∀ f, ev = .write f → ∀ w, (f n w).length = w.length)
    (h : TInv p cfg sched0 ns n L st) (hs : step env st ev = .ok st') :
    TInv p cfg sched0 ns n L st' ∧ KeepsMask n st.store st'.store ∧ st'.pols = st.pols := by
  have hreg' : SameReg sched0 st'.sched := fun q => (step_sameReg hs q).trans (h.reg q)
  obtain ⟨a, b, hfl⟩ := h.flag
  have hact' : ∀ e, st.sched.active e = [p] ∨ st.sched.active e = [] := by
    intro e; rw [active_congr h.pol e]; exact hact e
  cases ev with
  | epochBegin e => exact absurd rfl (hev e)
  | mbBegin e mb mpe =>
    simp only [Verif.step, onMbBegin] at hs
    rcases hact' e with he | he
    · rw [he] at hs
      have hs := foldlM_single hs
      unfold policyMbBegin at hs
      obtain ⟨⟨st1, mt⟩, h1, hs⟩ := ok_bind hs
      obtain ⟨t1, t2, t3⟩ := touch_spec h1
      simp only [t1, hfl, setMasksNow_false hcfg] at hs
      obtain ⟨s, hf, hs⟩ := ok_bind hs
      injection hs with hs; subst hs
      rw [t2] at hf
      obtain ⟨i1, i2⟩ := mbBegin_inv hnd hn h.store hf
      exact ⟨⟨t3.trans h.pol, hreg', ⟨a, b, by simp only [t1, hfl]⟩, i1⟩, i2, rfl⟩
    · rw [he] at hs
      simp [pure, Except.pure] at hs; subst hs
      exact ⟨h, KeepsMask.refl _ _, rfl⟩
  | beforeOpt e mb mpe =>
    simp only [Verif.step, Verif.beforeOpt] at hs
    rcases hact' e with he | he
    · rw [he] at hs
      have hs := foldlM_single hs
      unfold policyBeforeOpt at hs
      obtain ⟨⟨st1, mt⟩, h1, hs⟩ := ok_bind hs
      obtain ⟨t1, t2, t3⟩ := touch_spec h1
      simp only [t1, hfl] at hs
      obtain ⟨s, hf, hs⟩ := ok_bind hs
      injection hs with hs; subst hs
      rw [t2] at hf
      obtain ⟨i1, i2⟩ := revert_inv hnd hn h.store hf
      exact ⟨⟨t3.trans h.pol, hreg', ⟨a, b, by simp only [t1, hfl]⟩, i1⟩, i2, rfl⟩
    · rw [he] at hs
      simp [pure, Except.pure] at hs; subst hs
      exact ⟨h, KeepsMask.refl _ _, rfl⟩
  | write f =>
    simp [Verif.step] at hs; subst hs
    obtain ⟨w, m, hat, hg⟩ := h.store.trk
    have hwp : st.store.params.get? n = some w := congrArg Prod.fst hat
    have hmp : st.store.maskers.get? n = some m := congrArg Prod.snd hat
    refine ⟨⟨h.pol, hreg', ⟨a, b, hfl⟩, ⟨?_, h.store.own, f n w, m, ?_, ?_⟩⟩, KeepsMask.refl _ _, rfl⟩
    · exact (keys_mapVals _ _).trans h.store.names
    · simp only [Store.at, hmp]; rw [get?_mapVals, hwp]; rfl
    · exact ⟨(hw f rfl w).trans hg.len, hg.reg, hg.mask, hg.copy, hg.fwd⟩
  | mbEnd e mb mpe =>
    simp only [Verif.step, onMbEnd] at hs
    obtain ⟨s, hm, hs⟩ := ok_bind hs
    obtain ⟨i1, i2⟩ := maskAll_inv h.store hm
    rcases hact' e with he | he
    · rw [he] at hs
      have hs := foldlM_single hs
      unfold policyMbEnd at hs
      simp only [hfl, hcfg.discard] at hs
      simp [pure, Except.pure] at hs; subst hs
      exact ⟨⟨h.pol, hreg', ⟨a, b, hfl⟩, i1⟩, i2, rfl⟩
    · rw [he] at hs
      simp [pure, Except.pure] at hs; subst hs
      exact ⟨⟨h.pol, hreg', ⟨a, b, hfl⟩, i1⟩, i2, rfl⟩
  | epochEnd e =>
    simp only [Verif.step, onEpochEnd] at hs
    rcases hact' e with he | he
    · rw [he] at hs
      have hs := foldlM_single hs
      unfold policyEpochEnd at hs
      obtain ⟨⟨st1, mt⟩, h1, hs⟩ := ok_bind hs
      obtain ⟨t1, t2, t3⟩ := touch_spec h1
      simp only [t1, hfl] at hs
      split at hs
      · obtain ⟨s, hf, hs⟩ := ok_bind hs
        injection hs with hs; subst hs
        rw [t2] at hf
        obtain ⟨i1, i2, -⟩ := epochEndBody_inv hnd hn h.store hf
        exact ⟨⟨t3.trans h.pol, hreg', ⟨a, b, by simp only [t1, hfl]⟩, i1⟩, i2, rfl⟩
      · injection hs with hs; subst hs
        refine ⟨⟨t3.trans h.pol, hreg', ⟨a, b, by simp only [t1, hfl]⟩, ?_⟩, ?_, t1⟩
        · rw [t2]; exact h.store
        · rw [t2]; exact KeepsMask.refl _ _
    · rw [he] at hs
      simp [pure, Except.pure] at hs; subst hs
      exact ⟨h, KeepsMask.refl _ _, rfl⟩

/-- Several events other than `on_epoch_begin`. -/
theorem TInv.run {evs : List Ev} {st st' : State} (hcfg : EpochwiseCfg cfg) (hnd : ns.Nodup) (hn : n ∈ ns)
    (hact : ∀ e, sched0.active e = [p] ∨ sched0.active e = [])
    (hev : ∀ ev ∈ evs, ∀ e, ev ≠ .epochBegin e)
    (hw : ∀ ev ∈ evs, ∀ f, ev = .write f → ∀ w, (f n w).length = w.length)
    (h : TInv p cfg sched0 ns n L st) (hs : run env st evs = .ok st') :
    TInv p cfg sched0 ns n L st' ∧ KeepsMask n st.store st'.store ∧ st'.pols = st.pols :=
  foldlM_preserves (P := fun t : State => TInv p cfg sched0 ns n L t ∧ KeepsMask n st.store t.store ∧ t.pols = st.pols)
    (fun t ev t' hmem ht hf => by
      obtain ⟨i1, i2, i3⟩ := TInv.step hcfg hnd hn hact (hev ev hmem) (hw ev hmem) ht.1 hf
      exact ⟨i1, ht.2.1.trans i2, i3.trans ht.2.2⟩)
    ⟨h, KeepsMask.refl _ _, rfl⟩ hs

/-- `on_epoch_begin` of a scheduled epoch: the pruner is consulted for every parameter. -/
theorem TInv.epochBegin {st st' : State} {e : Int} (hcfg : EpochwiseCfg cfg) (hnd : ns.Nodup) (hn : n ∈ ns)
    (hsz : MaskSizes env p) (h : TInv p cfg sched0 ns n L st) (hs : onEpochBegin env st e = .ok st') :
    (sched0.active e = [] → st' = st) ∧
    (sched0.active e = [p] → TInv p cfg sched0 ns n L st' ∧
      ∃ t w o k m' mt m0, w.length = L ∧ env.prune t p n w o mt = .ok k ∧ mt.current = some e ∧
        sched0.md.get? p = some m0 ∧ mt.registered = m0.registered ∧
        st'.store.maskers.get? n = some m' ∧ m'.mask = k ∧
        ∃ b, st'.pols p = .prune cfg (decide (e = m0.ending - 1)) b) := by
  have hreg' : SameReg sched0 st'.sched := fun q => (step_sameReg (ev := .epochBegin e) hs q).trans (h.reg q)
  obtain ⟨a, b, hfl⟩ := h.flag
  unfold onEpochBegin at hs
  rw [active_congr h.pol e] at hs
  constructor
  · intro he; rw [he] at hs; simp [pure, Except.pure] at hs; exact hs.symm
  · intro he
    rw [he] at hs
    have hs := foldlM_single hs
    unfold policyEpochBegin at hs
    obtain ⟨⟨st1, mt⟩, h1, hs⟩ := ok_bind hs
    obtain ⟨t1, t2, t3⟩ := touch_spec h1
    obtain ⟨c1, ⟨m1, c2, c3⟩, -⟩ := touchMeta_told h1
    simp only [t1, hfl] at hs
    obtain ⟨s, hf, hs⟩ := ok_bind hs
    injection hs with hs; subst hs
    rw [t2] at hf
    obtain ⟨i1, t, w, o, k, m', e1, e2, e3, e4⟩ := epochBegin_inv hnd hn hcfg.fold hcfg.skip hsz h.store hf
    have hr := h.reg p
    rw [c2] at hr
    cases hm0 : sched0.md.get? p with
    | none => rw [hm0] at hr; cases hr
    | some m0 =>
      rw [hm0] at hr
      injection hr with hr
      have hreg : mt.registered = m0.registered := c3.trans hr
      have hend : mt.ending = m0.ending := congrArg (fun x => x.2.1) hreg
      refine ⟨⟨t3.trans h.pol, hreg', ⟨_, _, by simp only [setPol, if_true]; rfl⟩, i1⟩,
        t, w, o, k, m', mt, m0, e1, e2, c1, rfl, hreg, e3, e4, ⟨_, by simp only [setPol, if_true, hend]; rfl⟩⟩

/-- What a store satisfies from the last scheduled epoch on. -/
def DoneWith (n : Name) (L : ℕ) (k : Option Tensor) (s : Store) : Prop :=
  ∃ w m, s.params.get? n = some w ∧ s.maskers.get? n = some m ∧ w.length = L ∧ m.mask = k ∧ m.fwdOnly = false ∧
    ∀ k', k = some k' → ZeroWhere k' w

theorem trainEvents_shape (a : TrainArgs) (e : Int) (steps : Nat) :
    (∀ ev ∈ trainEvents a e steps, ∀ x, ev ≠ .epochBegin x) ∧
    (∀ ev ∈ trainEvents a e steps, ∀ f, ev = .write f → ∃ i, f = a.upd e i) := by
  unfold trainEvents stepEvents
  constructor
  · intro ev hev x
    simp only [List.mem_flatMap, List.mem_cons, List.not_mem_nil, or_false] at hev
    obtain ⟨i, _, h | h | h | h⟩ := hev <;> subst h <;> simp
  · intro ev hev f hf
    simp only [List.mem_flatMap, List.mem_cons, List.not_mem_nil, or_false] at hev
    obtain ⟨i, _, h | h | h | h⟩ := hev <;> subst h <;> simp at hf
    exact ⟨i, hf.symm⟩

theorem pyRange_cons {x b : Int} (h : x < b) : pyRange x b 1 = x :: pyRange (x + 1) b 1 := by
  unfold pyRange
  obtain ⟨k, hk⟩ : ∃ k : ℕ, ((b - x + 1 - 1) / 1).toNat = k + 1 := ⟨(b - x).toNat - 1, by simp; omega⟩
  have hk' : ((b - (x + 1) + 1 - 1) / 1).toNat = k := by simp at hk ⊢; omega
  rw [hk, hk', List.range_succ_eq_map]
  simp only [List.map_cons, List.map_map]
  congr 1
  · simp
  · apply List.map_congr_left
    intro i _
    simp; ring

theorem pyRange_nil {x b : Int} (h : b ≤ x) : pyRange x b 1 = [] := by
  unfold pyRange
  have : ((b - x + 1 - 1) / 1).toNat = 0 := by simp; omega
  rw [this]; rfl

/-- Epochs after the last scheduled one. -/
theorem after_last {a : TrainArgs} {steps : Nat} (hsteps : 0 < steps) {k : Option Tensor} {lastE : Int}
    (hcfg : EpochwiseCfg cfg) (hnd : ns.Nodup) (hn : n ∈ ns) (hsz : MaskSizes env p)
    (hact : ∀ e, sched0.active e = [p] ∨ sched0.active e = [])
    (hquiet : ∀ e, lastE < e → sched0.active e = [])
    (hupd : ∀ e i w, (a.upd e i n w).length = w.length)
    (b : Int) : ∀ (d : ℕ) (x : Int), lastE < x → (b - x).toNat = d → ∀ (st st' : State) (logs : List EpochLog),
      TInv p cfg sched0 ns n L st → DoneWith n L k st.store →
      trainEpochs env a steps st (pyRange x b 1) = .ok (st', logs) →
      ∀ log ∈ logs, DoneWith n L k log.saved := by
  intro d
  induction d with
  | zero =>
    intro x hx hd st st' logs _ _ h
    rw [pyRange_nil (by omega)] at h
    cases h; simp
  | succ d ih =>
    intro x hx hd st st' logs hT hD h
    rw [pyRange_cons (by omega)] at h
    unfold trainEpochs at h
    obtain ⟨⟨st1, log1⟩, h1, h⟩ := ok_bind h
    obtain ⟨⟨st2, logs2⟩, h2, h⟩ := ok_bind h
    injection h with h
    injection h with ha hb
    subst hb
    obtain ⟨stV, hV, hE, rfl⟩ := trainEpoch_ok h1
    obtain ⟨stB, hB, hR⟩ := run_append_ok hV
    rw [run_single] at hB
    have hb := (hT.epochBegin (n := n) (L := L) hcfg hnd hn hsz hB).1 (hquiet x hx)
    subst hb
    obtain ⟨s1, s2⟩ := trainEvents_shape a x steps
    obtain ⟨i1, i2, i3⟩ := hT.run hcfg hnd hn hact s1 (by
      intro ev hev f hf w
      obtain ⟨i, rfl⟩ := s2 ev hev f hf
      exact hupd x i w) hR
    obtain ⟨j1, j2, -⟩ := i1.step (env := env) (ev := .epochEnd x) hcfg hnd hn hact (by intro e; simp) (by simp) hE
    have hDone : DoneWith n L k st1.store := by
      obtain ⟨w, m, _, d2, _, d4, d5, _⟩ := hD
      obtain ⟨m', e1, e2, e3⟩ := (i2.trans j2) m d2
      obtain ⟨w', m'', hat, hg⟩ := j1.store.trk
      have hmm : st1.store.maskers.get? n = some m'' := congrArg Prod.snd hat
      have hwp : st1.store.params.get? n = some w' := congrArg Prod.fst hat
      rw [e1] at hmm; cases hmm
      obtain ⟨l, hl⟩ := trainEvents_last a x steps hsteps
      rw [hl] at hR
      have hmS := epochEnd_masked (masked_after_mbEnd hR) hE
      refine ⟨w', m', hwp, e1, hg.len, e2.trans d4, e3 d5, ?_⟩
      intro k' hk'
      exact (masked_own e1).1 (hmS n) w' k' hwp (e3 d5) (e2.trans (d4.trans hk'))
    intro log hlog
    rcases List.mem_cons.1 hlog with rfl | hlog
    · exact hDone
    · exact ih (x + 1) (by omega) (by omega) st1 st2 logs2 j1 hDone h2 log hlog

/-- Up to and including the last scheduled epoch. -/
theorem through_last {a : TrainArgs} {steps : Nat} (hsteps : 0 < steps) {lastE : Int} {m0 : Meta}
    (hcfg : EpochwiseCfg cfg) (hnd : ns.Nodup) (hn : n ∈ ns) (hsz : MaskSizes env p)
    (hact : ∀ e, sched0.active e = [p] ∨ sched0.active e = [])
    (hlast : sched0.active lastE = [p]) (hquiet : ∀ e, lastE < e → sched0.active e = [])
    (hm0 : sched0.md.get? p = some m0)
    (hfin : cfg.fwdOnly = false ∨ (cfg.keepMask = true ∧ lastE = m0.ending - 1))
    (hupd : ∀ e i w, (a.upd e i n w).length = w.length)
    (b : Int) (hb : lastE < b) : ∀ (d : ℕ) (x : Int), x ≤ lastE → (lastE - x).toNat = d →
      ∀ (st st' : State) (logs : List EpochLog), TInv p cfg sched0 ns n L st →
      trainEpochs env a steps st (pyRange x b 1) = .ok (st', logs) →
      ∃ t w o k mt, w.length = L ∧ env.prune t p n w o mt = .ok k ∧ mt.current = some lastE ∧
        mt.registered = m0.registered ∧ ∀ log ∈ logs, lastE ≤ log.epoch → DoneWith n L k log.saved := by
  intro d
  induction d with
  | zero =>
    intro x hx hd st st' logs hT h
    have hxl : x = lastE := by omega
    subst hxl
    rw [pyRange_cons hb] at h
    unfold trainEpochs at h
    obtain ⟨⟨st1, log1⟩, h1, h⟩ := ok_bind h
    obtain ⟨⟨st2, logs2⟩, h2, h⟩ := ok_bind h
    injection h with h
    injection h with ha hb'
    subst hb'
    obtain ⟨stV, hV, hE, rfl⟩ := trainEpoch_ok h1
    obtain ⟨stB, hB, hR⟩ := run_append_ok hV
    rw [run_single] at hB
    obtain ⟨hT1, t, w, o, k, m', mt, m0', e1, e2, e3, e4, e5, e6, e7, fl, hfl⟩ :=
      (hT.epochBegin (n := n) (L := L) hcfg hnd hn hsz hB).2 hlast
    rw [hm0] at e4; cases e4
    obtain ⟨s1, s2⟩ := trainEvents_shape a x steps
    obtain ⟨i1, i2, i3⟩ := hT1.run hcfg hnd hn hact s1 (by
      intro ev hev f hf w
      obtain ⟨i, rfl⟩ := s2 ev hev f hf
      exact hupd x i w) hR
    obtain ⟨j1, j2, -⟩ := i1.step (env := env) (ev := .epochEnd x) hcfg hnd hn hact (by intro e; simp) (by simp) hE
    have hDone : DoneWith n L k st1.store := by
      obtain ⟨m2, f1, f2, f3⟩ := (i2.trans j2) m' e6
      obtain ⟨w', m'', hat, hg⟩ := j1.store.trk
      have hmm : st1.store.maskers.get? n = some m'' := congrArg Prod.snd hat
      have hwp : st1.store.params.get? n = some w' := congrArg Prod.fst hat
      rw [f1] at hmm; cases hmm
      have hff : m2.fwdOnly = false := by
        rcases hfin with hc | ⟨hk, hle⟩
        · exact hg.fwd hc
        · have hp : stV.pols p = .prune cfg true fl := by
            rw [i3, hfl]; simp [hle]
          have ha : stV.sched.active x = [p] := by rw [active_congr i1.pol]; exact hlast
          obtain ⟨-, hs⟩ := epochEnd_keep ha hp hE
          obtain ⟨mm, g1, g2⟩ := (epochEndBody_inv hnd hn i1.store hs).2.2 hk
          rw [f1] at g1; cases g1; exact g2
      obtain ⟨l, hl⟩ := trainEvents_last a x steps hsteps
      rw [hl] at hR
      have hmS := epochEnd_masked (masked_after_mbEnd hR) hE
      refine ⟨w', m2, hwp, f1, hg.len, f2.trans e7, hff, ?_⟩
      intro k' hk'
      exact (masked_own f1).1 (hmS n) w' k' hwp hff (f2.trans (e7.trans hk'))
    refine ⟨t, w, o, k, mt, e1, e2, e3, e5, ?_⟩
    intro log hlog _
    rcases List.mem_cons.1 hlog with rfl | hlog
    · exact hDone
    · exact after_last hsteps hcfg hnd hn hsz hact hquiet hupd b _ (x + 1) (by omega) rfl st1 st2 logs2 j1 hDone h2 log hlog
  | succ d ih =>
    intro x hx hd st st' logs hT h
    rw [pyRange_cons (by omega)] at h
    unfold trainEpochs at h
    obtain ⟨⟨st1, log1⟩, h1, h⟩ := ok_bind h
    obtain ⟨⟨st2, logs2⟩, h2, h⟩ := ok_bind h
    injection h with h
    injection h with ha hb'
    subst hb'
    obtain ⟨stV, hV, hE, rfl⟩ := trainEpoch_ok h1
    obtain ⟨stB, hB, hR⟩ := run_append_ok hV
    rw [run_single] at hB
    have hT1 : TInv p cfg sched0 ns n L stB := by
      rcases hact x with hx' | hx'
      · exact ((hT.epochBegin (n := n) (L := L) hcfg hnd hn hsz hB).2 hx').1
      · rw [(hT.epochBegin (n := n) (L := L) hcfg hnd hn hsz hB).1 hx']; exact hT
    obtain ⟨s1, s2⟩ := trainEvents_shape a x steps
    obtain ⟨i1, i2, i3⟩ := hT1.run hcfg hnd hn hact s1 (by
      intro ev hev f hf w
      obtain ⟨i, rfl⟩ := s2 ev hev f hf
      exact hupd x i w) hR
    obtain ⟨j1, j2, -⟩ := i1.step (env := env) (ev := .epochEnd x) hcfg hnd hn hact (by intro e; simp) (by simp) hE
    obtain ⟨t, w, o, k, mt, e1, e2, e3, e4, e5⟩ := ih (x + 1) (by omega) (by omega) st1 st2 logs2 j1 h2
    refine ⟨t, w, o, k, mt, e1, e2, e3, e4, ?_⟩
    intro log hlog hle
    rcases List.mem_cons.1 hlog with rfl | hlog
    · simp at hle; omega
    · exact e5 log hlog hle

end

/-- The state a training script starts from: a model, fresh maskers, one pruning policy added to an empty
scheduler. -/
structure FreshPruning (p : Nat) (cfg : PruneCfg) (start ending freq : Int) (st : State) : Prop where
  sched : (({} : Sched).addPolicy { policy := p, starting := some start, ending := some ending, freq := some freq }) =
    (st.sched, .ok ())
  policy : mkPrune cfg = .ok (st.pols p)
  masks : st.store.maskers = createModelMasksDict st.store.params

theorem FreshPruning.inv {p : Nat} {cfg : PruneCfg} {b e f : Int} {st : State} (h : FreshPruning p cfg b e f st)
    {n : Name} {w0 : Tensor} (hw : st.store.params.get? n = some w0) :
    TInv p cfg st.sched (st.store.params.map Prod.fst) n w0.length st := by
  refine ⟨rfl, fun _ => rfl, ⟨false, false, ?_⟩, ⟨rfl, ?_, w0, {}, ?_, ⟨rfl, rfl, by simp, by simp, fun _ => rfl⟩⟩⟩
  · have := h.policy
    unfold mkPrune at this
    split at this
    · cases this
    · injection this with this; exact this.symm
  · intro x hx
    rw [h.masks]
    simpa [createModelMasksDict, Function.comp_def] using hx
  · have hk : (createModelMasksDict st.store.params).get? n = some {} := by
      have : ∀ d : Dict Name Tensor, d.get? n = some w0 → (createModelMasksDict d).get? n = some {} := by
        intro d
        induction d with
        | nil => intro h; cases h
        | cons x d ih =>
          obtain ⟨a, b⟩ := x
          intro h
          simp only [createModelMasksDict, List.map_cons, Dict.get?] at h ih ⊢
          by_cases hc : a = n
          · simp [hc]
          · simp only [if_neg hc] at h ⊢; exact ih h
      exact this _ hw
    simp only [Store.at, hw, h.masks, hk]

theorem FreshPruning.facts {p : Nat} {cfg : PruneCfg} {b e f : Int} {st : State} (h : FreshPruning p cfg b e f st) :
    0 < f ∧ (∀ x, ScheduledEpoch b e f x → st.sched.active x = [p]) ∧
    (∀ x, ¬ ScheduledEpoch b e f x → st.sched.active x = []) ∧
    ∃ m0, st.sched.md.get? p = some m0 ∧ m0.registered = (b, e, some f) := by
  have hs := h.sched
  have hall : addAll {} [{ policy := p, starting := some b, ending := some e, freq := some f }] = .ok st.sched := by
    simp only [addAll, hs]
  have hact := C01_active_policies _ _ hall
  unfold Sched.addPolicy at hs
  dsimp only at hs
  split at hs
  · split at hs
    · next h1 h2 =>
      injection hs with hs _
      refine ⟨h2.1, ?_, ?_, ⟨b, e, some f, none⟩, ?_, rfl⟩
      · intro x hx
        rw [hact x]
        simp only [AddArgs.occurrences, List.flatMap_cons, List.flatMap_nil, List.append_nil]
        have hx' : b ≤ x ∧ x < e ∧ f ∣ x - b := hx
        rw [if_pos hx']; rfl
      · intro x hx
        rw [hact x]
        simp only [AddArgs.occurrences, List.flatMap_cons, List.flatMap_nil, List.append_nil]
        have hx' : ¬ (b ≤ x ∧ x < e ∧ f ∣ x - b) := hx
        rw [if_neg hx']; rfl
      · rw [← hs]; simp [Sched.install]
    · injection hs with _ hs; cases hs
  · injection hs with _ hs; cases hs

/-- A scheduled epoch exists and the last one is unique: the hypothesis `IsLastEpoch` can be met. -/
theorem isLast_exists {b e f : Int} (hf : 0 < f) (h : b < e) : ∃ x, IsLastEpoch b e f x := by
  refine ⟨b + (e - 1 - b) / f * f, ⟨?_, ?_, ⟨(e - 1 - b) / f, by ring⟩⟩, ?_⟩
  · have := Int.ediv_nonneg (a := e - 1 - b) (b := f) (by omega) hf.le
    have := Int.mul_nonneg this hf.le
    omega
  · have := Int.ediv_mul_le (e - 1 - b) hf.ne'
    omega
  · rintro y ⟨h1, h2, c, hc⟩
    have : c ≤ (e - 1 - b) / f := by
      apply (Int.le_ediv_iff_mul_le hf).2
      have : c * f = f * c := by ring
      omega
    have h3 := Int.mul_le_mul_of_nonneg_right this hf.le
    have : c * f = f * c := by ring
    omega

/-- **C86** (any pruner) A single pruning policy in a fresh scheduler, the library's training loop, an
arbitrary optimizer: from the last scheduled epoch on, every checkpoint contains weights which are zero
wherever the mask the pruner made in that last epoch is zero.  The mask is the pruner's answer for that
epoch and the registered range. -/
theorem C86_last_mask_kept (env : Env) (a : TrainArgs) (st st' : State) (logs : List EpochLog)
    (p : Nat) (cfg : PruneCfg) (start ending freq lastE : Int) (n : Name) (w0 : Tensor)
    (hfresh : FreshPruning p cfg start ending freq st) (hnd : (st.store.params.map Prod.fst).Nodup)
    (hw0 : st.store.params.get? n = some w0) (hcfg : EpochwiseCfg cfg)
    (hkeep : cfg.fwdOnly = false ∨ (cfg.keepMask = true ∧ freq ∣ ending - 1 - start))
    (hsz : MaskSizes env p) (hupd : ∀ e i w, (a.upd e i n w).length = w.length) (hsamples : 0 < a.samples)
    (hlast : IsLastEpoch start ending freq lastE) (hin : a.start ≤ lastE ∧ lastE < a.ending)
    (h : runTrainingLoop env a st = .ok (st', logs)) :
    ∃ t w o k mt, w.length = w0.length ∧ env.prune t p n w o mt = .ok k ∧ mt.current = some lastE ∧
      (mt.starting, mt.ending, mt.freq) = (start, ending, some freq) ∧
      ∀ log ∈ logs, lastE ≤ log.epoch → ∃ w', log.saved.params.get? n = some w' ∧ w'.length = w0.length ∧
        ∀ k', k = some k' → ZeroWhere k' w' := by
  obtain ⟨hf, hA, hN, m0, hm0, hm0r⟩ := hfresh.facts
  unfold runTrainingLoop at h
  split at h
  · cases h
  · obtain ⟨steps, hsteps, h⟩ := ok_bind h
    have hend : m0.ending = ending := congrArg (fun x => x.2.1) hm0r
    have hfin : cfg.fwdOnly = false ∨ (cfg.keepMask = true ∧ lastE = m0.ending - 1) := by
      rcases hkeep with h1 | ⟨h1, h2⟩
      · exact .inl h1
      · refine .inr ⟨h1, ?_⟩
        rw [hend]
        have hle := hlast.1.2.1
        have := hlast.2 (ending - 1) ⟨by have := hlast.1.1; omega, by omega, h2⟩
        omega
    obtain ⟨t, w, o, k, mt, e1, e2, e3, e4, e5⟩ :=
      through_last (steps_pos hsteps hsamples) hcfg hnd (by
          rw [← get?_isSome_iff, hw0]; rfl) hsz
        (fun x => by
          by_cases hx : ScheduledEpoch start ending freq x
          · exact .inl (hA x hx)
          · exact .inr (hN x hx))
        (hA lastE hlast.1) (fun x hx => hN x (fun hc => by have := hlast.2 x hc; omega)) hm0 hfin hupd
        a.ending hin.2 _ a.start hin.1 rfl st st' logs (hfresh.inv hw0) h
    refine ⟨t, w, o, k, mt, e1, e2, e3, e4.trans hm0r, ?_⟩
    intro log hlog hle
    obtain ⟨w', m, d1, d2, d3, d4, d5, d6⟩ := e5 log hlog hle
    exact ⟨w', d1, d3, d6⟩

theorem zeroWhere_count {k w : Tensor} (hl : w.length = k.length) (h : ZeroWhere k w) : k.count 0 ≤ w.count 0 := by
  induction k generalizing w with
  | nil => simp
  | cons x k ih =>
    cases w with
    | nil => simp at hl
    | cons y w =>
      have h1 := ih (w := w) (by simpa using hl) (fun i hi => by
        have := h (i + 1); simpa using this hi)
      rw [List.count_cons, List.count_cons]
      by_cases hx : x = 0
      · have : y = 0 := h 0 (by simp [hx]) y (by simp)
        simp [hx, this]; exact h1
      · simp [hx]; omega

/-- The world in which the policy's pruner is an `AutomatedGradualPruner`. -/
def agpEnv (initial final : ℚ) (weights : List Name) : Env :=
  ⟨fun _ _ n w o mt => agpSetMask initial final weights mt n w o, fun _ _ _ _ => none, fun _ _ _ => none⟩

theorem floor_le_pyInt (x : ℚ) : ⌊x⌋ ≤ pyInt x := by
  unfold pyInt; split
  · exact le_rfl
  · exact Int.floor_le_ceil x

/-- **C86** (gradual pruning, end to end) A model trained with a single `AutomatedGradualPruner` policy whose
last scheduled epoch lies in the training range: whatever the optimizer does, every checkpoint stored from
that epoch on contains, in each parameter the pruner was given, at least `⌊final_sparsity · numel⌋` zeros. -/
theorem C86_gradual_pruning_end_to_end (initial final : ℚ) (weights : List Name) (a : TrainArgs)
    (st st' : State) (logs : List EpochLog) (p : Nat) (cfg : PruneCfg) (start ending freq lastE : Int)
    (n : Name) (w0 : Tensor)
    (hctor : agpCtor initial final = .ok (initial, final)) (hn : n ∈ weights)
    (hfresh : FreshPruning p cfg start ending freq st) (hnd : (st.store.params.map Prod.fst).Nodup)
    (hw0 : st.store.params.get? n = some w0) (hcfg : EpochwiseCfg cfg)
    (hkeep : cfg.fwdOnly = false ∨ (cfg.keepMask = true ∧ freq ∣ ending - 1 - start))
    (hupd : ∀ e i w, (a.upd e i n w).length = w.length) (hsamples : 0 < a.samples)
    (hlast : IsLastEpoch start ending freq lastE) (hin : a.start ≤ lastE ∧ lastE < a.ending)
    (h : runTrainingLoop (agpEnv initial final weights) a st = .ok (st', logs)) :
    ∀ log ∈ logs, lastE ≤ log.epoch → ∃ w, log.saved.params.get? n = some w ∧ w.length = w0.length ∧
      (⌊final * w0.length⌋ : Int) ≤ w.count 0 := by
  have hsz : MaskSizes (agpEnv initial final weights) p := by
    intro t n w o mt k ho hk
    simp only [agpEnv, agpSetMask] at hk
    split at hk
    · injection hk with hk; exact ho k hk
    · obtain ⟨s, _, hk⟩ := ok_bind hk
      obtain ⟨m, hm, hk⟩ := ok_bind hk
      injection hk with hk; injection hk with hk; subst hk
      exact (C14_level_mask _ _ _ hm).1
  obtain ⟨t, w, o, k, mt, e1, e2, e3, e4, e5⟩ := C86_last_mask_kept (agpEnv initial final weights) a st st' logs p cfg
    start ending freq lastE n w0 hfresh hnd hw0 hcfg hkeep hsz hupd hsamples hlast hin h
  simp only [agpEnv, agpSetMask, if_neg (not_not.2 hn)] at e2
  obtain ⟨s, hs, e2⟩ := ok_bind e2
  obtain ⟨m, hm, e2⟩ := ok_bind e2
  injection e2 with e2k
  simp only [Prod.mk.injEq] at e4
  obtain ⟨h1, h2, h3⟩ := e4
  rw [e3, h1, h2, h3] at hs
  have hsf : s = final := (C16_ramp initial final hctor start ending freq hfresh.facts.1).2.1 lastE s hlast hs
  subst hsf
  obtain ⟨c1, -, c3, -⟩ := C14_level_mask _ _ _ hm
  intro log hlog hle
  obtain ⟨w', d1, d2, d3⟩ := e5 log hlog hle
  refine ⟨w', d1, d2, ?_⟩
  have hz := zeroWhere_count (by rw [d2, c1, e1]) (d3 m e2k.symm)
  have hreq : (⌊s * w0.length⌋ : Int) ≤ requested w s := by
    unfold requested
    rw [e1]
    exact floor_le_pyInt _
  exact hreq.trans (c3.trans (by exact_mod_cast hz))


/-- two parameters, the first one pruned; policy in epochs 0, 2, 4 of 6 -/
def agpExample (cfg : PruneCfg) : State :=
  ⟨⟨[(["a"], [1, -2, 3, 4]), (["b"], [5])], createModelMasksDict [(["a"], [1, -2, 3, 4]), (["b"], [5])], 0⟩,
   (({} : Sched).addPolicy { policy := 0, starting := some 0, ending := some 6, freq := some 2 }).1,
   fun _ => .prune cfg false false⟩

-- non-vacuity: the hypotheses hold and the loop finishes, growing from 1 to 3 zeros
example : FreshPruning 0 {} 0 6 2 (agpExample {}) ∧ EpochwiseCfg {} ∧ IsLastEpoch 0 6 2 4 ∧
    agpCtor (1/4) (3/4) = .ok (1/4, 3/4) :=
  ⟨⟨rfl, rfl, rfl⟩, ⟨rfl, rfl, rfl, rfl⟩, ⟨⟨by decide, by decide, by decide⟩, by rintro y ⟨h1, h2, c, hc⟩; omega⟩,
    by decide +kernel⟩
example : (loopSummary (runTrainingLoop (agpEnv (1/4) (3/4) [["a"]]) ⟨0, 6, 1, 1, fun _ _ _ w => w.map (· + 1)⟩
      (agpExample {}))).map (fun l => l.map EpochWeights.saved) =
    .ok [[(["a"], [0, -1, 4, 5]), (["b"], [6])], [(["a"], [0, 0, 5, 6]), (["b"], [7])],
         [(["a"], [0, 0, 6, 7]), (["b"], [8])], [(["a"], [0, 0, 7, 8]), (["b"], [9])],
         [(["a"], [0, 0, 0, 9]), (["b"], [10])], [(["a"], [0, 0, 0, 10]), (["b"], [11])]] := by decide +kernel

end Verif
