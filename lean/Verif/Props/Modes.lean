import Verif.Props.Masking3
/-!
# C12, C05: masking modes and gradient hooks over whole histories
-/
namespace Verif
open Dict

/-! ## Specification

How far a pruning policy `p`, whose metadata say that its schedule ends before `ending`, got in a history of
callbacks: has an epoch of its begun, was the last one it saw begin its last epoch, and has such an epoch ended? -/

structure Phase where
  begun : Bool := false
  last : Bool := false
  ended : Bool := false
  deriving DecidableEq

/-- What one callback of the training loop means for the policy. -/
def Phase.next (active : Int → List Nat) (p : Nat) (ending : Int) (ph : Phase) : Ev → Phase
  | .epochBegin e => if p ∈ active e then { ph with begun := true, last := decide (e = ending - 1) } else ph
  | .epochEnd e => if p ∈ active e ∧ ph.last = true then { ph with ended := true } else ph
  | _ => ph

def phaseAfter (active : Int → List Nat) (p : Nat) (ending : Int) (evs : List Ev) : Phase :=
  evs.foldl (Phase.next active p ending) {}

/-- Double-copy mode, forward-only mode, is a hook handle stored, number of gradient hooks on the parameter. -/
structure Modes where
  dbl : Bool
  fwdOnly : Bool
  handle : Bool
  hooks : Nat
  deriving DecidableEq

/-- The modes of a parameter in the given phase of the only pruning policy. -/
def Phase.modes (cfg : PruneCfg) (ph : Phase) : Modes :=
  if ph.begun = false then ⟨false, false, false, 0⟩
  else if ph.ended = false then ⟨cfg.dbl, cfg.fwdOnly, cfg.maskGrads, if cfg.maskGrads then 1 else 0⟩
  else if cfg.keepMask then ⟨false, false, false, 0⟩
  else ⟨cfg.dbl, cfg.fwdOnly, false, 0⟩

/-! ## Proof -/

def Masker.modes (m : Masker) : Modes := ⟨m.dbl, m.fwdOnly, m.handle, m.liveHooks⟩

def Store.modesAt (s : Store) (n : Name) : Option Modes := (s.maskers.get? n).map Masker.modes

theorem modesAt_set (s : Store) (n b : Name) (m : Masker) :
    (s.setMasker n m).modesAt b = if b = n then some m.modes else s.modesAt b := by
  unfold Store.modesAt Store.setMasker
  by_cases h : b = n
  · subst h; simp
  · simp only [h, if_false]; rw [get?_set_ne _ _ (fun e => h e.symm)]

theorem applyMask_modes (m : Masker) (w : Tensor) : (m.applyMask w).1.modes = m.modes := by
  unfold Masker.applyMask
  cases m.mask with
  | none => rfl
  | some k => dsimp only; split <;> split <;> rfl

theorem revertWeights_modes (m : Masker) (w : Tensor) : (m.revertWeights w).1.modes = m.modes := by
  unfold Masker.revertWeights
  split
  · rfl
  · cases m.copy <;> rfl

/-- The loop body changes the modes of the parameter it visits by `g` and nothing else. -/
def Upd (g : Modes → Modes) (body : Store → Name → Except Err Store) : Prop :=
  ∀ s n s', n ∈ s.names → body s n = .ok s' → s'.names = s.names ∧ s'.modesAt n = (s.modesAt n).map g ∧
    ∀ b, b ≠ n → s'.modesAt b = s.modesAt b

theorem Upd.fold {g : Modes → Modes} {body} (hb : Upd g body) {l : List Name} (hnd : l.Nodup) {s s' : Store}
    (hl : ∀ n ∈ l, n ∈ s.names) (h : l.foldlM body s = .ok s') :
    s'.names = s.names ∧ (∀ n ∈ l, s'.modesAt n = (s.modesAt n).map g) ∧ ∀ n, n ∉ l → s'.modesAt n = s.modesAt n := by
  induction l generalizing s with
  | nil => simp [pure, Except.pure] at h; subst h; simp
  | cons a l ih =>
    rw [List.foldlM_cons] at h
    obtain ⟨s1, h1, h2⟩ := ok_bind h
    obtain ⟨e1, e2, e3⟩ := hb _ _ _ (hl a (by simp)) h1
    obtain ⟨ha, hnd'⟩ := List.nodup_cons.1 hnd
    obtain ⟨f1, f2, f3⟩ := ih hnd' (fun n hn => by rw [e1]; exact hl n (by simp [hn])) h2
    refine ⟨f1.trans e1, ?_, ?_⟩
    · intro n hn
      rcases List.mem_cons.1 hn with rfl | hn
      · rw [f3 _ ha, e2]
      · rw [f2 _ hn, e3 _ (fun e => ha (e ▸ hn))]
    · intro n hn
      simp only [List.mem_cons, not_or] at hn
      rw [f3 _ hn.2, e3 _ hn.1]

theorem Upd.forParams {g : Modes → Modes} {body} (hb : Upd g body) {s s' : Store} (hnd : s.names.Nodup)
    (h : s.forParams body = .ok s') :
    s'.names = s.names ∧ ∀ n ∈ s.names, s'.modesAt n = (s.modesAt n).map g := by
  obtain ⟨h1, h2, -⟩ := hb.fold hnd (fun _ h => h) h
  exact ⟨h1, h2⟩

/-- Nothing changes. -/
def SameModes (s s' : Store) : Prop := s'.names = s.names ∧ ∀ n, s'.modesAt n = s.modesAt n

theorem SameModes.rfl' {s : Store} : SameModes s s := ⟨rfl, fun _ => rfl⟩
theorem SameModes.trans {a b c : Store} (h1 : SameModes a b) (h2 : SameModes b c) : SameModes a c :=
  ⟨h2.1.trans h1.1, fun n => (h2.2 n).trans (h1.2 n)⟩

def Keeps (body : Store → Name → Except Err Store) : Prop :=
  ∀ s n s', n ∈ s.names → body s n = .ok s' → SameModes s s'

theorem Keeps.forParams {body} (hb : Keeps body) {s s' : Store} (h : s.forParams body = .ok s') : SameModes s s' := by
  refine foldlM_preserves (P := fun t => SameModes s t) ?_ SameModes.rfl' h
  intro t a t' ha ht hf
  exact ht.trans (hb _ _ _ (by rw [ht.1]; exact ha) hf)

/-- One masker replaced by one with the same modes, parameters changed under existing names. -/
theorem sameModes_of {s s' : Store} {n : Name} {m m' : Masker} (hm : s.maskers.get? n = some m) (hn : s'.names = s.names)
    (hs : s'.maskers = s.maskers.set n m') (he : m'.modes = m.modes) : SameModes s s' := by
  refine ⟨hn, ?_⟩
  intro b
  have := modesAt_set s n b m'
  unfold Store.setMasker at this
  unfold Store.modesAt at this ⊢
  rw [hs]
  dsimp only at this
  rw [this]
  split
  · next e => subst e; rw [hm]; simp [he]
  · rfl

theorem setParamMask_keeps {env : Env} {pol : Nat} {mt : Meta} {s s' : Store} {n : Name} {w : Tensor}
    (h : setParamMask env pol mt s n w = .ok s') : SameModes s s' := by
  obtain ⟨m, k, h1, h2, h3, -⟩ := setParamMask_spec h
  exact sameModes_of h1 (by unfold Store.names; rw [h3]) h2 rfl

theorem pruneMbBeginBody_keeps (env : Env) (pol : Nat) (cfg : PruneCfg) (sm : Bool) (mt : Meta) :
    Keeps (pruneMbBeginBody env pol cfg sm mt) := by
  intro s n s' hn h
  obtain ⟨m, k, h1, _, ⟨w', _, _, h2, h3⟩ | ⟨_, h2, h3⟩⟩ := pruneMbBeginBody_spec h
  · exact sameModes_of h1 (by unfold Store.names; rw [h2]) h3 (applyMask_modes _ _)
  · exact sameModes_of h1 (by unfold Store.names; rw [h2]; exact keys_set_of_mem _ _ _ hn) h3 (applyMask_modes _ _)

theorem revertBody_keeps : Keeps revertBody := by
  intro s n s' hn h
  unfold revertBody at h
  obtain ⟨m, hm, h⟩ := ok_bind h
  injection h with h; subst h
  exact sameModes_of (getE_ok hm) (names_setParam_mem (s := s.setMasker n _) _ hn) rfl (revertWeights_modes _ _)

theorem discardBody_keeps : Keeps discardBody := by
  intro s n s' hn h
  unfold discardBody at h
  obtain ⟨m, hm, h⟩ := ok_bind h
  injection h with h; subst h
  exact sameModes_of (getE_ok hm) rfl rfl rfl

theorem regMbEndBody_keeps (env : Env) (pol : Nat) (keep : Bool) : Keeps (regMbEndBody env pol keep) := by
  intro s n s' hn h
  unfold regMbEndBody at h
  obtain ⟨m, hm, h⟩ := ok_bind h
  injection h with h; subst h
  refine sameModes_of (getE_ok hm) (names_setParam_mem (s := s.setMasker n _) _ hn) rfl ?_
  rw [applyMask_modes]
  cases env.thresh s.clock pol n (s.param n) <;> cases keep <;> rfl

theorem maskAllBody_keeps (f : Bool) : Keeps (maskAllBody f) := by
  intro s n s' hn h
  rcases maskAllBody_spec h with ⟨m, h1, h2, _, rfl⟩ | ⟨m, h1, h2, rfl⟩ | ⟨h1, h2, rfl⟩ | ⟨n', m, h1, h2, h3, rfl⟩
  · exact SameModes.rfl'
  · exact ⟨names_setParam_mem _ hn, fun _ => rfl⟩
  · exact SameModes.rfl'
  · exact sameModes_of h3 (names_setParam_mem (s := s.setMasker n' _) _ hn) rfl (applyMask_modes _ _)

/-- The change of the modes made by the first `on_epoch_begin` of a policy. -/
def initModes (cfg : PruneCfg) (m : Modes) : Modes :=
  ⟨cfg.dbl, cfg.fwdOnly, m.handle || cfg.maskGrads, m.hooks + if cfg.maskGrads then 1 else 0⟩

/-- The change of the modes made by the last `on_epoch_end` of a policy. -/
def endModes (cfg : PruneCfg) (m : Modes) : Modes :=
  ⟨if cfg.keepMask then false else m.dbl, if cfg.keepMask then false else m.fwdOnly, false,
    if m.handle then m.hooks - 1 else m.hooks⟩

theorem initMasker_modes {cfg : PruneCfg} {f : Bool} {m m1 : Masker} (hm1 : initMasker cfg f m = .ok m1) :
    m1.modes = initModes cfg m.modes := by
  unfold initMasker at hm1
  dsimp only at hm1
  split at hm1
  · next hg =>
    split at hm1
    · cases hm1
    · injection hm1 with hm1; subst hm1; simp [Masker.modes, initModes, hg]
  · next hg => injection hm1 with hm1; subst hm1; simp [Masker.modes, initModes, hg]

theorem pruneEpochBegin_first (env : Env) (p : Nat) (cfg : PruneCfg) (mt : Meta) :
    Upd (initModes cfg) (pruneEpochBeginBody env p cfg false mt) := by
  intro s n s' hn h
  unfold pruneEpochBeginBody at h
  simp only [Bool.false_eq_true, if_false] at h
  obtain ⟨m, hm, h⟩ := ok_bind h
  obtain ⟨m1, hm1, h⟩ := ok_bind h
  have hm := getE_ok hm
  have hmd : m1.modes = initModes cfg m.modes := initMasker_modes hm1
  have hs : SameModes (s.setMasker n m1) s' := by
    split at h
    · injection h with h; subst h; exact SameModes.rfl'
    · exact setParamMask_keeps h
  refine ⟨hs.1, ?_, ?_⟩
  · rw [hs.2, modesAt_set]; simp [Store.modesAt, hm, hmd]
  · intro b hb; rw [hs.2, modesAt_set]; simp [hb]

theorem pruneEpochBegin_again (env : Env) (p : Nat) (cfg : PruneCfg) (mt : Meta) :
    Keeps (pruneEpochBeginBody env p cfg true mt) := by
  intro s n s' hn h
  unfold pruneEpochBeginBody at h
  simp only [if_true] at h
  exact setParamMask_keeps h

theorem pruneEpochEnd_upd (cfg : PruneCfg) : Upd (endModes cfg) (pruneEpochEndBody cfg) := by
  intro s n s' hn h
  unfold pruneEpochEndBody at h
  obtain ⟨m, hm, h⟩ := ok_bind h
  have hm := getE_ok hm
  injection h with h; subst h
  refine ⟨names_setParam_mem (s := s.setMasker n _) _ hn, ?_, ?_⟩
  · show (s.setMasker n _).modesAt n = _
    rw [modesAt_set]
    simp only [if_true, Store.modesAt, hm, Option.map_some]
    congr 1
    cases hk : cfg.keepMask <;> cases hh : m.handle <;> simp [Masker.modes, endModes, hk, hh]
  · intro b hb
    show (s.setMasker n _).modesAt b = _
    rw [modesAt_set]; simp [hb]

/-- `p` is the only pruning policy. -/
structure HInv (p : Nat) (cfg : PruneCfg) (sched0 : Sched) (ns : List Name) (ph : Phase) (st : State) : Prop where
  pol : st.sched.policies = sched0.policies
  reg : SameReg sched0 st.sched
  names : st.store.names = ns
  mine : st.pols p = .prune cfg ph.last ph.begun
  others : ∀ q, q ≠ p → ∀ c a b, st.pols q ≠ .prune c a b
  wf : ph.begun = false → ph.last = false ∧ ph.ended = false
  modes : ∀ n ∈ ns, ∀ m, st.store.maskers.get? n = some m → m.modes = ph.modes cfg

theorem HInv.same {p : Nat} {cfg : PruneCfg} {sched0 : Sched} {ns : List Name} {ph : Phase} {st st' : State}
    (h : HInv p cfg sched0 ns ph st) (h1 : st'.sched.policies = st.sched.policies) (h2 : SameReg st.sched st'.sched)
    (h3 : SameModes st.store st'.store) (h4 : st'.pols = st.pols) : HInv p cfg sched0 ns ph st' := by
  refine ⟨h1.trans h.pol, fun q => (h2 q).trans (h.reg q), h3.1.trans h.names, by rw [h4]; exact h.mine,
    by rw [h4]; exact h.others, h.wf, ?_⟩
  intro n hn m hm
  have := h3.2 n
  unfold Store.modesAt at this
  rw [hm] at this
  cases ho : st.store.maskers.get? n with
  | none => rw [ho] at this; cases this
  | some m0 =>
    rw [ho] at this
    simp only [Option.map_some, Option.some.injEq] at this
    rw [this]; exact h.modes n hn m0 ho

section
variable {p : Nat} {cfg : PruneCfg} {sched0 : Sched} {ns : List Name} {env : Env} {ending : Int}

theorem ending_of {st st1 : State} {e : Int} {mt : Meta} (hreg : SameReg sched0 st.sched)
    (hend : ∀ m0, sched0.md.get? p = some m0 → m0.ending = ending)
    (h : touchMeta st p e = .ok (st1, mt)) : mt.ending = ending := by
  obtain ⟨-, ⟨m0, h0, h1⟩, -⟩ := touchMeta_told h
  have := hreg p
  rw [h0] at this
  cases hs : sched0.md.get? p with
  | none => rw [hs] at this; cases this
  | some m1 =>
    rw [hs] at this
    injection this with this
    rw [← hend m1 hs]
    have h1 := h1.trans this
    simp only [Meta.registered, Prod.mk.injEq] at h1
    exact h1.2.1

/-- One policy's turn in `on_epoch_begin`. -/
theorem HInv.epochBegin1 {ph : Phase} {st st' : State} {e : Int} {q : Nat} (hnd : ns.Nodup) (hne : ns ≠ [])
    (hend : ∀ m0, sched0.md.get? p = some m0 → m0.ending = ending)
    (h : HInv p cfg sched0 ns ph st) (hs : policyEpochBegin env e st q = .ok st') :
    HInv p cfg sched0 ns (if q = p then { ph with begun := true, last := decide (e = ending - 1) } else ph) st' := by
  unfold policyEpochBegin at hs
  obtain ⟨⟨st1, mt⟩, h1, hs⟩ := ok_bind hs
  obtain ⟨-, -, t3, t4, t5⟩ := touchMeta_told h1
  have tp := (touch_spec h1).2.2
  have hh : HInv p cfg sched0 ns ph st1 := h.same tp t3 (by rw [t4]; exact SameModes.rfl') t5
  by_cases hq : q = p
  · subst hq
    have hmt : mt.ending = ending := ending_of h.reg hend h1
    simp only [hh.mine] at hs
    obtain ⟨s, hs1, hs⟩ := ok_bind hs
    injection hs with hs; subst hs
    have hem : st1.store.params.isEmpty = false := by
      have := hh.names
      unfold Store.names at this
      cases hp : st1.store.params with
      | nil => rw [hp] at this; exact absurd this.symm hne
      | cons a l => rfl
    simp only [if_true]
    cases hb : ph.begun with
    | false =>
      rw [hb] at hs1
      obtain ⟨n1, n2⟩ := (pruneEpochBegin_first env q cfg mt).forParams (by rw [hh.names]; exact hnd) hs1
      refine ⟨hh.pol, hh.reg, n1.trans hh.names, by simp [setPol, hem, hmt], ?_, by simp, ?_⟩
      · intro r hr c a b
        simp only [setPol, hr, if_false]; exact hh.others r hr c a b
      · intro n hn m hm
        have := n2 n (by rw [hh.names]; exact hn)
        unfold Store.modesAt at this
        dsimp only at hm
        rw [hm] at this
        cases ho : st1.store.maskers.get? n with
        | none => rw [ho] at this; cases this
        | some m0 =>
          rw [ho] at this
          simp only [Option.map_some, Option.some.injEq] at this
          rw [this, hh.modes n hn m0 ho]
          have := hh.wf hb
          simp [Phase.modes, hb, initModes, this.2]
    | true =>
      rw [hb] at hs1
      have hk := (pruneEpochBegin_again env q cfg mt).forParams hs1
      have hh2 : HInv q cfg sched0 ns ph { st1 with store := s } := hh.same rfl (fun _ => rfl) hk rfl
      refine ⟨hh2.pol, hh2.reg, hh2.names, by simp [setPol, hem, hmt], ?_, by simp, ?_⟩
      · intro r hr c a b
        simp only [setPol, hr, if_false]; exact hh.others r hr c a b
      · intro n hn m hm
        rw [hh2.modes n hn m hm]
        simp [Phase.modes, hb]
  · rw [if_neg hq]
    cases hp : st1.pols q with
    | prune c a b => exact absurd hp (hh.others q hq c a b)
    | reg k t l =>
      simp only [hp] at hs
      injection hs with hs; subst hs
      refine ⟨hh.pol, hh.reg, hh.names, ?_, ?_, hh.wf, hh.modes⟩
      · simp only [setPol, if_neg (fun e : p = q => hq e.symm)]; exact hh.mine
      · intro r hr c a b
        by_cases hrq : r = q
        · simp [setPol, hrq]
        · simp only [setPol, hrq, if_false]; exact hh.others r hr c a b
    | other =>
      simp only [hp] at hs
      injection hs with hs; subst hs
      exact hh

/-- One policy's turn in `on_epoch_end`. -/
theorem HInv.epochEnd1 {ph : Phase} {st st' : State} {e : Int} {q : Nat} (hnd : ns.Nodup)
    (h : HInv p cfg sched0 ns ph st) (hs : policyEpochEnd e st q = .ok st') :
    HInv p cfg sched0 ns (if q = p ∧ ph.last = true then { ph with ended := true } else ph) st' := by
  unfold policyEpochEnd at hs
  obtain ⟨⟨st1, mt⟩, h1, hs⟩ := ok_bind hs
  obtain ⟨-, -, t3, t4, t5⟩ := touchMeta_told h1
  have tp := (touch_spec h1).2.2
  have hh : HInv p cfg sched0 ns ph st1 := h.same tp t3 (by rw [t4]; exact SameModes.rfl') t5
  by_cases hq : q = p
  · subst hq
    simp only [hh.mine] at hs
    cases hl : ph.last with
    | false =>
      rw [hl] at hs
      simp only [Bool.false_eq_true, if_false] at hs
      injection hs with hs; subst hs
      simpa using hh
    | true =>
      rw [hl] at hs
      simp only [if_true] at hs
      obtain ⟨s, hs1, hs⟩ := ok_bind hs
      injection hs with hs; subst hs
      have hb : ph.begun = true := by
        by_contra hb
        simp only [Bool.not_eq_true] at hb
        rw [(hh.wf hb).1] at hl; cases hl
      simp only [and_self, if_true]
      obtain ⟨n1, n2⟩ := (pruneEpochEnd_upd cfg).forParams (by rw [hh.names]; exact hnd) hs1
      refine ⟨hh.pol, hh.reg, n1.trans hh.names, by simpa [hl] using hh.mine, hh.others, by simp [hb], ?_⟩
      intro n hn m hm
      have := n2 n (by rw [hh.names]; exact hn)
      unfold Store.modesAt at this
      dsimp only at hm
      rw [hm] at this
      cases ho : st1.store.maskers.get? n with
      | none => rw [ho] at this; cases this
      | some m0 =>
        rw [ho] at this
        simp only [Option.map_some, Option.some.injEq] at this
        rw [this, hh.modes n hn m0 ho]
        unfold Phase.modes endModes
        cases hk : cfg.keepMask <;> cases he : ph.ended <;> cases hg : cfg.maskGrads <;> simp [hb]
  · rw [if_neg (fun hc => hq hc.1)]
    cases hp : st1.pols q with
    | prune c a b => exact absurd hp (hh.others q hq c a b)
    | reg k t l => simp only [hp] at hs; injection hs with hs; subst hs; exact hh
    | other => simp only [hp] at hs; injection hs with hs; subst hs; exact hh

theorem HInv.epochBeginFold {e : Int} {l : List Nat} (hnd : ns.Nodup) (hne : ns ≠ [])
    (hend : ∀ m0, sched0.md.get? p = some m0 → m0.ending = ending) {ph : Phase} {st st' : State}
    (h : HInv p cfg sched0 ns ph st) (hs : l.foldlM (policyEpochBegin env e) st = .ok st') :
    HInv p cfg sched0 ns (if p ∈ l then { ph with begun := true, last := decide (e = ending - 1) } else ph) st' := by
  induction l generalizing st ph with
  | nil => simp [pure, Except.pure] at hs; subst hs; simpa using h
  | cons a l ih =>
    rw [List.foldlM_cons] at hs
    obtain ⟨s1, h1, h2⟩ := ok_bind hs
    have := ih (h.epochBegin1 hnd hne hend h1) h2
    by_cases ha : a = p
    · subst ha; simpa using this
    · have hpa : p ≠ a := fun e => ha e.symm
      simpa [ha, hpa] using this

theorem HInv.epochEndFold {e : Int} {l : List Nat} (hnd : ns.Nodup) {ph : Phase} {st st' : State}
    (h : HInv p cfg sched0 ns ph st) (hs : l.foldlM (policyEpochEnd e) st = .ok st') :
    HInv p cfg sched0 ns (if p ∈ l ∧ ph.last = true then { ph with ended := true } else ph) st' := by
  induction l generalizing st ph with
  | nil => simp [pure, Except.pure] at hs; subst hs; simpa using h
  | cons a l ih =>
    rw [List.foldlM_cons] at hs
    obtain ⟨s1, h1, h2⟩ := ok_bind hs
    have := ih (h.epochEnd1 hnd h1) h2
    by_cases ha : a = p
    · subst ha
      cases hl : ph.last <;> simpa [hl] using this
    · have hpa : p ≠ a := fun e => ha e.symm
      simpa [ha, hpa] using this

theorem HInv.step {ph : Phase} {st st' : State} {ev : Ev} (hnd : ns.Nodup) (hne : ns ≠ [])
    (hend : ∀ m0, sched0.md.get? p = some m0 → m0.ending = ending)
    (h : HInv p cfg sched0 ns ph st) (hs : step env st ev = .ok st') :
    HInv p cfg sched0 ns (ph.next sched0.active p ending ev) st' := by
  have hact : ∀ e, st.sched.active e = sched0.active e := by
    intro e; unfold Sched.active; rw [h.pol]
  cases ev with
  | epochBegin e =>
    have hs : (st.sched.active e).foldlM (policyEpochBegin env e) st = .ok st' := hs
    rw [hact] at hs
    exact h.epochBeginFold hnd hne hend hs
  | epochEnd e =>
    have hs : (st.sched.active e).foldlM (policyEpochEnd e) st = .ok st' := hs
    rw [hact] at hs
    exact h.epochEndFold hnd hs
  | write f =>
    injection hs with hs; subst hs
    exact h.same rfl (fun _ => rfl) ⟨by simp [Store.names, Dict.mapVals], fun _ => rfl⟩ rfl
  | mbBegin e mb mpe =>
    refine foldlM_preserves (P := fun t => HInv p cfg sched0 ns ph t) ?_ h hs
    intro t q t' _ ht hf
    unfold policyMbBegin at hf
    obtain ⟨⟨st1, mt⟩, h1, hf⟩ := ok_bind hf
    obtain ⟨-, -, t3, t4, t5⟩ := touchMeta_told h1
    have hh : HInv p cfg sched0 ns ph st1 := ht.same (touch_spec h1).2.2 t3 (by rw [t4]; exact SameModes.rfl') t5
    dsimp only at hf
    split at hf
    · obtain ⟨s, hs1, hf⟩ := ok_bind hf
      injection hf with hf; subst hf
      exact hh.same rfl (fun _ => rfl) ((pruneMbBeginBody_keeps _ _ _ _ _).forParams hs1) rfl
    · injection hf with hf; subst hf; exact hh
  | beforeOpt e mb mpe =>
    refine foldlM_preserves (P := fun t => HInv p cfg sched0 ns ph t) ?_ h hs
    intro t q t' _ ht hf
    unfold policyBeforeOpt at hf
    obtain ⟨⟨st1, mt⟩, h1, hf⟩ := ok_bind hf
    obtain ⟨-, -, t3, t4, t5⟩ := touchMeta_told h1
    have hh : HInv p cfg sched0 ns ph st1 := ht.same (touch_spec h1).2.2 t3 (by rw [t4]; exact SameModes.rfl') t5
    dsimp only at hf
    split at hf
    · obtain ⟨s, hs1, hf⟩ := ok_bind hf
      injection hf with hf; subst hf
      exact hh.same rfl (fun _ => rfl) (revertBody_keeps.forParams hs1) rfl
    · injection hf with hf; subst hf; exact hh
  | mbEnd e mb mpe =>
    have hs : onMbEnd env st e mb mpe = .ok st' := hs
    unfold onMbEnd at hs
    obtain ⟨s, hs1, hs⟩ := ok_bind hs
    have h0 : HInv p cfg sched0 ns ph { st with store := s } :=
      h.same rfl (fun _ => rfl) ((maskAllBody_keeps false).forParams hs1) rfl
    refine foldlM_preserves (P := fun t => HInv p cfg sched0 ns ph t) ?_ h0 hs
    intro t q t' _ ht hf
    unfold policyMbEnd at hf
    split at hf
    · split at hf
      · obtain ⟨s, hs1, hf⟩ := ok_bind hf
        injection hf with hf; subst hf
        exact ht.same rfl (fun _ => rfl) (discardBody_keeps.forParams hs1) rfl
      · injection hf with hf; subst hf; exact ht
    · split at hf
      · obtain ⟨s, hs1, hf⟩ := ok_bind hf
        injection hf with hf; subst hf
        exact ht.same rfl (fun _ => rfl) ((regMbEndBody_keeps _ _ _).forParams hs1) rfl
      · injection hf with hf; subst hf; exact ht
    · injection hf with hf; subst hf; exact ht

theorem HInv.run {evs : List Ev} {ph : Phase} {st st' : State} (hnd : ns.Nodup) (hne : ns ≠ [])
    (hend : ∀ m0, sched0.md.get? p = some m0 → m0.ending = ending)
    (h : HInv p cfg sched0 ns ph st) (hs : run env st evs = .ok st') :
    HInv p cfg sched0 ns (evs.foldl (Phase.next sched0.active p ending) ph) st' := by
  induction evs generalizing st ph with
  | nil => simp [Verif.run, pure, Except.pure] at hs; subst hs; exact h
  | cons ev evs ih =>
    unfold Verif.run at hs
    rw [List.foldlM_cons] at hs
    obtain ⟨s1, h1, h2⟩ := ok_bind hs
    exact ih (h.step hnd hne hend h1) h2

end

/-- A scheduler before training: the policies are new and so is the masker of every parameter; `p` is the only
pruning policy and its schedule ends before `ending`. -/
structure FreshWith (st : State) (p : Nat) (cfg : PruneCfg) (ending : Int) : Prop where
  names : (st.store.params.map Prod.fst).Nodup
  mine : st.pols p = .prune cfg false false
  others : ∀ q, q ≠ p → ∀ c a b, st.pols q ≠ .prune c a b
  ending : ∀ m, st.sched.md.get? p = some m → m.ending = ending
  maskers : ∀ n m, st.store.maskers.get? n = some m → m = {}

/-- **C12**, **C05** (partial: one pruning policy, any number of other policies) Over every history of callbacks and
weight updates, the masking modes and the number of gradient hooks of every parameter are those of the phase the
policy is in: none before its first epoch, the configured ones with exactly one hook (if gradients are masked)
until the end of its last epoch, and afterwards no hook, and the configured modes unless the mask is kept. -/
theorem C12_history_partial (env : Env) (st st' : State) (p : Nat) (cfg : PruneCfg) (ending : Int) (evs : List Ev)
    (hf : FreshWith st p cfg ending) (h : run env st evs = .ok st') (n : Name)
    (hn : n ∈ st.store.params.map Prod.fst) (m : Masker) (hm : st'.store.maskers.get? n = some m) :
    let want := (phaseAfter st.sched.active p ending evs).modes cfg
    m.dbl = want.dbl ∧ m.fwdOnly = want.fwdOnly ∧ m.handle = want.handle ∧ m.liveHooks = want.hooks := by
  have h0 : HInv p cfg st.sched st.store.names {} st := by
    refine ⟨rfl, fun _ => rfl, rfl, hf.mine, hf.others, by simp, ?_⟩
    intro n _ m hm
    rw [hf.maskers n m hm]; rfl
  have := (h0.run (env := env) (ending := ending) hf.names (List.ne_nil_of_mem hn) hf.ending h).modes n hn m hm
  unfold phaseAfter
  dsimp only
  rw [← this]
  exact ⟨rfl, rfl, rfl, rfl⟩

/-- **C12** (partial: one pruning policy) What the optimizer sees: while the policy is active the gradient of
every masked parameter is zero wherever the mask is zero; before its first and after its last epoch the gradient
is untouched. -/
theorem C12_gradients_partial (env : Env) (st st' : State) (p : Nat) (cfg : PruneCfg) (ending : Int) (evs : List Ev)
    (hf : FreshWith st p cfg ending) (hg : cfg.maskGrads = true) (h : run env st evs = .ok st') (n : Name)
    (hn : n ∈ st.store.params.map Prod.fst) (m : Masker) (hm : st'.store.maskers.get? n = some m) (g : Tensor) :
    let ph := phaseAfter st.sched.active p ending evs
    (ph.begun = true → ph.ended = false → ∀ k, m.mask = some k → ZeroWhere k (hookedGrad m m.liveHooks g)) ∧
    (ph.begun = false ∨ ph.ended = true → hookedGrad m m.liveHooks g = g) := by
  obtain ⟨-, -, -, h4⟩ := C12_history_partial env st st' p cfg ending evs hf h n hn m hm
  dsimp only
  constructor
  · intro h1 h2 k hk
    refine C12_gradient_masked m k g hk ?_
    rw [h4]; simp [Phase.modes, h1, h2, hg]
  · intro hor
    have : m.liveHooks = 0 := by
      rw [h4]
      rcases hor with c | c
      · simp [Phase.modes, c]
      · simp only [Phase.modes, c]
        split
        · rfl
        · simp; split <;> rfl
    rw [this]; rfl

/-- **C05** (partial: one pruning policy) In forward-only mode, while the policy is active, `mask_all_weights` outside
the forward pass leaves every parameter as it is. -/
theorem C05_forward_only_partial (env : Env) (st st' : State) (p : Nat) (cfg : PruneCfg) (ending : Int) (evs : List Ev)
    (hf : FreshWith st p cfg ending) (hfw : cfg.fwdOnly = true) (h : run env st evs = .ok st')
    (hb : (phaseAfter st.sched.active p ending evs).begun = true)
    (he : (phaseAfter st.sched.active p ending evs).ended = false) (s : Store)
    (hown : ∀ n ∈ st'.store.params.map Prod.fst, n ∈ st.store.params.map Prod.fst ∧ (st'.store.maskers.get? n).isSome)
    (hs : maskAllWeights st'.store (isForward := false) = .ok s) : s.params = st'.store.params := by
  have := foldlM_preserves (P := fun t : Store => t = st'.store) (l := st'.store.params.map Prod.fst) (s := st'.store) (s' := s)
    (f := maskAllBody false) (by
      intro t a t' ha ht hf'
      subst ht
      obtain ⟨h1, h2⟩ := hown a ha
      obtain ⟨m, hm⟩ := Option.isSome_iff_exists.1 h2
      obtain ⟨-, h4, -⟩ := C12_history_partial env st st' p cfg ending evs hf h a h1 m hm
      simp only [Phase.modes, hb, he, hfw] at h4
      unfold maskAllBody at hf'
      simp only [hm] at hf'
      rw [h4] at hf'
      simp at hf'
      exact hf'.symm) rfl hs
  rw [this]

/-- A policy scheduled for the epochs 0 and 1 next to a learning-rate policy. -/
def exHist : State :=
  { store := { params := [(["fc", "weight"], [3, 5])], maskers := [(["fc", "weight"], {})] }
    sched := (Sched.addPolicy (Sched.addPolicy {} { policy := 0, starting := some 0, ending := some 2 }).1
      { policy := 1, starting := some 0, ending := some 3 }).1
    pols := fun q => if q = 0 then .prune { fwdOnly := true, maskGrads := true, keepMask := true } false false else .other }

example : FreshWith exHist 0 { fwdOnly := true, maskGrads := true, keepMask := true } 2 := by
  refine ⟨by decide, rfl, ?_, ?_, ?_⟩
  · intro q hq c a b; simp [exHist, hq]
  · intro m hm
    have : exHist.sched.md.get? 0 = some { starting := 0, ending := 2, freq := some 1 } := by decide
    rw [this] at hm; cases hm; rfl
  · intro n m hm
    have := Dict.mem_of_get? hm
    simp only [exHist, List.mem_singleton, Prod.mk.injEq] at this
    exact this.2

/-- The phases it goes through. -/
example : phaseAfter exHist.sched.active 0 2 [.epochBegin 0, .epochEnd 0] = ⟨true, false, false⟩ ∧
    phaseAfter exHist.sched.active 0 2 [.epochBegin 0, .epochEnd 0, .epochBegin 1, .epochEnd 1, .epochBegin 2] =
      ⟨true, true, true⟩ := by decide +kernel

example : (run exEnv exHist [.epochBegin 0, .epochEnd 0, .epochBegin 1]).toOption.map (fun s => s.store.maskers) =
    some [(["fc", "weight"], { mask := some [0, 1], fwdOnly := true, handle := true, liveHooks := 1 })] := by decide +kernel

end Verif
