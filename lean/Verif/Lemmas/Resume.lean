import Verif.Model.Resume
import Verif.Lemmas.Fold
import Verif.Lemmas.Masking
/-!
# Two runs of the scheduler that differ only in what checkpoints do not store

A relation between states, preserved by every callback: parameters and masks agree; clocks, flags of
policies that are not active, and flags of maskers that have no effect may differ.
-/
namespace Verif
open Dict

/-- Both computations fail with the same error, or both succeed with related results. -/
def ERel {α : Type} (R : α → α → Prop) : Except Err α → Except Err α → Prop
  | .ok a, .ok b => R a b
  | .error e, .error e' => e = e'
  | _, _ => False

theorem ERel.bind {α β : Type} {R : α → α → Prop} {S : β → β → Prop} {x y : Except Err α} {f g : α → Except Err β}
    (h : ERel R x y) (hf : ∀ a b, R a b → ERel S (f a) (g b)) : ERel S (x >>= f) (y >>= g) := by
  cases x <;> cases y
  · exact h
  · exact h.elim
  · exact h.elim
  · exact hf _ _ h

theorem ERel.ok {α : Type} {R : α → α → Prop} {x y : Except Err α} {a : α} (h : ERel R x y) (hx : x = .ok a) : ∃ b, y = .ok b ∧ R a b := by
  subst hx
  cases y with
  | error e => exact h.elim
  | ok b => exact ⟨b, rfl, h⟩

theorem foldlM_rel {σ α : Type} {R : σ → σ → Prop} {f : σ → α → Except Err σ} {l : List α}
    (hf : ∀ a ∈ l, ∀ s s', R s s' → ERel R (f s a) (f s' a)) (s s' : σ) (h : R s s') : ERel R (l.foldlM f s) (l.foldlM f s') := by
  induction l generalizing s s' with
  | nil => exact h
  | cons a l ih =>
    rw [List.foldlM_cons, List.foldlM_cons]
    exact (hf a (by simp) s s' h).bind fun b c hbc => ih (fun a' ha' => hf a' (by simp [ha'])) b c hbc

/-- Maskers with the same effect in a schedule where `dbl`, `fwdOnly` and gradient hooks are not used.
In schedules with pruning (`ro = false`) there are no regularization masks. -/
def MRel (ro : Bool) (m m' : Masker) : Prop :=
  m.mask = m'.mask ∧ m.dbl = false ∧ m'.dbl = false ∧ m.fwdOnly = false ∧ m'.fwdOnly = false ∧ m.handle = false ∧ m'.handle = false ∧
  (m.isReg = true → m.mask = none) ∧ (m'.isReg = true → m'.mask = none) ∧ (ro = false → m.isReg = false ∧ m'.isReg = false)

theorem MRel.apply {ro : Bool} {m m' : Masker} (h : MRel ro m m') (w : Tensor) :
    MRel ro (m.applyMask w).1 (m'.applyMask w).1 ∧ (m.applyMask w).2 = (m'.applyMask w).2 := by
  obtain ⟨h1, h2, h3, h4, h5, h6, h7, h8, h9, h10⟩ := h
  unfold Masker.applyMask
  rw [← h1]
  cases hm : m.mask with
  | none => exact ⟨⟨h1, h2, h3, h4, h5, h6, h7, h8, h9, h10⟩, rfl⟩
  | some k =>
    have i1 : m.isReg = false := by
      cases hr : m.isReg with
      | false => rfl
      | true => have := h8 hr; rw [hm] at this; cases this
    have i2 : m'.isReg = false := by
      cases hr : m'.isReg with
      | false => rfl
      | true => have := h9 hr; rw [← h1, hm] at this; cases this
    simp only [h2, h3, i1, i2, Bool.false_eq_true, if_false]
    refine ⟨⟨h1, h2, h3, h4, h5, h6, h7, h8, h9, h10⟩, ?_⟩
    unfold Masker.maskTensor
    rw [← h1, hm]

/-- Stores with the same parameters (named `K`) and masks. -/
structure SRel (ro : Bool) (K : List Name) (s s' : Store) : Prop where
  params : s.params = s'.params
  pk : s.params.map Prod.fst = K
  qk : s.maskers.map Prod.fst = K
  qk' : s'.maskers.map Prod.fst = K
  rel : ∀ n m m', s.maskers.get? n = some m → s'.maskers.get? n = some m' → MRel ro m m'

theorem SRel.getE {ro : Bool} {K : List Name} {s s' : Store} (h : SRel ro K s s') (n : Name) :
    ERel (fun m m' => MRel ro m m' ∧ s.maskers.get? n = some m ∧ s'.maskers.get? n = some m') (s.maskers.getE n) (s'.maskers.getE n) := by
  unfold Dict.getE
  cases h1 : s.maskers.get? n with
  | none =>
    have : s'.maskers.get? n = none := by
      rw [get?_eq_none_iff] at h1 ⊢; rw [h.qk', ← h.qk]; exact h1
    rw [this]; exact rfl
  | some m =>
    cases h2 : s'.maskers.get? n with
    | none => rw [get?_eq_none_iff, h.qk', ← h.qk, ← get?_eq_none_iff, h1] at h2; cases h2
    | some m' => exact ⟨h.rel n m m' h1 h2, rfl, rfl⟩

theorem SRel.setMasker {ro : Bool} {K : List Name} {s s' : Store} (h : SRel ro K s s') {n : Name} (hn : n ∈ K) {m m' : Masker} (hm : MRel ro m m') :
    SRel ro K (s.setMasker n m) (s'.setMasker n m') := by
  refine ⟨h.params, h.pk, ?_, ?_, ?_⟩
  · simp only [Store.maskers_setMasker]; rw [keys_set_of_mem _ _ _ (by rw [h.qk]; exact hn), h.qk]
  · simp only [Store.maskers_setMasker]; rw [keys_set_of_mem _ _ _ (by rw [h.qk']; exact hn), h.qk']
  · intro n' a a' ha ha'
    simp only [Store.maskers_setMasker, get?_set] at ha ha'
    by_cases e : n = n'
    · simp [e] at ha ha'; subst ha ha'; exact hm
    · simp [e] at ha ha'; exact h.rel n' a a' ha ha'

theorem SRel.setParam {ro : Bool} {K : List Name} {s s' : Store} (h : SRel ro K s s') {n : Name} (hn : n ∈ K) {w w' : Tensor} (hw : w = w') :
    SRel ro K (s.setParam n w) (s'.setParam n w') := by
  subst hw
  refine ⟨?_, ?_, h.qk, h.qk', h.rel⟩
  · simp [h.params]
  · simp only [Store.params_setParam]; rw [keys_set_of_mem _ _ _ (by rw [h.pk]; exact hn), h.pk]

theorem SRel.param {ro : Bool} {K : List Name} {s s' : Store} (h : SRel ro K s s') (n : Name) : s.param n = s'.param n := by
  unfold Store.param; rw [h.params]

theorem SRel.clock {ro : Bool} {K : List Name} {s s' : Store} (h : SRel ro K s s') (t t' : Nat) :
    SRel ro K { s with clock := t } { s' with clock := t' } := ⟨h.params, h.pk, h.qk, h.qk', h.rel⟩

theorem SRel.mem {ro : Bool} {K : List Name} {s s' : Store} (h : SRel ro K s s') {n : Name} {m : Masker} (hm : s.maskers.get? n = some m) : n ∈ K := by
  rw [← h.qk, ← get?_isSome_iff, hm]; rfl

theorem SRel.forParams {ro : Bool} {K : List Name} {s s' : Store} (h : SRel ro K s s') {body body' : Store → Name → Except Err Store}
    (hb : ∀ n ∈ K, ∀ t t', SRel ro K t t' → ERel (SRel ro K) (body t n) (body' t' n)) : ERel (SRel ro K) (s.forParams body) (s'.forParams body') := by
  unfold Store.forParams
  rw [← h.params, h.pk]
  have : ∀ (l : List Name) (s s' : Store), (∀ n ∈ l, n ∈ K) → SRel ro K s s' → ERel (SRel ro K) (l.foldlM body s) (l.foldlM body' s') := by
    intro l
    induction l with
    | nil => intro s s' _ h; exact h
    | cons n l ih =>
      intro s s' hl h
      rw [List.foldlM_cons, List.foldlM_cons]
      exact (hb n (hl n (by simp)) s s' h).bind fun a b hab => ih a b (fun n hn => hl n (by simp [hn])) hab
  exact this K s s' (fun _ h => h) h

/-- The pruners and regularizers keep no state between calls: their answers do not depend on the time. -/
def Env.Stateless (env : Env) : Prop := ∀ t t', env.prune t = env.prune t' ∧ env.thresh t = env.thresh t'

theorem setParamMask_rel {env : Env} (he : env.Stateless) {K : List Name} {s s' : Store} (h : SRel false K s s') (p : Nat) (mt : Meta)
    (n : Name) (w : Tensor) : ERel (SRel false K) (setParamMask env p mt s n w) (setParamMask env p mt s' n w) := by
  unfold setParamMask
  refine (h.getE n).bind fun m m' ⟨hm, hg, _⟩ => ?_
  rw [← hm.1, (he s'.clock s.clock).1]
  cases hk : env.prune s.clock p n w m.mask mt with
  | error e => exact rfl
  | ok k =>
    refine SRel.clock (h.setMasker (h.mem hg) ?_) _ _
    obtain ⟨h1, h2, h3, h4, h5, h6, h7, h8, h9, h10⟩ := hm
    have := h10 rfl
    exact ⟨rfl, h2, h3, h4, h5, h6, h7, by simp [this.1], by simp [this.2], h10⟩

/-- A pruning policy that uses neither copies of the weights, nor forward-only masking, nor gradient
masking, nor skips the first mini-batch. -/
def PruneCfg.Plain (cfg : PruneCfg) : Prop := cfg.dbl = false ∧ cfg.fwdOnly = false ∧ cfg.maskGrads = false ∧ cfg.skipFirst = false

theorem beginBody_rel {env : Env} (he : env.Stateless) {K : List Name} {s s' : Store} (h : SRel false K s s') (p : Nat) (cfg : PruneCfg)
    (hc : cfg.Plain) (i i' : Bool) (mt : Meta) (n : Name) :
    ERel (SRel false K) (pruneEpochBeginBody env p cfg i mt s n) (pruneEpochBeginBody env p cfg i' mt s' n) := by
  obtain ⟨c1, c2, c3, c4⟩ := hc
  have init : ∀ (b : Bool) (m : Masker), initMasker cfg b m = .ok { m with dbl := false, fwdOnly := false } := by
    intro b m; unfold initMasker; simp [c1, c2, c3]
  have key : ∀ (j : Bool) (t : Store), pruneEpochBeginBody env p cfg j mt t n =
      (t.maskers.getE n >>= fun m => setParamMask env p mt (if j then t else t.setMasker n { m with dbl := false, fwdOnly := false }) n
        ((if cfg.foldBn then env.folded p n (t.param n) else none).getD (t.param n))) := by
    intro j t
    unfold pruneEpochBeginBody
    cases j with
    | true =>
      cases hg : t.maskers.getE n with
      | error e => simp only [if_true, setParamMask, hg]; rfl
      | ok m => simp only [if_true, bind, Except.bind]
    | false =>
      cases hg : t.maskers.getE n with
      | error e => rfl
      | ok m => simp only [Bool.false_eq_true, if_false, bind, Except.bind, init, c4]
  rw [key i s, key i' s', h.param n]
  refine (h.getE n).bind fun m m' ⟨hm, hg, hg'⟩ => setParamMask_rel he ?_ p mt n _
  have hn := h.mem hg
  have up : ∀ (a : Masker) (t : Store), t.maskers.get? n = some a → a.dbl = false → a.fwdOnly = false →
      t.setMasker n { a with dbl := false, fwdOnly := false } = t := by
    intro a t ha h1 h2
    have : ({ a with dbl := false, fwdOnly := false } : Masker) = a := by cases a; simp_all
    rw [this]
    show ({ t with maskers := t.maskers.set n a } : Store) = t
    rw [set_get?_self ha]
  obtain ⟨_, h2, h3, h4, h5, _⟩ := hm
  rw [up m s hg h2 h4, up m' s' hg' h3 h5]
  simpa using h

theorem mbBeginBody_rel {env : Env} (he : env.Stateless) {K : List Name} {s s' : Store} (h : SRel false K s s') (p : Nat) (cfg : PruneCfg)
    (sm : Bool) (mt : Meta) (n : Name) (hn : n ∈ K) :
    ERel (SRel false K) (pruneMbBeginBody env p cfg sm mt s n) (pruneMbBeginBody env p cfg sm mt s' n) := by
  unfold pruneMbBeginBody
  rw [h.param n]
  have h0 : ERel (SRel false K)
      (if sm then setParamMask env p mt s n ((if sm && cfg.foldBn then env.folded p n (s'.param n) else none).getD (s'.param n)) else .ok s)
      (if sm then setParamMask env p mt s' n ((if sm && cfg.foldBn then env.folded p n (s'.param n) else none).getD (s'.param n)) else .ok s') := by
    cases sm with
    | true => exact setParamMask_rel he h p mt n _
    | false => exact h
  refine h0.bind fun t t' ht => ?_
  refine (ht.getE n).bind fun m m' ⟨hm, _, _⟩ => ?_
  split
  · exact ht.setMasker hn (hm.apply _).1
  · exact (ht.setMasker hn (hm.apply _).1).setParam hn (hm.apply _).2

theorem revertBody_rel {ro : Bool} {K : List Name} {s s' : Store} (h : SRel ro K s s') (n : Name) (hn : n ∈ K) :
    ERel (SRel ro K) (revertBody s n) (revertBody s' n) := by
  unfold revertBody
  refine (h.getE n).bind fun m m' ⟨hm, _, _⟩ => ?_
  have h1 := hm.2.1
  have h2 := hm.2.2.1
  unfold Masker.revertWeights
  simp only [h1, h2, Bool.not_false, if_true]
  exact (h.setMasker hn hm).setParam hn (h.param n)

theorem discardBody_rel {ro : Bool} {K : List Name} {s s' : Store} (h : SRel ro K s s') (n : Name) (hn : n ∈ K) :
    ERel (SRel ro K) (discardBody s n) (discardBody s' n) := by
  unfold discardBody
  refine (h.getE n).bind fun m m' ⟨hm, _, _⟩ => ?_
  obtain ⟨h1, h2, h3, h4, h5, h6, h7, h8, h9, h10⟩ := hm
  exact h.setMasker hn ⟨rfl, h2, h3, h4, h5, h6, h7, fun _ => rfl, fun _ => rfl, h10⟩

theorem maskTensor_congr {m m' : Masker} (h : m.mask = m'.mask) {w w' : Tensor} (hw : w = w') : m.maskTensor w = m'.maskTensor w' := by
  unfold Masker.maskTensor; rw [h, hw]

theorem epochEndBody_rel {ro : Bool} {K : List Name} {s s' : Store} (h : SRel ro K s s') (cfg : PruneCfg) (n : Name) (hn : n ∈ K) :
    ERel (SRel ro K) (pruneEpochEndBody cfg s n) (pruneEpochEndBody cfg s' n) := by
  unfold pruneEpochEndBody
  refine (h.getE n).bind fun m m' ⟨hm, _, _⟩ => ?_
  obtain ⟨h1, h2, h3, h4, h5, h6, h7, h8, h9, h10⟩ := hm
  cases hk : cfg.keepMask with
  | true =>
    simp only [if_true, h6, h7, Bool.false_eq_true, if_false]
    have hm : MRel ro { m with dbl := false, fwdOnly := false, handle := false } { m' with dbl := false, fwdOnly := false, handle := false } :=
      ⟨h1, rfl, rfl, rfl, rfl, rfl, rfl, h8, h9, h10⟩
    exact (h.setMasker hn hm).setParam hn (maskTensor_congr h1 (h.param n))
  | false =>
    simp only [Bool.false_eq_true, if_false, h6, h7]
    exact (h.setMasker hn ⟨h1, h2, h3, h4, h5, h6, h7, h8, h9, h10⟩).setParam hn (h.param n)

/-- The masker used by a regularizer's thresholding. -/
theorem MRel.reg {m m' : Masker} (h : MRel true m m') (k : Option Tensor) (keep : Bool) (w : Tensor) :
    let f : Masker → Masker := fun m =>
      let m := match k with
        | some k => { m with mask := some k, isReg := true }
        | none => m
      if keep then { m with isReg := false } else m
    MRel true ((f m).applyMask w).1 ((f m').applyMask w).1 ∧ ((f m).applyMask w).2 = ((f m').applyMask w).2 := by
  obtain ⟨h1, h2, h3, h4, h5, h6, h7, h8, h9, h10⟩ := h
  cases k with
  | none =>
    cases keep with
    | false => exact MRel.apply ⟨h1, h2, h3, h4, h5, h6, h7, h8, h9, h10⟩ w
    | true =>
      have hm : MRel true { m with isReg := false } { m' with isReg := false } := ⟨h1, h2, h3, h4, h5, h6, h7, by simp, by simp, by simp⟩
      exact hm.apply w
  | some k =>
    cases keep with
    | true =>
      have hm : MRel true { m with mask := some k, isReg := false } { m' with mask := some k, isReg := false } :=
        ⟨rfl, h2, h3, h4, h5, h6, h7, by simp, by simp, by simp⟩
      exact hm.apply w
    | false =>
      simp only [Masker.applyMask, Masker.maskTensor, h2, h3, Bool.false_eq_true, if_false, if_true]
      exact ⟨⟨rfl, rfl, rfl, h4, h5, h6, h7, by simp, by simp, by simp⟩, trivial⟩

theorem regMbEndBody_rel {env : Env} (he : env.Stateless) {K : List Name} {s s' : Store} (h : SRel true K s s') (p : Nat) (keep : Bool)
    (n : Name) (hn : n ∈ K) : ERel (SRel true K) (regMbEndBody env p keep s n) (regMbEndBody env p keep s' n) := by
  unfold regMbEndBody
  rw [h.param n, (he s.clock s'.clock).2]
  refine (h.getE n).bind fun m m' ⟨hm, _, _⟩ => ?_
  have := hm.reg (env.thresh s'.clock p n (s'.param n)) keep (s'.param n)
  exact SRel.clock ((h.setMasker hn this.1).setParam hn this.2) _ _

theorem maskAllBody_rel {ro : Bool} {K : List Name} {s s' : Store} (h : SRel ro K s s') (f : Bool) (n : Name) (hn : n ∈ K) :
    ERel (SRel ro K) (maskAllBody f s n) (maskAllBody f s' n) := by
  unfold maskAllBody
  obtain ⟨m, hm⟩ : ∃ m, s.maskers.get? n = some m := Option.isSome_iff_exists.1 ((get?_isSome_iff _ _).2 (by rw [h.qk]; exact hn))
  obtain ⟨m', hm'⟩ : ∃ m, s'.maskers.get? n = some m := Option.isSome_iff_exists.1 ((get?_isSome_iff _ _).2 (by rw [h.qk']; exact hn))
  rw [hm, hm']
  have hr := h.rel n m m' hm hm'
  obtain ⟨h1, h2, h3, h4, h5, _⟩ := hr
  simp only [h4, h5, Bool.not_false, Bool.or_true, if_true]
  exact h.setParam hn (maskTensor_congr h1 (h.param n))

/-! ## Policies and callbacks -/

/-- A policy without its mutable flags. -/
def Policy.shape : Policy → Policy
  | .prune cfg _ _ => .prune cfg false false
  | .reg k h _ => .reg k h false
  | .other => .other

/-- Whether the policy considers the current epoch its last. -/
def Policy.lastFlag : Policy → Bool
  | .prune _ l _ => l
  | .reg _ _ l => l
  | .other => false

/-- Policies covered: without regularization, plain pruning; with it, no pruning. -/
def Policy.Covered (ro : Bool) : Policy → Prop
  | .prune cfg _ _ => ro = false ∧ cfg.Plain
  | .reg _ _ _ => ro = true
  | .other => True

/-- Metadata without the current epoch. -/
def eraseCur (d : Dict Nat Meta) : Dict Nat Meta := d.mapVals fun _ m => { m with current := none }

/-- A state of a run of the schedule `σ` with the policies `P`. -/
structure RFrame (ro : Bool) (σ : Sched) (P : Nat → Policy) (st : State) : Prop where
  pol : st.sched.policies = σ.policies
  md : eraseCur st.sched.md = eraseCur σ.md
  shape : ∀ p, (st.pols p).shape = (P p).shape
  cov : ∀ p, (P p).Covered ro

/-- Two states of runs of the same schedule that agree on parameters and masks, and on the flags of
the policies in `A`. -/
structure StRel (ro : Bool) (K : List Name) (σ : Sched) (P : Nat → Policy) (A : Nat → Prop) (st st' : State) : Prop where
  store : SRel ro K st.store st'.store
  fr : RFrame ro σ P st
  fr' : RFrame ro σ P st'
  last : ∀ p, A p → (st.pols p).lastFlag = (st'.pols p).lastFlag

theorem mapVals_set {α β γ : Type} [DecidableEq α] (f : α → β → γ) (d : Dict α β) (k : α) (v : β) :
    (d.set k v).mapVals f = (d.mapVals f).set k (f k v) := by
  induction d with
  | nil => rfl
  | cons kv d ih =>
    obtain ⟨k', v'⟩ := kv
    by_cases h : k' = k
    · subst h; simp [Dict.set, mapVals]
    · simp only [Dict.set, h, if_false]
      show (k', f k' v') :: (Dict.set d k v).mapVals f = _
      rw [ih]
      show _ = Dict.set ((k', f k' v') :: Dict.mapVals f d) k (f k v)
      simp [Dict.set, h]

theorem eraseCur_set {d : Dict Nat Meta} {p : Nat} {m : Meta} (h : d.get? p = some m) (e : Option Int) :
    eraseCur (d.set p { m with current := e }) = eraseCur d := by
  unfold eraseCur
  rw [mapVals_set]
  apply set_get?_self
  rw [get?_mapVals, h]; rfl

theorem meta_of_erase {d d' : Dict Nat Meta} (h : eraseCur d = eraseCur d') (p : Nat) :
    (d.get? p).map (fun m => { m with current := none }) = (d'.get? p).map (fun m => { m with current := none }) := by
  have := congrArg (fun x => Dict.get? x p) h
  simpa only [eraseCur, get?_mapVals] using this

theorem touchMeta_rel {ro : Bool} {K : List Name} {σ : Sched} {P : Nat → Policy} {A : Nat → Prop} {st st' : State}
    (h : StRel ro K σ P A st st') (p : Nat) (e : Int) :
    ERel (fun r r' => StRel ro K σ P A r.1 r'.1 ∧ r.2 = r'.2 ∧ r.1.pols = st.pols ∧ r'.1.pols = st'.pols)
      (touchMeta st p e) (touchMeta st' p e) := by
  unfold touchMeta
  have hmd := meta_of_erase (h.fr.md.trans h.fr'.md.symm) p
  unfold Dict.getE
  cases h1 : st.sched.md.get? p with
  | none =>
    rw [h1] at hmd
    cases h2 : st'.sched.md.get? p with
    | none => exact rfl
    | some m => rw [h2] at hmd; cases hmd
  | some m =>
    rw [h1] at hmd
    cases h2 : st'.sched.md.get? p with
    | none => rw [h2] at hmd; cases hmd
    | some m' =>
      rw [h2] at hmd
      have hmm : ({ m with current := some e } : Meta) = { m' with current := some e } := by
        cases m; cases m'; simp_all
      refine ⟨⟨h.store, ⟨h.fr.pol, ?_, h.fr.shape, h.fr.cov⟩, ⟨h.fr'.pol, ?_, h.fr'.shape, h.fr'.cov⟩, h.last⟩, hmm, rfl, rfl⟩
      · exact (eraseCur_set h1 (some e)).trans h.fr.md
      · exact (eraseCur_set h2 (some e)).trans h.fr'.md

/-- Policies of the same shape. -/
theorem shape_cases {q q' : Policy} (h : q.shape = q'.shape) :
    (∃ cfg l i l' i', q = .prune cfg l i ∧ q' = .prune cfg l' i') ∨ (∃ k t l l', q = .reg k t l ∧ q' = .reg k t l') ∨ (q = .other ∧ q' = .other) := by
  cases q <;> cases q' <;> simp_all [Policy.shape]

theorem covered_shape {ro : Bool} {q q' : Policy} (h : q.shape = q'.shape) : q'.Covered ro → q.Covered ro := by
  rcases shape_cases h with ⟨cfg, l, i, l', i', rfl, rfl⟩ | ⟨k, t, l, l', rfl, rfl⟩ | ⟨rfl, rfl⟩ <;> exact id

/-- Replacing the store. -/
theorem StRel.withStore {ro : Bool} {K : List Name} {σ : Sched} {P : Nat → Policy} {A : Nat → Prop} {st st' : State}
    (h : StRel ro K σ P A st st') {s s' : Store} (hs : SRel ro K s s') :
    StRel ro K σ P A { st with store := s } { st' with store := s' } := ⟨hs, ⟨h.fr.pol, h.fr.md, h.fr.shape, h.fr.cov⟩, ⟨h.fr'.pol, h.fr'.md, h.fr'.shape, h.fr'.cov⟩, h.last⟩

theorem StRel.setPol {ro : Bool} {K : List Name} {σ : Sched} {P : Nat → Policy} {A : Nat → Prop} {st st' : State}
    (h : StRel ro K σ P A st st') {p : Nat} {q q' : Policy} (hq : q.shape = (P p).shape) (hq' : q'.shape = (P p).shape)
    (hl : q.lastFlag = q'.lastFlag) : StRel ro K σ P (fun x => A x ∨ x = p) (Verif.setPol st p q) (Verif.setPol st' p q') := by
  refine ⟨h.store, ⟨h.fr.pol, h.fr.md, ?_, h.fr.cov⟩, ⟨h.fr'.pol, h.fr'.md, ?_, h.fr'.cov⟩, ?_⟩
  · intro x; simp only [Verif.setPol]; split
    · next e => rw [e]; exact hq
    · exact h.fr.shape x
  · intro x; simp only [Verif.setPol]; split
    · next e => rw [e]; exact hq'
    · exact h.fr'.shape x
  · intro x hx
    simp only [Verif.setPol]
    split
    · exact hl
    · next e => exact h.last x (hx.resolve_right e)

theorem StRel.both {ro : Bool} {K : List Name} {σ : Sched} {P : Nat → Policy} {A : Nat → Prop} {st st' : State}
    (h : StRel ro K σ P A st st') (p : Nat) : (st.pols p).shape = (st'.pols p).shape :=
  (h.fr.shape p).trans (h.fr'.shape p).symm

theorem policyEpochBegin_rel {env : Env} (he : env.Stateless) {ro : Bool} {K : List Name} {σ : Sched} {P : Nat → Policy} {A : Nat → Prop}
    {st st' : State} (h : StRel ro K σ P A st st') (e : Int) (p : Nat) :
    ERel (StRel ro K σ P (fun x => A x ∨ x = p)) (policyEpochBegin env e st p) (policyEpochBegin env e st' p) := by
  unfold policyEpochBegin
  refine (touchMeta_rel h p e).bind ?_
  rintro ⟨t, mt⟩ ⟨t', mt'⟩ ⟨ht, hmt, hp, hp'⟩
  simp only at hmt ht hp hp' ⊢
  subst hmt
  have hsh := ht.both p
  have hcov := covered_shape (ht.fr.shape p) (ht.fr.cov p)
  have f1 := ht.fr.shape p
  have f2 := ht.fr'.shape p
  rcases shape_cases hsh with ⟨cfg, l, i, l', i', e1, e2⟩ | ⟨k, th, l, l', e1, e2⟩ | ⟨e1, e2⟩
  · rw [e1] at hcov f1; rw [e2] at f2
    simp only [e1, e2]
    obtain ⟨hro, hpl⟩ := hcov
    subst hro
    refine (ht.store.forParams (body := pruneEpochBeginBody env p cfg i mt) (body' := pruneEpochBeginBody env p cfg i' mt)
      fun n _ s s' hs => beginBody_rel he hs p cfg hpl i i' mt n).bind fun s s' hs => ?_
    exact (ht.setPol (q := .prune cfg (decide (e = mt.ending - 1)) (i || !t.store.params.isEmpty))
      (q' := .prune cfg (decide (e = mt.ending - 1)) (i' || !t'.store.params.isEmpty)) f1 f2 rfl).withStore hs
  · rw [e1] at f1; rw [e2] at f2
    simp only [e1, e2]
    exact ht.setPol (q := .reg k th (decide (e = mt.ending - 1))) (q' := .reg k th (decide (e = mt.ending - 1))) f1 f2 rfl
  · simp only [e1, e2]
    refine ⟨ht.store, ht.fr, ht.fr', ?_⟩
    rintro x (hx | rfl)
    · exact ht.last x hx
    · rw [e1, e2]

theorem onEpochBegin_rel {env : Env} (he : env.Stateless) {ro : Bool} {K : List Name} {σ : Sched} {P : Nat → Policy}
    {st st' : State} (h : StRel ro K σ P (fun _ => False) st st') (e : Int) :
    ERel (StRel ro K σ P (fun p => p ∈ σ.active e)) (onEpochBegin env st e) (onEpochBegin env st' e) := by
  have ha : st.sched.active e = σ.active e := by unfold Sched.active; rw [h.fr.pol]
  have ha' : st'.sched.active e = σ.active e := by unfold Sched.active; rw [h.fr'.pol]
  unfold onEpochBegin
  rw [ha, ha']
  have : ∀ (l : List Nat) (A : Nat → Prop) (st st' : State), StRel ro K σ P A st st' →
      ERel (StRel ro K σ P (fun p => A p ∨ p ∈ l)) (l.foldlM (policyEpochBegin env e) st) (l.foldlM (policyEpochBegin env e) st') := by
    intro l
    induction l with
    | nil => intro A st st' h; exact ⟨h.store, h.fr, h.fr', fun p hp => h.last p (hp.resolve_right (by simp))⟩
    | cons p l ih =>
      intro A st st' h
      rw [List.foldlM_cons, List.foldlM_cons]
      refine (policyEpochBegin_rel he h e p).bind fun t t' ht => ?_
      have := ih _ t t' ht
      have eq : (fun x => (A x ∨ x = p) ∨ x ∈ l) = (fun x => A x ∨ x ∈ p :: l) := by
        funext x; simp [or_assoc]
      rw [eq] at this
      exact this
  have := this (σ.active e) (fun _ => False) st st' h
  simpa using this

theorem policyMbBegin_rel {env : Env} (he : env.Stateless) {ro : Bool} {K : List Name} {σ : Sched} {P : Nat → Policy} {A : Nat → Prop}
    {st st' : State} (h : StRel ro K σ P A st st') (e : Int) (mb mpe : Nat) (p : Nat) :
    ERel (StRel ro K σ P A) (policyMbBegin env e mb mpe st p) (policyMbBegin env e mb mpe st' p) := by
  unfold policyMbBegin
  refine (touchMeta_rel h p e).bind ?_
  rintro ⟨t, mt⟩ ⟨t', mt'⟩ ⟨ht, hmt, -, -⟩
  simp only at hmt ht ⊢
  subst hmt
  have hcov := covered_shape (ht.fr.shape p) (ht.fr.cov p)
  rcases shape_cases (ht.both p) with ⟨cfg, l, i, l', i', e1, e2⟩ | ⟨k, th, l, l', e1, e2⟩ | ⟨e1, e2⟩
  · rw [e1] at hcov
    simp only [e1, e2]
    obtain ⟨hro, -⟩ := hcov
    subst hro
    exact (ht.store.forParams fun n hn s s' hs => mbBeginBody_rel he hs p cfg _ mt n hn).bind fun s s' hs => ht.withStore hs
  · simp only [e1, e2]; exact ht
  · simp only [e1, e2]; exact ht

theorem policyBeforeOpt_rel {ro : Bool} {K : List Name} {σ : Sched} {P : Nat → Policy} {A : Nat → Prop}
    {st st' : State} (h : StRel ro K σ P A st st') (e : Int) (p : Nat) :
    ERel (StRel ro K σ P A) (policyBeforeOpt e st p) (policyBeforeOpt e st' p) := by
  unfold policyBeforeOpt
  refine (touchMeta_rel h p e).bind ?_
  rintro ⟨t, mt⟩ ⟨t', mt'⟩ ⟨ht, hmt, -, -⟩
  simp only at hmt ht ⊢
  rcases shape_cases (ht.both p) with ⟨cfg, l, i, l', i', e1, e2⟩ | ⟨k, th, l, l', e1, e2⟩ | ⟨e1, e2⟩
  · simp only [e1, e2]
    exact (ht.store.forParams fun n hn s s' hs => revertBody_rel hs n hn).bind fun s s' hs => ht.withStore hs
  · simp only [e1, e2]; exact ht
  · simp only [e1, e2]; exact ht

theorem policyMbEnd_rel {env : Env} (he : env.Stateless) {ro : Bool} {K : List Name} {σ : Sched} {P : Nat → Policy} {A : Nat → Prop}
    {st st' : State} (h : StRel ro K σ P A st st') (mb mpe : Nat) (p : Nat) (hp : A p) :
    ERel (StRel ro K σ P A) (policyMbEnd env mb mpe st p) (policyMbEnd env mb mpe st' p) := by
  unfold policyMbEnd
  have hl := h.last p hp
  have hcov := covered_shape (h.fr.shape p) (h.fr.cov p)
  rcases shape_cases (h.both p) with ⟨cfg, l, i, l', i', e1, e2⟩ | ⟨k, th, l, l', e1, e2⟩ | ⟨e1, e2⟩
  · simp only [e1, e2]
    split
    · exact (h.store.forParams fun n hn s s' hs => discardBody_rel hs n hn).bind fun s s' hs => h.withStore hs
    · exact h
  · rw [e1, e2] at hl
    rw [e1] at hcov
    have hro : ro = true := hcov
    subst hro
    simp only [Policy.lastFlag] at hl
    subst hl
    simp only [e1, e2]
    split
    · exact (h.store.forParams fun n hn s s' hs => regMbEndBody_rel he hs p _ n hn).bind fun s s' hs => h.withStore hs
    · exact h
  · simp only [e1, e2]; exact h

theorem policyEpochEnd_rel {ro : Bool} {K : List Name} {σ : Sched} {P : Nat → Policy} {A : Nat → Prop}
    {st st' : State} (h : StRel ro K σ P A st st') (e : Int) (p : Nat) (hp : A p) :
    ERel (StRel ro K σ P A) (policyEpochEnd e st p) (policyEpochEnd e st' p) := by
  unfold policyEpochEnd
  refine (touchMeta_rel h p e).bind ?_
  rintro ⟨t, mt⟩ ⟨t', mt'⟩ ⟨ht, hmt, -, -⟩
  simp only at hmt ht ⊢
  have hl := ht.last p hp
  rcases shape_cases (ht.both p) with ⟨cfg, l, i, l', i', e1, e2⟩ | ⟨k, th, l, l', e1, e2⟩ | ⟨e1, e2⟩
  · rw [e1, e2] at hl
    simp only [Policy.lastFlag] at hl
    subst hl
    simp only [e1, e2]
    split
    · exact (ht.store.forParams fun n hn s s' hs => epochEndBody_rel hs cfg n hn).bind fun s s' hs => ht.withStore hs
    · exact ht
  · simp only [e1, e2]; exact ht
  · simp only [e1, e2]; exact ht

/-- The events of the training loop within epoch `e`. -/
def Ev.In (e : Int) : Ev → Prop
  | .mbBegin e' _ _ => e' = e
  | .beforeOpt e' _ _ => e' = e
  | .write _ => True
  | .mbEnd e' _ _ => e' = e
  | .epochBegin _ => False
  | .epochEnd _ => False

theorem step_rel {env : Env} (he : env.Stateless) {ro : Bool} {K : List Name} {σ : Sched} {P : Nat → Policy} {e : Int}
    {st st' : State} (h : StRel ro K σ P (fun p => p ∈ σ.active e) st st') (ev : Ev) (hev : ev.In e) :
    ERel (StRel ro K σ P (fun p => p ∈ σ.active e)) (step env st ev) (step env st' ev) := by
  have act : ∀ {t t' : State}, StRel ro K σ P (fun p => p ∈ σ.active e) t t' → t.sched.active e = σ.active e ∧ t'.sched.active e = σ.active e := by
    intro t t' h; unfold Sched.active; rw [h.fr.pol, h.fr'.pol]; exact ⟨rfl, rfl⟩
  cases ev with
  | epochBegin _ => exact hev.elim
  | epochEnd _ => exact hev.elim
  | mbBegin e' mb mpe =>
    cases (hev : e' = e)
    unfold step onMbBegin
    simp only [(act h).1, (act h).2]
    exact foldlM_rel (fun p _ s s' hs => policyMbBegin_rel he hs e mb mpe p) st st' h
  | beforeOpt e' mb mpe =>
    cases (hev : e' = e)
    unfold step beforeOpt
    simp only [(act h).1, (act h).2]
    exact foldlM_rel (fun p _ s s' hs => policyBeforeOpt_rel hs e p) st st' h
  | write f =>
    refine h.withStore ⟨?_, ?_, h.store.qk, h.store.qk', h.store.rel⟩
    · simp [h.store.params]
    · simp [h.store.pk]
  | mbEnd e' mb mpe =>
    cases (hev : e' = e)
    unfold step onMbEnd
    simp only
    have hm : ERel (SRel ro K) (maskAllWeights st.store (isForward := false)) (maskAllWeights st'.store (isForward := false)) :=
      h.store.forParams fun n hn s s' hs => maskAllBody_rel hs false n hn
    refine hm.bind fun s s' hs => ?_
    simp only [(act h).1, (act h).2]
    exact foldlM_rel (fun p hp t t' ht => policyMbEnd_rel he ht mb mpe p hp) _ _ (h.withStore hs)

theorem trainEpoch_rel {env : Env} (he : env.Stateless) {ro : Bool} {K : List Name} {σ : Sched} {P : Nat → Policy} (a : TrainArgs) (steps : Nat)
    {st st' : State} (h : StRel ro K σ P (fun _ => False) st st') (e : Int) :
    ERel (fun r r' => StRel ro K σ P (fun _ => False) r.1 r'.1 ∧ r.2.epoch = r'.2.epoch ∧ SRel ro K r.2.validated r'.2.validated ∧
      SRel ro K r.2.saved r'.2.saved) (trainEpoch env a steps st e) (trainEpoch env a steps st' e) := by
  unfold trainEpoch
  refine (onEpochBegin_rel he h e).bind fun t t' ht => ?_
  have hr : ERel (StRel ro K σ P (fun p => p ∈ σ.active e)) (run env t (trainEvents a e steps)) (run env t' (trainEvents a e steps)) := by
    unfold run
    refine foldlM_rel (fun ev hev s s' hs => step_rel he hs ev ?_) t t' ht
    unfold trainEvents stepEvents at hev
    simp only [List.mem_flatMap] at hev
    obtain ⟨i, _, hi⟩ := hev
    simp only [List.mem_cons, List.not_mem_nil, or_false] at hi
    rcases hi with rfl | rfl | rfl | rfl <;> simp [Ev.In]
  refine hr.bind fun u u' hu => ?_
  have hE : ERel (StRel ro K σ P (fun p => p ∈ σ.active e)) (onEpochEnd u e) (onEpochEnd u' e) := by
    unfold onEpochEnd
    have e1 : u.sched.active e = σ.active e := by unfold Sched.active; rw [hu.fr.pol]
    have e2 : u'.sched.active e = σ.active e := by unfold Sched.active; rw [hu.fr'.pol]
    rw [e1, e2]
    exact foldlM_rel (fun p hp s s' hs => policyEpochEnd_rel hs e p hp) u u' hu
  refine hE.bind fun v v' hv => ?_
  exact ⟨⟨hv.store, hv.fr, hv.fr', fun _ h => h.elim⟩, rfl, hu.store, hv.store⟩

/-- Log entries with the same epoch, parameters and masks. -/
def LRel (ro : Bool) (K : List Name) (l l' : EpochLog) : Prop :=
  l.epoch = l'.epoch ∧ SRel ro K l.validated l'.validated ∧ SRel ro K l.saved l'.saved

theorem trainEpochs_rel {env : Env} (he : env.Stateless) {ro : Bool} {K : List Name} {σ : Sched} {P : Nat → Policy} (a : TrainArgs) (steps : Nat)
    (es : List Int) {st st' : State} (h : StRel ro K σ P (fun _ => False) st st') :
    ERel (fun r r' => StRel ro K σ P (fun _ => False) r.1 r'.1 ∧ List.Forall₂ (LRel ro K) r.2 r'.2)
      (trainEpochs env a steps st es) (trainEpochs env a steps st' es) := by
  induction es generalizing st st' with
  | nil => exact ⟨h, .nil⟩
  | cons e es ih =>
    unfold trainEpochs
    refine (trainEpoch_rel he a steps h e).bind fun r r' ⟨h1, h2, h3, h4⟩ => ?_
    refine (ih h1).bind fun q q' ⟨g1, g2⟩ => ?_
    exact ⟨g1, .cons ⟨h2, h3, h4⟩ g2⟩

theorem trainEpochs_append (env : Env) (a : TrainArgs) (steps : Nat) (st : State) (es fs : List Int) :
    trainEpochs env a steps st (es ++ fs) = (do
      let r ← trainEpochs env a steps st es
      let r' ← trainEpochs env a steps r.1 fs
      return (r'.1, r.2 ++ r'.2)) := by
  induction es generalizing st with
  | nil =>
    simp only [List.nil_append, trainEpochs, bind, Except.bind]
    cases trainEpochs env a steps st fs with
    | error e => rfl
    | ok r => rfl
  | cons e es ih =>
    simp only [List.cons_append, trainEpochs]
    cases trainEpoch env a steps st e with
    | error x => rfl
    | ok r =>
      simp only [bind, Except.bind]
      rw [ih]
      simp only [bind, Except.bind]
      cases trainEpochs env a steps r.1 es with
      | error x => rfl
      | ok q =>
        simp only [pure, Except.pure]
        cases trainEpochs env a steps q.1 fs with
        | error x => rfl
        | ok q' => rfl

end Verif
