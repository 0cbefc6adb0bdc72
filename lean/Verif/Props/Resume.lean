import Verif.Lemmas.Resume
import Verif.Props.Checkpoint
import Verif.Props.Training
import Verif.Model.Pruners
/-!
# C131: stopping and resuming a training session.  C132: the best checkpoint
-/
namespace Verif
open Dict

theorem dict_eq_of_get? {α β : Type} [DecidableEq α] {d d' : Dict α β} (hn : d.Nodup) (hk : d.map Prod.fst = d'.map Prod.fst)
    (hg : ∀ n, d.get? n = d'.get? n) : d = d' := by
  induction d generalizing d' with
  | nil => cases d' with
    | nil => rfl
    | cons _ _ => simp at hk
  | cons x d ih =>
    cases d' with
    | nil => simp at hk
    | cons y d' =>
      obtain ⟨a, v⟩ := x
      obtain ⟨b, w⟩ := y
      simp only [List.map_cons, List.cons.injEq] at hk
      obtain ⟨rfl, hk⟩ := hk
      have h0 := hg a
      simp [get?] at h0
      subst h0
      unfold Dict.Nodup at hn
      simp only [List.map_cons, List.nodup_cons] at hn
      rw [ih hn.2 hk]
      intro n
      by_cases e : a = n
      · subst e
        have h1 : Dict.get? d a = none := (get?_eq_none_iff _ _).2 hn.1
        have h2 : Dict.get? d' a = none := (get?_eq_none_iff _ _).2 (hk ▸ hn.1)
        rw [h1, h2]
      · have := hg n
        simpa [get?, e] using this

theorem pyRange_split (s k n : Int) (h1 : s ≤ k) (h2 : k ≤ n) : pyRange s n 1 = pyRange s k 1 ++ pyRange k n 1 := by
  obtain ⟨a, rfl⟩ : ∃ a : ℕ, k = s + a := ⟨(k - s).toNat, by omega⟩
  obtain ⟨b, rfl⟩ : ∃ b : ℕ, n = s + a + b := ⟨(n - (s + a)).toNat, by omega⟩
  unfold pyRange
  have e1 : ((s + a + b - s + 1 - 1) / 1).toNat = a + b := by omega
  have e2 : ((s + a - s + 1 - 1) / 1).toNat = a := by omega
  have e3 : ((s + a + b - (s + a) + 1 - 1) / 1).toNat = b := by omega
  rw [e1, e2, e3, List.range_add, List.map_append, List.map_map]
  congr 1
  apply List.map_congr_left
  intro i _
  simp only [Function.comp]
  push_cast
  ring

/-! ## C131 -/

/-- Specification: same parameters and same masks. -/
def SameWeights (s s' : Store) : Prop :=
  s.params = s'.params ∧ ∀ n, (s.maskers.get? n).map (·.mask) = (s'.maskers.get? n).map (·.mask)

/-- Specification: the same epoch, with the same network validated and the same network saved. -/
def SameEpoch (l l' : EpochLog) : Prop := l.epoch = l'.epoch ∧ SameWeights l.validated l'.validated ∧ SameWeights l.saved l'.saved

theorem SRel.same {ro : Bool} {K : List Name} {s s' : Store} (h : SRel ro K s s') : SameWeights s s' := by
  refine ⟨h.params, fun n => ?_⟩
  cases h1 : s.maskers.get? n with
  | none =>
    have : s'.maskers.get? n = none := by rw [get?_eq_none_iff] at h1 ⊢; rw [h.qk', ← h.qk]; exact h1
    rw [this]
  | some m =>
    cases h2 : s'.maskers.get? n with
    | none => rw [get?_eq_none_iff, h.qk', ← h.qk, ← get?_eq_none_iff, h1] at h2; cases h2
    | some m' => simp [(h.rel n m m' h1 h2).1]

/-- A pruning schedule without copies of weights, forward-only masks, gradient masks and skipped
mini-batches (the defaults), or a schedule without pruning. -/
def PlainSchedule (P : Nat → Policy) : Prop :=
  (∀ p, match P p with
    | .prune cfg _ _ => cfg.dbl = false ∧ cfg.fwdOnly = false ∧ cfg.maskGrads = false ∧ cfg.skipFirst = false
    | .reg _ _ _ => False
    | .other => True) ∨
  (∀ p, match P p with
    | .prune _ _ _ => False
    | _ => True)

theorem PlainSchedule.covered {P : Nat → Policy} (h : PlainSchedule P) : ∃ ro, ∀ p, (P p).Covered ro := by
  rcases h with h | h
  · refine ⟨false, fun p => ?_⟩
    have := h p
    cases hp : P p with
    | prune cfg _ _ => rw [hp] at this; exact ⟨rfl, this⟩
    | reg _ _ _ => rw [hp] at this; exact this.elim
    | other => trivial
  · refine ⟨true, fun p => ?_⟩
    have := h p
    cases hp : P p with
    | prune cfg _ _ => rw [hp] at this; exact this.elim
    | reg _ _ _ => rfl
    | other => trivial

/-- The arguments of a session that starts with a new model. -/
def freshArgs (σ : Sched) (P : Nat → Policy) (epochs : Int) : LearnerArgs := { compress := some (σ, P), epochs := epochs }

/-- The same with `--resume-from`. -/
def resumeArgs (σ : Sched) (P : Nat → Policy) (epochs : Int) (c : Ckpt) : LearnerArgs := { compress := some (σ, P), epochs := epochs, resumed := some c }

/-- The session of a learner: training with the data and optimizer updates of `a`. -/
def session (env : Env) (a : TrainArgs) (L : Learner) : Except Err (State × List EpochLog) :=
  runTrainingLoop env { a with start := L.start, ending := L.ending } L.state

theorem initLearner_fresh (m : NetState) (sgd : OptState) (σ : Sched) (P : Nat → Policy) (epochs : Int) :
    initLearner m sgd (freshArgs σ P epochs) = .ok ⟨m, createModelMasksDict m.params, σ, P, some sgd, 0, epochs, none⟩ := rfl

theorem initLearner_resumed {m0 m' : NetState} (sgd : OptState) (σ : Sched) (P : Nat → Policy) (epochs : Int) {c : Ckpt} {l : Loaded} {o : OptState}
    (h : loadCkpt m0 c false = (m', .ok l)) (ho : l.opt = some o) :
    initLearner m0 sgd (resumeArgs σ P epochs c) =
      .ok ⟨m', l.sched.getD (createModelMasksDict m'.params), σ, P, some o, l.startEpoch, epochs, some (l.startEpoch - 1)⟩ := by
  unfold initLearner loadStage resumeArgs LearnerArgs.deprecate
  simp only [h, bind, Except.bind, Bool.false_eq_true, if_false, ho]
  rfl

theorem runLoop_ok {env : Env} {a : TrainArgs} {st : State} {r : State × List EpochLog} (h : runTrainingLoop env a st = .ok r) :
    a.start < a.ending ∧ ∃ steps, stepsPerEpoch a = .ok steps ∧ trainEpochs env a steps st (pyRange a.start a.ending 1) = .ok r := by
  unfold runTrainingLoop at h
  split at h
  · cases h
  · next hlt =>
    obtain ⟨steps, h1, h2⟩ := ok_bind h
    exact ⟨by omega, steps, h1, h2⟩

theorem trainEpoch_range (env : Env) (a : TrainArgs) (s e : Int) (steps : Nat) (st : State) (x : Int) :
    trainEpoch env { a with start := s, ending := e } steps st x = trainEpoch env a steps st x := rfl

theorem trainEpochs_range (env : Env) (a : TrainArgs) (s e : Int) (steps : Nat) (st : State) (es : List Int) :
    trainEpochs env { a with start := s, ending := e } steps st es = trainEpochs env a steps st es := by
  induction es generalizing st with
  | nil => rfl
  | cons x es ih =>
    unfold trainEpochs
    rw [trainEpoch_range]
    simp only [ih]

theorem runLoop_of {env : Env} {a : TrainArgs} {st : State} {r : State × List EpochLog} {steps : Nat} (h0 : a.start < a.ending)
    (h1 : stepsPerEpoch a = .ok steps) (h2 : trainEpochs env a steps st (pyRange a.start a.ending 1) = .ok r) : runTrainingLoop env a st = .ok r := by
  unfold runTrainingLoop
  rw [if_neg (by omega), h1]
  exact h2

theorem RFrame.refl {ro : Bool} (σ : Sched) (P : Nat → Policy) (hP : ∀ p, (P p).Covered ro) (s : Store) : RFrame ro σ P ⟨s, σ, P⟩ :=
  ⟨rfl, rfl, fun _ => rfl, hP⟩

theorem srel_create {ro : Bool} (params : Dict Name Tensor) :
    SRel ro (params.map Prod.fst) ⟨params, createModelMasksDict params, 0⟩ ⟨params, createModelMasksDict params, 0⟩ := by
  refine ⟨rfl, rfl, createMasks_keys _, createMasks_keys _, ?_⟩
  intro n m m' h h'
  have hn : n ∈ params.map Prod.fst := by
    rw [← createMasks_keys, ← get?_isSome_iff]
    show (Dict.get? (createModelMasksDict params) n).isSome
    rw [h]; rfl
  have h := h.symm.trans (createMasks_get params n hn)
  have h' := h'.symm.trans (createMasks_get params n hn)
  cases h; cases h'
  exact ⟨rfl, rfl, rfl, rfl, rfl, rfl, rfl, by simp, by simp, by simp⟩

theorem SRel.self {ro : Bool} {K : List Name} {s s' : Store} (h : SRel ro K s s') (hself : SRel ro K s s) (t : Store)
    (hp : t.params = s.params) (hk : t.maskers.map Prod.fst = K) (hm : ∀ n k, s.maskers.get? n = some k → t.maskers.get? n = some { mask := k.mask }) :
    SRel ro K s t := by
  refine ⟨hp.symm, h.pk, h.qk, hk, ?_⟩
  intro n m m' h1 h2
  rw [hm n m h1] at h2
  cases h2
  obtain ⟨a1, a2, a3, a4, a5, a6, a7, a8, a9, a10⟩ := hself.rel n m m h1 h1
  exact ⟨rfl, a2, rfl, a4, rfl, a6, rfl, a8, by simp, fun h => ⟨(a10 h).1, rfl⟩⟩

/-- **C131**: for pruners and regularizers without state, and schedules that are plain, a session that
is stopped after any epoch `k`, and resumed with `--resume-from` its last checkpoint in a newly
created model, continues at epoch `k + 1` with the saved optimizer state (learning-rate schedules are
told that `k` epochs are done), and validates and saves, in every epoch, the same weights and masks
as the session that was not stopped.
`a` holds the data and what the optimizer does in each step; the sizes of tensors do not change.
Missing for the full property: other schedules and pruners with state, for which it is false
(`C131_violated_*`). -/
theorem C131_resume_partial (env : Env) (hs : ∀ t t', env.prune t = env.prune t' ∧ env.thresh t = env.thresh t')
    (a : TrainArgs) (m m0 : NetState) (sgd opt : OptState) (arch : String) (σ : Sched) (P : Nat → Policy) (hP : PlainSchedule P)
    (N : Int) (L0 : Learner) (h0 : initLearner m sgd (freshArgs σ P N) = .ok L0)
    (stN : State) (logs : List EpochLog) (hrun : session env a L0 = .ok (stN, logs))
    (k : Int) (hk0 : 0 ≤ k) (hkN : k + 1 < N)
    (hm : (m.params ++ m.buffers).Nodup) (harch : arch ≠ "") (ha : m0.arch = none ∨ m0.arch = some arch)
    (hp : m0.params.map Prod.fst = m.params.map Prod.fst) (hb : m0.buffers.map Prod.fst = m.buffers.map Prod.fst)
    (hsz : ∀ l ∈ logs, SameSizes m0.params l.saved.params) (hbs : SameSizes m0.buffers m.buffers) (hopt : opt.nparams = m.params.length) :
    ∃ (Lk : Learner) (stk : State) (logs1 : List EpochLog) (L : Learner) (stN' : State) (logs2 : List EpochLog),
      initLearner m sgd (freshArgs σ P (k + 1)) = .ok Lk ∧ session env a Lk = .ok (stk, logs1) ∧
      initLearner m0 sgd (resumeArgs σ P N
        (saveCkpt k arch { m with params := stk.store.params } (some opt) (some stk.store.maskers))) = .ok L ∧
      L.start = k + 1 ∧ L.opt = some opt ∧ L.lrEpoch = some k ∧ (∀ n, L.model.buffers.get? n = m.buffers.get? n) ∧
      session env a L = .ok (stN', logs2) ∧ SameWeights stN'.store stN.store ∧ List.Forall₂ SameEpoch (logs1 ++ logs2) logs := by
  obtain ⟨ro, hcov⟩ := hP.covered
  rw [initLearner_fresh] at h0
  cases h0
  obtain ⟨hlt, steps, hst, htr⟩ := runLoop_ok hrun
  simp only at hlt hst htr
  rw [trainEpochs_range, pyRange_split 0 (k + 1) N (by omega) (by omega), trainEpochs_append] at htr
  obtain ⟨⟨stk, logs1⟩, ht1, htr⟩ := ok_bind htr
  obtain ⟨⟨stE, logs2⟩, ht2, htr⟩ := ok_bind htr
  simp only at ht2 htr
  have hres : stE = stN ∧ logs1 ++ logs2 = logs := by
    simpa [pure, Except.pure] using htr
  obtain ⟨rfl, rfl⟩ := hres
  have hst' : ∀ s e, stepsPerEpoch { a with start := s, ending := e } = .ok steps := fun s e => hst
  let K := m.params.map Prod.fst
  have hinit : StRel ro K σ P (fun _ => False) ⟨⟨m.params, createModelMasksDict m.params, 0⟩, σ, P⟩ ⟨⟨m.params, createModelMasksDict m.params, 0⟩, σ, P⟩ :=
    ⟨srel_create m.params, RFrame.refl σ P hcov _, RFrame.refl σ P hcov _, fun _ h => h.elim⟩
  obtain ⟨r', hr', hrel1⟩ := (trainEpochs_rel hs a steps (pyRange 0 (k + 1) 1) hinit).ok ht1
  have e1 : r' = (stk, logs1) := by
    have := hr'.symm.trans ht1
    cases this; rfl
  subst e1
  obtain ⟨hk1, hl1⟩ := hrel1
  simp only at hk1 hl1
  -- the last saved network is the final state
  have hsize : SameSizes m0.params stk.store.params := by
    have hlast : ∀ (es : List Int) (st st' : State) (ls : List EpochLog), es ≠ [] → trainEpochs env a steps st es = .ok (st', ls) →
        ∃ l ∈ ls, l.saved = st'.store := by
      intro es
      induction es with
      | nil => intro _ _ _ h; exact absurd rfl h
      | cons x es ih =>
        intro st st' ls _ h
        unfold trainEpochs at h
        obtain ⟨⟨s1, l1⟩, g1, h⟩ := ok_bind h
        obtain ⟨⟨s2, l2⟩, g2, h⟩ := ok_bind h
        cases h
        by_cases he : es = []
        · subst he
          cases g2
          refine ⟨l1, by simp, ?_⟩
          unfold trainEpoch at g1
          obtain ⟨u, _, g1⟩ := ok_bind g1
          obtain ⟨v, _, g1⟩ := ok_bind g1
          obtain ⟨w, _, g1⟩ := ok_bind g1
          cases g1; rfl
        · obtain ⟨l, hl, hl'⟩ := ih s1 s2 l2 he g2
          exact ⟨l, by simp [hl], hl'⟩
    have hne : pyRange 0 (k + 1) 1 ≠ [] := by
      intro h
      have := congrArg List.length h
      simp [pyRange] at this
      omega
    obtain ⟨l, hl, hl'⟩ := hlast _ _ _ _ hne ht1
    rw [← hl']
    exact hsz l (by simp [hl])
  have hpk : stk.store.params.map Prod.fst = m.params.map Prod.fst := hk1.store.pk
  have hmk : stk.store.maskers.map Prod.fst = stk.store.params.map Prod.fst := hk1.store.qk.trans hpk.symm
  have hnd : (stk.store.params ++ m.buffers).Nodup := by
    unfold Dict.Nodup at hm ⊢
    rw [List.map_append, hpk, ← List.map_append]; exact hm
  obtain ⟨m', mk', hload, c1, c2, c3, c4, c5⟩ := C44_round_trip k arch harch { m with params := stk.store.params } m0 opt stk.store.maskers
    hnd (hp.trans hpk.symm) hb hsize hbs (by
      have := congrArg List.length hpk
      simp at this
      simp [this, hopt]) hmk ha
  have hmp : m'.params = stk.store.params := by
    refine (dict_eq_of_get? ?_ ?_ fun n => (c1 n).symm).symm
    · unfold Dict.Nodup at hnd ⊢
      rw [List.map_append] at hnd
      exact (List.nodup_append.1 hnd).1
    · rw [c5, hpk, hp]
  have hL := initLearner_resumed sgd σ P N hload rfl
  have hresume : StRel ro K σ P (fun _ => False) stk ⟨⟨m'.params, mk', 0⟩, σ, P⟩ :=
    ⟨hk1.store.self hk1.store _ hmp (by rw [c3, hp]) c4, hk1.fr, RFrame.refl σ P hcov _, fun _ h => h.elim⟩
  obtain ⟨⟨stN', logs2'⟩, hr2, hrel2, hl2⟩ := (trainEpochs_rel hs a steps (pyRange (k + 1) N 1) hresume).ok ht2
  simp only at hrel2 hl2
  refine ⟨_, stk, logs1, _, stN', logs2', initLearner_fresh m sgd σ P (k + 1), ?_, hL, rfl, rfl, ?_, c2, ?_, ?_, ?_⟩
  · exact runLoop_of (show (0 : Int) < k + 1 by omega) (hst' _ _) (by rw [trainEpochs_range]; exact ht1)
  · show some (k + 1 - 1) = some k
    congr 1; omega
  · exact runLoop_of (show k + 1 < N by omega) (hst' _ _) (by rw [trainEpochs_range]; exact hr2)
  · have := hrel2.store.same
    exact ⟨this.1.symm, fun n => (this.2 n).symm⟩
  · refine List.rel_append (R := SameEpoch) ?_ ?_
    · exact hl1.imp fun l l' h => ⟨h.1, h.2.1.same, h.2.2.same⟩
    · refine (hl2.flip.imp fun l l' h => ⟨h.1.symm, ?_, ?_⟩)
      · exact ⟨h.2.1.same.1.symm, fun n => (h.2.1.same.2 n).symm⟩
      · exact ⟨h.2.2.same.1.symm, fun n => (h.2.2.same.2 n).symm⟩

/-- A network with one parameter. -/
def resNet : NetState := { params := [(["fc", "w"], [1, 1])] }

/-- Pruners that remove the first weight from epoch `from` on. -/
def resEnv (first : Int) : Env :=
  { prune := fun _ _ _ _ _ mt => .ok (some (if (mt.current.getD 0) < first then [1, 1] else [0, 1]))
    thresh := fun _ _ _ _ => none
    folded := fun _ _ _ => none }

/-- One mini-batch per epoch; every step adds one to every weight. -/
def resTrain : TrainArgs := { start := 0, ending := 0, samples := 1, batch := 1, upd := fun _ _ _ w => w.map (· + 1) }

/-- The schedule with one policy, number 0. -/
def resSched (st en fr : Int) : Sched := (({} : Sched).addPolicy { policy := 0, starting := some st, ending := some en, freq := some fr }).1

/-- The weights of a session. -/
def sessionWeights (r : Except Err (State × List EpochLog)) : Option (List (Dict Name Tensor)) :=
  match r with
  | .ok r => some (r.2.map fun l => l.saved.params)
  | .error _ => none

/-- The final state of a session of the network above. -/
def resState (cfg : PruneCfg) (env : Env) (σ : Sched) (epochs : Int) : Option State :=
  match initLearner resNet ⟨"SGD", 1, 0⟩ (freshArgs σ (fun _ => .prune cfg false false) epochs) with
  | .ok L => (match session env resTrain L with
    | .ok r => some r.1
    | .error _ => none)
  | .error _ => none

/-- Stop after epoch `k` and resume: the weights saved in the following epochs. -/
def resResumed (cfg : PruneCfg) (env : Env) (σ : Sched) (epochs k : Int) : Option (List (Dict Name Tensor)) :=
  match resState cfg env σ (k + 1) with
  | none => none
  | some st =>
    match initLearner resNet ⟨"SGD", 1, 0⟩ (resumeArgs σ (fun _ => .prune cfg false false) epochs
        (saveCkpt k "net" { resNet with params := st.store.params } (some ⟨"SGD", 1, 7⟩) (some st.store.maskers))) with
    | .ok L => sessionWeights (session env resTrain L)
    | .error _ => none

/-- The weights saved in all epochs of a session that is not stopped. -/
def resFull (cfg : PruneCfg) (env : Env) (σ : Sched) (epochs : Int) : Option (List (Dict Name Tensor)) :=
  match initLearner resNet ⟨"SGD", 1, 0⟩ (freshArgs σ (fun _ => .prune cfg false false) epochs) with
  | .ok L => sessionWeights (session env resTrain L)
  | .error _ => none

example : resFull ({} : PruneCfg) (resEnv 1) (resSched 0 3 1) 3 = some [[(["fc", "w"], [2, 2])], [(["fc", "w"], [0, 3])], [(["fc", "w"], [0, 4])]] ∧
    resResumed ({} : PruneCfg) (resEnv 1) (resSched 0 3 1) 3 0 = some [[(["fc", "w"], [0, 3])], [(["fc", "w"], [0, 4])]] ∧
    resResumed ({} : PruneCfg) (resEnv 1) (resSched 0 3 1) 3 1 = some [[(["fc", "w"], [0, 4])]] :=
  ⟨by decide +kernel, by decide +kernel, by decide +kernel⟩

example : (∀ t t', (resEnv 1).prune t = (resEnv 1).prune t' ∧ (resEnv 1).thresh t = (resEnv 1).thresh t') ∧
    PlainSchedule (fun _ => .prune {} false false) ∧ (resNet.params ++ resNet.buffers).Nodup :=
  ⟨fun _ _ => ⟨rfl, rfl⟩, .inl fun _ => ⟨rfl, rfl, rfl, rfl⟩, by unfold Dict.Nodup; decide⟩

/-- **C131** is violated by forward-only masking when the session is stopped before an epoch in which
the pruning policy does not run: the checkpoint does not say that masks are for forward passes only,
so in the resumed session they are applied to the weights after each update. -/
theorem C131_violated_forward_only : ∃ w1 w2,
    resFull { fwdOnly := true } (resEnv 0) (resSched 0 4 2) 2 = some [w1, [(["fc", "w"], [2, 3])]] ∧
    resResumed { fwdOnly := true } (resEnv 0) (resSched 0 4 2) 2 0 = some [w2] ∧ w2 = [(["fc", "w"], [0, 3])] :=
  ⟨[(["fc", "w"], [1, 2])], [(["fc", "w"], [0, 3])], by decide +kernel⟩

/-- **C131** is violated with `skip_first_minibatch`: the resumed policy believes that it is at its very
first mini-batch and does not prune in the first epoch after resumption. -/
theorem C131_violated_skip_first : ∃ w1 w2 w3,
    resFull { skipFirst := true } (resEnv 2) (resSched 0 4 1) 3 = some [w1, w2, [(["fc", "w"], [0, 4])]] ∧
    resResumed { skipFirst := true } (resEnv 2) (resSched 0 4 1) 3 1 = some [w3] ∧ w3 = [(["fc", "w"], [4, 4])] :=
  ⟨[(["fc", "w"], [2, 2])], [(["fc", "w"], [3, 3])], [(["fc", "w"], [4, 4])], by decide +kernel⟩

/-- **C131** is violated by the sensitivity pruner, which keeps the standard deviation of the weights of
the first epoch on the parameter object: after resumption it is computed anew, and other weights are
pruned.  (`std` is `torch.std`, here at two tensors.) -/
theorem C131_violated_sensitivity (std : Tensor → ℚ) (h1 : std [-2, 0, 2] = 2) (h2 : std [-1, 0, 1] = 1) :
    (sensitivitySetMask std [(["w"], 1/2)] ["w"] { (sensitivitySetMask std [(["w"], 1/2)] ["w"] { data := [-2, 0, 2] } none).1 with data := [-1, 0, 1] }
      (some [1, 0, 1])).2 = some [0, 0, 0] ∧
    (sensitivitySetMask std [(["w"], 1/2)] ["w"] { data := [-1, 0, 1] } (some [1, 0, 1])).2 = some [1, 0, 1] := by
  have t1 : createMaskThreshold [-1, 0, 1] (2 * (1/2)) = [0, 0, 0] := by decide +kernel
  have t2 : createMaskThreshold [-1, 0, 1] (1 * (1/2)) = [1, 0, 1] := by decide +kernel
  have hl : sensLookup [(["w"], 1/2)] ["w"] = some (1/2) := by decide +kernel
  simp only [sensitivitySetMask, hl, createMaskSensitivity, h1, h2, Option.getD_some, t1, t2, and_self]

/-- **C131** is violated by the deprecated `--resume` flag: training always starts again at epoch 0 with a
new optimizer, whatever is in the checkpoint, although `--reset-optimizer` was not given. -/
theorem C131_violated_deprecated_flag (m : NetState) (sgd : OptState) (a : LearnerArgs) (c : Ckpt) (ha : a.deprecatedResume = some c)
    (he : a.evaluate = false) (L : Learner) (h : initLearner m sgd a = .ok L) : L.start = 0 ∧ L.opt = some sgd := by
  unfold initLearner at h
  simp only [LearnerArgs.deprecate, ha] at h
  obtain ⟨⟨m', l⟩, _, h⟩ := ok_bind h
  simp only [if_true, Option.isNone_none, he, Bool.not_false, Bool.and_self] at h
  cases h
  exact ⟨rfl, rfl⟩

/-- **C131** (other ways to start): without a checkpoint training starts at epoch 0 with a new optimizer
(and, when evaluating, with none); with `--load-model-path` likewise, with the stored weights only; with
`--reset-optimizer` at epoch 0 with a new optimizer, but with the stored weights and masks. -/
theorem C131_start (m : NetState) (sgd : OptState) (a : LearnerArgs) (hd : a.deprecatedResume = none) (L : Learner)
    (h : initLearner m sgd a = .ok L) :
    L.ending = a.epochs ∧
    (a.resumed = none → L.start = 0 ∧ L.opt = (if a.evaluate then none else some sgd) ∧ L.lrEpoch = none ∧
      L.maskers = createModelMasksDict L.model.params) ∧
    (a.resumed = none → a.loadModel = none → L.model = m) ∧
    (∀ c, a.resumed = none → a.loadModel = some c → ∃ l, loadCkpt m c true = (L.model, .ok l)) ∧
    (∀ c, a.resumed = some c → ∃ l, loadCkpt m c false = (L.model, .ok l) ∧
      L.maskers = l.sched.getD (createModelMasksDict L.model.params) ∧
      L.start = (if a.resetOpt then 0 else l.startEpoch) ∧ L.lrEpoch = some (L.start - 1) ∧
      (∀ o, l.opt = some o → a.resetOpt = false → L.opt = some o) ∧
      ((l.opt = none ∨ a.resetOpt = true) → L.opt = (if a.evaluate then none else some sgd))) := by
  unfold initLearner at h
  simp only [LearnerArgs.deprecate, hd] at h
  obtain ⟨⟨m', l⟩, hl, h⟩ := ok_bind h
  simp only at h
  cases h
  unfold loadStage at hl
  cases hr : a.resumed with
  | none =>
    rw [hr] at hl
    simp only at hl
    have hl' : l = ⟨none, none, 0⟩ ∧ (a.loadModel = none → m' = m) ∧ ∀ c, a.loadModel = some c → ∃ l, loadCkpt m c true = (m', .ok l) := by
      cases hm : a.loadModel with
      | none => rw [hm] at hl; cases hl; exact ⟨rfl, fun _ => rfl, by simp⟩
      | some c =>
        rw [hm] at hl
        simp only at hl
        split at hl
        · next x y hx => cases hl; exact ⟨rfl, by simp, fun c' hc => by cases hc; exact ⟨y, hx⟩⟩
        · cases hl
    obtain ⟨rfl, h2, h3⟩ := hl'
    refine ⟨rfl, fun _ => ⟨by simp, ?_, by simp, rfl⟩, fun _ => h2, fun c _ => h3 c, by simp⟩
    cases a.evaluate <;> simp
  | some c =>
    rw [hr] at hl
    simp only at hl
    split at hl
    · next x y hx =>
      cases hl
      refine ⟨rfl, by simp, by simp, by simp, ?_⟩
      intro c' hc; cases hc
      refine ⟨l, hx, rfl, rfl, by simp, ?_, ?_⟩
      · intro o ho hz; simp [ho, hz]
      · rintro (ho | hz)
        · cases a.evaluate <;> simp [ho]
        · cases a.evaluate <;> simp [hz]
    · cases hl

/-! ## C132 -/

theorem best_eq (maxLen : ℕ) (hm : 1 ≤ maxLen) (ps : List Perf) (p : Perf) :
    ∃ b, (trackAll maxLen (ps ++ [p])).best 1 = [b] ∧ b ∈ ps ++ [p] ∧ ∀ q ∈ ps ++ [p], RankedGE b q := by
  obtain ⟨b, h1, h2, h3⟩ := C49_first_is_best maxLen hm (ps ++ [p]) (by simp)
  exact ⟨b, h2, h1, h3⟩

theorem trackAll_snoc (maxLen : ℕ) (ps : List Perf) (p : Perf) : trackAll maxLen (ps ++ [p]) = (trackAll maxLen ps).step p := by
  simp [trackAll, List.foldl_append]

/-- **C132**: in a session whose epochs all differ, `checkpoint.pth.tar` is always that of the last epoch and
`best.pth.tar` that of the best-ranked epoch of the session (fewest non-zero weights, then highest top-1,
top-5, and latest).  Missing: sessions that continue an earlier one (`C132_violated_resumed`). -/
theorem C132_best_partial (maxLen : ℕ) (hm : 1 ≤ maxLen) (f : CkptFiles) (ps : List Perf) (hne : ps ≠ []) (hd : (ps.map (·.epoch)).Nodup) :
    ∃ t b, sessionFiles maxLen f ps = .ok (t, ⟨ps.getLast?, some b⟩) ∧ b ∈ ps ∧ ∀ q ∈ ps, RankedGE b q := by
  have key : ∀ ps : List Perf, (ps.map (·.epoch)).Nodup → ∃ g, sessionFiles maxLen f ps = .ok (trackAll maxLen ps, g) ∧
      (ps ≠ [] → g.last = ps.getLast? ∧ ∃ b, g.best = some b ∧ b ∈ ps ∧ ∀ q ∈ ps, RankedGE b q) := by
    intro ps
    induction ps using List.reverseRecOn with
    | nil => intro _; exact ⟨f, rfl, by simp⟩
    | append_singleton ps p ih =>
      intro hd
      have hd0 := hd
      rw [List.map_append, List.nodup_append] at hd
      obtain ⟨g, hg, hinv⟩ := ih hd.1
      obtain ⟨b, hb, hbm, hbr⟩ := best_eq maxLen hm ps p
      have hstep : sessionFiles maxLen f (ps ++ [p]) =
          .ok (trackAll maxLen (ps ++ [p]), { last := some p, best := if p.epoch = b.epoch then some p else g.best }) := by
        unfold sessionFiles at hg ⊢
        rw [List.foldlM_append, hg]
        simp only [bind, Except.bind, List.foldlM_cons, List.foldlM_nil, finalizeEpoch]
        rw [← trackAll_snoc, hb]
        rfl
      refine ⟨_, hstep, fun _ => ⟨by simp, ?_⟩⟩
      by_cases he : p.epoch = b.epoch
      · have hbp : b = p := by
          rcases List.mem_append.1 hbm with h | h
          · exfalso
            exact hd.2.2 b.epoch (List.mem_map_of_mem h) p.epoch (by simp) he.symm
          · simpa using h
        subst hbp
        exact ⟨b, by simp, hbm, hbr⟩
      · have hb' : b ∈ ps := by
          rcases List.mem_append.1 hbm with h | h
          · exact h
          · simp at h; subst h; exact absurd rfl he
        obtain ⟨_, c, hc, hcm, hcr⟩ := hinv (List.ne_nil_of_mem hb')
        refine ⟨c, by simp [he, hc], by simp [hcm], ?_⟩
        intro q hq
        rcases List.mem_append.1 hq with h | h
        · exact hcr q h
        · have h1 := hcr b hb'
          have h2 := hbr q hq
          rw [rankedGE_iff] at h1 h2 ⊢
          exact le_trans h2 h1
  obtain ⟨g, hg, hinv⟩ := key ps hd
  obtain ⟨h1, b, h2, h3, h4⟩ := hinv hne
  refine ⟨trackAll maxLen ps, b, ?_, h3, h4⟩
  rw [hg, ← h1, ← h2]

example : ∃ t, sessionFiles 1 {} [⟨-10, 50, 70, 0⟩, ⟨-8, 60, 80, 1⟩, ⟨-8, 55, 90, 2⟩] = .ok (t, ⟨some ⟨-8, 55, 90, 2⟩, some ⟨-8, 60, 80, 1⟩⟩) :=
  ⟨(trackAll 1 [⟨-10, 50, 70, 0⟩, ⟨-8, 60, 80, 1⟩, ⟨-8, 55, 90, 2⟩]), by decide +kernel⟩

/-- **C132** is violated by resumed sessions: the tracker is empty at the start, so the first epoch of the
resumed session replaces the best checkpoint of the session that was stopped, however bad it is. -/
theorem C132_violated_resumed (maxLen : ℕ) (hm : 1 ≤ maxLen) (f : CkptFiles) (p : Perf) :
    ∃ t, sessionFiles maxLen f [p] = .ok (t, ⟨some p, some p⟩) := by
  obtain ⟨t, b, h, hb, _⟩ := C132_best_partial maxLen hm f [p] (by simp) (by simp)
  simp at hb
  subst hb
  exact ⟨t, h⟩

/-- **C132** is violated when no scores are kept (`--num-best-scores 0`): the first epoch ends with an error
after training, before any checkpoint is written. -/
theorem C132_violated_no_scores (f : CkptFiles) (p : Perf) (ps : List Perf) : sessionFiles 0 f (p :: ps) = .error .index := by
  unfold sessionFiles
  rw [List.foldlM_cons]
  have : finalizeEpoch (⟨[], 0⟩, f) p = .error .index := by
    unfold finalizeEpoch Tracker.best Tracker.step
    simp
  rw [this]
  rfl

end Verif
