import Verif.Model.TrainLoop
import Verif.Model.Pruners
import Verif.Props.Masking3
import Verif.Props.Pruners
/-!
# C85: the training loop.  C86: gradual pruning end to end
-/
namespace Verif
open Dict

/-! ## C85 -/

/-- The scheduler calls of a whole epoch. -/
def epochEvents (a : TrainArgs) (steps : Nat) (e : Int) : List Ev :=
  [.epochBegin e] ++ trainEvents a e steps ++ [.epochEnd e]

theorem run_append (env : Env) (st : State) (l1 l2 : List Ev) :
    run env st (l1 ++ l2) = run env st l1 >>= fun t => run env t l2 := by
  unfold run; exact List.foldlM_append

theorem run_single (env : Env) (st : State) (ev : Ev) : run env st [ev] = step env st ev := by
  unfold run
  rw [List.foldlM_cons]
  cases step env st ev with
  | error e => rfl
  | ok t => rfl

theorem run_append_ok {env : Env} {st st' : State} {l1 l2 : List Ev} (h : run env st (l1 ++ l2) = .ok st') :
    ∃ t, run env st l1 = .ok t ∧ run env t l2 = .ok st' := by
  rw [run_append] at h; exact ok_bind h

theorem run_append_of {env : Env} {st t st' : State} {l1 l2 : List Ev} (h1 : run env st l1 = .ok t)
    (h2 : run env t l2 = .ok st') : run env st (l1 ++ l2) = .ok st' := by
  rw [run_append, h1]; exact h2

theorem trainEpoch_ok {env : Env} {a : TrainArgs} {steps : Nat} {st st' : State} {e : Int} {log : EpochLog}
    (h : trainEpoch env a steps st e = .ok (st', log)) :
    ∃ stV, run env st ([.epochBegin e] ++ trainEvents a e steps) = .ok stV ∧ onEpochEnd stV e = .ok st' ∧
      log = ⟨e, stV.store, st'.store⟩ := by
  unfold trainEpoch at h
  obtain ⟨st1, h1, h⟩ := ok_bind h
  obtain ⟨st2, h2, h⟩ := ok_bind h
  obtain ⟨st3, h3, h⟩ := ok_bind h
  injection h with h
  injection h with ha hb
  subst ha; subst hb
  exact ⟨st2, run_append_of (by rw [run_single]; exact h1) h2, h3, rfl⟩

/-- Everything a finished loop tells: the epochs in order, the run as one history, and each log entry as
the state reached by a prefix of that history. -/
theorem trainEpochs_ok {env : Env} {a : TrainArgs} {steps : Nat} (es : List Int) {st st' : State} {logs : List EpochLog}
    (h : trainEpochs env a steps st es = .ok (st', logs)) :
    logs.map EpochLog.epoch = es ∧ run env st (es.flatMap (epochEvents a steps)) = .ok st' ∧
    ∀ log ∈ logs, ∃ (pre : List Int) (stV stS : State), (pre ++ [log.epoch]) <+: es ∧
      run env st (pre.flatMap (epochEvents a steps) ++ [.epochBegin log.epoch] ++ trainEvents a log.epoch steps) = .ok stV ∧
      stV.store = log.validated ∧ onEpochEnd stV log.epoch = .ok stS ∧ stS.store = log.saved := by
  induction es generalizing st logs with
  | nil => cases h; exact ⟨rfl, rfl, by simp⟩
  | cons e es ih =>
    unfold trainEpochs at h
    obtain ⟨⟨st1, log1⟩, h1, h⟩ := ok_bind h
    obtain ⟨⟨st2, logs2⟩, h2, h⟩ := ok_bind h
    injection h with h
    injection h with ha hb
    subst ha; subst hb
    obtain ⟨i1, i2, i3⟩ := ih h2
    obtain ⟨stV, hV, hE, rfl⟩ := trainEpoch_ok h1
    have hfull : run env st (epochEvents a steps e) = .ok st1 := by
      unfold epochEvents
      exact run_append_of hV (by rw [run_single]; exact hE)
    refine ⟨by simp [i1], by simpa using run_append_of hfull i2, ?_⟩
    intro log hlog
    rcases List.mem_cons.1 hlog with rfl | hlog
    · exact ⟨[], stV, st1, by simp, by simpa using hV, rfl, hE, rfl⟩
    · obtain ⟨pre, sV, sS, p1, p2, p3⟩ := i3 log hlog
      refine ⟨e :: pre, sV, sS, by simpa using p1, ?_, p3⟩
      have := run_append_of hfull p2
      simpa [List.append_assoc] using this

/-- **C85** (order) An accepted loop visits every epoch of `[start, ending)` once, in increasing order, and
runs `⌈samples / batch⌉` minibatches in each; an empty range is refused. -/
theorem C85_epochs_in_order (env : Env) (a : TrainArgs) (st : State) :
    (a.ending ≤ a.start → runTrainingLoop env a st = .error .value) ∧
    (∀ st' logs, runTrainingLoop env a st = .ok (st', logs) →
      a.start < a.ending ∧ logs.length = (a.ending - a.start).toNat ∧
      (∀ (i : ℕ) (log : EpochLog), logs[i]? = some log → log.epoch = a.start + i) ∧
      ∃ steps, stepsPerEpoch a = .ok steps ∧ (steps - 1) * a.batch < a.samples + (if steps = 0 then 1 else 0) ∧
        a.samples ≤ steps * a.batch ∧
        run env st (logs.flatMap fun log => epochEvents a steps log.epoch) = .ok st') := by
  constructor
  · intro h; unfold runTrainingLoop; rw [if_pos h]
  · intro st' logs h
    unfold runTrainingLoop at h
    split at h
    · cases h
    · next hlt =>
      obtain ⟨steps, hs, h⟩ := ok_bind h
      obtain ⟨h1, h2, -⟩ := trainEpochs_ok _ h
      have hlen : logs.length = (a.ending - a.start).toNat := by
        have := congrArg List.length h1
        simp [pyRange] at this
        rw [this]
      refine ⟨by omega, hlen, ?_, steps, hs, ?_, ?_, ?_⟩
      · intro i log hi
        have hi' : i < (a.ending - a.start).toNat := by
          rw [← hlen]; exact (List.getElem?_eq_some_iff.1 hi).1
        have := congrArg (fun l => l[i]?) h1
        simp only [List.getElem?_map, hi, Option.map_some] at this
        simp only [pyRange, List.getElem?_map] at this
        rw [List.getElem?_range (by simpa using hi')] at this
        simpa using this
      · unfold stepsPerEpoch at hs
        split at hs
        · cases hs
        · next hb =>
          injection hs with hs
          by_cases h0 : steps = 0
          · rw [if_pos h0, h0]; simp
          · rw [if_neg h0]
            have h3 : steps * a.batch ≤ a.samples + a.batch - 1 := by
              rw [← hs]; exact Nat.div_mul_le_self _ _
            have h4 : steps * a.batch = (steps - 1) * a.batch + a.batch := by
              obtain ⟨k, rfl⟩ : ∃ k, steps = k + 1 := ⟨steps - 1, by omega⟩
              simp [Nat.succ_mul]
            omega
      · unfold stepsPerEpoch at hs
        split at hs
        · cases hs
        · next hb =>
          injection hs with hs
          have h3 := Nat.lt_div_mul_add (a := a.samples + a.batch - 1) (b := a.batch) (by omega)
          rw [hs] at h3
          omega
      · rw [← h1] at h2
        rw [List.flatMap_map] at h2
        exact h2

/-- The last thing `train` does is `on_minibatch_end`. -/
theorem trainEvents_last (a : TrainArgs) (e : Int) (steps : Nat) (h : 0 < steps) :
    ∃ l, trainEvents a e steps = l ++ [.mbEnd e (steps - 1) steps] := by
  obtain ⟨k, rfl⟩ : ∃ k, steps = k + 1 := ⟨steps - 1, by omega⟩
  refine ⟨(List.range k).flatMap (stepEvents a e (k + 1)) ++
    [.mbBegin e k (k + 1), .beforeOpt e k (k + 1), .write (a.upd e k)], ?_⟩
  unfold trainEvents
  rw [List.range_succ, List.flatMap_append]
  simp [stepEvents]

theorem steps_pos {a : TrainArgs} {steps : Nat} (h : stepsPerEpoch a = .ok steps) (hs : 0 < a.samples) : 0 < steps := by
  unfold stepsPerEpoch at h
  split at h
  · cases h
  · injection h with h
    rw [← h]
    exact Nat.div_pos (by omega) (by omega)

theorem masked_after_mbEnd {env : Env} {st st' : State} {evs : List Ev} {e : Int} {mb mpe : Nat}
    (h : run env st (evs ++ [.mbEnd e mb mpe]) = .ok st') : ∀ n, Masked st'.store n := by
  obtain ⟨t, _, h⟩ := run_append_ok h
  rw [run_single] at h
  simp only [step, onMbEnd] at h
  obtain ⟨s, hs, h2⟩ := ok_bind h
  exact foldlM_preserves (P := fun t : State => ∀ n, Masked t.store n)
    (fun t a t' _ ht hf => policyMbEnd_masked ht hf) (maskAllWeights_masked hs) h2

theorem pruneEpochEndBody_own {cfg : PruneCfg} {s s' : Store} {n : Name} (hn : OwnMasked s n)
    (hp : n ∈ s.names) (h : pruneEpochEndBody cfg s n = .ok s') : OwnMasked s' n := by
  unfold pruneEpochEndBody at h
  obtain ⟨m, hm, h⟩ := ok_bind h
  have hm := getE_ok hm
  injection h with h; subst h
  intro w m' k hw hm' hf hk
  simp at hm' hw
  obtain ⟨w0, hw0⟩ := Option.isSome_iff_exists.1 ((get?_isSome_iff s.params n).2 hp)
  have hpar : s.param n = w0 := by simp [Store.param, hw0]
  rw [hpar] at hw
  cases hkm : cfg.keepMask with
  | true =>
    simp only [hkm, if_true] at hw hm'
    have : m.mask = some k := by rw [← hm'] at hk; cases hh : m.handle <;> simpa [hh] using hk
    rw [← hw]; simp only [Masker.maskTensor, this]; exact zeroWhere_tmul k _
  | false =>
    simp only [hkm] at hw hm'
    simp at hw
    subst hw
    refine hn w0 m k hw0 hm ?_ ?_
    · rw [← hm'] at hf; cases hh : m.handle <;> simpa [hh] using hf
    · rw [← hm'] at hk; cases hh : m.handle <;> simpa [hh] using hk

theorem epochEnd_masked {st st' : State} {e : Int} (hs : ∀ n, Masked st.store n) (h : onEpochEnd st e = .ok st') :
    ∀ n, Masked st'.store n := by
  refine foldlM_preserves (P := fun t : State => ∀ n, Masked t.store n) ?_ hs h
  intro t p t' _ ht h
  unfold policyEpochEnd at h
  obtain ⟨⟨t1, mt⟩, h1, h⟩ := ok_bind h
  obtain ⟨-, -, -, hst, -⟩ := touchMeta_told h1
  dsimp only at h
  split at h
  · next cfg isLast isInit _ =>
    split at h
    · obtain ⟨s, hs, h⟩ := ok_bind h
      injection h with h; subst h
      rw [hst] at hs
      have hl := pruneEpochEndBody_local cfg
      have hnames := forParams_names (fun s n s' hn => hl.names hn) hs
      have hmn := hl.forParams_maskerNames hs
      intro n
      show Masked s n
      by_cases hn : n ∈ s.names
      · rw [hnames] at hn
        have hmk := hl.forParams_have hs n hn
        rw [masked_iff_own hmk]
        have h0 : OwnMasked t.store n := by
          rw [hmn] at hmk
          exact (masked_iff_own hmk).1 (ht n)
        refine (foldlM_preserves (P := fun u : Store => OwnMasked u n ∧ u.names = t.store.names) ?_ ⟨h0, rfl⟩ hs).1
        intro u b u' hb hu hf
        have hbn : b ∈ u.names := by rw [hu.2]; exact hb
        refine ⟨?_, (hl.names hbn hf).trans hu.2⟩
        by_cases hbn' : b = n
        · subst hbn'; exact pruneEpochEndBody_own hu.1 hbn hf
        · exact hl.preserves_other hbn' hf hu.1
      · exact masked_of_not_mem hn
    · injection h with h; subst h; rw [hst]; exact ht
  · injection h with h; subst h; rw [hst]; exact ht

/-- **C85** (validation and checkpoints) For every model, scheduler with any policies and pruners, optimizer
and data set with at least one sample: in the model each epoch validates and in the checkpoint it stores,
every parameter whose mask is not forward-only is zero wherever its mask is zero. -/
theorem C85_validated_and_saved_pruned (env : Env) (a : TrainArgs) (st st' : State) (logs : List EpochLog)
    (hs : 0 < a.samples) (h : runTrainingLoop env a st = .ok (st', logs)) (log : EpochLog) (hlog : log ∈ logs)
    (s : Store) (hwhich : s = log.validated ∨ s = log.saved)
    (n : Name) (w : Tensor) (m : Masker) (k : Tensor) (hw : s.params.get? n = some w)
    (hm : s.maskers.get? n = some m) (hf : m.fwdOnly = false) (hk : m.mask = some k) : ZeroWhere k w := by
  unfold runTrainingLoop at h
  split at h
  · cases h
  · obtain ⟨steps, hsteps, h⟩ := ok_bind h
    obtain ⟨-, -, h3⟩ := trainEpochs_ok _ h
    obtain ⟨pre, stV, stS, -, hrun, hV, hE, hS⟩ := h3 log hlog
    obtain ⟨l, hl⟩ := trainEvents_last a log.epoch steps (steps_pos hsteps hs)
    rw [hl, ← List.append_assoc] at hrun
    have hmV := masked_after_mbEnd hrun
    have hmS := epochEnd_masked hmV hE
    rcases hwhich with rfl | rfl
    · rw [← hV] at hw hm; exact (masked_own hm).1 (hmV n) w k hw hf hk
    · rw [← hS] at hw hm; exact (masked_own hm).1 (hmS n) w k hw hf hk

/-- Weights of the validated and of the saved model of an epoch. -/
structure EpochWeights where
  epoch : Int
  validated : Dict Name Tensor
  saved : Dict Name Tensor
  deriving DecidableEq

/-- the epochs, and weights of each validated and saved model, of a run -/
def loopSummary (r : Except Err (State × List EpochLog)) : Except Err (List EpochWeights) :=
  r.map fun x => x.2.map fun l => ⟨l.epoch, l.validated.params, l.saved.params⟩

-- non-vacuity: three epochs of two minibatches with a policy in epochs 1 and 2
example : loopSummary (runTrainingLoop exEnv ⟨0, 3, 5, 3, fun _ _ _ w => w.map (· + 7)⟩
      (exState {} { policy := 0, starting := some 1, ending := some 3 })) =
    .ok [⟨0, [(["fc", "weight"], [17, 19])], [(["fc", "weight"], [17, 19])]⟩,
         ⟨1, [(["fc", "weight"], [0, 33])], [(["fc", "weight"], [0, 33])]⟩,
         ⟨2, [(["fc", "weight"], [0, 47])], [(["fc", "weight"], [0, 47])]⟩] := by decide +kernel

/-- **C85 fails** for `mask_on_forward_only`: an epoch validates (and, unless it is the last epoch of a
`keep_mask` policy, stores) a model whose masked weights are not zero. -/
theorem C85_violated_forward_only : ∃ (env : Env) (a : TrainArgs) (st : State),
    (∀ t p n w o mt, env.prune t p n w o mt = .ok (some [0, 1])) ∧
    loopSummary (runTrainingLoop env a st) =
      .ok [⟨0, [(["fc", "weight"], [7, 12])], [(["fc", "weight"], [7, 12])]⟩,
           ⟨1, [(["fc", "weight"], [7, 19])], [(["fc", "weight"], [0, 19])]⟩] :=
  ⟨exEnv, ⟨0, 2, 1, 1, fun _ _ _ w => w.map (· + 7)⟩,
    exState { fwdOnly := true, keepMask := true } { policy := 0, starting := some 0, ending := some 2 },
    fun _ _ _ _ _ _ => rfl, by decide +kernel⟩

end Verif
