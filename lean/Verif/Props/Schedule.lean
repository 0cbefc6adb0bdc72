import Verif.Lemmas.Scheduler1
/-!
# C01, C02: the epochs on which policies run

Specification vocabulary: `occurrences a e` – how often the `add_policy` call `a`
asked for epoch `e`; `WellFormed a` – the documented preconditions.
-/
namespace Verif

/-- How many times the caller of `add_policy` asked for epoch `e`. -/
def AddArgs.occurrences (a : AddArgs) (e : Int) : Nat :=
  match a.epochs with
  | some es => es.count e
  | none =>
    match a.starting, a.ending, a.freq with
    | some s, some n, some f => if s ≤ e ∧ e < n ∧ f ∣ e - s then 1 else 0
    | _, _, _ => 0

/-- The documented contract of `add_policy`'s arguments. -/
def AddArgs.WellFormed (a : AddArgs) : Prop :=
  (a.epochs = none ∧ ∃ s n f, a.starting = some s ∧ a.ending = some n ∧ a.freq = some f ∧
      0 ≤ s ∧ s < n ∧ 0 < f ∧ f ≤ n - s)
  ∨ (∃ es, a.epochs = some es ∧ es ≠ [] ∧ a.starting = none ∧ a.ending = none)

/-- A sequence of `add_policy` calls, stopping at the first exception. -/
def addAll (s : Sched) : List AddArgs → Except Err Sched
  | [] => .ok s
  | a :: regs =>
    match s.addPolicy a with
    | (s', .ok ()) => addAll s' regs
    | (_, .error x) => .error x

/-- **C02** `add_policy` accepts exactly the well-formed calls ... -/
theorem C02_addPolicy_accepts_iff (s : Sched) (a : AddArgs) :
    (s.addPolicy a).2 = .ok () ↔ a.WellFormed := by
  obtain ⟨p, epochs, st, en, fr⟩ := a
  unfold Sched.addPolicy AddArgs.WellFormed
  cases epochs with
  | none =>
    cases st <;> cases en <;> cases fr <;> simp
    split <;> (try split) <;> simp <;> omega
  | some es =>
    cases st <;> cases en <;> simp
    cases es with
    | nil => simp
    | cons x es => simp [List.getLast?_cons]

/-- ... and on every other call it raises (an assertion failure, or `IndexError` for
an empty epoch list) and leaves the schedule as it was. -/
theorem C02_addPolicy_rejects_unchanged (s : Sched) (a : AddArgs) (h : ¬ a.WellFormed) :
    (s.addPolicy a).1 = s ∧
    ((s.addPolicy a).2 = .error .assertion ∨
      ((s.addPolicy a).2 = .error .index ∧ a.epochs = some [])) := by
  obtain ⟨p, epochs, st, en, fr⟩ := a
  unfold Sched.addPolicy
  unfold AddArgs.WellFormed at h
  cases epochs with
  | none =>
    cases st <;> cases en <;> cases fr <;> simp at h ⊢
    split
    · split
      · omega
      · simp
    · simp
  | some es =>
    cases st <;> cases en <;> simp at h ⊢
    subst h; simp

example : ({ policy := 3, starting := some 2, ending := some 9, freq := some 3 } : AddArgs).WellFormed :=
  Or.inl ⟨rfl, 2, 9, 3, rfl, rfl, rfl, by decide, by decide, by decide, by decide⟩
example : ¬ ({ policy := 3, starting := some 2, ending := some 4, freq := some 3 } : AddArgs).WellFormed := by
  simp [AddArgs.WellFormed]

private theorem active_addPolicy {s s' : Sched} {a : AddArgs} (h : s.addPolicy a = (s', .ok ())) (e : Int) :
    s'.active e = s.active e ++ List.replicate (a.occurrences e) a.policy := by
  obtain ⟨p, epochs, st, en, fr⟩ := a
  unfold Sched.addPolicy at h
  unfold AddArgs.occurrences Sched.active
  cases epochs with
  | none =>
    cases st <;> cases en <;> cases fr <;> simp at h
    rename_i st en fr
    split at h
    · split at h
      · next h1 h2 =>
        simp at h; subst h
        simp only [Sched.install, active_foldl_append, count_pyRange h2.1]
      · simp at h
    · simp at h
  | some es =>
    cases st <;> cases en <;> simp at h
    cases es with
    | nil => simp at h
    | cons x es =>
      simp [List.getLast?_cons] at h
      subst h
      simp only [Sched.install, active_foldl_append]

/-- **C01** After any successful sequence of registrations, the policies run on epoch
`e` are exactly the registered ones in registration order, each repeated as often as
its registration asked for `e`. -/
theorem C01_active_policies (regs : List AddArgs) (s : Sched) (h : addAll {} regs = .ok s) (e : Int) :
    s.active e = regs.flatMap fun a => List.replicate (a.occurrences e) a.policy := by
  suffices H : ∀ (s0 : Sched), addAll s0 regs = .ok s →
      s.active e = s0.active e ++ regs.flatMap fun a => List.replicate (a.occurrences e) a.policy by
    have := H {} h
    simpa [Sched.active] using this
  clear h
  induction regs with
  | nil => intro s0 h; simp [addAll] at h; simp [h]
  | cons a regs ih =>
    intro s0 h
    simp only [addAll] at h
    split at h
    · next s1 h1 => rw [ih s1 h, active_addPolicy h1]; simp
    · cases h

/-- **C01** The five scheduler callbacks invoke precisely those policies, in that
order, each seeing the effects of its predecessors (`on_minibatch_end` masks all
weights first). -/
theorem C01_callbacks_invoke_registered (regs : List AddArgs) (st : State)
    (h : addAll {} regs = .ok st.sched) (env : Env) (e : Int) (mb mpe : Nat) :
    let due := regs.flatMap fun a => List.replicate (a.occurrences e) a.policy
    onEpochBegin env st e = due.foldlM (policyEpochBegin env e) st ∧
    onMbBegin env st e mb mpe = due.foldlM (policyMbBegin env e mb mpe) st ∧
    beforeOpt st e = due.foldlM (policyBeforeOpt e) st ∧
    onMbEnd env st e mb mpe = (do
      let s ← maskAllWeights st.store (isForward := false)
      due.foldlM (policyMbEnd env mb mpe) { st with store := s }) ∧
    onEpochEnd st e = due.foldlM (policyEpochEnd e) st := by
  have hA := C01_active_policies regs st.sched h e
  simp only [onEpochBegin, onMbBegin, beforeOpt, onMbEnd, onEpochEnd, hA, and_self]

/-- **C01** corollary: on an epoch nobody asked for, the epoch callbacks do nothing. -/
theorem C01_unscheduled_noop (regs : List AddArgs) (st : State)
    (h : addAll {} regs = .ok st.sched) (env : Env) (e : Int) (mb mpe : Nat)
    (hno : ∀ a ∈ regs, a.occurrences e = 0) :
    onEpochBegin env st e = .ok st ∧ onMbBegin env st e mb mpe = .ok st ∧
    beforeOpt st e = .ok st ∧ onEpochEnd st e = .ok st := by
  have hdue : (regs.flatMap fun a => List.replicate (a.occurrences e) a.policy) = [] := by
    rw [List.flatMap_eq_nil_iff]
    intro a ha; simp [hno a ha]
  obtain ⟨h1, h2, h3, _, h5⟩ := C01_callbacks_invoke_registered regs st h env e mb mpe
  rw [hdue] at h1 h2 h3 h5
  exact ⟨h1, h2, h3, h5⟩

/-- **C01** corollary: with range registrations only, policy `p` runs at `e` iff some
registration of `p` covers `e` on its frequency grid. -/
theorem C01_range_membership (regs : List AddArgs) (s : Sched) (h : addAll {} regs = .ok s)
    (hr : ∀ a ∈ regs, a.epochs = none) (e : Int) (p : Nat) :
    p ∈ s.active e ↔ ∃ a ∈ regs, a.policy = p ∧ ∃ st en fr, a.starting = some st ∧
      a.ending = some en ∧ a.freq = some fr ∧ st ≤ e ∧ e < en ∧ fr ∣ e - st := by
  rw [C01_active_policies regs s h e]
  simp only [List.mem_flatMap, List.mem_replicate]
  constructor
  · rintro ⟨a, ha, hn, rfl⟩
    refine ⟨a, ha, rfl, ?_⟩
    have hr' := hr a ha
    unfold AddArgs.occurrences at hn
    rw [hr'] at hn
    revert hn
    rcases hs : a.starting with _ | st <;> rcases he : a.ending with _ | en <;>
      rcases hf : a.freq with _ | fr <;> simp
  · rintro ⟨a, ha, rfl, st, en, fr, h1, h2, h3, h4⟩
    refine ⟨a, ha, ?_, rfl⟩
    simp [AddArgs.occurrences, hr a ha, h1, h2, h3, h4]

-- non-vacuity: two overlapping registrations
example : ∃ s, addAll {} [{ policy := 0, starting := some 0, ending := some 7, freq := some 2 },
    { policy := 1, epochs := some [4, 4, 5] }] = .ok s ∧ s.active 4 = [0, 1, 1] ∧ s.active 5 = [1]
    ∧ s.active 7 = [] :=
  ⟨_, rfl, by decide, by decide, by decide⟩

end Verif
