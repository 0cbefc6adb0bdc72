import Verif.Model.Parallel
import Mathlib.Algebra.Order.Floor.Ring
import Mathlib.Algebra.Order.Group.Multiset
import Mathlib.Tactic.Linarith
import Mathlib.Tactic.Ring
import Mathlib.Tactic.Abel
/-!
# C171 and C172: fine-tuning checkpoints in parallel
-/
namespace Verif

variable {T : Type}

/-! ## C171: for all schedules of the processes -/

/-- **C171** (tasks) Task `i` is checkpoint `i` for GPU `i` modulo the number of GPUs; without checkpoints, or without GPUs, the call fails. -/
theorem C171_tasks {C : Type} (nGpus : ℕ) (ckpts : List C) :
    (∀ ts, ftTasks nGpus ckpts = .ok ts ↔ ckpts ≠ [] ∧ 0 < nGpus ∧ ts.length = ckpts.length ∧
      ∀ (i : ℕ) (c : C), ckpts[i]? = some c → ts[i]? = some (c, i % nGpus)) ∧
    (ckpts = [] → ftTasks nGpus ckpts = .error .assertion) ∧ (ckpts ≠ [] → nGpus = 0 → ftTasks nGpus ckpts = .error .zeroDiv) := by
  unfold ftTasks
  cases ckpts with
  | nil => refine ⟨fun ts => ?_, fun _ => rfl, fun h => absurd rfl h⟩; simp
  | cons c cs =>
    simp only [List.isEmpty_cons, Bool.false_eq_true, if_false]
    by_cases h0 : nGpus = 0
    · subst h0
      refine ⟨fun ts => ?_, fun h => by simp at h, fun _ _ => rfl⟩
      simp
    · rw [if_neg h0]
      refine ⟨fun ts => ?_, fun h => by simp at h, fun _ h => absurd h h0⟩
      constructor
      · intro h
        cases h
        refine ⟨by simp, Nat.pos_of_ne_zero h0, by simp, ?_⟩
        intro i c' h
        rw [List.getElem?_mapIdx, h]
        rfl
      · rintro ⟨-, -, hl, h⟩
        congr 1
        apply List.ext_getElem?
        intro i
        rw [List.getElem?_mapIdx]
        cases hi : (c :: cs)[i]? with
        | none =>
          rw [Option.map_none, eq_comm, List.getElem?_eq_none_iff, hl]
          exact List.getElem?_eq_none_iff.1 hi
        | some c' => rw [h i c' hi]; rfl

example : ftTasks 2 ["a", "b", "c"] = .ok [("a", 0), ("b", 1), ("c", 0)] := by decide +kernel

/-- A state that can be reached with `p` processes for the tasks `ts`. -/
def FtReach (p : ℕ) (ts : List T) (s : Ft T) : Prop := ∃ k, FtSteps k (Ft.init p ts) s

/-- What holds in all reachable states, with `n` worker processes. -/
structure FtInv (n : ℕ) (ts : List T) (s : Ft T) : Prop where
  tot : ((s.queue ++ s.toPut).filterMap id : Multiset T) + s.busy + s.reporting + s.crashed + s.buf + (s.pipe : Multiset T) + (s.got : Multiset T) = (ts : Multiset T)
  unf : s.unfinished = s.queue.length + s.busy.card + s.crashed.card
  workers : s.idle + s.busy.card + s.reporting.card + s.exited + s.crashed.card = n
  shape : ∃ (us : List T) (k : ℕ), s.queue ++ s.toPut = us.map some ++ List.replicate k none ∧ k + s.exited = n ∧ (0 < s.exited → us = [])
  after : s.phase ≠ .putting → s.toPut = [] ∧ s.unfinished = 0

theorem ftInv_init (p : ℕ) (ts : List T) : FtInv (min p ts.length) ts (Ft.init p ts) := by
  constructor
  · simp [Ft.init, List.filterMap_append, List.filterMap_map]
  · simp [Ft.init]
  · simp [Ft.init]
  · exact ⟨ts, min p ts.length, by simp only [Ft.init, List.nil_append], by simp [Ft.init], by simp [Ft.init]⟩
  · intro h; exact absurd rfl h

theorem ftInv_step {n : ℕ} {ts : List T} {s s' : Ft T} (I : FtInv n ts s) (h : FtStep s s') : FtInv n ts s' := by
  obtain ⟨tot, unf, wk, ⟨us, k, sh, hk, hx⟩, af⟩ := I
  cases h with
  | put x r h hp =>
    refine ⟨?_, ?_, wk, ⟨us, k, ?_, hk, hx⟩, fun c => absurd hp c⟩
    · rw [← tot, h]; simp only [List.append_assoc, List.singleton_append]
    · simp only [List.length_append, List.length_singleton]; omega
    · rw [h] at sh; simpa using sh
  | getTask t q m h hi =>
    refine ⟨?_, ?_, ?_, ?_, ?_⟩
    · rw [← tot, h]
      simp only [List.cons_append, List.filterMap_cons, id, ← Multiset.cons_coe, ← Multiset.singleton_add]
      abel
    · rw [h] at unf; simp only [List.length_cons] at unf; simp only [Multiset.card_cons]; omega
    · simp only [Multiset.card_cons]; omega
    · rw [h] at sh
      cases us with
      | nil =>
        cases k with
        | zero => simp at sh
        | succ k => simp [List.replicate_succ] at sh
      | cons u us =>
        simp only [List.cons_append, List.map_cons, List.cons.injEq] at sh
        refine ⟨us, k, sh.2, hk, fun c => absurd (hx c) (by simp)⟩
    · intro c
      obtain ⟨-, a⟩ := af c
      rw [h] at unf; simp only [List.length_cons] at unf; omega
  | getMarker q m u h hi hu =>
    refine ⟨?_, ?_, ?_, ?_, ?_⟩
    · rw [← tot, h]
      simp
    · rw [h] at unf; simp only [List.length_cons] at unf; dsimp only; omega
    · dsimp only
      omega
    · rw [h] at sh
      cases us with
      | nil =>
        cases k with
        | zero => simp at sh
        | succ k =>
          simp only [List.cons_append, List.map_nil, List.nil_append, List.replicate_succ, List.cons.injEq, true_and] at sh
          exact ⟨[], k, by simpa using sh, by dsimp only; omega, fun _ => rfl⟩
      | cons v us => simp at sh
    · intro c
      obtain ⟨-, a⟩ := af c
      omega
  | done t b u h hu =>
    refine ⟨?_, ?_, ?_, ⟨us, k, sh, hk, hx⟩, ?_⟩
    · rw [← tot, h]; simp only [← Multiset.singleton_add]; abel
    · rw [h, Multiset.card_cons] at unf; dsimp only; omega
    · rw [h, Multiset.card_cons] at wk; simp only [Multiset.card_cons]; omega
    · intro c
      obtain ⟨-, a⟩ := af c
      omega
  | crash t b h =>
    refine ⟨?_, ?_, ?_, ⟨us, k, sh, hk, hx⟩, af⟩
    · rw [← tot, h]; simp only [← Multiset.singleton_add]; abel
    · rw [h, Multiset.card_cons] at unf; simp only [Multiset.card_cons]; omega
    · rw [h, Multiset.card_cons] at wk; simp only [Multiset.card_cons]; omega
  | report t b h =>
    refine ⟨?_, unf, ?_, ⟨us, k, sh, hk, hx⟩, af⟩
    · rw [← tot, h]; simp only [← Multiset.singleton_add]; abel
    · rw [h, Multiset.card_cons] at wk
      dsimp only
      omega
  | flush t b h =>
    refine ⟨?_, unf, wk, ⟨us, k, sh, hk, hx⟩, af⟩
    rw [← tot, h]
    simp only [← Multiset.singleton_add, ← Multiset.coe_add, Multiset.coe_singleton]
    abel
  | join h hu hp => exact ⟨tot, unf, wk, ⟨us, k, sh, hk, hx⟩, fun _ => ⟨h, hu⟩⟩
  | collect t p h hp =>
    refine ⟨?_, unf, wk, ⟨us, k, sh, hk, hx⟩, af⟩
    rw [← tot, h]
    simp only [← Multiset.cons_coe, ← Multiset.singleton_add, ← Multiset.coe_add, Multiset.coe_singleton]
    abel
  | finish h hp =>
    refine ⟨tot, unf, wk, ⟨us, k, sh, hk, hx⟩, fun _ => af (by rw [hp]; decide)⟩

theorem ftInv_reach {p : ℕ} {ts : List T} {s : Ft T} (h : FtReach p ts s) : FtInv (min p ts.length) ts s := by
  obtain ⟨k, h⟩ := h
  generalize hs : Ft.init p ts = s0 at h
  induction h with
  | refl => rw [← hs]; exact ftInv_init p ts
  | tail h h' ih => exact ftInv_step (ih hs) h'

/-- **C171** (once) In every schedule, at every moment, each checkpoint is in exactly one place: not yet taken, being fine-tuned, fine-tuned,
lost in a crash, on the way back, or reported.  In particular, no checkpoint is fine-tuned or reported twice. -/
theorem C171_once (p : ℕ) (ts : List T) (s : Ft T) (h : FtReach p ts s) :
    ((s.queue ++ s.toPut).filterMap id : Multiset T) + s.busy + s.reporting + s.crashed + s.buf + (s.pipe : Multiset T) + (s.got : Multiset T) =
      (ts : Multiset T) ∧ (ts.Nodup → s.got.Nodup) ∧ ∀ t ∈ s.got, t ∈ ts := by
  have I := (ftInv_reach h).tot
  refine ⟨I, ?_, ?_⟩
  · intro hn
    have : (s.got : Multiset T) ≤ (ts : Multiset T) := by rw [← I]; exact Multiset.le_add_left _ _
    exact Multiset.coe_nodup.1 (Multiset.nodup_of_le this (Multiset.coe_nodup.2 hn))
  · intro t ht
    have : t ∈ (ts : Multiset T) := by rw [← I]; exact Multiset.mem_add.2 (Or.inr (Multiset.mem_coe.2 ht))
    exact Multiset.mem_coe.1 this

/-- **C171** (parallelism) At most `p` checkpoints are worked on at a time, and no more than there are. -/
theorem C171_parallelism (p : ℕ) (ts : List T) (s : Ft T) (h : FtReach p ts s) :
    s.busy.card + s.reporting.card ≤ p ∧ s.busy.card + s.reporting.card ≤ ts.length := by
  have I := (ftInv_reach h).workers
  omega

/-- **C171** (joined) Once the main program goes on to read the results, every checkpoint was fine-tuned, its result sent, no process crashed, and
every process has ended. -/
theorem C171_joined (p : ℕ) (ts : List T) (s : Ft T) (h : FtReach p ts s) (hp : s.phase ≠ .putting) :
    s.buf + (s.pipe : Multiset T) + (s.got : Multiset T) = (ts : Multiset T) ∧ s.crashed = 0 ∧ s.idle = 0 ∧ s.busy = 0 ∧ s.reporting = 0 ∧
    s.exited = min p ts.length := by
  obtain ⟨tot, unf, wk, ⟨us, k, sh, hk, hx⟩, af⟩ := ftInv_reach h
  obtain ⟨h1, h2⟩ := af hp
  have hq : s.queue = [] := List.eq_nil_of_length_eq_zero (by omega)
  have hb : s.busy = 0 := Multiset.card_eq_zero.1 (by omega)
  have hc : s.crashed = 0 := Multiset.card_eq_zero.1 (by omega)
  rw [hq, h1] at sh
  have hk0 : k = 0 := by
    have := congrArg List.length sh
    simp at this
    omega
  have hr : s.reporting = 0 := Multiset.card_eq_zero.1 (by omega)
  refine ⟨?_, hc, by omega, hb, hr, by omega⟩
  rw [hq, h1, hb, hc, hr] at tot
  simpa using tot

/-- **C171** (complete) If every result had arrived by the time the main program stopped reading, each checkpoint is reported exactly once. -/
theorem C171_complete (p : ℕ) (ts : List T) (s : Ft T) (h : FtReach p ts s) (hp : s.phase = .finished) (hb : s.buf = 0) (hpipe : s.pipe = []) :
    s.got.Perm ts := by
  have := (C171_joined p ts s h (by rw [hp]; decide)).1
  rw [hb, hpipe] at this
  exact Multiset.coe_eq_coe.1 (by simpa using this)

/-- **C171** (no deadlock) As long as no process has crashed, and the main program is not done, some process can go on, without crashing. -/
theorem C171_progress (p : ℕ) (ts : List T) (s : Ft T) (h : FtReach p ts s) (hp : 0 < p) (ht : ts ≠ []) (hc : s.crashed = 0)
    (hf : s.phase ≠ .finished) : ∃ s', FtStep s s' ∧ s'.crashed = 0 := by
  have hl : 0 < ts.length := List.length_pos_iff.2 ht
  obtain ⟨tot, unf, wk, ⟨us, k, sh, hk, hx⟩, af⟩ := ftInv_reach h
  rw [hc, Multiset.card_zero] at unf wk
  cases hph : s.phase with
  | finished => exact absurd hph hf
  | collecting =>
    cases hpipe : s.pipe with
    | nil => exact ⟨_, .finish s hpipe hph, hc⟩
    | cons t r => exact ⟨_, .collect s t r hpipe hph, hc⟩
  | putting =>
    cases htp : s.toPut with
    | cons x r => exact ⟨_, .put s x r htp hph, hc⟩
    | nil =>
      by_cases hbz : s.busy = 0
      · by_cases hrz : s.reporting = 0
        · rw [hbz, Multiset.card_zero] at unf wk
          rw [hrz, Multiset.card_zero] at wk
          cases hq : s.queue with
          | nil => exact ⟨_, .join s htp (by rw [unf, hq]; rfl) hph, hc⟩
          | cons x q =>
            have hxk : s.exited < min p ts.length := by
              by_contra hge
              have hk0 : k = 0 := by omega
              have := hx (by omega)
              rw [hq, this, hk0] at sh
              simp at sh
            obtain ⟨m, hm⟩ : ∃ m, s.idle = m + 1 := ⟨s.idle - 1, by omega⟩
            cases x with
            | some t => exact ⟨_, .getTask s t q m hq hm, hc⟩
            | none =>
              rw [hq] at unf
              exact ⟨_, .getMarker s q m (q.length) hq hm (by rw [unf]; simp), hc⟩
        · obtain ⟨t, b, hb⟩ : ∃ t b, s.reporting = t ::ₘ b := by
            obtain ⟨t, ht⟩ := Multiset.exists_mem_of_ne_zero hrz
            obtain ⟨b, hb⟩ := Multiset.exists_cons_of_mem ht
            exact ⟨t, b, hb⟩
          exact ⟨_, .report s t b hb, hc⟩
      · obtain ⟨t, ht⟩ := Multiset.exists_mem_of_ne_zero hbz
        obtain ⟨b, hb⟩ := Multiset.exists_cons_of_mem ht
        rw [hb, Multiset.card_cons] at unf
        exact ⟨_, .done s t b (s.queue.length + b.card) hb (by omega), hc⟩

/-- How many steps are left at most. -/
def ftMeasure (s : Ft T) : ℕ :=
  6 * s.toPut.length + 5 * s.queue.length + 4 * s.busy.card + 3 * s.reporting.card + 2 * s.buf.card + s.pipe.length +
    match s.phase with | .putting => 2 | .collecting => 1 | .finished => 0

theorem ftMeasure_step {s s' : Ft T} (h : FtStep s s') : ftMeasure s' + 1 ≤ ftMeasure s := by
  cases h with
  | put x r h hp => simp only [ftMeasure, h, List.length_append, List.length_cons, List.length_nil]; omega
  | getTask t q k h hi => simp only [ftMeasure, h, List.length_cons, Multiset.card_cons]; omega
  | getMarker q k u h hi hu => simp only [ftMeasure, h, List.length_cons]; omega
  | done t b u h hu => simp only [ftMeasure, h, Multiset.card_cons]; omega
  | crash t b h => simp only [ftMeasure, h, Multiset.card_cons]; omega
  | report t b h => simp only [ftMeasure, h, Multiset.card_cons]; omega
  | flush t b h => simp only [ftMeasure, h, Multiset.card_cons, List.length_append, List.length_cons, List.length_nil]; omega
  | join h hu hp => simp only [ftMeasure, hp]; omega
  | collect t p h hp => simp only [ftMeasure, h, List.length_cons]; omega
  | finish h hp => simp only [ftMeasure, hp]; omega

/-- **C171** (termination) Every schedule ends: no more than `6 * (tasks + processes) + 2` steps are taken. -/
theorem C171_terminates (p : ℕ) (ts : List T) (s : Ft T) (k : ℕ) (h : FtSteps k (Ft.init p ts) s) :
    k ≤ 6 * (ts.length + min p ts.length) + 2 := by
  have : ∀ (k : ℕ) (s0 s : Ft T), FtSteps k s0 s → k + ftMeasure s ≤ ftMeasure s0 := by
    intro k s0 s h
    induction h with
    | refl => omega
    | tail h h' ih => have := ftMeasure_step h'; omega
  have := this _ _ _ h
  simp only [ftMeasure, Ft.init, List.length_append, List.length_map, List.length_replicate, List.length_nil, Multiset.card_zero] at this
  omega

/-- **C171** is violated: results can be lost.  A run without any crash in which the only checkpoint is fine-tuned and its result sent, and the
main program still reads none, because it had not arrived when `results.empty()` was asked. -/
theorem C171_violated_lost (p : ℕ) (hp : 0 < p) (t : T) :
    ∃ s : Ft T, FtReach p [t] s ∧ s.phase = .finished ∧ s.crashed = 0 ∧ s.got = [] := by
  have hm : min p 1 = 1 := by omega
  have e : Ft.init p [t] = ⟨[some t, none], [], 0, 1, 0, 0, 0, 0, 0, [], [], .putting⟩ := by
    simp [Ft.init, hm]
  refine ⟨⟨[], [], 0, 0, 0, 0, {t}, 1, 0, [], [], .finished⟩, ⟨8, ?_⟩, rfl, rfl, rfl⟩
  · rw [e]
    exact .tail (.tail (.tail (.tail (.tail (.tail (.tail (.tail (.refl _) (.put _ (some t) [none] rfl rfl)) (.put _ none [] rfl rfl))
      (.getTask _ t [none] 0 rfl rfl)) (.done _ t 0 1 rfl rfl)) (.report _ t 0 rfl)) (.getMarker _ [] 0 0 rfl rfl rfl)) (.join _ rfl rfl rfl)) (.finish _ rfl rfl)

/-- **C171** is violated: one crash (say a checkpoint that cannot be loaded) blocks everything: the main program stays in `tasks.join()` in every
continuation, and no result is ever reported. -/
theorem C171_violated_crash (p : ℕ) (ts : List T) (s s' : Ft T) (k : ℕ) (h : FtReach p ts s) (hc : s.crashed ≠ 0) (h' : FtSteps k s s') :
    s'.phase = .putting := by
  have hr : FtReach p ts s' ∧ s'.crashed ≠ 0 := by
    induction h' with
    | refl => exact ⟨h, hc⟩
    | tail a b ih =>
      obtain ⟨⟨j, i1⟩, i2⟩ := ih h hc
      refine ⟨⟨_, .tail i1 b⟩, ?_⟩
      cases b <;> first | exact i2 | exact Multiset.cons_ne_zero
  by_contra hp
  exact hr.2 (C171_joined p ts s' hr.1 hp).2.1

example : ∃ s : Ft String, FtReach 2 ["a", "b"] s ∧ s.crashed ≠ 0 := by
  refine ⟨⟨[some "b", none, none], [], 1, 1, 0, 0, 0, 0, {"a"}, [], [], .putting⟩, ⟨3, .tail (.tail (.tail (.refl _) (.put _ (some "a") [some "b", none, none] rfl rfl)) (.getTask _ "a" [] 1 rfl rfl)) (.crash _ "a" 0 rfl)⟩, ?_⟩
  exact Multiset.singleton_ne_zero _

example : ∃ s : Ft String, FtReach 1 ["a"] s ∧ s.phase = .finished ∧ s.got = ["a"] ∧ s.buf = 0 ∧ s.pipe = [] := by
  refine ⟨⟨[], [], 0, 0, 0, 0, 0, 1, 0, [], ["a"], .finished⟩, ⟨10, ?_⟩, rfl, rfl, rfl, rfl⟩
  exact .tail (.tail (.tail (.tail (.tail (.tail (.tail (.tail (.tail (.tail (.refl _) (.put _ (some "a") [none] rfl rfl)) (.put _ none [] rfl rfl))
      (.getTask _ "a" [none] 0 rfl rfl)) (.done _ "a" 0 1 rfl rfl)) (.report _ "a" 0 rfl)) (.getMarker _ [] 0 0 rfl rfl rfl)) (.flush _ "a" 0 rfl))
      (.join _ rfl rfl rfl)) (.collect _ "a" [] rfl rfl)) (.finish _ rfl rfl)

/-! ## C172: the score of a fine-tuned checkpoint -/

/-- **C172** (validated epochs) With a factor in `(0, 1]` exactly the last `⌈factor * epochs⌉` epochs are validated, so at least one, if there are any; with zero none. -/
theorem C172_validated (f : ℚ) (E e : ℕ) (he : e < E) (h0 : 0 ≤ f) (h1 : f ≤ 1) :
    (ftValidate f E e = true ↔ (E : ℤ) - e ≤ ⌈f * E⌉) ∧ (0 < f → ftValidate f E (E - 1) = true) ∧ (f = 0 → ftValidate f E e = false) := by
  have key : ∀ e : ℕ, ftValidate f E e = true ↔ (E : ℤ) - e ≤ ⌈f * E⌉ := by
    intro e
    unfold ftValidate
    rw [decide_eq_true_iff]
    have : ⌊(1 - f) * (E : ℚ)⌋ = (E : ℤ) - ⌈f * E⌉ := by
      have : (1 - f) * (E : ℚ) = ((E : ℤ) : ℚ) + (-(f * E)) := by push_cast; ring
      rw [this, Int.floor_intCast_add, Int.floor_neg]
      ring
    rw [this]
    omega
  have hE : (0 : ℚ) < E := by exact_mod_cast (by omega : 0 < E)
  refine ⟨key e, fun hf => (key _).2 ?_, ?_⟩
  · have : 0 < ⌈f * (E : ℚ)⌉ := Int.ceil_pos.2 (mul_pos hf hE)
    have : ((E - 1 : ℕ) : ℤ) = E - 1 := by omega
    omega
  · rintro rfl
    by_contra h
    have := (key e).1 (by simpa using h)
    simp at this
    omega

theorem ftFold_spec (f : ℚ) (E : ℕ) (scores : ℕ → FtScore) : ∀ n,
    match (List.range n).foldl (ftEpoch f E scores) none with
    | none => ∀ e < n, ftValidate f E e = false
    | some b => ∃ e < n, ftValidate f E e = true ∧ b = scores e ∧
        (∀ e' < n, ftValidate f E e' = true → (scores e').top1 ≤ b.top1) ∧ (∀ e' < e, ftValidate f E e' = true → (scores e').top1 < b.top1) := by
  intro n
  induction n with
  | zero => simp
  | succ n ih =>
    rw [List.range_succ, List.foldl_append, List.foldl_cons, List.foldl_nil]
    cases hb : (List.range n).foldl (ftEpoch f E scores) none with
    | none =>
      rw [hb] at ih
      simp only at ih
      unfold ftEpoch
      cases hv : ftValidate f E n with
      | false =>
        simp only [Bool.false_eq_true, if_false]
        intro e he
        rcases Nat.lt_succ_iff_lt_or_eq.1 he with h | rfl
        · exact ih e h
        · exact hv
      | true =>
        simp only [if_true, ftBetter]
        refine ⟨n, by omega, hv, rfl, ?_, ?_⟩
        · intro e he hve
          rcases Nat.lt_succ_iff_lt_or_eq.1 he with h | rfl
          · rw [ih e h] at hve; cases hve
          · exact le_refl _
        · intro e he hve
          rw [ih e he] at hve; cases hve
    | some b =>
      rw [hb] at ih
      obtain ⟨e, h1, h2, rfl, h4, h5⟩ := ih
      unfold ftEpoch
      cases hv : ftValidate f E n with
      | false =>
        simp only [Bool.false_eq_true, if_false]
        refine ⟨e, by omega, h2, rfl, ?_, h5⟩
        intro e' he hve
        rcases Nat.lt_succ_iff_lt_or_eq.1 he with h | rfl
        · exact h4 e' h hve
        · rw [hv] at hve; cases hve
      | true =>
        simp only [if_true, ftBetter]
        by_cases hlt : (scores e).top1 < (scores n).top1
        · rw [if_pos hlt]
          refine ⟨n, by omega, hv, rfl, ?_, ?_⟩
          · intro e' he hve
            rcases Nat.lt_succ_iff_lt_or_eq.1 he with h | rfl
            · exact le_of_lt (lt_of_le_of_lt (h4 e' h hve) hlt)
            · exact le_refl _
          · intro e' he hve
            exact lt_of_le_of_lt (h4 e' he hve) hlt
        · rw [if_neg hlt]
          refine ⟨e, by omega, h2, rfl, ?_, h5⟩
          intro e' he hve
          rcases Nat.lt_succ_iff_lt_or_eq.1 he with h | rfl
          · exact h4 e' h hve
          · exact not_lt.1 hlt

/-- **C172** (score) With a factor in `(0, 1]`, the reported score is the one of the first epoch, among the last `⌈factor * epochs⌉`, with the best top-1
accuracy. -/
theorem C172_score (f : ℚ) (E : ℕ) (scores : ℕ → FtScore) (test : FtScore) (h0 : 0 < f) (h1 : f ≤ 1) (hE : 0 < E) :
    ∃ e < E, (E : ℤ) - e ≤ ⌈f * E⌉ ∧ finetuneCheckpoint f E scores test = some (scores e) ∧
      (∀ e' < E, (E : ℤ) - e' ≤ ⌈f * E⌉ → (scores e').top1 ≤ (scores e).top1) ∧
      (∀ e' < e, (E : ℤ) - e' ≤ ⌈f * E⌉ → (scores e').top1 < (scores e).top1) := by
  have hs := ftFold_spec f E scores E
  unfold finetuneCheckpoint
  rw [if_neg (ne_of_gt h0)]
  have key : ∀ e < E, (ftValidate f E e = true ↔ (E : ℤ) - e ≤ ⌈f * E⌉) := fun e he => (C172_validated f E e he h0.le h1).1
  cases hb : (List.range E).foldl (ftEpoch f E scores) none with
  | none =>
    rw [hb] at hs
    have h2 := (C172_validated f E (E - 1) (by omega) h0.le h1).2.1 h0
    rw [hs (E - 1) (by omega)] at h2
    cases h2
  | some b =>
    rw [hb] at hs
    obtain ⟨e, a1, a2, rfl, a4, a5⟩ := hs
    exact ⟨e, a1, (key e a1).1 a2, rfl, fun e' he hv => a4 e' he ((key e' he).2 hv), fun e' he hv => a5 e' he ((key e' (by omega)).2 hv)⟩

/-- **C172** (factor zero) Without validation the score is the one of the test set. -/
theorem C172_test (E : ℕ) (scores : ℕ → FtScore) (test : FtScore) : finetuneCheckpoint 0 E scores test = some test := by
  simp [finetuneCheckpoint]

/-- **C172** is violated for fine-tuning for zero epochs with validation enabled: the score is `-inf`, though the checkpoint has one. -/
theorem C172_violated_no_epochs (f : ℚ) (hf : f ≠ 0) (scores : ℕ → FtScore) (test : FtScore) : finetuneCheckpoint f 0 scores test = none := by
  simp [finetuneCheckpoint, hf]

example : finetuneCheckpoint (1/5) 10 (fun e => ⟨if e = 3 then 90 else (e : ℚ), 0, 0⟩) ⟨0, 0, 0⟩ = some ⟨9, 0, 0⟩ := by decide +kernel
example : ftValidate (1/5) 10 8 = true ∧ ftValidate (1/5) 10 7 = false := by decide +kernel

end Verif
