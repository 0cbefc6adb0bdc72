import Verif.Basic.Py
import Mathlib.Algebra.Order.Ring.Rat
/-!
# The replay memory of the AMC agent
(examples/auto_compression/amc/rl_libs/hanlab/memory.py: `RingBuffer` 39-64, `SequentialMemory` 120-223; agent.py: `DDPG.update_policy`
105-147, `observe` 165-168, `soft_update` 211-215, `train` 226-299)
-/
namespace Verif

/-- `RingBuffer` (memory.py:39-44); `none` is a slot never written. -/
structure Ring (α : Type) where
  maxlen : ℕ
  start : ℕ
  length : ℕ
  data : List (Option α)
  deriving DecidableEq, Repr

variable {α O A : Type}

/-- `RingBuffer(maxlen)`. -/
def Ring.new (α : Type) (m : ℕ) : Ring α := ⟨m, 0, 0, List.replicate m none⟩

/-- `buffer[idx]` (memory.py:49-52).  Reading a slot never written would give `None`: a TypeError here, which is shown not to occur. -/
def Ring.get (r : Ring α) (idx : ℤ) : Except Err α :=
  if idx < 0 ∨ (r.length : ℤ) ≤ idx then .error .key
  else match r.data.getD ((r.start + idx.toNat) % r.maxlen) none with
    | some v => .ok v
    | none => .error .type

/-- `buffer.append(v)` (memory.py:54-64).  Python's `% 0` is a ZeroDivisionError. -/
def Ring.append (r : Ring α) (v : α) : Except Err (Ring α) :=
  if r.length < r.maxlen then
    .ok { r with length := r.length + 1, data := r.data.set ((r.start + (r.length + 1) - 1) % r.maxlen) (some v) }
  else if r.length = r.maxlen then
    if r.maxlen = 0 then .error .zeroDiv
    else
      .ok { r with
        start := (r.start + 1) % r.maxlen
        data := r.data.set (((r.start + 1) % r.maxlen + r.length - 1) % r.maxlen) (some v) }
  else .error .runtime

/-- What is remembered of one step: the observation, the action taken, the reward and whether the episode ended. -/
structure Entry (O A : Type) where
  obs : O
  act : A
  rew : ℚ
  term : Bool
  deriving DecidableEq, Repr

/-- `SequentialMemory` (memory.py:120-131): four buffers; `window` is `window_length`, `ignore` `ignore_episode_boundaries`. -/
structure Memo (O A : Type) where
  window : ℕ
  ignore : Bool
  acts : Ring A
  rews : Ring ℚ
  terms : Ring Bool
  obss : Ring O

/-- `SequentialMemory(limit, window_length=…)`. -/
def Memo.new (limit window : ℕ) (ignore : Bool) : Memo O A :=
  ⟨window, ignore, Ring.new A limit, Ring.new ℚ limit, Ring.new Bool limit, Ring.new O limit⟩

/-- `append` (memory.py:210-219) in training mode; the deques of recent observations are not used by the agent and left out. -/
def Memo.append (m : Memo O A) (e : Entry O A) : Except Err (Memo O A) := do
  let o ← m.obss.append e.obs
  let a ← m.acts.append e.act
  let r ← m.rews.append e.rew
  let t ← m.terms.append e.term
  return { m with obss := o, acts := a, rews := r, terms := t }

/-- `nb_entries` (memory.py:221-223). -/
def Memo.entries (m : Memo O A) : ℕ := m.obss.length

/-- `Experience`. -/
structure Experience (O A : Type) where
  state0 : List O
  act : A
  rew : ℚ
  state1 : List O
  term : Bool
  deriving DecidableEq, Repr

/-- The `while terminal0` loop (memory.py:146-152): the first index, of the one given and the ones drawn after it, whose predecessor is
not terminal; `none` if the draws run out before. -/
def Memo.pick (m : Memo O A) : ℕ → List ℕ → Except Err (Option ℕ)
  | idx, ds => do
    let t ← (if 2 ≤ idx then m.terms.get ((idx : ℤ) - 2) else .ok false)
    if t then
      match ds with
      | [] => return none
      | d :: ds => Memo.pick m d ds
    else return some idx

/-- The loop over the offsets (memory.py:159-166): `n` offsets are left, `cur` is `current_idx`. -/
def Memo.windowLoop (m : Memo O A) : ℕ → ℤ → List O → Except Err (List O)
  | 0, _, st => .ok st
  | n + 1, cur, st => do
    let t ← (if cur - 1 > 0 then m.terms.get (cur - 1) else .ok false)
    if cur < 0 ∨ (m.ignore = false ∧ t = true) then return st
    else do
      let o ← m.obss.get cur
      Memo.windowLoop m n (cur - 1) (o :: st)

/-- Lines 167-168: zero observations in front; `zero` is `zeroed_observation`. -/
def padFront (zero : O → O) : ℕ → List O → List O
  | 0, st => st
  | n + 1, st => padFront zero n ((st.head?.map zero).toList ++ st)

/-- The experience made of an index (memory.py:153-182). -/
def Memo.experience (zero : O → O) (m : Memo O A) (idx : ℕ) : Except Err (Experience O A) := do
  if ¬ (1 ≤ idx ∧ idx < m.entries) then throw .assertion
  let o ← m.obss.get ((idx : ℤ) - 1)
  let w ← m.windowLoop (m.window - 1) ((idx : ℤ) - 2) [o]
  let state0 := padFront zero (m.window - w.length) w
  let a ← m.acts.get ((idx : ℤ) - 1)
  let r ← m.rews.get ((idx : ℤ) - 1)
  let t ← m.terms.get ((idx : ℤ) - 1)
  let o1 ← m.obss.get idx
  if state0.length ≠ m.window then throw .assertion
  return ⟨state0, a, r, state0.drop 1 ++ [o1], t⟩

/-- `sample_batch_indexes` (memory.py:19-38), as what it may return: numbers in the range, all different if there are enough.  An empty
range is a ValueError of numpy. -/
def ValidDraw (low high size : ℕ) (l : List ℕ) : Prop :=
  l.length = size ∧ (∀ x ∈ l, low ≤ x ∧ x < high) ∧ (size ≤ high - low → l.Nodup)

/-- `sample` (memory.py:133-184): `drawn` is what `sample_batch_indexes(0, nb_entries - 1, batch_size)` returned, `redraws` the numbers drawn in
the loop for each of them; `none` while some loop has not ended. -/
def Memo.sample (zero : O → O) (m : Memo O A) : List ℕ → List (List ℕ) → Except Err (Option (List (Experience O A)))
  | [], _ => .ok (some [])
  | i :: is, ds => do
    let p ← m.pick (i + 1) (ds.headD [])
    match p with
    | none => return none
    | some idx => do
      let e ← m.experience zero idx
      let rest ← Memo.sample zero m is (ds.drop 1)
      return rest.map fun l => e :: l

/-! ## What is remembered -/

/-- A step of an episode: observation, action, reward. -/
structure EpStep (O A : Type) where
  obs : O
  act : A
  rew : ℚ
  deriving DecidableEq, Repr

/-- The entries made of an episode (agent.py:252, 272-276): every step gets the reward of the last one; the environment reports the end
at the last step. -/
def episodeEntries (ep : List (EpStep O A)) : List (Entry O A) :=
  ep.mapIdx fun i s => ⟨s.obs, s.act, (ep.getLast?.map EpStep.rew).getD 0, decide (i + 1 = ep.length)⟩

/-- All steps are remembered in order. -/
def remember (m : Memo O A) (es : List (Entry O A)) : Except Err (Memo O A) := es.foldlM Memo.append m

/-! ## The update -/

/-- The moving average of the rewards (agent.py:110-116) after a batch with mean `x`; `alpha` is `moving_alpha`. -/
def movingAvg (alpha : ℚ) (avg : Option ℚ) (x : ℚ) : ℚ :=
  match avg with
  | none => x
  | some a => a + alpha * (x - a)

/-- The targets of the critic (agent.py:116-127, memory.py:199): the mask is zero for terminal steps; `q` the value of the next state. -/
def targetQ (discount avg : ℚ) (rew : ℚ) (term : Bool) (q : ℚ) : ℚ := rew - avg + discount * (if term then 0 else 1) * q

/-- `soft_update` (agent.py:211-215). -/
def softUpdate (tau : ℚ) (target source : List ℚ) : List ℚ := List.zipWith (fun t s => t * (1 - tau) + s * tau) target source

end Verif
