import Verif.Model.Replay
import Verif.Lemmas.Fold
import Mathlib.Tactic.Linarith
import Mathlib.Tactic.Ring
import Mathlib.Data.List.Basic
/-!
# The replay memory of the AMC agent (C169, C170)
-/
namespace Verif
variable {α O A : Type}

/-! ## The ring buffer -/

/-- The buffer holds the last entries of the history `l`: position `p` of the history is in slot `p % maxlen`. -/
def Ring.Holds (m : ℕ) (r : Ring α) (l : List α) : Prop :=
  r.maxlen = m ∧ r.length = min l.length m ∧ r.start = (l.length - r.length) % m ∧ r.data.length = m ∧
  ∀ p, l.length - m ≤ p → (h : p < l.length) → r.data[p % m]? = some (some l[p])

theorem Ring.holds_new {m : ℕ} : (Ring.new α m).Holds m [] := by
  refine ⟨rfl, by simp [Ring.new], by simp [Ring.new], by simp [Ring.new], ?_⟩
  intro p _ h
  simp at h

theorem mod_ne_of_lt {n p m : ℕ} (h1 : p < n) (h2 : n - p < m) : p % m ≠ n % m := by
  intro h
  have h3 : (n - p) % m = 0 := Nat.sub_mod_eq_zero_of_mod_eq h.symm
  rw [Nat.mod_eq_of_lt h2] at h3
  omega

theorem Ring.holds_append {m : ℕ} (hm : 0 < m) {r : Ring α} {l : List α} (h : r.Holds m l) (v : α) :
    ∃ r', r.append v = .ok r' ∧ r'.Holds m (l ++ [v]) := by
  obtain ⟨h1, h2, h3, h4, h5⟩ := h
  have slot : ∀ p, l.length + 1 - m ≤ p → (hp : p < (l ++ [v]).length) →
      (r.data.set (l.length % m) (some v))[p % m]? = some (some (l ++ [v])[p]) := by
    intro p hp1 hp2
    rw [List.length_append, List.length_singleton] at hp2
    by_cases hp : p = l.length
    · subst hp
      rw [List.getElem?_set_self (by rw [h4]; exact Nat.mod_lt _ hm)]
      simp
    · have hlt : p < l.length := by omega
      rw [List.getElem?_set_ne (mod_ne_of_lt hlt (by omega)).symm, h5 p (by omega) hlt]
      rw [List.getElem_append_left hlt]
  unfold Ring.append
  rw [h1]
  by_cases hc : r.length < m
  · rw [if_pos hc]
    refine ⟨_, rfl, rfl, ?_, ?_, by simp [h4], ?_⟩
    · simp only [List.length_append, List.length_singleton]; omega
    · simp only [List.length_append, List.length_singleton]
      rw [h3]; congr 1; omega
    · intro p hp1 hp2
      have hs : r.start = 0 := by rw [h3]; have : l.length - r.length = 0 := by omega
                                  rw [this, Nat.zero_mod]
      have : (r.start + (r.length + 1) - 1) % m = l.length % m := by rw [hs]; congr 1; omega
      simp only [this]
      exact slot p (by simpa using hp1) hp2
  · have hlen : r.length = m := by omega
    rw [if_neg hc, if_pos hlen, if_neg (by omega)]
    have hge : m ≤ l.length := by omega
    have hstart : (r.start + 1) % m = (l.length + 1 - m) % m := by
      rw [h3, hlen, Nat.mod_add_mod]; congr 1; omega
    refine ⟨_, rfl, rfl, ?_, ?_, by simp [h4], ?_⟩
    · simp only [List.length_append, List.length_singleton]; omega
    · simp only [List.length_append, List.length_singleton]
      rw [hstart, hlen]
    · intro p hp1 hp2
      have : ((r.start + 1) % m + r.length - 1) % m = l.length % m := by
        rw [hstart, hlen, Nat.add_sub_assoc (by omega), Nat.mod_add_mod]
        have : l.length + 1 - m + (m - 1) = l.length := by omega
        rw [this]
      simp only [this]
      exact slot p (by simpa using hp1) hp2

theorem Ring.holds_get {m : ℕ} {r : Ring α} {l : List α} (h : r.Holds m l) (i : ℕ) (hi : i < min l.length m) :
    ∃ hb : l.length - min l.length m + i < l.length, r.get i = .ok l[l.length - min l.length m + i] := by
  obtain ⟨h1, h2, h3, h4, h5⟩ := h
  refine ⟨by omega, ?_⟩
  have h6 : (r.start + i) % m = (l.length - min l.length m + i) % m := by rw [h3, h2, Nat.mod_add_mod]
  have hd : r.data.getD ((r.start + i) % m) none = some l[l.length - min l.length m + i] := by
    rw [h6, List.getD_eq_getElem?_getD, h5 _ (by omega) (by omega)]
    rfl
  unfold Ring.get
  rw [if_neg (by rw [h2]; omega), h1]
  simp only [Int.toNat_natCast, hd]

theorem Ring.get_oob {m : ℕ} {r : Ring α} {l : List α} (h : r.Holds m l) (i : ℤ) (hi : i < 0 ∨ ((min l.length m : ℕ) : ℤ) ≤ i) :
    r.get i = .error .key := by
  unfold Ring.get
  rw [if_pos (by rw [h.2.1]; exact hi)]

/-- **C169** (ring buffer) After any number of values were appended to a buffer for `m > 0` values, it has the last `m` of them (all, if fewer):
reading gives them in the order they came, and any other index is a KeyError. -/
theorem C169_ring (m : ℕ) (hm : 0 < m) (l : List α) :
    ∃ r : Ring α, l.foldlM Ring.append (Ring.new α m) = Except.ok r ∧ r.length = min l.length m ∧
      (∀ (i : ℕ) (h : i < min l.length m), r.get i = .ok (l[l.length - min l.length m + i]'(by omega))) ∧
      (∀ i : ℤ, i < 0 ∨ ((min l.length m : ℕ) : ℤ) ≤ i → r.get i = .error .key) := by
  have key : ∀ (l' l0 : List α) (r0 : Ring α), r0.Holds m l0 → ∃ r, l'.foldlM Ring.append r0 = Except.ok r ∧ r.Holds m (l0 ++ l') := by
    intro l'
    induction l' with
    | nil => intro l0 r0 h; exact ⟨r0, rfl, by simpa using h⟩
    | cons v l' ih =>
      intro l0 r0 h
      obtain ⟨r1, h1, h2⟩ := Ring.holds_append hm h v
      obtain ⟨r, h3, h4⟩ := ih (l0 ++ [v]) r1 h2
      refine ⟨r, ?_, by simpa using h4⟩
      rw [List.foldlM_cons, h1]
      exact h3
  obtain ⟨r, h1, h2⟩ := key l [] _ Ring.holds_new
  rw [List.nil_append] at h2
  refine ⟨r, h1, h2.2.1, fun i hi => ?_, fun i hi => Ring.get_oob h2 i hi⟩
  exact (Ring.holds_get h2 i hi).2

/-- **C169** (empty buffer) A buffer for no values cannot be used: the first append is a ZeroDivisionError. -/
theorem C169_zero (v : α) (l : List α) : (v :: l).foldlM Ring.append (Ring.new α 0) = Except.error Err.zeroDiv := by
  rw [List.foldlM_cons]
  rfl

example : ([1, 2, 3, 4, 5].foldlM Ring.append (Ring.new ℕ 3)).bind (fun r => r.get 0) = .ok 3 := by decide +kernel
example : ([1, 2, 3, 4, 5].foldlM Ring.append (Ring.new ℕ 3)).bind (fun r => r.get 2) = .ok 5 := by decide +kernel
example : ([1, 2, 3, 4, 5].foldlM Ring.append (Ring.new ℕ 3)).bind (fun r => r.get 3) = .error .key := by decide +kernel

/-! ## The memory -/

/-- The four buffers hold the fields of the same history. -/
def Memo.Holds (lim : ℕ) (m : Memo O A) (l : List (Entry O A)) : Prop :=
  m.obss.Holds lim (l.map Entry.obs) ∧ m.acts.Holds lim (l.map Entry.act) ∧ m.rews.Holds lim (l.map Entry.rew) ∧
  m.terms.Holds lim (l.map Entry.term)

theorem Memo.holds_append {lim : ℕ} (hl : 0 < lim) {m : Memo O A} {l : List (Entry O A)} (h : m.Holds lim l) (e : Entry O A) :
    ∃ m', m.append e = .ok m' ∧ m'.Holds lim (l ++ [e]) ∧ m'.window = m.window ∧ m'.ignore = m.ignore := by
  obtain ⟨h1, h2, h3, h4⟩ := h
  obtain ⟨o, o1, o2⟩ := Ring.holds_append hl h1 e.obs
  obtain ⟨a, a1, a2⟩ := Ring.holds_append hl h2 e.act
  obtain ⟨r, r1, r2⟩ := Ring.holds_append hl h3 e.rew
  obtain ⟨t, t1, t2⟩ := Ring.holds_append hl h4 e.term
  refine ⟨{ m with obss := o, acts := a, rews := r, terms := t }, ?_, ⟨?_, ?_, ?_, ?_⟩, rfl, rfl⟩
  · unfold Memo.append
    simp only [o1, a1, r1, t1, bind, Except.bind, pure, Except.pure]
  all_goals simpa using by assumption

theorem remember_holds {lim : ℕ} (hl : 0 < lim) : ∀ (es l : List (Entry O A)) (m : Memo O A), m.Holds lim l →
    ∃ m', remember m es = .ok m' ∧ m'.Holds lim (l ++ es) ∧ m'.window = m.window ∧ m'.ignore = m.ignore := by
  intro es
  induction es with
  | nil => intro l m h; exact ⟨m, rfl, by simpa using h, rfl, rfl⟩
  | cons e es ih =>
    intro l m h
    obtain ⟨m1, a1, a2, a3, a4⟩ := Memo.holds_append hl h e
    obtain ⟨m2, b1, b2, b3, b4⟩ := ih (l ++ [e]) m1 a2
    refine ⟨m2, ?_, by simpa using b2, by rw [b3, a3], by rw [b4, a4]⟩
    unfold remember at b1 ⊢
    rw [List.foldlM_cons, a1]
    exact b1

theorem Memo.holds_new {lim w : ℕ} {ig : Bool} : (Memo.new lim w ig : Memo O A).Holds lim [] :=
  ⟨Ring.holds_new, Ring.holds_new, Ring.holds_new, Ring.holds_new⟩

/-- Number of entries no longer held. -/
def forgotten (lim n : ℕ) : ℕ := n - min n lim

theorem Memo.get_at {lim : ℕ} {m : Memo O A} {l : List (Entry O A)} (h : m.Holds lim l) {i : ℕ} (hi : i < min l.length lim) :
    ∃ e, l[forgotten lim l.length + i]? = some e ∧ m.obss.get i = .ok e.obs ∧ m.acts.get i = .ok e.act ∧ m.rews.get i = .ok e.rew ∧
      m.terms.get i = .ok e.term := by
  obtain ⟨h1, h2, h3, h4⟩ := h
  have hb : l.length - min l.length lim + i < l.length := by omega
  refine ⟨l[l.length - min l.length lim + i], List.getElem?_eq_getElem hb, ?_, ?_, ?_, ?_⟩
  · obtain ⟨_, e⟩ := Ring.holds_get h1 i (by simpa using hi)
    simpa using e
  · obtain ⟨_, e⟩ := Ring.holds_get h2 i (by simpa using hi)
    simpa using e
  · obtain ⟨_, e⟩ := Ring.holds_get h3 i (by simpa using hi)
    simpa using e
  · obtain ⟨_, e⟩ := Ring.holds_get h4 i (by simpa using hi)
    simpa using e

theorem Memo.entries_eq {lim : ℕ} {m : Memo O A} {l : List (Entry O A)} (h : m.Holds lim l) : m.entries = min l.length lim := by
  have := h.1.2.1
  unfold Memo.entries
  simpa using this

/-- The experience at index `idx` of a memory with window one. -/
theorem Memo.experience_one {lim : ℕ} (zero : O → O) {m : Memo O A} {l : List (Entry O A)} (h : m.Holds lim l)
    (hw : m.window = 1) {idx : ℕ} (h1 : 1 ≤ idx) (h2 : idx < m.entries) :
    ∃ e e', l[forgotten lim l.length + (idx - 1)]? = some e ∧ l[forgotten lim l.length + (idx - 1) + 1]? = some e' ∧
      m.experience zero idx = .ok ⟨[e.obs], e.act, e.rew, [e'.obs], e.term⟩ := by
  have he := Memo.entries_eq h
  obtain ⟨e, a0, a1, a2, a3, a4⟩ := Memo.get_at h (i := idx - 1) (by omega)
  obtain ⟨e', b0, b1, -, -, -⟩ := Memo.get_at h (i := idx) (by omega)
  refine ⟨e, e', a0, ?_, ?_⟩
  · rw [← b0]; congr 1; omega
  · have hc : ((idx : ℤ) - 1) = ((idx - 1 : ℕ) : ℤ) := by omega
    unfold Memo.experience
    rw [if_neg (by simp [h1, h2]), hw, hc, a1, a2, a3, a4, b1]
    rfl

/-! ## Episodes -/

theorem episodeEntries_get (ep : List (EpStep O A)) (k : ℕ) :
    (episodeEntries ep)[k]? = (ep[k]?).map fun s => ⟨s.obs, s.act, (ep.getLast?.map EpStep.rew).getD 0, decide (k + 1 = ep.length)⟩ := by
  unfold episodeEntries
  rw [List.getElem?_mapIdx]

theorem episodeEntries_length (ep : List (EpStep O A)) : (episodeEntries ep).length = ep.length := by
  unfold episodeEntries
  rw [List.length_mapIdx]

/-- Where an entry of the history comes from. -/
theorem locate : ∀ (eps : List (List (EpStep O A))) (j : ℕ) (e e' : Entry O A),
    (eps.flatMap episodeEntries)[j]? = some e → (eps.flatMap episodeEntries)[j + 1]? = some e' →
    ∃ ep ∈ eps, ∃ k, (episodeEntries ep)[k]? = some e ∧ (e.term = false → (episodeEntries ep)[k + 1]? = some e') := by
  intro eps
  induction eps with
  | nil => intro j e e' h; simp at h
  | cons ep eps ih =>
    intro j e e' h h'
    rw [List.flatMap_cons] at h h'
    by_cases hj : j < (episodeEntries ep).length
    · rw [List.getElem?_append_left hj] at h
      refine ⟨ep, by simp, j, h, ?_⟩
      intro ht
      have : j + 1 < (episodeEntries ep).length := by
        rw [episodeEntries_get] at h
        obtain ⟨s, hs, he⟩ := Option.map_eq_some_iff.1 h
        subst he
        simp only [decide_eq_false_iff_not] at ht
        rw [episodeEntries_length] at hj ⊢
        omega
      rw [List.getElem?_append_left this] at h'
      exact h'
    · rw [List.getElem?_append_right (by omega)] at h h'
      have : j + 1 - (episodeEntries ep).length = (j - (episodeEntries ep).length) + 1 := by omega
      rw [this] at h'
      obtain ⟨ep', hm, k, h1, h2⟩ := ih _ e e' h h'
      exact ⟨ep', List.mem_cons_of_mem _ hm, k, h1, h2⟩

/-- A transition of an episode: the state, the action taken in it, the final reward of the episode, and either the end or the next state. -/
def Genuine (eps : List (List (EpStep O A))) (e : Experience O A) : Prop :=
  ∃ ep ∈ eps, ∃ k s last, ep[k]? = some s ∧ ep.getLast? = some last ∧
    e.state0 = [s.obs] ∧ e.act = s.act ∧ e.rew = last.rew ∧ (e.term = true ↔ k + 1 = ep.length) ∧
    (e.term = false → ∃ s', ep[k + 1]? = some s' ∧ e.state1 = [s'.obs])

theorem genuine_of {eps : List (List (EpStep O A))} {j : ℕ} {e e' : Entry O A}
    (h : (eps.flatMap episodeEntries)[j]? = some e) (h' : (eps.flatMap episodeEntries)[j + 1]? = some e') :
    Genuine eps ⟨[e.obs], e.act, e.rew, [e'.obs], e.term⟩ := by
  obtain ⟨ep, hm, k, h1, h2⟩ := locate eps j e e' h h'
  rw [episodeEntries_get] at h1
  obtain ⟨s, hs, he⟩ := Option.map_eq_some_iff.1 h1
  have hne : ep ≠ [] := by rintro rfl; simp at hs
  obtain ⟨last, hlast⟩ : ∃ last, ep.getLast? = some last := ⟨_, List.getLast?_eq_some_getLast hne⟩
  subst he
  refine ⟨ep, hm, k, s, last, hs, hlast, rfl, rfl, by simp [hlast], by simp, ?_⟩
  intro ht
  have h3 := h2 ht
  rw [episodeEntries_get] at h3
  obtain ⟨s', hs', he'⟩ := Option.map_eq_some_iff.1 h3
  subst he'
  exact ⟨s', hs', rfl⟩

theorem pick_range {m : Memo O A} {n : ℕ} : ∀ (ds : List ℕ) (i idx : ℕ), 1 ≤ i ∧ i < n → (∀ d ∈ ds, 1 ≤ d ∧ d < n) →
    m.pick i ds = .ok (some idx) → 1 ≤ idx ∧ idx < n := by
  intro ds
  induction ds with
  | nil =>
    intro i idx hi _ h
    unfold Memo.pick at h
    obtain ⟨t, -, h⟩ := ok_bind h
    cases t with
    | true => simp [pure, Except.pure] at h
    | false => simp [pure, Except.pure] at h; subst h; exact hi
  | cons d ds ih =>
    intro i idx hi hd h
    unfold Memo.pick at h
    obtain ⟨t, -, h⟩ := ok_bind h
    cases t with
    | true =>
      simp only [if_true] at h
      exact ih d idx (hd d (by simp)) (fun x hx => hd x (List.mem_cons_of_mem _ hx)) h
    | false => simp [pure, Except.pure] at h; subst h; exact hi

theorem sample_genuine {lim : ℕ} (zero : O → O) {m : Memo O A} {l : List (Entry O A)} (h : m.Holds lim l) (hw : m.window = 1)
    {P : Experience O A → Prop}
    (hP : ∀ (j : ℕ) (e e' : Entry O A), l[j]? = some e → l[j + 1]? = some e' → P ⟨[e.obs], e.act, e.rew, [e'.obs], e.term⟩) :
    ∀ (is : List ℕ) (ds : List (List ℕ)) (out : List (Experience O A)),
      (∀ x ∈ is, x < m.entries - 1) → (∀ d ∈ ds, ∀ x ∈ d, 1 ≤ x ∧ x < m.entries) →
      m.sample zero is ds = .ok (some out) → out.length = is.length ∧ ∀ e ∈ out, P e := by
  intro is
  induction is with
  | nil =>
    intro ds out _ _ h
    unfold Memo.sample at h
    cases h
    simp
  | cons i is ih =>
    intro ds out hi hd hs
    unfold Memo.sample at hs
    obtain ⟨p, hp, hs⟩ := ok_bind hs
    cases p with
    | none => simp [pure, Except.pure] at hs
    | some idx =>
      simp only at hs
      obtain ⟨e, he, hs⟩ := ok_bind hs
      obtain ⟨rest, hr, hs⟩ := ok_bind hs
      cases rest with
      | none => simp [pure, Except.pure] at hs
      | some rest =>
        simp [pure, Except.pure] at hs
        subst hs
        have hi0 := hi i (by simp)
        have hhead : ∀ x ∈ ds.headD [], 1 ≤ x ∧ x < m.entries := by
          cases ds with
          | nil => simp
          | cons d ds => exact hd d (by simp)
        obtain ⟨r1, r2⟩ := pick_range _ _ _ ⟨by omega, by omega⟩ hhead hp
        obtain ⟨a, b, c1, c2, c3⟩ := Memo.experience_one zero h hw r1 r2
        rw [c3] at he
        cases he
        obtain ⟨q1, q2⟩ := ih (ds.drop 1) rest (fun x hx => hi x (List.mem_cons_of_mem _ hx))
          (fun d hdd => hd d (List.mem_of_mem_drop hdd)) hr
        refine ⟨by simp [q1], ?_⟩
        intro x hx
        rcases List.mem_cons.1 hx with rfl | hx
        · exact hP _ a b c1 c2
        · exact q2 x hx

/-- **C170** (sampling) Whatever the episodes were, at whatever moment, whatever was drawn: sampling a batch yields as many experiences as
asked for, and each is a transition of one episode: its state, the action taken there, the final reward of the episode, and the next
state of the same episode unless it is the last one, in which case it is marked as such. -/
theorem C170_sampling (lim : ℕ) (hl : 0 < lim) (ignore : Bool) (zero : O → O) (eps : List (List (EpStep O A))) (n : ℕ) (m : Memo O A)
    (hm : remember (Memo.new lim 1 ignore) ((eps.flatMap episodeEntries).take n) = .ok m)
    (size : ℕ) (drawn : List ℕ) (hd : ValidDraw 0 (m.entries - 1) size drawn) (redraws : List (List ℕ))
    (hr : ∀ d ∈ redraws, ∀ x ∈ d, 1 ≤ x ∧ x < m.entries) (out : List (Experience O A))
    (h : m.sample zero drawn redraws = .ok (some out)) : out.length = size ∧ ∀ e ∈ out, Genuine eps e := by
  obtain ⟨m', h1, h2, h3, -⟩ := remember_holds hl ((eps.flatMap episodeEntries).take n) [] (Memo.new lim 1 ignore) Memo.holds_new
  rw [hm] at h1
  cases h1
  rw [List.nil_append] at h2
  have hP : ∀ (j : ℕ) (e e' : Entry O A), ((eps.flatMap episodeEntries).take n)[j]? = some e →
      ((eps.flatMap episodeEntries).take n)[j + 1]? = some e' → Genuine eps ⟨[e.obs], e.act, e.rew, [e'.obs], e.term⟩ := by
    intro j e e' he he'
    rw [List.getElem?_take] at he he'
    split at he
    · split at he'
      · exact genuine_of he he'
      · cases he'
    · cases he
  obtain ⟨a, b⟩ := sample_genuine zero h2 h3 hP drawn redraws out (fun x hx => (hd.2.1 x hx).2) hr h
  exact ⟨by rw [a, hd.1], b⟩

/-- **C170** (no errors) Sampling from at least two remembered steps never raises; it goes on only while all numbers drawn are
refused. -/
theorem C170_no_error (lim : ℕ) (hl : 0 < lim) (ignore : Bool) (zero : O → O) (es : List (Entry O A)) (m : Memo O A)
    (hm : remember (Memo.new lim 1 ignore) es = .ok m) (size : ℕ) (drawn : List ℕ) (hd : ValidDraw 0 (m.entries - 1) size drawn)
    (redraws : List (List ℕ)) (hr : ∀ d ∈ redraws, ∀ x ∈ d, 1 ≤ x ∧ x < m.entries) : ∃ o, m.sample zero drawn redraws = .ok o := by
  obtain ⟨m', h1, h2, h3, -⟩ := remember_holds hl es [] (Memo.new lim 1 ignore) Memo.holds_new
  rw [hm] at h1
  cases h1
  rw [List.nil_append] at h2
  have he := Memo.entries_eq h2
  have hpick : ∀ (ds : List ℕ) (i : ℕ), 1 ≤ i ∧ i < m.entries → (∀ d ∈ ds, 1 ≤ d ∧ d < m.entries) → ∃ o, m.pick i ds = .ok o := by
    have hget : ∀ i, 2 ≤ i → i < m.entries → ∃ t, m.terms.get ((i : ℤ) - 2) = .ok t := by
      intro i h2i hi
      obtain ⟨e, -, -, -, -, ht⟩ := Memo.get_at h2 (i := i - 2) (by omega)
      have : ((i : ℤ) - 2) = ((i - 2 : ℕ) : ℤ) := by omega
      rw [this]
      exact ⟨_, ht⟩
    have hcond : ∀ i, i < m.entries → ∃ t, (if 2 ≤ i then m.terms.get ((i : ℤ) - 2) else .ok false) = .ok t := by
      intro i hi
      split
      · rename_i h2i
        exact hget i h2i hi
      · exact ⟨false, rfl⟩
    intro ds
    induction ds with
    | nil =>
      intro i hi _
      obtain ⟨t, ht⟩ := hcond i hi.2
      unfold Memo.pick
      rw [ht]
      cases t <;> exact ⟨_, rfl⟩
    | cons d ds ih =>
      intro i hi hd
      obtain ⟨t, ht⟩ := hcond i hi.2
      unfold Memo.pick
      rw [ht]
      cases t with
      | true =>
        obtain ⟨o, ho⟩ := ih d (hd d (by simp)) fun x hx => hd x (List.mem_cons_of_mem _ hx)
        exact ⟨o, ho⟩
      | false => exact ⟨_, rfl⟩
  have main : ∀ (is : List ℕ) (ds : List (List ℕ)), (∀ x ∈ is, x < m.entries - 1) → (∀ d ∈ ds, ∀ x ∈ d, 1 ≤ x ∧ x < m.entries) →
      ∃ o, m.sample zero is ds = .ok o := by
    intro is
    induction is with
    | nil => intro ds _ _; exact ⟨_, rfl⟩
    | cons i is ih =>
      intro ds hi hds
      have hi0 := hi i (by simp)
      have hhead : ∀ x ∈ ds.headD [], 1 ≤ x ∧ x < m.entries := by
        cases ds with
        | nil => simp
        | cons d ds => exact hds d (by simp)
      obtain ⟨p, hp⟩ := hpick (ds.headD []) (i + 1) ⟨by omega, by omega⟩ hhead
      obtain ⟨o, ho⟩ := ih (ds.drop 1) (fun x hx => hi x (List.mem_cons_of_mem _ hx)) fun d hdd => hds d (List.mem_of_mem_drop hdd)
      unfold Memo.sample
      rw [hp]
      cases p with
      | none => exact ⟨none, rfl⟩
      | some idx =>
        obtain ⟨r1, r2⟩ := pick_range _ _ _ ⟨by omega, by omega⟩ hhead hp
        obtain ⟨a, b, -, -, c3⟩ := Memo.experience_one zero h2 h3 r1 r2
        simp only [bind, Except.bind, c3, ho, pure, Except.pure]
        exact ⟨_, rfl⟩
  exact main drawn redraws (fun x hx => (hd.2.1 x hx).2) hr

theorem pick_refuses {m : Memo O A} {j : ℕ} (hj : 1 ≤ j) (ht : m.terms.get ((j : ℤ) - 1) = .ok true) : ∀ (ds : List ℕ) (i idx : ℕ),
    m.pick i ds = .ok (some idx) → idx ≠ j + 1 := by
  have here : ∀ (i idx : ℕ) (t : Bool), (if 2 ≤ i then m.terms.get ((i : ℤ) - 2) else .ok false) = .ok t → t = false → i = idx → idx ≠ j + 1 := by
    rintro i idx t h rfl rfl rfl
    rw [if_pos (by omega)] at h
    have : (((j + 1 : ℕ) : ℤ) - 2) = (j : ℤ) - 1 := by push_cast; ring
    rw [this, ht] at h
    cases h
  intro ds
  induction ds with
  | nil =>
    intro i idx h
    unfold Memo.pick at h
    obtain ⟨t, h1, h⟩ := ok_bind h
    cases t with
    | true => simp [pure, Except.pure] at h
    | false =>
      simp [pure, Except.pure] at h
      exact here i idx _ h1 rfl h
  | cons d ds ih =>
    intro i idx h
    unfold Memo.pick at h
    obtain ⟨t, h1, h⟩ := ok_bind h
    cases t with
    | true =>
      simp only [if_true] at h
      exact ih d idx h
    | false =>
      simp [pure, Except.pure] at h
      exact here i idx _ h1 rfl h

/-- **C170** is violated: the first step of an episode is never sampled, whatever is drawn, unless it is the oldest entry held: the step after a
terminal one is taken for the (not existing) entry of a terminal observation.  The agent does not learn from its decision about the
first layer. -/
theorem C170_violated_first (lim : ℕ) (hl : 0 < lim) (ignore : Bool) (pre : List (List (EpStep O A))) (ep : List (EpStep O A))
    (rest : List (Entry O A)) (hne : ∃ p q, pre = p ++ [q] ∧ q ≠ []) (m : Memo O A)
    (hm : remember (Memo.new lim 1 ignore) (pre.flatMap episodeEntries ++ episodeEntries ep ++ rest) = .ok m)
    (j : ℕ) (hj : 1 ≤ j)
    (hpos : forgotten lim (pre.flatMap episodeEntries ++ episodeEntries ep ++ rest).length + j = (pre.flatMap episodeEntries).length)
    (i : ℕ) (ds : List ℕ) : m.pick i ds ≠ .ok (some (j + 1)) := by
  obtain ⟨m', h1, h2, -, -⟩ := remember_holds hl (pre.flatMap episodeEntries ++ episodeEntries ep ++ rest) [] (Memo.new lim 1 ignore) Memo.holds_new
  rw [hm] at h1
  cases h1
  rw [List.nil_append] at h2
  intro h
  refine pick_refuses hj ?_ ds i (j + 1) h rfl
  have hlen : (pre.flatMap episodeEntries).length ≤ (pre.flatMap episodeEntries ++ episodeEntries ep ++ rest).length := by simp
  have hb : j - 1 < min (pre.flatMap episodeEntries ++ episodeEntries ep ++ rest).length lim := by
    unfold forgotten at hpos
    omega
  obtain ⟨e, he, -, -, -, ht⟩ := Memo.get_at h2 hb
  have hcast : ((j : ℤ) - 1) = ((j - 1 : ℕ) : ℤ) := by omega
  rw [hcast, ht]
  congr 1
  have hidx : forgotten lim (pre.flatMap episodeEntries ++ episodeEntries ep ++ rest).length + (j - 1) =
      (pre.flatMap episodeEntries).length - 1 := by omega
  obtain ⟨p, q, rfl, hq⟩ := hne
  have hql : 0 < q.length := List.length_pos_iff.2 hq
  have hflat : ((p ++ [q]).flatMap episodeEntries) = p.flatMap episodeEntries ++ episodeEntries q := by simp
  rw [hidx, hflat, List.append_assoc, List.append_assoc, List.getElem?_append_right (by simp [episodeEntries_length]; omega),
    List.getElem?_append_left (by simp [episodeEntries_length]; omega)] at he
  have h4 : (p.flatMap episodeEntries ++ episodeEntries q).length - 1 - (p.flatMap episodeEntries).length = q.length - 1 := by
    rw [List.length_append, episodeEntries_length]; omega
  rw [h4, episodeEntries_get] at he
  obtain ⟨s, hs, rfl⟩ := Option.map_eq_some_iff.1 he
  simp only [decide_eq_true_eq]
  omega

/-- Two episodes of two steps, for the non-vacuity examples. -/
def toyEps : List (List (EpStep ℕ ℕ)) := [[⟨1, 10, 0⟩, ⟨2, 20, 5⟩], [⟨3, 30, 0⟩, ⟨4, 40, 7⟩]]

example : ((remember (Memo.new 8 1 false) (toyEps.flatMap episodeEntries)).bind fun m => m.sample (fun _ => 0) [0, 1, 2] [[], [], [1, 1]]) =
    .ok (some [⟨[1], 10, 5, [2], false⟩, ⟨[2], 20, 5, [3], true⟩, ⟨[1], 10, 5, [2], false⟩]) := by decide +kernel
example : ((remember (Memo.new 8 1 false) (toyEps.flatMap episodeEntries)).bind fun m => m.sample (fun _ => 0) [2] [[3, 3]]) = .ok none := by
  decide +kernel

/-- **C170** is violated for windows of three observations, although the code takes precautions: the state sampled for the second step of the
second episode contains the observation of the first episode (1), because the oldest entry held is not checked. -/
theorem C170_violated_window : ∃ e, ((remember (Memo.new 8 3 false) ([[⟨1, 10, 0⟩], [⟨2, 20, 0⟩, ⟨3, 30, 0⟩, ⟨4, 40, 7⟩]].flatMap
      episodeEntries)).bind fun m => m.sample (fun _ => (0 : ℕ)) [2] [[]]) = .ok (some [e]) ∧ e.state0 = [1, 2, 3] ∧ e.act = 30 :=
  ⟨⟨[1, 2, 3], 30, 7, [2, 3, 4], false⟩, by decide +kernel, rfl, rfl⟩

/-- **C170** is violated for windows of two observations: the state sampled for the second step of the second episode is padded with a zero,
although its predecessor (3) is in the same episode. -/
theorem C170_violated_padding : ∃ e, ((remember (Memo.new 8 2 false) ([[⟨1, 10, 0⟩, ⟨2, 20, 5⟩], [⟨3, 30, 0⟩, ⟨4, 40, 0⟩, ⟨5, 50, 7⟩]].flatMap
      episodeEntries)).bind fun m => m.sample (fun _ => (0 : ℕ)) [3] [[]]) = .ok (some [e]) ∧ e.state0 = [0, 4] ∧ e.act = 40 :=
  ⟨⟨[0, 4], 40, 7, [4, 5], false⟩, by decide +kernel, rfl, rfl⟩

/-! ## The update -/

/-- **C170** (baseline) The moving average stays between the least and the greatest batch mean. -/
theorem C170_average (alpha : ℚ) (h0 : 0 ≤ alpha) (h1 : alpha ≤ 1) (lo hi : ℚ) : ∀ (xs : List ℚ) (avg : Option ℚ),
    (∀ x ∈ xs, lo ≤ x ∧ x ≤ hi) → (∀ a, avg = some a → lo ≤ a ∧ a ≤ hi) →
    ∀ a, xs.foldl (fun s x => some (movingAvg alpha s x)) avg = some a → lo ≤ a ∧ a ≤ hi := by
  intro xs
  induction xs with
  | nil => intro avg _ h a ha; exact h a ha
  | cons x xs ih =>
    intro avg hx h a ha
    obtain ⟨x1, x2⟩ := hx x (by simp)
    refine ih _ (fun y hy => hx y (List.mem_cons_of_mem _ hy)) ?_ a ha
    intro b hb
    cases hb
    unfold movingAvg
    cases avg with
    | none => exact ⟨x1, x2⟩
    | some c =>
      obtain ⟨c1, c2⟩ := h c rfl
      simp only
      constructor <;> nlinarith

/-- **C170** (target) The target of a terminal step is its reward above the average; otherwise the discounted value of the next state is
added. -/
theorem C170_target (discount avg rew q : ℚ) : targetQ discount avg rew true q = rew - avg ∧
    targetQ discount avg rew false q = rew - avg + discount * q := by
  unfold targetQ
  constructor
  · rw [if_pos rfl]; ring
  · rw [if_neg (by simp)]; ring

/-- **C170** (target networks) After `n` soft updates towards a fixed source, every parameter of a target network is the weighted mean of where
it started and the source, with weight `(1 - tau)^n` for the start. -/
theorem C170_soft_update (tau : ℚ) (source : List ℚ) : ∀ (n : ℕ) (target : List ℚ), target.length = source.length →
    (Nat.iterate (fun t => softUpdate tau t source) n target) =
      List.zipWith (fun t s => (1 - tau) ^ n * t + (1 - (1 - tau) ^ n) * s) target source := by
  intro n
  induction n with
  | zero =>
    intro target h
    simp only [Function.iterate_zero, id_eq, pow_zero, one_mul, sub_self, zero_mul, add_zero]
    apply List.ext_getElem
    · simp [h]
    · intro i h1 h2
      simp
  | succ n ih =>
    intro target h
    rw [Function.iterate_succ_apply, ih (softUpdate tau target source) (by simp [softUpdate, h])]
    apply List.ext_getElem
    · simp [softUpdate]
    · intro i h1 h2
      simp only [softUpdate, List.getElem_zipWith, pow_succ]
      ring

example : Nat.iterate (fun t => softUpdate (1/2) t [1, 0]) 2 [0, 4] = [3/4, 1] := by decide +kernel
example : [1, 3].foldl (fun s x => some (movingAvg (1/2) s x)) none = some 2 := by decide +kernel

end Verif
