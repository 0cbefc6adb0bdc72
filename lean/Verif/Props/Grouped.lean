import Verif.Model.Sampler
import Verif.Lemmas.Fold
import Mathlib.Data.List.Perm.Basic
import Mathlib.Data.List.Nodup
/-!
# C175: batches of one group
-/
namespace Verif

variable (group : ℕ → ℕ) (bs : ℕ)

/-- The samples of a group, in the order of the sampler. -/
def ofGroup (l : List ℕ) (g : ℕ) : List ℕ := l.filter fun i => group i = g

theorem dget_set (d : Dict ℕ (List ℕ)) (g g' : ℕ) (v : List ℕ) : dget (Dict.set d g v) g' = if g = g' then v else dget d g' := by
  unfold dget
  by_cases h : g = g'
  · subst h; rw [Dict.get?_set_self, if_pos rfl]; rfl
  · rw [Dict.get?_set_ne _ _ h, if_neg h]

theorem mem_set_group {d : Dict ℕ (List ℕ)} (hd : Dict.Nodup d) {g : ℕ} {v : List ℕ} {kv : ℕ × List ℕ} (h : kv ∈ Dict.set d g v) :
    kv = (g, v) ∨ (kv.1 ≠ g ∧ kv ∈ d) := by
  induction d with
  | nil => left; simpa [Dict.set] using h
  | cons x d ih =>
    obtain ⟨k, w⟩ := x
    have hd' : Dict.Nodup d := (List.nodup_cons.1 hd).2
    have hk : k ∉ d.map Prod.fst := (List.nodup_cons.1 hd).1
    rw [Dict.set] at h
    split at h
    · rename_i e
      subst e
      rcases List.mem_cons.1 h with h | h
      · exact Or.inl h
      · right
        exact ⟨fun e => hk (List.mem_map.2 ⟨kv, h, e⟩), List.mem_cons_of_mem _ h⟩
    · rename_i e
      rcases List.mem_cons.1 h with h | h
      · right; subst h; exact ⟨e, by simp⟩
      · rcases ih hd' h with h | ⟨h1, h2⟩
        · exact Or.inl h
        · exact Or.inr ⟨h1, List.mem_cons_of_mem _ h2⟩

theorem set_flatten (d : Dict ℕ (List ℕ)) (g i : ℕ) :
    ((Dict.set d g (dget d g ++ [i])).map Prod.snd).flatten.Perm (i :: (d.map Prod.snd).flatten) := by
  induction d with
  | nil => simp [Dict.set, dget]
  | cons x d ih =>
    obtain ⟨k, w⟩ := x
    rw [Dict.set]
    by_cases h : k = g
    · subst h
      have : dget ((k, w) :: d) k = w := by simp [dget, Dict.get?]
      rw [if_pos rfl, this]
      simp only [List.map_cons, List.flatten_cons, List.append_assoc, List.singleton_append]
      exact List.perm_middle
    · have : dget ((k, w) :: d) g = dget d g := by simp [dget, Dict.get?, h]
      rw [if_neg h, this]
      simp only [List.map_cons, List.flatten_cons]
      exact (ih.append_left w).trans List.perm_middle

theorem drop_flatten {d : Dict ℕ (List ℕ)} (hd : Dict.Nodup d) (g : ℕ) :
    (dget d g ++ ((d.filter fun kv => kv.1 ≠ g).map Prod.snd).flatten).Perm (d.map Prod.snd).flatten := by
  induction d with
  | nil => simp [dget]
  | cons x d ih =>
    obtain ⟨k, w⟩ := x
    have hd' : Dict.Nodup d := (List.nodup_cons.1 hd).2
    have hk : k ∉ d.map Prod.fst := (List.nodup_cons.1 hd).1
    by_cases h : k = g
    · subst h
      have e1 : dget ((k, w) :: d) k = w := by simp [dget, Dict.get?]
      have e2 : ((k, w) :: d).filter (fun kv => kv.1 ≠ k) = d := by
        rw [List.filter_cons_of_neg (by simp)]
        apply List.filter_eq_self.2
        intro kv hkv
        simp only [ne_eq, decide_not, Bool.not_eq_eq_eq_not, Bool.not_true, decide_eq_false_iff_not]
        exact fun e => hk (List.mem_map.2 ⟨kv, hkv, e⟩)
      rw [e1, e2]
      simp
    · have e1 : dget ((k, w) :: d) g = dget d g := by simp [dget, Dict.get?, h]
      rw [e1, List.filter_cons_of_pos (by simpa using h)]
      simp only [List.map_cons, List.flatten_cons]
      refine List.Perm.trans ?_ ((ih hd').append_left w)
      rw [← List.append_assoc, ← List.append_assoc]
      exact List.perm_append_comm.append_right _

/-- What holds after the samples `l`: a buffer holds the samples of its group after the last complete batch. -/
structure GroupInv (l : List ℕ) (s : GroupSt) : Prop where
  nd : Dict.Nodup s.buffer
  buf : ∀ kv ∈ s.buffer, kv.2.length < bs ∧ ofGroup group l kv.1 ≠ [] ∧
    ∃ q, q * bs ≤ (ofGroup group l kv.1).length ∧ kv.2 = (ofGroup group l kv.1).drop (q * bs)
  none : ∀ g, g ∉ s.buffer.map Prod.fst → ofGroup group l g = []
  sam : ∀ g, dget s.samples g = ofGroup group l g
  out : ∀ b ∈ s.out, b.length = bs ∧ ∃ g, ∀ i ∈ b, group i = g
  perm : (s.out.flatten ++ (s.buffer.map Prod.snd).flatten).Perm l

variable {group bs}

theorem ofGroup_append (l : List ℕ) (i g : ℕ) :
    ofGroup group (l ++ [i]) g = if group i = g then ofGroup group l g ++ [i] else ofGroup group l g := by
  unfold ofGroup
  rw [List.filter_append]
  by_cases h : group i = g
  · simp [h]
  · simp [h]

theorem groupStep_inv (hb : 0 < bs) {l : List ℕ} {s : GroupSt} (hs : GroupInv group bs l s) (i : ℕ) :
    ∃ s', groupStep group bs s i = .ok s' ∧ GroupInv group bs (l ++ [i]) s' := by
  have hself : dget (Dict.set s.buffer (group i) (dget s.buffer (group i) ++ [i])) (group i) = dget s.buffer (group i) ++ [i] := by
    rw [dget_set, if_pos rfl]
  -- the buffer of the group before the step
  have hbuf : (dget s.buffer (group i)).length < bs ∧ ∃ q, q * bs ≤ (ofGroup group l (group i)).length ∧
      dget s.buffer (group i) = (ofGroup group l (group i)).drop (q * bs) := by
    cases hg : Dict.get? s.buffer (group i) with
    | none =>
      have e : dget s.buffer (group i) = [] := by unfold dget; rw [hg]; rfl
      have h0 := hs.none (group i) ((Dict.get?_eq_none_iff _ _).1 hg)
      refine ⟨by rw [e]; exact hb, 0, by simp, by rw [e, h0, List.drop_nil]⟩
    | some B =>
      have e : dget s.buffer (group i) = B := by unfold dget; rw [hg]; rfl
      have h0 := hs.buf _ (Dict.mem_of_get? hg)
      rw [e]
      exact ⟨h0.1, h0.2.2⟩
  obtain ⟨hlt, q, hq, hB⟩ := hbuf
  have hF : ofGroup group (l ++ [i]) (group i) = ofGroup group l (group i) ++ [i] := by rw [ofGroup_append, if_pos rfl]
  have hB' : dget s.buffer (group i) ++ [i] = (ofGroup group (l ++ [i]) (group i)).drop (q * bs) := by
    rw [hF, List.drop_append_of_le_length hq, hB]
  have hgrp : ∀ j ∈ dget s.buffer (group i) ++ [i], group j = group i := by
    intro j hj
    rw [hB'] at hj
    have := List.mem_of_mem_drop hj
    simpa using (List.mem_filter.1 this).2
  have hsam : ∀ g, dget (Dict.set s.samples (group i) (dget s.samples (group i) ++ [i])) g = ofGroup group (l ++ [i]) g := by
    intro g
    rw [dget_set, ofGroup_append, hs.sam, hs.sam]
    by_cases h : group i = g
    · subst h; rfl
    · rw [if_neg h, if_neg h]
  have hold : ∀ kv ∈ s.buffer, kv.1 ≠ group i → kv.2.length < bs ∧ ofGroup group (l ++ [i]) kv.1 ≠ [] ∧
      ∃ q, q * bs ≤ (ofGroup group (l ++ [i]) kv.1).length ∧ kv.2 = (ofGroup group (l ++ [i]) kv.1).drop (q * bs) := by
    intro kv hkv hne
    rw [ofGroup_append, if_neg (fun e => hne e.symm)]
    exact hs.buf kv hkv
  have hset := set_flatten s.buffer (group i) i
  have hnd := Dict.nodup_set hs.nd (group i) (dget s.buffer (group i) ++ [i])
  unfold groupStep
  simp only
  rw [hself]
  by_cases hfull : (dget s.buffer (group i) ++ [i]).length = bs
  · rw [if_pos hfull]
    refine ⟨_, rfl, ?_, ?_, ?_, hsam, ?_, ?_⟩
    · dsimp only
      unfold Dict.Nodup
      rw [List.map_append, List.nodup_append]
      refine ⟨hnd.sublist (List.filter_sublist.map _), by simp, ?_⟩
      rintro a ha b hb' rfl
      obtain ⟨kv, hkv, rfl⟩ := List.mem_map.1 ha
      simp only [List.map_cons, List.map_nil, List.mem_singleton] at hb'
      have := (List.mem_filter.1 hkv).2
      simp [hb'] at this
    · intro kv hkv
      dsimp only at hkv
      rcases List.mem_append.1 hkv with h | h
      · have h1 := (List.mem_filter.1 h).2
        simp only [ne_eq, decide_not, Bool.not_eq_eq_eq_not, Bool.not_true, decide_eq_false_iff_not] at h1
        rcases mem_set_group hs.nd (List.mem_filter.1 h).1 with h2 | h2
        · exact absurd (congrArg Prod.fst h2) h1
        · exact hold kv h2.2 h1
      · simp only [List.mem_singleton] at h
        subst h
        dsimp only
        refine ⟨hb, by rw [hF]; simp, q + 1, ?_, ?_⟩
        · have := congrArg List.length hB'
          rw [hfull, List.length_drop] at this
          rw [Nat.succ_mul]; omega
        · symm
          apply List.drop_eq_nil_of_le
          have := congrArg List.length hB'
          rw [hfull, List.length_drop] at this
          rw [Nat.succ_mul]; omega
    · intro g hg
      dsimp only at hg
      rw [List.map_append, List.mem_append, not_or] at hg
      have hne : group i ≠ g := by
        intro e; apply hg.2; simp [e]
      rw [ofGroup_append, if_neg hne]
      apply hs.none
      intro hmem
      apply hg.1
      obtain ⟨kv, hkv, rfl⟩ := List.mem_map.1 hmem
      have : kv.1 ∈ (Dict.set s.buffer (group i) (dget s.buffer (group i) ++ [i])).map Prod.fst :=
        (Dict.mem_keys_set _ _ _ _).2 (Or.inr hmem)
      obtain ⟨kv', hkv', e⟩ := List.mem_map.1 this
      rw [← e]
      refine List.mem_map.2 ⟨kv', List.mem_filter.2 ⟨hkv', ?_⟩, rfl⟩
      simp only [ne_eq, decide_not, Bool.not_eq_eq_eq_not, Bool.not_true, decide_eq_false_iff_not]
      rw [e]
      exact fun h => hne h.symm
    · intro b hb'
      dsimp only at hb'
      rcases List.mem_append.1 hb' with h | h
      · exact hs.out b h
      · simp only [List.mem_singleton] at h
        subst h
        exact ⟨hfull, group i, hgrp⟩
    · dsimp only
      rw [List.flatten_append, List.map_append, List.flatten_append]
      have h1 := drop_flatten hnd (group i)
      rw [hself] at h1
      have h2 := h1.trans hset
      rw [List.append_assoc] at h2
      simp only [List.flatten_cons, List.flatten_nil, List.append_nil, List.map_cons, List.map_nil, List.append_assoc]
      refine (h2.append_left _).trans ?_
      refine List.perm_middle.trans ?_
      refine (hs.perm.cons i).trans ?_
      exact (List.perm_append_singleton i l).symm
  · have hlt2 : (dget s.buffer (group i) ++ [i]).length < bs := by
      rw [List.length_append, List.length_singleton] at *; omega
    rw [if_neg hfull, if_pos hlt2]
    refine ⟨_, rfl, hnd, ?_, ?_, hsam, hs.out, ?_⟩
    · intro kv hkv
      dsimp only at hkv
      rcases mem_set_group hs.nd hkv with h | h
      · subst h
        exact ⟨hlt2, by dsimp only; rw [hF]; simp, q, by dsimp only; rw [hF, List.length_append]; omega, hB'⟩
      · exact hold kv h.2 h.1
    · intro g hg
      dsimp only at hg
      rw [Dict.mem_keys_set, not_or] at hg
      rw [ofGroup_append, if_neg (fun e => hg.1 e.symm)]
      exact hs.none g hg.2
    · dsimp only
      refine (hset.append_left _).trans ?_
      refine List.perm_middle.trans ?_
      refine (hs.perm.cons i).trans ?_
      exact (List.perm_append_singleton i l).symm

theorem groupFold_inv (hb : 0 < bs) : ∀ (l2 l1 : List ℕ) (s : GroupSt), GroupInv group bs l1 s →
    ∃ s', l2.foldlM (groupStep group bs) s = .ok s' ∧ GroupInv group bs (l1 ++ l2) s' := by
  intro l2
  induction l2 with
  | nil => intro l1 s hs; exact ⟨s, rfl, by rwa [List.append_nil]⟩
  | cons i l2 ih =>
    intro l1 s hs
    obtain ⟨s1, h1, hi⟩ := groupStep_inv hb hs i
    obtain ⟨s2, h2, hi2⟩ := ih _ _ hi
    refine ⟨s2, ?_, by rw [List.append_assoc] at hi2; exact hi2⟩
    rw [List.foldlM_cons, h1]
    exact h2

/-- What a completed buffer is: at most `bs` long it is filled up by the first samples of its group. -/
theorem groupRest_spec (samples : Dict ℕ (List ℕ)) : ∀ (l : List (ℕ × List ℕ)) (k : ℕ) (out : List (List ℕ)), 0 < k →
    groupRest bs samples l k = .ok out →
    out.length = k ∧ ∀ b ∈ out, b.length = bs ∧ ∃ kv ∈ l, b = kv.2 ++ (dget samples kv.1).take (bs - kv.2.length) := by
  intro l
  induction l with
  | nil => intro k out hk h; rw [groupRest, if_neg (by omega)] at h; cases h
  | cons x l ih =>
    intro k out hk h
    obtain ⟨g, buf⟩ := x
    rw [groupRest] at h
    simp only at h
    split at h
    · cases h
    · rename_i hlen
      push Not at hlen
      simp only [bind, Except.bind, pure, Except.pure] at h
      by_cases hk1 : k - 1 = 0
      · rw [if_pos hk1] at h
        cases h
        refine ⟨by simp; omega, ?_⟩
        intro b hb
        simp only [List.mem_singleton] at hb
        subst hb
        exact ⟨hlen, (g, buf), by simp, rfl⟩
      · rw [if_neg hk1] at h
        cases hr : groupRest bs samples l (k - 1) with
        | error e => rw [hr] at h; cases h
        | ok rest =>
          rw [hr] at h
          cases h
          obtain ⟨i1, i2⟩ := ih (k - 1) rest (by omega) hr
          refine ⟨by rw [List.length_cons, i1]; omega, ?_⟩
          intro b hb
          rcases List.mem_cons.1 hb with rfl | hb
          · exact ⟨hlen, (g, buf), by simp, rfl⟩
          · obtain ⟨j1, kv, j2, j3⟩ := i2 b hb
            exact ⟨j1, kv, List.mem_cons_of_mem _ j2, j3⟩

theorem groupRest_ok (samples : Dict ℕ (List ℕ)) : ∀ (l : List (ℕ × List ℕ)) (k : ℕ), 0 < k → k ≤ l.length →
    (∀ kv ∈ l, kv.2.length ≤ bs ∧ bs ≤ (dget samples kv.1).length) → ∃ out, groupRest bs samples l k = .ok out := by
  intro l
  induction l with
  | nil => intro k hk hl; simp at hl; omega
  | cons x l ih =>
    intro k hk hl h
    obtain ⟨g, buf⟩ := x
    obtain ⟨h1, h2⟩ := h (g, buf) (by simp)
    dsimp only at h1 h2
    have hlen : (buf ++ (dget samples g).take (bs - buf.length)).length = bs := by
      rw [List.length_append, List.length_take]; omega
    rw [groupRest]
    simp only
    rw [if_neg (by rw [hlen]; simp)]
    simp only [bind, Except.bind, pure, Except.pure]
    by_cases hk1 : k - 1 = 0
    · rw [if_pos hk1]; exact ⟨_, rfl⟩
    · rw [if_neg hk1]
      obtain ⟨out, ho⟩ := ih (k - 1) (by omega) (by simp at hl; omega) (fun kv hkv => h kv (List.mem_cons_of_mem _ hkv))
      rw [ho]
      exact ⟨_, rfl⟩

theorem flatten_length_const {L : List (List ℕ)} {n : ℕ} (h : ∀ b ∈ L, b.length = n) : L.flatten.length = L.length * n := by
  induction L with
  | nil => simp
  | cons b L ih =>
    rw [List.flatten_cons, List.length_append, h b (by simp), ih fun b hb => h b (List.mem_cons_of_mem _ hb), List.length_cons,
      Nat.succ_mul]
    omega

theorem flatten_length_lt {L : List (List ℕ)} {n : ℕ} (h : ∀ b ∈ L, b.length < n) (hne : L ≠ []) : L.flatten.length < L.length * n := by
  induction L with
  | nil => exact absurd rfl hne
  | cons b L ih =>
    have hb := h b (by simp)
    rw [List.flatten_cons, List.length_append, List.length_cons, Nat.succ_mul]
    by_cases hL : L = []
    · subst hL; simpa using hb
    · have := ih (fun b hb => h b (List.mem_cons_of_mem _ hb)) hL
      omega

/-- The state at the end of the loop. -/
theorem groupIter_state (hb : 0 < bs) (l : List ℕ) : ∃ s, l.foldlM (groupStep group bs) ⟨[], [], []⟩ = .ok s ∧ GroupInv group bs l s ∧
    l.length / bs = s.out.length + (s.buffer.map Prod.snd).flatten.length / bs ∧
    (s.buffer.map Prod.snd).flatten.length / bs ≤ s.buffer.length := by
  obtain ⟨s, h, hi⟩ := groupFold_inv (group := group) hb l [] ⟨[], [], []⟩
    ⟨Dict.nodup_nil, by simp, by simp [ofGroup], by simp [dget, ofGroup], by simp, by simp⟩
  rw [List.nil_append] at hi
  refine ⟨s, h, hi, ?_, ?_⟩
  · have := hi.perm.length_eq
    rw [List.length_append, flatten_length_const fun b hb => (hi.out b hb).1] at this
    rw [← this, Nat.add_comm, Nat.add_mul_div_right _ _ hb, Nat.add_comm]
  · by_cases hne : s.buffer = []
    · rw [hne]; simp
    · have := flatten_length_lt (L := s.buffer.map Prod.snd) (n := bs)
        (by intro b hb'; obtain ⟨kv, hkv, rfl⟩ := List.mem_map.1 hb'; exact (hi.buf kv hkv).1) (by simpa using hne)
      rw [List.length_map] at this
      exact le_of_lt ((Nat.div_lt_iff_lt_mul hb).2 this)

theorem groupIter_cases (hb : 0 < bs) (l : List ℕ) (s : GroupSt) (h : l.foldlM (groupStep group bs) ⟨[], [], []⟩ = .ok s)
    (hk : l.length / bs = s.out.length + (s.buffer.map Prod.snd).flatten.length / bs) :
    groupIter group bs l = (if 0 < (s.buffer.map Prod.snd).flatten.length / bs then
      (groupRest bs s.samples (s.buffer.insertionSort fun x y => y.2.length ≤ x.2.length)
        ((s.buffer.map Prod.snd).flatten.length / bs)).map (s.out ++ ·) else .ok s.out) := by
  unfold groupIter
  rw [h]
  simp only [bind, Except.bind, pure, Except.pure]
  rw [if_neg (by omega), hk]
  generalize (s.buffer.map Prod.snd).flatten.length / bs = k
  have e : (((s.out.length + k : ℕ) : ℤ) - (s.out.length : ℤ)) = (k : ℤ) := by push_cast; omega
  rw [e]
  by_cases h0 : 0 < k
  · rw [if_pos (by exact_mod_cast h0), if_pos h0, Int.toNat_natCast]
    cases groupRest bs s.samples (s.buffer.insertionSort fun x y => y.2.length ≤ x.2.length) k <;> rfl
  · have : k = 0 := by omega
    subst this
    simp

/-- **C175** (batches) Whenever the iteration ends normally: there are `len // batch_size` batches, each of `batch_size` samples of one group; the batches
completed on the way contain every sample at most once, and fewer than `batch_size` samples of every group are left to them; a batch filled
up afterwards contains no sample twice if its group has at least a batch of samples. -/
theorem C175_batches (hb : 0 < bs) (l : List ℕ) (out : List (List ℕ)) (h : groupIter group bs l = .ok out) :
    out.length = l.length / bs ∧ (∀ b ∈ out, b.length = bs ∧ ∃ g, ∀ i ∈ b, group i = g ∧ i ∈ l) ∧
      (∃ full rest left : List (List ℕ), out = full ++ rest ∧ (full.flatten ++ left.flatten).Perm l ∧
        ∀ b ∈ left, b.length < bs ∧ ∃ g, ∀ i ∈ b, group i = g) ∧
      (l.Nodup → (∀ i ∈ l, bs ≤ (ofGroup group l (group i)).length) → ∀ b ∈ out, b.Nodup) := by
  obtain ⟨s, hs, hi, hlen, hkb⟩ := groupIter_state (group := group) hb l
  rw [groupIter_cases hb l s hs hlen] at h
  have hmem : ∀ b ∈ s.out, ∀ i ∈ b, i ∈ l := by
    intro b hb' i hib
    exact hi.perm.mem_iff.1 (List.mem_append_left _ (List.mem_flatten.2 ⟨b, hb', hib⟩))
  have hout : ∀ b ∈ s.out, b.length = bs ∧ ∃ g, ∀ i ∈ b, group i = g ∧ i ∈ l := by
    intro b hb'
    obtain ⟨h1, g, h2⟩ := hi.out b hb'
    exact ⟨h1, g, fun i hib => ⟨h2 i hib, hmem b hb' i hib⟩⟩
  have hleft : ∀ b ∈ s.buffer.map Prod.snd, b.length < bs ∧ ∃ g, ∀ i ∈ b, group i = g := by
    intro b hb'
    obtain ⟨kv, hkv, rfl⟩ := List.mem_map.1 hb'
    obtain ⟨h1, -, q, -, h2⟩ := hi.buf kv hkv
    refine ⟨h1, kv.1, ?_⟩
    intro i hib
    rw [h2] at hib
    simpa using (List.mem_filter.1 (List.mem_of_mem_drop hib)).2
  have hndout : l.Nodup → ∀ b ∈ s.out, b.Nodup := by
    intro hnd b hb'
    have := (hi.perm.nodup_iff.2 hnd).of_append_left
    exact (List.nodup_flatten.1 this).1 b hb'
  split at h
  · rename_i hpos
    cases hr : groupRest bs s.samples (s.buffer.insertionSort fun x y => y.2.length ≤ x.2.length)
        ((s.buffer.map Prod.snd).flatten.length / bs) with
    | error e => rw [hr] at h; cases h
    | ok rest =>
      rw [hr] at h
      cases h
      obtain ⟨r1, r2⟩ := groupRest_spec s.samples _ _ _ hpos hr
      have hkv : ∀ kv ∈ s.buffer.insertionSort (fun x y => y.2.length ≤ x.2.length), kv ∈ s.buffer :=
        fun kv h => (List.perm_insertionSort _ _).mem_iff.1 h
      have hrest : ∀ b ∈ rest, b.length = bs ∧ ∃ g, ∀ i ∈ b, group i = g ∧ i ∈ l := by
        intro b hb'
        obtain ⟨h1, kv, h2, h3⟩ := r2 b hb'
        obtain ⟨-, -, q, -, h4⟩ := hi.buf kv (hkv kv h2)
        refine ⟨h1, kv.1, ?_⟩
        intro i hib
        have : i ∈ ofGroup group l kv.1 := by
          rw [h3] at hib
          rcases List.mem_append.1 hib with h | h
          · rw [h4] at h; exact List.mem_of_mem_drop h
          · rw [hi.sam] at h; exact List.mem_of_mem_take h
        have := List.mem_filter.1 this
        exact ⟨by simpa using this.2, this.1⟩
      refine ⟨by rw [List.length_append, r1, hlen], ?_, ⟨s.out, rest, s.buffer.map Prod.snd, rfl, hi.perm, hleft⟩, ?_⟩
      · intro b hb'
        rcases List.mem_append.1 hb' with h | h
        · exact hout b h
        · exact hrest b h
      · intro hnd hbig b hb'
        rcases List.mem_append.1 hb' with h | h
        · exact hndout hnd b h
        · obtain ⟨-, kv, h2, h3⟩ := r2 b h
          obtain ⟨i1, i2, q, i3, i4⟩ := hi.buf kv (hkv kv h2)
          have hFnd : (ofGroup group l kv.1).Nodup := hnd.sublist List.filter_sublist
          have hFlen : bs ≤ (ofGroup group l kv.1).length := by
            obtain ⟨i, hmi⟩ := List.exists_mem_of_ne_nil _ i2
            have h5 := List.mem_filter.1 hmi
            have h6 := hbig i h5.1
            rwa [show group i = kv.1 by simpa using h5.2] at h6
          have hq : 0 < q := by
            rcases Nat.eq_zero_or_pos q with h0 | h0
            · subst h0
              rw [Nat.zero_mul, List.drop_zero] at i4
              rw [i4] at i1; omega
            · exact h0
          rw [h3, hi.sam]
          have hsplit := List.take_append_drop (q * bs) (ofGroup group l kv.1)
          have hnd2 : ((ofGroup group l kv.1).drop (q * bs) ++ (ofGroup group l kv.1).take (q * bs)).Nodup := by
            rw [List.perm_append_comm.nodup_iff, hsplit]; exact hFnd
          refine List.Nodup.sublist ?_ hnd2
          rw [i4]
          apply List.Sublist.append_left
          have hqb : bs ≤ q * bs := Nat.le_mul_of_pos_left _ hq
          rw [show (ofGroup group l kv.1).take (bs - ((ofGroup group l kv.1).drop (q * bs)).length) =
            ((ofGroup group l kv.1).take (q * bs)).take (bs - ((ofGroup group l kv.1).drop (q * bs)).length) by
              rw [List.take_take]; congr 1; omega]
          exact List.take_sublist _ _
  · rename_i hpos
    cases h
    have h0 : (s.buffer.map Prod.snd).flatten.length / bs = 0 := Nat.eq_zero_of_not_pos hpos
    exact ⟨by rw [hlen, h0, Nat.add_zero], hout, ⟨s.out, [], s.buffer.map Prod.snd, by simp, hi.perm, hleft⟩, fun hnd _ => hndout hnd⟩

/-- **C175** (totality) The iteration ends normally if every group that occurs has at least a batch of samples. -/
theorem C175_total (hb : 0 < bs) (l : List ℕ) (hbig : ∀ i ∈ l, bs ≤ (ofGroup group l (group i)).length) :
    ∃ out, groupIter group bs l = .ok out := by
  obtain ⟨s, hs, hi, hlen, hkb⟩ := groupIter_state (group := group) hb l
  rw [groupIter_cases hb l s hs hlen]
  split
  · rename_i hpos
    obtain ⟨out, ho⟩ := groupRest_ok (bs := bs) s.samples (s.buffer.insertionSort fun x y => y.2.length ≤ x.2.length) _ hpos
      (by rw [(List.perm_insertionSort _ _).length_eq]; exact hkb) (by
        intro kv hkv
        obtain ⟨i1, i2, -⟩ := hi.buf kv ((List.perm_insertionSort _ _).mem_iff.1 hkv)
        refine ⟨le_of_lt i1, ?_⟩
        obtain ⟨i, hmi⟩ := List.exists_mem_of_ne_nil _ i2
        have h5 := List.mem_filter.1 hmi
        have h6 := hbig i h5.1
        rw [hi.sam]
        rwa [show group i = kv.1 by simpa using h5.2] at h6)
    rw [ho]
    exact ⟨_, rfl⟩
  · exact ⟨_, rfl⟩

/-- **C175** is violated for groups smaller than a batch: the promised number of batches cannot be made, the iteration fails. -/
theorem C175_violated_small_groups : groupIter id 4 [0, 1, 2, 3] = .error .assertion := by decide +kernel

/-- **C175** is violated: a group smaller than a batch is filled up with samples the batch has already, while others are in no batch. -/
theorem C175_violated_repeat : groupIter (fun i => i / 2) 3 [0, 1, 2, 3, 4, 5] = .ok [[0, 1, 0], [2, 3, 2]] := by decide +kernel

example : groupIter (fun i => i % 2) 3 [0, 2, 1, 4, 6, 3, 5, 8, 7] = .ok [[0, 2, 4], [1, 3, 5], [6, 8, 0]] := by decide +kernel

end Verif
