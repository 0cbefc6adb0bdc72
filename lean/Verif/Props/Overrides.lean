import Verif.Model.Quantizer
import Mathlib.Data.Nat.Find
import Mathlib.Algebra.BigOperators.Group.List.Basic
import Mathlib.Data.List.Nodup
/-!
# C36: per-layer overrides
-/
namespace Verif

/-! ## Specification: the language of a regular expression -/

/-- `Matches r s`: the whole of `s` is an instance of the pattern `r` (patterns without anchors). -/
inductive Matches : Re → List Char → Prop
  | eps : Matches .eps []
  | chr (c) : Matches (.chr c) [c]
  | any (c) : Matches .any [c]
  | cls (cs c) (h : c ∈ cs) : Matches (.cls cs) [c]
  | cat {r s u v} (h1 : Matches r u) (h2 : Matches s v) : Matches (.cat r s) (u ++ v)
  | altl {r s u} (h : Matches r u) : Matches (.alt r s) u
  | altr {r s u} (h : Matches s u) : Matches (.alt r s) u
  | star_nil {r} : Matches (.star r) []
  | star_cons {r u v} (h1 : Matches r u) (h2 : Matches (.star r) v) : Matches (.star r) (u ++ v)
  | ncg {r u} (h : Matches r u) : Matches (.ncg r) u
  | grp {r u} (h : Matches r u) : Matches (.grp r) u

/-- No `^` or `$` inside the pattern. -/
def Re.noAnchor : Re → Prop
  | .bol => False
  | .eol => False
  | .cat r s => r.noAnchor ∧ s.noAnchor
  | .alt r s => r.noAnchor ∧ s.noAnchor
  | .star r => r.noAnchor
  | .ncg r => r.noAnchor
  | .grp r => r.noAnchor
  | _ => True

/-- The pattern is not an unparenthesised alternative `a|b`. -/
def Re.noTopAlt : Re → Prop
  | .alt _ _ => False
  | _ => True

instance : ∀ r : Re, Decidable r.noAnchor
  | .eps => isTrue trivial
  | .chr _ => isTrue trivial
  | .any => isTrue trivial
  | .cls _ => isTrue trivial
  | .bol => isFalse id
  | .eol => isFalse id
  | .cat r s => @instDecidableAnd _ _ (instDecidableNoAnchor r) (instDecidableNoAnchor s)
  | .alt r s => @instDecidableAnd _ _ (instDecidableNoAnchor r) (instDecidableNoAnchor s)
  | .star r => instDecidableNoAnchor r
  | .ncg r => instDecidableNoAnchor r
  | .grp r => instDecidableNoAnchor r

/-! ## The matcher computes the language -/

theorem starRun_sound (f : MState → List MState) (P : List Char → Prop)
    (hf : ∀ st st', st' ∈ f st → ∃ u, st.rest = u ++ st'.rest ∧ P u)
    (Q : List Char → Prop) (hQ0 : Q []) (hQ : ∀ u v, P u → Q v → Q (u ++ v)) (n : ℕ) (st st' : MState)
    (h : st' ∈ starRun f n st) : ∃ u, st.rest = u ++ st'.rest ∧ Q u := by
  induction n generalizing st with
  | zero => simp [starRun] at h; subst h; exact ⟨[], rfl, hQ0⟩
  | succ n ih =>
    simp only [starRun, List.mem_append, List.mem_flatMap, List.mem_filter, List.mem_singleton] at h
    rcases h with ⟨st1, ⟨h1, _⟩, h2⟩ | h
    · obtain ⟨u, hu, hP⟩ := hf _ _ h1
      obtain ⟨v, hv, hQv⟩ := ih st1 h2
      exact ⟨u ++ v, by rw [hu, hv, List.append_assoc], hQ _ _ hP hQv⟩
    · subst h; exact ⟨[], rfl, hQ0⟩

theorem run_sound (r : Re) (hr : r.noAnchor) (b : ℕ) (st st' : MState) (h : st' ∈ r.run b st) :
    ∃ u, st.rest = u ++ st'.rest ∧ Matches r u := by
  induction r generalizing b st st' with
  | eps => simp [Re.run] at h; subst h; exact ⟨[], rfl, .eps⟩
  | chr c =>
    cases hs : st.rest with
    | nil => simp [Re.run, hs] at h
    | cons d t =>
      by_cases hc : d = c
      · simp [Re.run, hs, hc] at h; subst h hc; exact ⟨[d], rfl, .chr d⟩
      · simp [Re.run, hs, hc] at h
  | any =>
    cases hs : st.rest with
    | nil => simp [Re.run, hs] at h
    | cons d t => simp [Re.run, hs] at h; subst h; exact ⟨[d], rfl, .any d⟩
  | cls cs =>
    cases hs : st.rest with
    | nil => simp [Re.run, hs] at h
    | cons d t =>
      by_cases hc : d ∈ cs
      · simp [Re.run, hs, hc] at h; subst h; exact ⟨[d], rfl, .cls cs d hc⟩
      · simp [Re.run, hs, hc] at h
  | bol => exact hr.elim
  | eol => exact hr.elim
  | cat r s ihr ihs =>
    simp only [Re.run, List.mem_flatMap] at h
    obtain ⟨st1, h1, h2⟩ := h
    obtain ⟨u, hu, hm⟩ := ihr hr.1 _ _ _ h1
    obtain ⟨v, hv, hm'⟩ := ihs hr.2 _ _ _ h2
    exact ⟨u ++ v, by rw [hu, hv, List.append_assoc], .cat hm hm'⟩
  | alt r s ihr ihs =>
    simp only [Re.run, List.mem_append] at h
    rcases h with h | h
    · obtain ⟨u, hu, hm⟩ := ihr hr.1 _ _ _ h; exact ⟨u, hu, .altl hm⟩
    · obtain ⟨u, hu, hm⟩ := ihs hr.2 _ _ _ h; exact ⟨u, hu, .altr hm⟩
  | star r ih =>
    simp only [Re.run] at h
    exact starRun_sound (r.run b) (Matches r) (fun st st' h => ih hr b st st' h) (Matches (.star r))
      .star_nil (fun u v => .star_cons) _ _ _ h
  | ncg r ih => obtain ⟨u, hu, hm⟩ := ih hr _ _ _ h; exact ⟨u, hu, .ncg hm⟩
  | grp r ih =>
    simp only [Re.run, List.mem_map] at h
    obtain ⟨st1, h1, rfl⟩ := h
    obtain ⟨u, hu, hm⟩ := ih hr _ _ _ h1; exact ⟨u, hu, .grp hm⟩

theorem starRun_complete (f : MState → List MState) (n : ℕ) (st : MState) (v : List Char)
    (us : List (List Char)) (hus : ∀ u ∈ us, u ≠ [])
    (hf : ∀ u ∈ us, ∀ (st : MState) (w : List Char), st.rest = u ++ w → ∃ st' ∈ f st, st'.rest = w)
    (hst : st.rest = us.flatten ++ v) (hn : us.length ≤ n) :
    ∃ st' ∈ starRun f n st, st'.rest = v := by
  induction us generalizing n st with
  | nil =>
    refine ⟨st, ?_, by simpa using hst⟩
    cases n <;> simp [starRun]
  | cons u us ih =>
    cases n with
    | zero => simp at hn
    | succ n =>
      rw [List.flatten_cons, List.append_assoc] at hst
      obtain ⟨st1, h1, hr1⟩ := hf u (by simp) st _ hst
      obtain ⟨st2, h2, hr2⟩ := ih n st1 (fun x hx => hus x (by simp [hx]))
        (fun x hx => hf x (by simp [hx])) hr1 (by simpa using hn)
      refine ⟨st2, ?_, hr2⟩
      simp only [starRun, List.mem_append, List.mem_flatMap, List.mem_filter]
      refine Or.inl ⟨st1, ⟨h1, ?_⟩, h2⟩
      have : 0 < u.length := List.length_pos_iff.2 (hus u (by simp))
      rw [hst, hr1]
      simp only [List.length_append, decide_eq_true_eq]
      omega

/-- A repetition can be split in non-empty parts. -/
theorem matches_star_split {r : Re} {u : List Char} (h : Matches (.star r) u) :
    ∃ us : List (List Char), u = us.flatten ∧ ∀ x ∈ us, x ≠ [] ∧ Matches r x := by
  generalize hq : Re.star r = q at h
  induction h with
  | star_nil => exact ⟨[], rfl, by simp⟩
  | @star_cons r' u v h1 h2 _ ih2 =>
    injection hq with hq; subst hq
    obtain ⟨us, he, hus⟩ := ih2 rfl
    by_cases hu : u = []
    · subst hu; exact ⟨us, by simpa using he, hus⟩
    · refine ⟨u :: us, by simp [he], ?_⟩
      intro x hx
      rcases List.mem_cons.1 hx with rfl | hx
      · exact ⟨hu, h1⟩
      · exact hus x hx
  | _ => cases hq

theorem run_complete (r : Re) (u : List Char) (h : Matches r u) (b : ℕ) (st : MState) (v : List Char)
    (hst : st.rest = u ++ v) : ∃ st' ∈ r.run b st, st'.rest = v := by
  induction r generalizing b st u v with
  | eps => cases h; exact ⟨st, by simp [Re.run], by simpa using hst⟩
  | chr c => cases h; simp at hst; exact ⟨⟨st.pos + 1, v, st.caps⟩, by simp [Re.run, hst], rfl⟩
  | any => cases h; simp at hst; exact ⟨⟨st.pos + 1, v, st.caps⟩, by simp [Re.run, hst], rfl⟩
  | cls cs =>
    cases h with
    | cls _ c hc => simp at hst; exact ⟨⟨st.pos + 1, v, st.caps⟩, by simp [Re.run, hst, hc], rfl⟩
  | bol => cases h
  | eol => cases h
  | cat r s ihr ihs =>
    cases h with
    | @cat _ _ u1 u2 h1 h2 =>
      rw [List.append_assoc] at hst
      obtain ⟨s1, m1, e1⟩ := ihr _ h1 b st _ hst
      obtain ⟨s2, m2, e2⟩ := ihs _ h2 (b + r.ngroups) s1 _ e1
      exact ⟨s2, by simp only [Re.run, List.mem_flatMap]; exact ⟨s1, m1, m2⟩, e2⟩
  | alt r s ihr ihs =>
    cases h with
    | altl h => obtain ⟨s1, m1, e1⟩ := ihr _ h b st _ hst; exact ⟨s1, by simp [Re.run, m1], e1⟩
    | altr h => obtain ⟨s1, m1, e1⟩ := ihs _ h (b + r.ngroups) st _ hst; exact ⟨s1, by simp [Re.run, m1], e1⟩
  | star r ih =>
    obtain ⟨us, he, hus⟩ := matches_star_split h
    simp only [Re.run]
    refine starRun_complete (r.run b) _ st v us (fun x hx => (hus x hx).1)
      (fun x hx s w hs => ih x (hus x hx).2 b s w hs) (by rw [hst, he]) ?_
    rw [hst, he, List.length_append, List.length_flatten]
    have : ∀ (l : List (List Char)), (∀ x ∈ l, x ≠ []) → l.length ≤ (l.map List.length).sum := by
      intro l
      induction l with
      | nil => simp
      | cons a l ih =>
        intro hl
        have h1 := ih fun x hx => hl x (by simp [hx])
        have h2 : 0 < a.length := List.length_pos_iff.2 (hl a (by simp))
        simp only [List.length_cons, List.map_cons, List.sum_cons]; omega
    have := this us fun x hx => (hus x hx).1
    omega
  | ncg r ih => cases h with | ncg h => exact ih _ h b st _ hst
  | grp r ih =>
    cases h with
    | grp h =>
      obtain ⟨s1, m1, e1⟩ := ih _ h (b + 1) st _ hst
      exact ⟨{ s1 with caps := b :: s1.caps }, by simp only [Re.run, List.mem_map]; exact ⟨s1, m1, rfl⟩, e1⟩

/-- Groups that participate are those of the expression, or were there before. -/
theorem run_caps (r : Re) (b : ℕ) (st st' : MState) (h : st' ∈ r.run b st) :
    ∀ g ∈ st'.caps, g ∈ st.caps ∨ b ≤ g ∧ g < b + r.ngroups := by
  induction r generalizing b st st' with
  | eps => simp [Re.run] at h; subst h; intro g hg; exact Or.inl hg
  | chr c =>
    cases hs : st.rest with
    | nil => simp [Re.run, hs] at h
    | cons d t =>
      by_cases hc : d = c
      · simp [Re.run, hs, hc] at h; subst h; intro g hg; exact Or.inl hg
      · simp [Re.run, hs, hc] at h
  | any =>
    cases hs : st.rest with
    | nil => simp [Re.run, hs] at h
    | cons d t => simp [Re.run, hs] at h; subst h; intro g hg; exact Or.inl hg
  | cls cs =>
    cases hs : st.rest with
    | nil => simp [Re.run, hs] at h
    | cons d t =>
      by_cases hc : d ∈ cs
      · simp [Re.run, hs, hc] at h; subst h; intro g hg; exact Or.inl hg
      · simp [Re.run, hs, hc] at h
  | bol => simp [Re.run] at h; obtain ⟨_, rfl⟩ := h; intro g hg; exact Or.inl hg
  | eol => simp [Re.run] at h; obtain ⟨_, rfl⟩ := h; intro g hg; exact Or.inl hg
  | cat r s ihr ihs =>
    simp only [Re.run, List.mem_flatMap] at h
    obtain ⟨st1, h1, h2⟩ := h
    intro g hg
    simp only [Re.ngroups]
    rcases ihs _ _ _ h2 g hg with h | h
    · rcases ihr _ _ _ h1 g h with h | h
      · exact Or.inl h
      · exact Or.inr ⟨h.1, by omega⟩
    · exact Or.inr ⟨by omega, by omega⟩
  | alt r s ihr ihs =>
    simp only [Re.run, List.mem_append] at h
    intro g hg
    simp only [Re.ngroups]
    rcases h with h | h
    · rcases ihr _ _ _ h g hg with h | h
      · exact Or.inl h
      · exact Or.inr ⟨h.1, by omega⟩
    · rcases ihs _ _ _ h g hg with h | h
      · exact Or.inl h
      · exact Or.inr ⟨by omega, by omega⟩
  | star r ih =>
    simp only [Re.run] at h
    generalize st.rest.length = n at h
    induction n generalizing st with
    | zero => simp [starRun] at h; subst h; intro g hg; exact Or.inl hg
    | succ n ihn =>
      simp only [starRun, List.mem_append, List.mem_flatMap, List.mem_filter, List.mem_singleton] at h
      rcases h with ⟨st1, ⟨h1, _⟩, h2⟩ | h
      · intro g hg
        rcases ihn st1 h2 g hg with h | h
        · exact ih _ _ _ h1 g h
        · exact Or.inr h
      · subst h; intro g hg; exact Or.inl hg
  | ncg r ih => exact ih b st st' h
  | grp r ih =>
    simp only [Re.run, List.mem_map] at h
    obtain ⟨st1, h1, rfl⟩ := h
    intro g hg
    simp only [Re.ngroups]
    simp only [List.mem_cons] at hg
    rcases hg with rfl | hg
    · exact Or.inr ⟨le_refl _, by omega⟩
    · rcases ih _ _ _ h1 g hg with h | h
      · exact Or.inl h
      · exact Or.inr ⟨by omega, by omega⟩

/-! ## The combined pattern -/

theorem wrap_eq (r : Re) (hr : r.noTopAlt) : r.wrap = .grp (.cat (.cat .bol r) .eol) := by
  cases r <;> first | exact hr.elim | rfl

theorem ngroups_wrap (r : Re) (hr : r.noTopAlt) : r.wrap.ngroups = r.ngroups + 1 := by
  rw [wrap_eq r hr]; simp [Re.ngroups]

theorem wrap_run_nil (r : Re) (hr : r.noTopAlt) (ha : r.noAnchor) (b : ℕ) (name : List Char)
    (h : ¬ Matches r name) : r.wrap.run b ⟨0, name, []⟩ = [] := by
  rw [List.eq_nil_iff_forall_not_mem]
  intro st' hm
  rw [wrap_eq r hr] at hm
  simp only [Re.run, List.mem_map, List.mem_flatMap] at hm
  obtain ⟨s1, ⟨s2, ⟨s3, h3, h2⟩, h1⟩, _⟩ := hm
  simp only [if_true, List.mem_singleton] at h3
  subst h3
  obtain ⟨u, hu, hmu⟩ := run_sound r ha _ _ _ h2
  by_cases he : s2.rest = []
  · simp only [he, List.append_nil] at hu; rw [hu] at h; exact h hmu
  · simp [he] at h1

theorem wrap_run_cons (r : Re) (hr : r.noTopAlt) (b : ℕ) (name : List Char)
    (h : Matches r name) : ∃ st' l, r.wrap.run b ⟨0, name, []⟩ = st' :: l ∧ b ∈ st'.caps ∧
      ∀ g ∈ st'.caps, b ≤ g := by
  obtain ⟨s1, m1, e1⟩ := run_complete r name h (b + 1) ⟨0, name, []⟩ [] (by simp)
  have hne : r.wrap.run b ⟨0, name, []⟩ ≠ [] := by
    rw [wrap_eq r hr]
    apply List.ne_nil_of_mem (a := { s1 with caps := b :: s1.caps })
    simp only [Re.run, List.mem_map, List.mem_flatMap]
    refine ⟨s1, ⟨s1, ⟨⟨0, name, []⟩, by simp, ?_⟩, by simp [e1]⟩, rfl⟩
    simpa [Re.ngroups] using m1
  obtain ⟨st', l, he⟩ := List.exists_cons_of_ne_nil hne
  refine ⟨st', l, he, ?_, ?_⟩
  · have hm : st' ∈ r.wrap.run b ⟨0, name, []⟩ := by rw [he]; simp
    unfold Re.wrap at hm
    simp only [Re.run, List.mem_map] at hm
    obtain ⟨x, _, rfl⟩ := hm
    simp
  · intro g hg
    have hm : st' ∈ r.wrap.run b ⟨0, name, []⟩ := by rw [he]; simp
    rcases run_caps _ _ _ _ hm g hg with h | h
    · simp at h
    · exact h.1

/-- Number of groups opened before pattern `i` inside earlier patterns, plus `i`. -/
def groupOfPattern (rs : List Re) (i : ℕ) : ℕ := i + ((rs.take i).map Re.ngroups).sum

theorem joinPatterns_run_nil (rs : List Re) (hne : rs ≠ []) (b : ℕ) (name : List Char) (hr : ∀ r ∈ rs, r.noTopAlt ∧ r.noAnchor)
    (h : ∀ r ∈ rs, ¬ Matches r name) : (joinPatterns rs).run b ⟨0, name, []⟩ = [] := by
  induction rs generalizing b with
  | nil => exact absurd rfl hne
  | cons r rs ih =>
    have h0 := wrap_run_nil r (hr r (by simp)).1 (hr r (by simp)).2 b name (h r (by simp))
    cases rs with
    | nil => exact h0
    | cons r' rs =>
      show (Re.alt r.wrap (joinPatterns (r' :: rs))).run b _ = []
      simp only [Re.run, h0, List.nil_append]
      exact ih (by simp) _ (fun x hx => hr x (by simp at hx ⊢; right; exact hx)) (fun x hx => h x (by simp at hx ⊢; right; exact hx))

theorem joinPatterns_run_cons (rs : List Re) (b : ℕ) (name : List Char) (hr : ∀ r ∈ rs, r.noTopAlt ∧ r.noAnchor)
    (i : ℕ) (r : Re) (hi : rs[i]? = some r) (hm : Matches r name) (hb : ∀ j < i, ∀ r', rs[j]? = some r' → ¬ Matches r' name) :
    ∃ st' l, (joinPatterns rs).run b ⟨0, name, []⟩ = st' :: l ∧ b + groupOfPattern rs i ∈ st'.caps ∧
      (∀ g ∈ st'.caps, b + groupOfPattern rs i ≤ g) ∧ b + groupOfPattern rs i < b + (joinPatterns rs).ngroups := by
  induction rs generalizing b i with
  | nil => simp at hi
  | cons r0 rs ih =>
    have hr0 := hr r0 (by simp)
    cases i with
    | zero =>
      simp at hi; subst hi
      obtain ⟨st', l, he, h1, h2⟩ := wrap_run_cons r0 hr0.1 b name hm
      have hz : b + groupOfPattern (r0 :: rs) 0 = b := by simp [groupOfPattern]
      rw [hz]
      cases rs with
      | nil => exact ⟨st', l, he, h1, h2, by simp [joinPatterns, ngroups_wrap r0 hr0.1]⟩
      | cons r' rs =>
        refine ⟨st', l ++ (joinPatterns (r' :: rs)).run (b + r0.wrap.ngroups) ⟨0, name, []⟩, ?_, h1, h2, ?_⟩
        · show (Re.alt r0.wrap (joinPatterns (r' :: rs))).run b _ = _
          simp only [Re.run, he, List.cons_append]
        · show b < b + (r0.wrap.ngroups + _)
          rw [ngroups_wrap r0 hr0.1]; omega
    | succ i =>
      simp at hi
      cases rs with
      | nil => simp at hi
      | cons r' rs =>
        have h0 := wrap_run_nil r0 hr0.1 hr0.2 b name (hb 0 (by omega) r0 (by simp))
        obtain ⟨st', l, he, h1, h2, h3⟩ := ih (b + r0.wrap.ngroups)
          (fun x hx => hr x (by simp at hx ⊢; right; exact hx)) i hi
          (fun j hj x hx => hb (j + 1) (by omega) x (by simpa using hx))
        have hz : b + groupOfPattern (r0 :: r' :: rs) (i + 1) = b + r0.wrap.ngroups + groupOfPattern (r' :: rs) i := by
          rw [ngroups_wrap r0 hr0.1]; simp [groupOfPattern]; omega
        rw [hz]
        refine ⟨st', l, ?_, h1, h2, ?_⟩
        · show (Re.alt r0.wrap (joinPatterns (r' :: rs))).run b _ = _
          simp only [Re.run, h0, List.nil_append, he]
        · show _ < b + (r0.wrap.ngroups + _)
          omega

theorem find?_range_min (n g : ℕ) (caps : List ℕ) (hg : g ∈ caps) (hlt : g < n) (hmin : ∀ x ∈ caps, g ≤ x) :
    (List.range n).find? (fun i => decide (i ∈ caps)) = some g := by
  rw [List.find?_eq_some_iff_append]
  refine ⟨by simpa using hg, List.range g, List.range' (g + 1) (n - g - 1), ?_, ?_⟩
  · have h1 : n = g + (1 + (n - g - 1)) := by omega
    conv_lhs => rw [h1]
    rw [List.range_eq_range', List.range_eq_range', ← List.range'_append_1, ← List.range'_append_1]
    simp
  · intro x hx
    simp at hx
    have : x ∉ caps := fun h => by have := hmin x h; omega
    simpa using this

/-- Group number found by the code for a name: the matching pattern's position plus the number of
capture groups inside the earlier patterns. -/
theorem firstGroup_join (rs : List Re) (name : List Char) (hr : ∀ r ∈ rs, r.noTopAlt ∧ r.noAnchor)
    (i : ℕ) (r : Re) (hi : rs[i]? = some r) (hm : Matches r name) (hb : ∀ j < i, ∀ r', rs[j]? = some r' → ¬ Matches r' name) :
    firstGroup (joinPatterns rs) name = some (.ok (groupOfPattern rs i)) := by
  obtain ⟨st', l, he, h1, h2, h3⟩ := joinPatterns_run_cons rs 0 name hr i r hi hm hb
  simp only [zero_add] at h1 h2 h3
  unfold firstGroup
  rw [he]
  simp only
  rw [find?_range_min _ _ _ h1 h3 h2]

/-! ## Names -/

/-- `pat` does not occur in `s`. -/
def NotIn (pat s : List Char) : Prop := ∀ k ≤ s.length, ¬ pat <+: s.drop k

theorem removeFirst_of_notIn (pat s : List Char) (h : NotIn pat s) : removeFirst pat s = s := by
  induction s with
  | nil => rfl
  | cons c s ih =>
    have h0 : ¬ pat <+: (c :: s) := h 0 (by simp)
    have : pat.isPrefixOf (c :: s) = false := by
      cases hb : pat.isPrefixOf (c :: s) with
      | false => rfl
      | true => exact absurd (List.isPrefixOf_iff_prefix.1 hb) h0
    simp only [removeFirst, this]
    rw [if_neg (by simp), ih]
    intro k hk
    exact h (k + 1) (by simpa using hk)

/-- The text a DataParallel wrapper puts before every name. -/
def dpPrefix : List Char := ['m', 'o', 'd', 'u', 'l', 'e', '.']

/-- Names of modules of a DataParallel-wrapped model are matched without the wrapper's prefix, and
names not containing `module.` are matched as they are. -/
theorem nameToMatch_spec (n : List Char) :
    nameToMatch (dpPrefix ++ n) = n ∧ (NotIn dpPrefix n → nameToMatch n = n) := by
  refine ⟨?_, removeFirst_of_notIn dpPrefix n⟩
  simp [nameToMatch, dpPrefix, removeFirst, List.isPrefixOf]

/-! ## C36 -/

/-- Which entry the documentation promises: an entry whose key is the name itself, else the first
one whose pattern matches the whole name. -/
def Chosen (ovs : List Override) (name : List Char) (o : Override) : Prop :=
  (o ∈ ovs ∧ o.key = name) ∨
  ((∀ o' ∈ ovs, o'.key ≠ name) ∧ ∃ i : ℕ, ovs[i]? = some o ∧ Matches o.re name ∧
    ∀ (j : ℕ) (o' : Override), j < i → ovs[j]? = some o' → ¬ Matches o'.re name)

/-- **C36** For patterns without capture groups, anchors or an unparenthesised `|`, with distinct
keys whose own text they match, and for every module name not containing `module.` elsewhere than
as a DataParallel prefix: the bits are those of the chosen entry, the defaults if no pattern
matches; weights and biases are quantized only in supported layer types; nothing is raised. -/
theorem C36_overrides (ovs : List Override) (dflt : QBits) (supported : Bool) (full name : List Char)
    (hname : full = dpPrefix ++ name ∨ full = name ∧ NotIn dpPrefix name)
    (hkeys : (ovs.map (·.key)).Nodup) (hself : ∀ o ∈ ovs, o.key = name → Matches o.re name)
    (hre : ∀ o ∈ ovs, o.re.ngroups = 0 ∧ o.re.noAnchor ∧ o.re.noTopAlt) :
    (∀ o, Chosen ovs name o → moduleBits ovs dflt supported full =
      .ok (if supported then o.bits else ⟨o.bits.acts, none, none⟩, some o)) ∧
    ((∀ o ∈ ovs, ¬ Matches o.re name) → moduleBits ovs dflt supported full =
      .ok (if supported then dflt else ⟨dflt.acts, none, none⟩, none)) ∧
    ((∃ o, Chosen ovs name o) ∨ (∀ o ∈ ovs, ¬ Matches o.re name)) := by
  have hn : nameToMatch full = name := by
    rcases hname with h | ⟨h, h'⟩
    · rw [h]; exact (nameToMatch_spec name).1
    · rw [h]; exact (nameToMatch_spec name).2 h'
  have hrs : ∀ r ∈ ovs.map (·.re), r.noTopAlt ∧ r.noAnchor := by
    intro r hr
    obtain ⟨o, ho, rfl⟩ := List.mem_map.1 hr
    exact ⟨(hre o ho).2.2, (hre o ho).2.1⟩
  have hgrp : ∀ i, i ≤ ovs.length → groupOfPattern (ovs.map (·.re)) i = i := by
    intro i _
    unfold groupOfPattern
    have : (((ovs.map (·.re)).take i).map Re.ngroups).sum = 0 := by
      apply List.sum_eq_zero
      intro x hx
      obtain ⟨r, hr, rfl⟩ := List.mem_map.1 hx
      obtain ⟨o, ho, rfl⟩ := List.mem_map.1 (List.mem_of_mem_take hr)
      exact (hre o ho).1
    omega
  -- if something matches, the group found is the index of the first match
  have hfirst : ∀ o ∈ ovs, Matches o.re name → ∃ (i : ℕ) (o1 : Override), ovs[i]? = some o1 ∧ Matches o1.re name ∧
      (∀ (j : ℕ) (o' : Override), j < i → ovs[j]? = some o' → ¬ Matches o'.re name) := by
    classical
    intro o ho hm
    obtain ⟨k, hk⟩ := List.mem_iff_getElem?.1 ho
    have hex : ∃ (i : ℕ) (o1 : Override), ovs[i]? = some o1 ∧ Matches o1.re name := ⟨k, o, hk, hm⟩
    obtain ⟨o1, h1, h2⟩ := Nat.find_spec hex
    exact ⟨Nat.find hex, o1, h1, h2, fun j o' hj ho' hm' => Nat.find_min hex hj ⟨o', ho', hm'⟩⟩
  have hfg : ∀ (i : ℕ) (o1 : Override), ovs[i]? = some o1 → Matches o1.re name →
      (∀ (j : ℕ) (o' : Override), j < i → ovs[j]? = some o' → ¬ Matches o'.re name) →
      firstGroup (joinPatterns (ovs.map (·.re))) name = some (.ok i) := by
    intro i o1 h1 h2 h3
    have hlt : i < ovs.length := by
      rcases Nat.lt_or_ge i ovs.length with h | h
      · exact h
      · rw [List.getElem?_eq_none h] at h1; cases h1
    rw [firstGroup_join _ name hrs i o1.re (by rw [List.getElem?_map, h1]; rfl) h2 ?_, hgrp i hlt.le]
    intro j hj r' hr'
    rw [List.getElem?_map] at hr'
    cases ho' : ovs[j]? with
    | none => rw [ho'] at hr'; cases hr'
    | some o' => rw [ho'] at hr'; cases hr'; exact h3 j o' hj ho'
  have hexact : ∀ o ∈ ovs, o.key = name → ovs.find? (fun o => decide (o.key = name)) = some o := by
    intro o ho hk
    cases hf : ovs.find? (fun o => decide (o.key = name)) with
    | none => rw [List.find?_eq_none] at hf; exact absurd hk (by simpa using hf o ho)
    | some o' =>
      have h1 := List.find?_some hf
      have h2 := List.mem_of_find?_eq_some hf
      simp only [decide_eq_true_eq] at h1
      rw [List.inj_on_of_nodup_map hkeys h2 ho (h1.trans hk.symm)]
  refine ⟨?_, ?_, ?_⟩
  · intro o ho
    unfold moduleBits
    rw [hn]
    simp only
    rcases ho with ⟨ho, hk⟩ | ⟨hno, i, hi, hm, hb⟩
    · have hne : ovs.isEmpty = false := by cases ovs with | nil => simp at ho | cons _ _ => rfl
      obtain ⟨i, o1, h1, h2, h3⟩ := hfirst o ho (hself o ho hk)
      rw [hne, hfg i o1 h1 h2 h3, hexact o ho hk]
      rfl
    · have hmem := List.mem_of_getElem? hi
      have hne : ovs.isEmpty = false := by cases ovs with | nil => simp at hmem | cons _ _ => rfl
      have hnone : ovs.find? (fun o => decide (o.key = name)) = none := by
        rw [List.find?_eq_none]; intro x hx; simpa using hno x hx
      rw [hne, hfg i o hi hm hb, hnone]
      simp only [if_neg (show ¬ (false = true) by simp)]
      rw [hi]
      rfl
  · intro hnm
    unfold moduleBits
    rw [hn]
    simp only
    have hnone : ovs.find? (fun o => decide (o.key = name)) = none := by
      rw [List.find?_eq_none]; intro x hx
      simp only [decide_eq_true_eq]
      exact fun hk => hnm x hx (hself x hx hk)
    have hf : (if ovs.isEmpty then none else firstGroup (joinPatterns (ovs.map (·.re))) name) = none := by
      cases hov : ovs with
      | nil => rfl
      | cons o os =>
        rw [← hov]
        have hne : ovs.isEmpty = false := by rw [hov]; rfl
        rw [hne]
        simp only [if_neg (show ¬ (false = true) by simp)]
        unfold firstGroup
        rw [joinPatterns_run_nil _ (by rw [hov]; simp) 0 name hrs]
        intro r hr
        obtain ⟨o', ho', rfl⟩ := List.mem_map.1 hr
        exact hnm o' ho'
    rw [hf, hnone]
    rfl
  · by_cases hex : ∃ o ∈ ovs, Matches o.re name
    · obtain ⟨o, ho, hm⟩ := hex
      left
      by_cases hk : ∃ o' ∈ ovs, o'.key = name
      · obtain ⟨o', ho', hk⟩ := hk; exact ⟨o', Or.inl ⟨ho', hk⟩⟩
      · obtain ⟨i, o1, h1, h2, h3⟩ := hfirst o ho hm
        exact ⟨o1, Or.inr ⟨fun x hx hkx => hk ⟨x, hx, hkx⟩, i, h1, h2, h3⟩⟩
    · right; intro o ho hm; exact hex ⟨o, ho, hm⟩

/-- Bits missing in an entry are the defaults, given bits – including an explicit "do not
quantize" – are taken. -/
theorem C36_entry_defaults (d : QBits) (u : UserBits) (v : Option ℕ) :
    (u.wts = none → (fillBits d u).wts = d.wts) ∧ (u.wts = some v → (fillBits d u).wts = v) ∧
    (u.acts = none → (fillBits d u).acts = d.acts) ∧ (u.acts = some v → (fillBits d u).acts = v) ∧
    (u.bias = none → (fillBits d u).bias = d.bias) ∧ (u.bias = some v → (fillBits d u).bias = v) := by
  unfold fillBits
  refine ⟨?_, ?_, ?_, ?_, ?_, ?_⟩ <;> intro h <;> simp [h]

/-- A literal pattern. -/
def lit (s : List Char) : Re := s.foldr (fun c r => .cat (.chr c) r) .eps

/-- A literal pattern matches exactly its own text (so `hself` holds for plain layer names). -/
theorem matches_lit (s t : List Char) : Matches (lit s) t ↔ t = s := by
  induction s generalizing t with
  | nil => exact ⟨fun h => by cases h; rfl, fun h => by subst h; exact .eps⟩
  | cons c s ih =>
    constructor
    · intro h
      cases h with
      | cat h1 h2 => cases h1; rw [(ih _).1 h2]; rfl
    · rintro rfl
      exact Matches.cat (.chr c) ((ih s).2 rfl)

def exOvs : List Override := [
  ⟨"fc".toList, lit "fc".toList, ⟨some 8, some 4, none⟩, 1⟩,
  ⟨"conv.*".toList, .cat (lit "conv".toList) (.star .any), ⟨some 6, some 2, some 16⟩, 2⟩,
  ⟨"conv1".toList, lit "conv1".toList, ⟨some 5, some 5, none⟩, 3⟩]

/-- Non-vacuity: hypotheses hold, and a first match, an exact key, a default and an unsupported layer. -/
example : (exOvs.map (·.key)).Nodup ∧ (∀ o ∈ exOvs, o.re.ngroups = 0 ∧ o.re.noAnchor) ∧
    moduleBits exOvs ⟨some 1, some 1, some 1⟩ true "module.conv2.a".toList =
      .ok (⟨some 6, some 2, some 16⟩, exOvs[1]?) ∧
    moduleBits exOvs ⟨some 1, some 1, some 1⟩ true "conv1".toList = .ok (⟨some 5, some 5, none⟩, exOvs[2]?) ∧
    moduleBits exOvs ⟨some 1, some 1, some 1⟩ false "relu".toList = .ok (⟨some 1, none, none⟩, none) ∧
    moduleBits exOvs ⟨some 1, some 1, some 1⟩ false "conv3".toList = .ok (⟨some 6, none, none⟩, exOvs[1]?) := by
  decide +kernel

/-- **C36** is violated when a pattern contains a capture group: the entry of a *later* pattern is
used.  Patterns `conv(1|2)`, `fc.`, `rel.*`: layer `fc1` gets the settings of `rel.*`, and layer `relu`
raises `IndexError`. -/
theorem C36_violated_capture_group : ∃ (o1 o2 o3 : Override) (d : QBits),
    Matches o2.re "fc1".toList ∧ ¬ Matches o1.re "fc1".toList ∧ Chosen [o1, o2, o3] "fc1".toList o2 ∧
    o2.bits ≠ o3.bits ∧
    moduleBits [o1, o2, o3] d true "fc1".toList = .ok (o3.bits, some o3) ∧
    moduleBits [o1, o2, o3] d true "relu".toList = .error .index := by
  have h2 : Matches (.cat (lit "fc".toList) .any) "fc1".toList :=
    Matches.cat (u := "fc".toList) (v := ['1']) ((matches_lit _ _).2 rfl) (.any '1')
  have h1 : ¬ Matches (.cat (lit "conv".toList) (.grp (.alt (lit "1".toList) (lit "2".toList)))) "fc1".toList := by
    intro h
    generalize hs : "fc1".toList = s at h
    cases h with
    | cat h1 h2 =>
      rw [(matches_lit _ _).1 h1] at hs
      have : ("fc1".toList).head? = ("conv".toList).head? := by rw [hs]; rfl
      exact absurd this (by decide +kernel)
  refine ⟨⟨"conv(1|2)".toList, .cat (lit "conv".toList) (.grp (.alt (lit "1".toList) (lit "2".toList))), ⟨some 8, some 8, some 8⟩, 0⟩,
    ⟨"fc.".toList, .cat (lit "fc".toList) .any, ⟨some 4, some 4, some 4⟩, 0⟩,
    ⟨"rel.*".toList, .cat (lit "rel".toList) (.star .any), ⟨some 2, some 2, some 2⟩, 0⟩, ⟨none, none, none⟩,
    h2, h1, Or.inr ⟨by decide +kernel, 1, rfl, h2, ?_⟩, by decide +kernel, by decide +kernel, by decide +kernel⟩
  intro j o' hj ho'
  obtain rfl : j = 0 := by omega
  cases ho'
  exact h1

/-- **C36** is violated when a pattern has an unparenthesised alternative: `conv1|fc` also captures
`conv10`. -/
theorem C36_violated_top_alternative : ∃ (ovs : List Override) (d : QBits),
    (∀ o ∈ ovs, ¬ Matches o.re "conv10".toList) ∧
    moduleBits ovs d true "conv10".toList ≠ .ok (d, none) := by
  refine ⟨[⟨"conv1|fc".toList, .alt (lit "conv1".toList) (lit "fc".toList), ⟨some 8, some 8, some 8⟩, 0⟩], ⟨none, none, none⟩, ?_, by decide +kernel⟩
  intro o ho hm
  simp only [List.mem_singleton] at ho
  subst ho
  cases hm with
  | altl h => exact absurd ((matches_lit _ _).1 h) (by decide +kernel)
  | altr h => exact absurd ((matches_lit _ _).1 h) (by decide +kernel)

/-- **C36** is violated for layers with `module.` inside their name: an override for exactly
`submodule.conv` is ignored because the name is matched as `subconv`. -/
theorem C36_violated_module_in_name : ∃ (ovs : List Override) (d : QBits) (o : Override),
    o ∈ ovs ∧ o.key = "submodule.conv".toList ∧ o.bits ≠ d ∧
    moduleBits ovs d true "submodule.conv".toList = .ok (d, none) :=
  ⟨[⟨"submodule.conv".toList, lit "submodule.conv".toList, ⟨some 8, some 8, some 8⟩, 0⟩], ⟨none, none, none⟩,
    ⟨"submodule.conv".toList, lit "submodule.conv".toList, ⟨some 8, some 8, some 8⟩, 0⟩, by simp, rfl, by decide +kernel, by decide +kernel⟩

end Verif
