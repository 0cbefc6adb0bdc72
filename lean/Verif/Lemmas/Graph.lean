import Verif.Model.Graph
import Verif.Lemmas.Fold
import Mathlib.Logic.Relation
/-! Lemmas about the graph search. -/
namespace Verif

theorem foldlM_total {ε σ α : Type} {f : σ → α → Except ε σ} {P : σ → Prop} {l : List α}
    (h : ∀ s a, a ∈ l → P s → ∃ s', f s a = .ok s' ∧ P s') (s : σ) (hs : P s) :
    ∃ s', l.foldlM f s = .ok s' ∧ P s' := by
  induction l generalizing s with
  | nil => exact ⟨s, rfl, hs⟩
  | cons a l ih =>
    obtain ⟨s1, h1, p1⟩ := h s a (by simp) hs
    obtain ⟨s2, h2, p2⟩ := ih (fun s b hb => h s b (List.mem_cons_of_mem _ hb)) s1 p1
    exact ⟨s2, by rw [List.foldlM_cons, h1]; exact h2, p2⟩

/-- Number of nodes of `U` not in `d`. -/
def freshCount (U d : List String) : Nat := (U.filter (fun x => decide (x ∉ d))).length

theorem freshCount_mono {U d d' : List String} (h : d ⊆ d') : freshCount U d' ≤ freshCount U d := by
  unfold freshCount
  induction U with
  | nil => simp
  | cons a U ih =>
    by_cases h1 : a ∈ d
    · have := h h1; simpa [h1, this] using ih
    · by_cases h2 : a ∈ d'
      · simp [h1, h2] at ih ⊢; omega
      · simpa [h1, h2] using ih

theorem freshCount_lt {U d d' : List String} {c : String} (h : d ⊆ d') (hc : c ∈ U) (h1 : c ∉ d) (h2 : c ∈ d') :
    freshCount U d' < freshCount U d := by
  unfold freshCount
  induction U with
  | nil => simp at hc
  | cons a U ih =>
    have hm := freshCount_mono (U := U) h
    unfold freshCount at hm
    rcases List.mem_cons.1 hc with e | hc
    · subst e; simp [h1, h2] at hm ⊢; omega
    · have := ih hc
      by_cases h3 : a ∈ d
      · have h4 := h h3; simpa [h3, h4] using this
      · by_cases h4 : a ∈ d'
        · simp [h3, h4] at this ⊢; omega
        · simpa [h3, h4] using this

section
variable {nx : String → List String} {found hit : String → Bool}

theorem searchF_total {U : List String} (hU : ∀ v, found v = true → v ∈ U) :
    ∀ (fuel : Nat) (v : String) (d : List String), freshCount U (d ++ [v]) + 2 ≤ fuel →
      ∃ r, searchF nx found hit fuel v d = .ok r ∧ d ⊆ r.2 := by
  intro fuel
  induction fuel with
  | zero => intro v d h; omega
  | succ fuel ih =>
    intro v d h
    unfold searchF
    by_cases hf : found v = true
    · simp only [hf, if_true]
      by_cases hh : hit v = true ∧ d ≠ []
      · rw [if_pos hh]; exact ⟨_, rfl, by simp⟩
      · rw [if_neg hh]
        obtain ⟨s, hs, hp⟩ := foldlM_total (P := fun s : List String × List String => d ++ [v] ⊆ s.2)
          (f := fun acc c => (searchF nx found hit fuel c acc.2).map (fun r => (acc.1 ++ r.1, r.2)))
          (l := (nx v).filter (fun c => decide (c ∉ d ++ [v]))) (by
            intro s c hc hP
            have hcn : c ∉ d ++ [v] := by simpa using (List.mem_filter.1 hc).2
            by_cases hfc : found c = true
            · have : freshCount U (s.2 ++ [c]) < freshCount U (d ++ [v]) :=
                freshCount_lt (fun x hx => by simp [hP hx]) (hU c hfc) hcn (by simp)
              obtain ⟨r, hr, hd⟩ := ih c s.2 (by omega)
              exact ⟨(s.1 ++ r.1, r.2), by rw [hr]; rfl, fun x hx => hd (hP hx)⟩
            · obtain ⟨n, rfl⟩ : ∃ n, fuel = n + 1 := ⟨fuel - 1, by omega⟩
              refine ⟨(s.1 ++ [], s.2), ?_, hP⟩
              unfold searchF
              simp [hfc, Except.map]) ([], d ++ [v]) (by simp)
        exact ⟨s, hs, fun x hx => hp (by simp [hx])⟩
    · simp only [hf]
      exact ⟨_, rfl, by simp⟩

/-- Edges followed by the search: out of found nodes that do not match. -/
def Follows (nx : String → List String) (found hit : String → Bool) (a b : String) : Prop :=
  found a = true ∧ hit a = false ∧ b ∈ nx a

structure LoopPost (nx : String → List String) (found hit : String → Bool) (cs : List String)
    (s s' : List String × List String) : Prop where
  mono : s.2 ⊆ s'.2
  retMono : s.1 ⊆ s'.1
  kids : ∀ c ∈ cs, found c = true → c ∈ s'.2
  sound : ∀ x ∈ s'.1, x ∈ s.1 ∨ (found x = true ∧ hit x = true ∧ ∃ c ∈ cs, (x = c ∨ x ∉ s.2) ∧ Relation.ReflTransGen (Follows nx found hit) c x)
  complete : ∀ y ∈ s'.2, y ∉ s.2 → found y = true ∧ (hit y = true → y ∈ s'.1)
  closed : ∀ y ∈ s'.2, y ∉ s.2 → hit y = false → ∀ z ∈ nx y, found z = true → z ∈ s'.2

structure CallPost (nx : String → List String) (found hit : String → Bool) (v : String) (d : List String)
    (r : List String × List String) : Prop where
  mono : d ⊆ r.2
  self : found v = true → v ∈ r.2
  sound : ∀ x ∈ r.1, found x = true ∧ hit x = true ∧ (x = v ∨ x ∉ d) ∧ Relation.ReflTransGen (Follows nx found hit) v x
  complete : ∀ y ∈ r.2, y ∉ d → found y = true ∧ (hit y = true → y ∈ r.1)
  closed : ∀ y ∈ r.2, (y = v ∨ y ∉ d) → found y = true → hit y = false → ∀ z ∈ nx y, found z = true → z ∈ r.2

theorem loop_post {fuel : Nat}
    (ih : ∀ v d r, d ≠ [] → searchF nx found hit fuel v d = .ok r → CallPost nx found hit v d r) :
    ∀ (cs : List String) (s s' : List String × List String), s.2 ≠ [] →
      cs.foldlM (fun acc c => (searchF nx found hit fuel c acc.2).map (fun r => (acc.1 ++ r.1, r.2))) s = .ok s' →
      LoopPost nx found hit cs s s' := by
  intro cs
  induction cs with
  | nil =>
    intro s s' _ h
    cases h
    exact ⟨fun x h => h, fun x h => h, by simp, fun x h => .inl h, fun y h1 h2 => absurd h1 h2, fun y h1 h2 => absurd h1 h2⟩
  | cons c cs ihc =>
    intro s s' hne h
    rw [List.foldlM_cons] at h
    obtain ⟨s1, h1, h2⟩ := ok_bind h
    obtain ⟨r, hr, e⟩ : ∃ r, searchF nx found hit fuel c s.2 = .ok r ∧ (s.1 ++ r.1, r.2) = s1 := by
      cases hx : searchF nx found hit fuel c s.2 with
      | error e => rw [hx] at h1; cases h1
      | ok r => rw [hx] at h1; exact ⟨r, rfl, by cases h1; rfl⟩
    have C := ih c s.2 r hne hr
    have hne1 : s1.2 ≠ [] := by
      rw [← e]; intro h0
      obtain ⟨x, hx⟩ := List.exists_mem_of_ne_nil _ hne
      have := C.mono hx
      simp only at h0; rw [h0] at this; simp at this
    have L := ihc s1 s' hne1 h2
    subst e
    refine ⟨fun x hx => L.mono (C.mono hx), fun x hx => L.retMono (by simp [hx]), ?_, ?_, ?_, ?_⟩
    · intro c' hc' hf
      rcases List.mem_cons.1 hc' with e | hc'
      · subst e; exact L.mono (C.self hf)
      · exact L.kids c' hc' hf
    · intro x hx
      rcases L.sound x hx with h' | ⟨f1, f2, c', hc', f3, f4⟩
      · rcases List.mem_append.1 h' with h' | h'
        · exact .inl h'
        · obtain ⟨g1, g2, g3, g4⟩ := C.sound x h'
          exact .inr ⟨g1, g2, c, by simp, g3, g4⟩
      · refine .inr ⟨f1, f2, c', by simp [hc'], ?_, f4⟩
        rcases f3 with f3 | f3
        · exact .inl f3
        · exact .inr fun hh => f3 (C.mono hh)
    · intro y hy hn
      by_cases hyr : y ∈ r.2
      · obtain ⟨g1, g2⟩ := C.complete y hyr hn
        exact ⟨g1, fun hh => L.retMono (by simp [g2 hh])⟩
      · exact L.complete y hy hyr
    · intro y hy hn hh z hz hfz
      by_cases hyr : y ∈ r.2
      · exact L.mono (C.closed y hyr (.inr hn) (C.complete y hyr hn).1 hh z hz hfz)
      · exact L.closed y hy hyr hh z hz hfz

theorem call_post (fuel : Nat) : ∀ v d r, d ≠ [] → searchF nx found hit fuel v d = .ok r →
    CallPost nx found hit v d r := by
  induction fuel with
  | zero => intro v d r _ h; simp [searchF] at h
  | succ fuel ih =>
    intro v d r hd h
    unfold searchF at h
    by_cases hf : found v = true
    · simp only [hf, if_true] at h
      by_cases hh : hit v = true
      · rw [if_pos ⟨hh, hd⟩] at h
        cases h
        refine ⟨by simp, by simp, ?_, ?_, ?_⟩
        · intro x hx
          simp only [List.mem_singleton] at hx
          subst hx
          exact ⟨hf, hh, .inl rfl, .refl⟩
        · intro y hy hn
          have : y = v := by
            rcases List.mem_append.1 hy with h1 | h1
            · exact absurd h1 hn
            · simpa using h1
          subst this
          exact ⟨hf, by simp⟩
        · intro y hy hn _ hyh z hz hfz
          have : y = v := by
            rcases hn with h1 | h1
            · exact h1
            · rcases List.mem_append.1 hy with h2 | h2
              · exact absurd h2 h1
              · simpa using h2
          subst this
          simp [hh] at hyh
      · rw [if_neg (by simp [hh])] at h
        have L := loop_post ih _ _ _ (by simp) h
        have hv : v ∈ r.2 := L.mono (by simp)
        refine ⟨fun x hx => L.mono (by simp [hx]), fun _ => hv, ?_, ?_, ?_⟩
        · intro x hx
          rcases L.sound x hx with h1 | ⟨f1, f2, c, hc, f3, f4⟩
          · simp at h1
          · obtain ⟨hc1, hc2⟩ := List.mem_filter.1 hc
            simp only [List.mem_append, List.mem_singleton, not_or, decide_eq_true_eq] at hc2
            refine ⟨f1, f2, .inr ?_, Relation.ReflTransGen.head ⟨hf, by simpa using hh, hc1⟩ f4⟩
            rcases f3 with f3 | f3
            · subst f3; exact hc2.1
            · intro hxd; exact f3 (by simp [hxd])
        · intro y hy hn
          by_cases hyv : y = v
          · subst hyv; exact ⟨hf, fun h1 => absurd h1 hh⟩
          · exact L.complete y hy (by simp [hn, hyv])
        · intro y hy hn hfy hyh z hz hfz
          by_cases hyv : y = v
          · subst hyv
            by_cases hzd : z ∈ d ++ [y]
            · exact L.mono hzd
            · exact L.kids z (List.mem_filter.2 ⟨hz, by simpa using hzd⟩) hfz
          · have hyd : y ∉ d := by rcases hn with h1 | h1; exact absurd h1 hyv; exact h1
            exact L.closed y hy (by simp [hyd, hyv]) hyh z hz hfz
    · simp only [hf] at h
      cases h
      exact ⟨by simp, by simp [hf], by simp, fun y h1 h2 => absurd h1 h2, by
        intro y hy hn hfy
        rcases hn with h1 | h1
        · subst h1; exact absurd hfy hf
        · exact absurd hy h1⟩

/-- The search from a found start node. -/
theorem search_start {fuel : Nat} {v : String} {r : List String × List String} (hf : found v = true)
    (h : searchF nx found hit fuel v [] = .ok r) (x : String) :
    x ∈ r.1 ↔ x ≠ v ∧ found x = true ∧ hit x = true ∧
      ∃ c ∈ nx v, Relation.ReflTransGen (Follows nx found hit) c x := by
  cases fuel with
  | zero => simp [searchF] at h
  | succ fuel =>
    unfold searchF at h
    simp only [hf, if_true] at h
    rw [if_neg (by simp)] at h
    have L := loop_post (call_post fuel) _ _ _ (by simp) h
    have hv : v ∈ r.2 := L.mono (by simp)
    constructor
    · intro hx
      rcases L.sound x hx with h1 | ⟨f1, f2, c, hc, f3, f4⟩
      · simp at h1
      · obtain ⟨hc1, hc2⟩ := List.mem_filter.1 hc
        simp only [List.nil_append, List.mem_singleton, decide_eq_true_eq] at hc2
        refine ⟨?_, f1, f2, c, hc1, f4⟩
        rcases f3 with f3 | f3
        · subst f3; exact hc2
        · simpa using f3
    · rintro ⟨hne, hfx, hhx, c, hc, hR⟩
      -- every node on the path is visited, as far as it is found
      have hcl : ∀ y ∈ r.2, found y = true → hit y = false → ∀ z ∈ nx y, found z = true → z ∈ r.2 := by
        intro y hy hfy hyh z hz hfz
        by_cases hyv : y = v
        · subst hyv
          by_cases hzv : z = y
          · subst hzv; exact hv
          · exact L.kids z (List.mem_filter.2 ⟨hz, by simpa using hzv⟩) hfz
        · exact L.closed y hy (by simpa using hyv) hyh z hz hfz
      have key : ∀ y, Relation.ReflTransGen (Follows nx found hit) c y → found y = true → y ∈ r.2 := by
        intro y hy
        induction hy with
        | refl =>
          intro hfc
          by_cases hcv : c = v
          · subst hcv; exact hv
          · exact L.kids c (List.mem_filter.2 ⟨hc, by simpa using hcv⟩) hfc
        | tail _ hstep ih =>
          intro hfz
          exact hcl _ (ih hstep.1) hstep.1 hstep.2.1 _ hstep.2.2 hfz
      exact (L.complete x (key x hR hfx) (by simpa using hne)).2 hhx

end
end Verif
