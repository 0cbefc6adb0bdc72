import Verif.Basic.Py
/-! Generic lemmas about monadic folds in `Except`. -/
namespace Verif

theorem ok_bind {ε α β : Type} {x : Except ε α} {f : α → Except ε β} {b : β}
    (h : (x >>= f) = .ok b) : ∃ a, x = .ok a ∧ f a = .ok b := by
  cases x with
  | error e => cases h
  | ok a => exact ⟨a, rfl, h⟩

theorem foldlM_preserves {ε σ α : Type} {f : σ → α → Except ε σ} {P : σ → Prop}
    {l : List α} {s s' : σ}
    (hstep : ∀ s a s', a ∈ l → P s → f s a = .ok s' → P s')
    (hs : P s) (h : l.foldlM f s = .ok s') : P s' := by
  induction l generalizing s with
  | nil => simp [pure, Except.pure] at h; exact h ▸ hs
  | cons a l ih =>
    rw [List.foldlM_cons] at h
    obtain ⟨s1, h1, h2⟩ := ok_bind h
    exact ih (fun s b s' hb => hstep s b s' (List.mem_cons_of_mem _ hb))
      (hstep s a s1 (by simp) hs h1) h2

/-- If the body establishes `Q _ a` for the element it processes and preserves
`Q _ b` for every `b`, the loop establishes `Q` for all its elements. -/
theorem foldlM_establish {ε σ α : Type} {f : σ → α → Except ε σ} {Q : σ → α → Prop}
    {l : List α} {s s' : σ}
    (h1 : ∀ s a s', f s a = .ok s' → Q s' a)
    (h2 : ∀ s a b s', f s a = .ok s' → Q s b → Q s' b)
    (h : l.foldlM f s = .ok s') : ∀ a ∈ l, Q s' a := by
  induction l generalizing s with
  | nil => simp
  | cons a l ih =>
    rw [List.foldlM_cons] at h
    obtain ⟨s1, hs1, hs2⟩ := ok_bind h
    intro b hb
    rcases List.mem_cons.1 hb with rfl | hb
    · exact foldlM_preserves (P := fun s => Q s b) (fun s a s' _ hq hf => h2 s a b s' hf hq)
        (h1 s b s1 hs1) hs2
    · exact ih hs2 b hb

/-- Loop bodies that never fail make a loop that never fails, and it is the pure fold. -/
theorem foldlM_ok {ε σ α : Type} {f : σ → α → Except ε σ} {g : σ → α → σ} {l : List α}
    (h : ∀ s a, a ∈ l → f s a = .ok (g s a)) (s : σ) : l.foldlM f s = .ok (l.foldl g s) := by
  induction l generalizing s with
  | nil => rfl
  | cons a l ih =>
    rw [List.foldlM_cons, h s a (by simp)]
    exact ih (fun s b hb => h s b (List.mem_cons_of_mem _ hb)) (g s a)

end Verif
