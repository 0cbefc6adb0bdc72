import Mathlib.Tactic.Linarith
import Mathlib.Data.List.Induction
import Verif.Lemmas.Fold
import Verif.Model.Greedy
/-!
# C54, C80: greedy filter pruning
-/
namespace Verif

/-- `a` did strictly better than `b`: higher top1, then higher top5, then lower loss. -/
def Better {M : Type} (a b : GRes M) : Prop :=
  b.prec1 < a.prec1 ∨ (a.prec1 = b.prec1 ∧ (b.prec5 < a.prec5 ∨ (a.prec5 = b.prec5 ∧ a.loss < b.loss)))

theorem keyGt_iff {M : Type} (a b : GRes M) : keyGt a b = true ↔ Better a b := by
  unfold keyGt Better
  by_cases h1 : a.prec1 = b.prec1
  · by_cases h2 : a.prec5 = b.prec5
    · simp [h1, h2]
    · simp [h1, h2]
  · simp only [ne_eq, h1, not_false_eq_true, if_true, false_and, or_false]
    simp

theorem Better.trans {M : Type} {a b c : GRes M} (h1 : Better a b) (h2 : Better b c) : Better a c := by
  unfold Better at *
  rcases h1 with h1 | ⟨h1, h1' | ⟨h1', h1''⟩⟩ <;> rcases h2 with h2 | ⟨h2, h2' | ⟨h2', h2''⟩⟩ <;>
    first
    | (left; linarith)
    | (right; refine ⟨by linarith, ?_⟩; first | (left; linarith) | (right; exact ⟨by linarith, by linarith⟩))

theorem not_better_trans {M : Type} {a b c : GRes M} (h1 : ¬ Better a b) (h2 : Better c b) : Better c a := by
  unfold Better at *
  simp only [not_or, not_and, not_lt] at h1
  obtain ⟨p, q⟩ := h1
  by_cases hp : a.prec1 = b.prec1
  · obtain ⟨q1, q2⟩ := q hp
    by_cases hq : a.prec5 = b.prec5
    · have q3 := q2 hq
      rcases h2 with h2 | ⟨h2, h2' | ⟨h2', h2''⟩⟩
      · left; linarith
      · right; exact ⟨by linarith, Or.inl (by linarith)⟩
      · right; exact ⟨by linarith, Or.inr ⟨by linarith, by linarith⟩⟩
    · have : a.prec5 < b.prec5 := lt_of_le_of_ne q1 hq
      rcases h2 with h2 | ⟨h2, h2' | ⟨h2', h2''⟩⟩
      · left; linarith
      · right; exact ⟨by linarith, Or.inl (by linarith)⟩
      · right; exact ⟨by linarith, Or.inl (by linarith)⟩
  · have : a.prec1 < b.prec1 := lt_of_le_of_ne p hp
    rcases h2 with h2 | ⟨h2, _⟩
    · left; linarith
    · left; linarith

/-- `n` is the first of the best 4-D tensors in `names`. -/
def FirstBest {M : Type} (dim : Dict Name Nat) (eval : Name → GRes M) (names : List Name) (n : Name) : Prop :=
  dim.get? n = some 4 ∧ ∃ a b, names = a ++ n :: b ∧
    (∀ x ∈ a, dim.get? x = some 4 → Better (eval n) (eval x)) ∧
    (∀ x ∈ b, dim.get? x = some 4 → ¬ Better (eval x) (eval n))

/-- C54: whatever the results, `find_most_robust_layer` returns the first layer, among the 4-D ones
tried, that no other layer beats, with that layer's own results and model; it returns no layer only
if none is 4-D. -/
theorem C54_first_best {M : Type} (dim : Dict Name Nat) (names : List Name) (eval : Name → GRes M)
    (hk : ∀ n ∈ names, dim.has n = true) :
    (∃ n, findMostRobust dim names eval = .ok (some (n, eval n)) ∧ FirstBest dim eval names n) ∨
    (findMostRobust dim names eval = .ok none ∧ ∀ n ∈ names, dim.get? n ≠ some 4) := by
  induction names using List.reverseRecOn with
  | nil => right; exact ⟨rfl, by simp⟩
  | append_singleton names x ih =>
    have hx : ∃ d, dim.get? x = some d := by
      have := hk x (by simp)
      exact Option.isSome_iff_exists.1 (by simpa [Dict.has] using this)
    obtain ⟨d, hd⟩ := hx
    have hfold : ∀ r, findMostRobust dim names eval = .ok r →
        findMostRobust dim (names ++ [x]) eval = robustStep dim eval r x := by
      intro r hr
      unfold findMostRobust at hr ⊢
      rw [List.foldlM_append, hr]
      show (List.foldlM (robustStep dim eval) r [x]) = _
      simp
    rcases ih (fun n hn => hk n (by simp [hn])) with ⟨n, h1, h4, a, b, rfl, ha, hb⟩ | ⟨h1, h2⟩
    · left
      rw [hfold _ h1]
      by_cases h : d = 4
      · subst h
        by_cases hg : Better (eval x) (eval n)
        · refine ⟨x, by simp [robustStep, hd, (keyGt_iff _ _).2 hg], hd, a ++ n :: b, [], by simp, ?_, by simp⟩
          intro y hy h4y
          rcases List.mem_append.1 hy with hy | hy
          · exact hg.trans (ha y hy h4y)
          · rcases List.mem_cons.1 hy with rfl | hy
            · exact hg
            · exact not_better_trans (hb y hy h4y) hg
        · refine ⟨n, ?_, h4, a, b ++ [x], by simp, ha, ?_⟩
          · have : keyGt (eval x) (eval n) = false := by
              rw [← Bool.not_eq_true, keyGt_iff]; exact hg
            simp [robustStep, hd, this]
          · intro y hy h4y
            rcases List.mem_append.1 hy with hy | hy
            · exact hb y hy h4y
            · simp at hy; subst hy; exact hg
      · refine ⟨n, by simp [robustStep, hd, h], h4, a, b ++ [x], by simp, ha, ?_⟩
        intro y hy h4y
        rcases List.mem_append.1 hy with hy | hy
        · exact hb y hy h4y
        · simp at hy; subst hy; rw [hd] at h4y; simp at h4y; exact absurd h4y h
    · rw [hfold _ h1]
      by_cases h : d = 4
      · subst h
        left
        exact ⟨x, by simp [robustStep, hd], hd, names, [], by simp, fun y hy h4 => absurd h4 (h2 y hy), by simp⟩
      · right
        refine ⟨by simp [robustStep, hd, h], ?_⟩
        intro y hy
        rcases List.mem_append.1 hy with hy | hy
        · exact h2 y hy
        · simp at hy; subst hy; rw [hd]; simpa using h

/-- Three candidates and a bias vector: the second is the first best. -/
example : findMostRobust [(["a"], 4), (["b"], 1), (["c"], 4), (["d"], 4)] [["a"], ["b"], ["c"], ["d"]]
    (fun n => if n = ["a"] then ⟨70, 90, 1, 0⟩ else if n = ["c"] then ⟨71, 90, 2, 1⟩ else ⟨71, 90, 2, 2⟩)
    = .ok (some (["c"], ⟨71, 90, 2, 1⟩)) := by decide +kernel

/-! ### The loop (C80) -/

variable {M : Type}

theorem greedyLoop_spec (macs : M → Nat) (frac : Rat) (dense : Nat) (pick : Nat → M → Except Err (Option M)) :
    ∀ fuel it m saved r, greedyLoop macs frac dense pick fuel it m saved = some r →
      r.raised ≠ none ∧ (r.leftLoop = true → (macs r.model : Rat) ≤ frac * dense) ∧
      ∃ new, r.saved = saved ++ new ∧ r.model = (new.getLast?).getD m ∧
        ∀ x ∈ (m :: new).dropLast, frac * dense < macs x := by
  intro fuel
  induction fuel with
  | zero =>
    intro it m saved r h
    unfold greedyLoop at h
    by_cases hc : frac * dense < macs m
    · simp [hc] at h
    · simp only [hc, if_false] at h
      split at h <;> (simp only [Option.some.injEq] at h; subst h)
      · exact ⟨by simp, fun _ => not_lt.1 hc, [], by simp⟩
      · exact ⟨by simp, fun _ => not_lt.1 hc, [], by simp⟩
  | succ fuel ih =>
    intro it m saved r h
    unfold greedyLoop at h
    by_cases hc : frac * dense < macs m
    · simp only [hc, if_true] at h
      cases hp : pick (it + 1) m with
      | error e =>
        simp only [hp, Option.some.injEq] at h; subst h
        exact ⟨by simp, by simp, [], by simp⟩
      | ok o =>
        cases o with
        | none =>
          simp only [hp, Option.some.injEq] at h; subst h
          exact ⟨by simp, by simp, [], by simp⟩
        | some m' =>
          simp only [hp] at h
          obtain ⟨h1, h2, new, h3, h4, h5⟩ := ih _ _ _ _ h
          refine ⟨h1, h2, m' :: new, by simp [h3], ?_, ?_⟩
          · rw [h4, List.getLast?_cons]; simp
          · intro x hx
            rw [List.dropLast_cons_of_ne_nil (by simp)] at hx
            rcases List.mem_cons.1 hx with rfl | hx
            · exact hc
            · exact h5 x hx
    · simp only [hc, if_false] at h
      split at h <;> (simp only [Option.some.injEq] at h; subst h)
      · exact ⟨by simp, fun _ => not_lt.1 hc, [], by simp⟩
      · exact ⟨by simp, fun _ => not_lt.1 hc, [], by simp⟩

/-- C80: if the loop is left through its condition, the model reached needs at most the asked
fraction of the original compute, it is the last model saved, and every model before it (the original
included) needed more. -/
theorem C80_target_reached (macs : M → Nat) (frac : Rat) (pick : Nat → M → Except Err (Option M)) (fuel : Nat)
    (m : M) (r : GreedyEnd M) (h : greedyPruner macs frac pick fuel m = some r) :
    (r.leftLoop = true → (macs r.model : Rat) ≤ frac * macs m) ∧
    (r.model = (r.saved.getLast?).getD m) ∧
    ∀ x ∈ (m :: r.saved).dropLast, frac * macs m < macs x := by
  obtain ⟨_, h2, new, h3, h4, h5⟩ := greedyLoop_spec macs frac (macs m) pick fuel 0 m [] r h
  simp at h3
  exact ⟨h2, by rw [h3]; exact h4, by rw [h3]; exact h5⟩

theorem greedyLoop_terminates (macs : M → Nat) (frac : Rat) (hf : 0 ≤ frac) (dense : Nat) (pick : Nat → M → Except Err (Option M))
    (hpick : ∀ i m, frac * dense < macs m → ∃ m', pick i m = .ok (some m') ∧ macs m' < macs m) :
    ∀ fuel it m saved, macs m ≤ fuel →
      ∃ r, greedyLoop macs frac dense pick fuel it m saved = some r ∧ r.leftLoop = true := by
  intro fuel
  induction fuel with
  | zero =>
    intro it m saved hm
    unfold greedyLoop
    have hc : ¬ frac * dense < macs m := by
      have : macs m = 0 := by omega
      rw [this]
      simp only [Nat.cast_zero, not_lt]
      exact mul_nonneg hf (Nat.cast_nonneg _)
    simp only [hc, if_false]
    split <;> exact ⟨_, rfl, rfl⟩
  | succ fuel ih =>
    intro it m saved hm
    unfold greedyLoop
    by_cases hc : frac * dense < macs m
    · simp only [hc, if_true]
      obtain ⟨m', h1, h2⟩ := hpick (it + 1) m hc
      simp only [h1]
      exact ih _ _ _ (by omega)
    · simp only [hc, if_false]
      split <;> exact ⟨_, rfl, rfl⟩

/-- C80: if every iteration finds a layer whose pruning lowers the compute, the loop reaches its
target within as many iterations as the original model has MACs. -/
theorem C80_terminates (macs : M → Nat) (frac : Rat) (hf : 0 ≤ frac) (pick : Nat → M → Except Err (Option M)) (m : M)
    (hpick : ∀ i x, frac * macs m < macs x → ∃ m', pick i x = .ok (some m') ∧ macs m' < macs x) (fuel : Nat) (hfuel : macs m ≤ fuel) :
    ∃ r, greedyPruner macs frac pick fuel m = some r ∧ r.leftLoop = true :=
  greedyLoop_terminates macs frac hf (macs m) pick hpick fuel 0 m [] hfuel

/-- Halving the compute each time, with target one tenth of 100. -/
example : greedyPruner (fun m : Nat => m) (1/10) (fun _ m => .ok (some (m / 2))) 10 100
    = some ⟨[50, 25, 12, 6], 6, true, some .name⟩ := by
  simp [greedyPruner, greedyLoop]; norm_num

example : ∀ (i x : Nat), (1/10 : Rat) * (100 : Nat) < (x : Nat) →
    ∃ m', (Except.ok (some (x / 2)) : Except Err (Option Nat)) = .ok (some m') ∧ m' < x := by
  intro i x h
  refine ⟨x / 2, rfl, Nat.div_lt_self ?_ (by omega)⟩
  rcases Nat.eq_zero_or_pos x with rfl | h0
  · norm_num at h
  · exact h0

/-- C80 is violated: `greedy_pruner` never returns normally.  When the loop ends, the mask
dictionary it needs for the final checkpoint has been deleted. -/
theorem C80_violated_always_raises (macs : M → Nat) (frac : Rat) (pick : Nat → M → Except Err (Option M)) (fuel : Nat)
    (m : M) (r : GreedyEnd M) (h : greedyPruner macs frac pick fuel m = some r) : r.raised ≠ none :=
  (greedyLoop_spec macs frac (macs m) pick fuel 0 m [] r h).1

/-- C80 is violated: when no candidate layer loses a filter (the step rounds down to no filter), every
trial is the unchanged model, and the loop runs for ever. -/
theorem C80_violated_never_ends (macs : M → Nat) (frac : Rat) (m : M) (pick : Nat → M → Except Err (Option M))
    (hsame : ∀ i, pick i m = .ok (some m)) (htarget : frac * macs m < macs m) :
    ∀ fuel, greedyPruner macs frac pick fuel m = none := by
  intro fuel
  unfold greedyPruner
  generalize 0 = it
  generalize ([] : List M) = saved
  induction fuel generalizing it saved with
  | zero => unfold greedyLoop; simp [htarget]
  | succ fuel ih => unfold greedyLoop; simp only [htarget, if_true, hsame]; exact ih _ _

example : ∀ fuel, greedyPruner (fun m : Nat => m) (1/2) (fun _ m => .ok (some m)) fuel 100 = none :=
  C80_violated_never_ends _ _ _ _ (fun _ => rfl) (by norm_num)

end Verif
