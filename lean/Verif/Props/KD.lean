import Mathlib.Tactic.Linarith
import Mathlib.Tactic.FieldSimp
import Mathlib.Tactic.Positivity
import Verif.Model.KD
/-!
# C53: knowledge distillation
-/
namespace Verif

/-- The history ends inside a scheduled epoch: some epoch began and has not ended. -/
def InEpoch (h : List KDEvent) : Prop := ∃ a b, h = a ++ KDEvent.epochBegin :: b ∧ KDEvent.epochEnd ∉ b

/-- `s`, `t` are the outputs of the last call of `forward` made inside a scheduled epoch. -/
def LastForward (h : List KDEvent) (s t : Logits) : Prop :=
  ∃ a b, h = a ++ .forward s t :: b ∧ InEpoch a ∧
    ∀ b1 s' t' b2, b = b1 ++ .forward s' t' :: b2 → ¬ InEpoch (a ++ .forward s t :: b1)

theorem not_inEpoch_nil : ¬ InEpoch [] := by
  rintro ⟨a, b, h, _⟩; simp at h

theorem inEpoch_begin (h : List KDEvent) : InEpoch (h ++ [.epochBegin]) := ⟨h, [], rfl, by simp⟩

theorem append_cons_eq_snoc {α : Type} {h a b : List α} {x e : α} (heq : h ++ [e] = a ++ x :: b) :
    (b = [] ∧ x = e ∧ a = h) ∨ ∃ b', b = b' ++ [e] ∧ h = a ++ x :: b' := by
  rcases List.eq_nil_or_concat b with rfl | ⟨b', c, rfl⟩
  · left
    have := List.append_inj' heq (by simp)
    simp at this
    exact ⟨rfl, this.2.symm, this.1.symm⟩
  · right
    have h2 : h ++ [e] = (a ++ x :: b') ++ [c] := by rw [heq]; simp
    have := List.append_inj' h2 rfl
    simp at this
    exact ⟨b', by simp [this.2], this.1⟩

theorem not_inEpoch_end (h : List KDEvent) : ¬ InEpoch (h ++ [.epochEnd]) := by
  rintro ⟨a, b, heq, hb⟩
  rcases append_cons_eq_snoc heq with ⟨_, h2, _⟩ | ⟨b', rfl, _⟩
  · cases h2
  · simp at hb

theorem inEpoch_snoc {e : KDEvent} (h1 : e ≠ .epochBegin) (h2 : e ≠ .epochEnd) (h : List KDEvent) :
    InEpoch (h ++ [e]) ↔ InEpoch h := by
  constructor
  · rintro ⟨a, b, heq, hb⟩
    rcases append_cons_eq_snoc heq with ⟨_, hx, _⟩ | ⟨b', rfl, rfl⟩
    · exact absurd hx.symm h1
    · exact ⟨a, b', rfl, fun h => hb (by simp [h])⟩
  · rintro ⟨a, b, rfl, hb⟩
    exact ⟨a, b ++ [e], by simp, by simp [hb, h2.symm]⟩

theorem lastForward_snoc_of_not {e : KDEvent} {h : List KDEvent} {s t : Logits}
    (hne : ∀ s' t', e = .forward s' t' → ¬ InEpoch h) : LastForward (h ++ [e]) s t ↔ LastForward h s t := by
  constructor
  · rintro ⟨a, b, heq, ha, hb⟩
    rcases append_cons_eq_snoc heq with ⟨_, hx, rfl⟩ | ⟨b', rfl, rfl⟩
    · exact absurd ha (hne s t hx.symm)
    · exact ⟨a, b', rfl, ha, fun b1 s' t' b2 h => hb b1 s' t' (b2 ++ [e]) (by simp [h])⟩
  · rintro ⟨a, b, rfl, ha, hb⟩
    refine ⟨a, b ++ [e], by simp, ha, fun b1 s' t' b2 h => ?_⟩
    rcases append_cons_eq_snoc h with ⟨_, hx, rfl⟩ | ⟨b', rfl, rfl⟩
    · exact hne s' t' hx.symm
    · exact hb b1 s' t' b' rfl

theorem lastForward_snoc {h : List KDEvent} {s t s' t' : Logits} (hin : InEpoch h) :
    LastForward (h ++ [.forward s' t']) s t ↔ s = s' ∧ t = t' := by
  constructor
  · rintro ⟨a, b, heq, ha, hb⟩
    rcases append_cons_eq_snoc heq with ⟨_, hx, rfl⟩ | ⟨b', rfl, rfl⟩
    · cases hx; exact ⟨rfl, rfl⟩
    · exact absurd hin (hb b' s' t' [] (by simp))
  · rintro ⟨rfl, rfl⟩
    exact ⟨h, [], rfl, hin, fun b1 s' t' b2 h => by simp at h⟩

/-- The policy's attributes say what the history says. -/
theorem kd_invariant (w : KDWeights) (temp : ℝ) (h : List KDEvent) :
    ((kdRun w temp {} h).active = true ↔ InEpoch h) ∧
    ((kdRun w temp {} h).lastTeacher.isSome = (kdRun w temp {} h).lastStudent.isSome) ∧
    ∀ s t, ((kdRun w temp {} h).lastStudent = some s ∧ (kdRun w temp {} h).lastTeacher = some t) ↔ LastForward h s t := by
  induction h using List.reverseRecOn with
  | nil =>
    refine ⟨by simp [kdRun, not_inEpoch_nil], by simp [kdRun], fun s t => ?_⟩
    constructor
    · intro h; simp [kdRun] at h
    · rintro ⟨a, b, h, _⟩; simp at h
  | append_singleton h e ih =>
    obtain ⟨i1, i2, i3⟩ := ih
    have hr : kdRun w temp {} (h ++ [e]) = (kdStep w temp (kdRun w temp {} h) e).1 := by simp [kdRun]
    rw [hr]
    generalize kdRun w temp {} h = st at i1 i2 i3
    cases e with
    | epochBegin =>
      refine ⟨by simp [kdStep, inEpoch_begin], i2, fun s t => ?_⟩
      rw [lastForward_snoc_of_not (by simp), ← i3]
      rfl
    | epochEnd =>
      refine ⟨by simp [kdStep, not_inEpoch_end], i2, fun s t => ?_⟩
      rw [lastForward_snoc_of_not (by simp), ← i3]
      rfl
    | forward s' t' =>
      rw [inEpoch_snoc (by simp) (by simp)]
      by_cases ha : st.active = true
      · have hin := i1.1 ha
        refine ⟨by simp [kdStep, ha, hin], by simp [kdStep, ha], fun s t => ?_⟩
        rw [lastForward_snoc hin]
        simp [kdStep, ha, eq_comm]
      · have hin : ¬ InEpoch h := fun hc => ha (i1.2 hc)
        refine ⟨by simp [kdStep, ha, hin], by simp [kdStep, ha, i2], fun s t => ?_⟩
        rw [lastForward_snoc_of_not (fun _ _ _ => hin), ← i3]
        simp [kdStep, ha]
    | backward l =>
      rw [inEpoch_snoc (by simp) (by simp)]
      have hs : (kdStep w temp st (.backward l)).1 = st := by
        cases ha : st.active <;> cases hb : st.lastTeacher <;> cases hc : st.lastStudent <;> simp [kdStep, ha, hb, hc]
      rw [hs]
      exact ⟨i1, i2, fun s t => by rw [lastForward_snoc_of_not (by simp), ← i3]⟩

/-- C53: in a scheduled epoch, after a `forward` made in a scheduled epoch, the loss the scheduler
goes on with is `student_weight*loss + distill_weight*T^2*KD` where `KD` is computed from the outputs
of the last such `forward`, and the reported component is the unscaled `KD`. -/
theorem C53_loss (w : KDWeights) (temp : ℝ) (h : List KDEvent) (loss : ℝ) (s t : Logits)
    (hin : InEpoch h) (hf : LastForward h s t) :
    (kdStep w temp (kdRun w temp {} h) (.backward loss)).2 =
      .loss (w.student * loss + w.distill * (kdLoss temp s t * temp ^ 2)) (kdLoss temp s t) := by
  obtain ⟨i1, _, i3⟩ := kd_invariant w temp h
  obtain ⟨h1, h2⟩ := (i3 s t).2 hf
  simp [kdStep, i1.2 hin, h1, h2]

/-- C53: outside the scheduled epochs the loss is untouched and `forward` runs the student only. -/
theorem C53_outside (w : KDWeights) (temp : ℝ) (h : List KDEvent) (hin : ¬ InEpoch h) :
    (∀ loss, (kdStep w temp (kdRun w temp {} h) (.backward loss)).2 = .noLoss) ∧
    (∀ s t, (kdStep w temp (kdRun w temp {} h) (.forward s t)).2 = .out s false) := by
  obtain ⟨i1, _, _⟩ := kd_invariant w temp h
  have : (kdRun w temp {} h).active = false := by
    cases hx : (kdRun w temp {} h).active with
    | false => rfl
    | true => exact absurd (i1.1 hx) hin
  simp [kdStep, this]

/-- C53: inside a scheduled epoch `forward` returns what the student returns, and the teacher ran. -/
theorem C53_forward (w : KDWeights) (temp : ℝ) (h : List KDEvent) (hin : InEpoch h) (s t : Logits) :
    (kdStep w temp (kdRun w temp {} h) (.forward s t)).2 = .out s true := by
  simp [kdStep, (kd_invariant w temp h).1.2 hin]

/-- C53: in a scheduled epoch, if no `forward` was ever made in a scheduled epoch, asking for the
loss raises `RuntimeError`. -/
theorem C53_missing_forward (w : KDWeights) (temp : ℝ) (h : List KDEvent) (loss : ℝ)
    (hin : InEpoch h) (hf : ∀ s t, ¬ LastForward h s t) :
    (kdStep w temp (kdRun w temp {} h) (.backward loss)).2 = .raised .runtime := by
  obtain ⟨i1, i2, i3⟩ := kd_invariant w temp h
  have ha := i1.2 hin
  cases hs : (kdRun w temp {} h).lastStudent with
  | none => cases ht : (kdRun w temp {} h).lastTeacher <;> simp [kdStep, ha, hs, ht]
  | some s =>
    cases ht : (kdRun w temp {} h).lastTeacher with
    | none => simp [hs, ht] at i2
    | some t => exact absurd ((i3 s t).1 ⟨hs, ht⟩) (hf s t)

/-- C53: the constructor refuses exactly the nonzero teacher-vs-labels weights. -/
theorem C53_teacher_weight (w : KDWeights) :
    (∃ st, kdInit w = .ok st) ↔ w.teacher = 0 := by
  unfold kdInit
  by_cases h : w.teacher = 0 <;> simp [h]

/-- The hypotheses of `C53_loss` are met by an epoch with two minibatches, of which the second
counts, after an epoch outside the schedule. -/
example : InEpoch [.forward [[9]] [[8]], .epochBegin, .forward [[1]] [[2]], .backward 3, .forward [[4]] [[5]]] ∧
    LastForward [.forward [[9]] [[8]], .epochBegin, .forward [[1]] [[2]], .backward 3, .forward [[4]] [[5]]] [[4]] [[5]] := by
  have h1 : InEpoch [.forward [[9]] [[8]], .epochBegin, .forward [[1]] [[2]], .backward 3] :=
    ⟨[.forward [[9]] [[8]]], [.forward [[1]] [[2]], .backward 3], rfl, by simp⟩
  exact ⟨⟨[.forward [[9]] [[8]]], [.forward [[1]] [[2]], .backward 3, .forward [[4]] [[5]]], rfl, by simp⟩,
    (lastForward_snoc (h := [.forward [[9]] [[8]], .epochBegin, .forward [[1]] [[2]], .backward 3]) h1).2 ⟨rfl, rfl⟩⟩

/-- C53 is violated: the cached outputs are never dropped, so a script that forgets `forward` in a
later scheduled epoch gets, instead of the promised error, a loss computed from the outputs of an
epoch that has ended. -/
theorem C53_violated_stale (w : KDWeights) (temp loss : ℝ) (s t : Logits) :
    ∃ h, InEpoch h ∧ (∀ a b, h = a ++ .epochBegin :: b → KDEvent.epochEnd ∉ b → ∀ s t, KDEvent.forward s t ∉ b) ∧
      (kdStep w temp (kdRun w temp {} h) (.backward loss)).2 =
        .loss (w.student * loss + w.distill * (kdLoss temp s t * temp ^ 2)) (kdLoss temp s t) := by
  refine ⟨[.epochBegin, .forward s t, .epochEnd, .epochBegin], inEpoch_begin [.epochBegin, .forward s t, .epochEnd], ?_, ?_⟩
  · intro a b h hb s' t' hm
    have h0 : [KDEvent.epochBegin, .forward s t, .epochEnd] ++ [KDEvent.epochBegin] = a ++ .epochBegin :: b := h
    rcases append_cons_eq_snoc h0 with ⟨rfl, _, _⟩ | ⟨b', rfl, h'⟩
    · simp at hm
    · have h1 : [KDEvent.epochBegin, .forward s t] ++ [KDEvent.epochEnd] = a ++ .epochBegin :: b' := h'
      rcases append_cons_eq_snoc h1 with ⟨_, hx, _⟩ | ⟨b'', rfl, _⟩
      · cases hx
      · simp at hb
  · simp [kdStep, kdRun]

/-! ### The distillation term (C79) -/

theorem kl_list_bound : ∀ (p q : List ℝ), p.length = q.length → (∀ a ∈ p, 0 < a) → (∀ a ∈ q, 0 < a) →
    p.sum - q.sum ≤ (List.zipWith (fun p q => p * (Real.log p - Real.log q)) p q).sum
  | [], [], _, _, _ => by simp
  | a :: p, b :: q, h, hp, hq => by
    have ih := kl_list_bound p q (by simpa using h) (fun x hx => hp x (by simp [hx])) (fun x hx => hq x (by simp [hx]))
    have ha := hp a (by simp)
    have hb := hq b (by simp)
    have h1 : Real.log (b / a) ≤ b / a - 1 := Real.log_le_sub_one_of_pos (by positivity)
    rw [Real.log_div hb.ne' ha.ne'] at h1
    have h2 : a * (Real.log b - Real.log a) ≤ b - a := by
      calc a * (Real.log b - Real.log a) ≤ a * (b / a - 1) := mul_le_mul_of_nonneg_left h1 ha.le
        _ = b - a := by field_simp
    simp only [List.sum_cons, List.zipWith_cons_cons]
    linarith [h2, ih, mul_sub a (Real.log a) (Real.log b), mul_sub a (Real.log b) (Real.log a)]

theorem expSum_pos (z : List ℝ) (hz : z ≠ []) : 0 < (z.map Real.exp).sum := by
  cases z with
  | nil => exact absurd rfl hz
  | cons a z =>
    have : 0 ≤ (z.map Real.exp).sum := List.sum_nonneg (by
      intro x hx; obtain ⟨y, _, rfl⟩ := List.mem_map.1 hx; positivity)
    simp only [List.map_cons, List.sum_cons]
    have := Real.exp_pos a
    linarith

theorem sum_map_div' (z : List ℝ) (c : ℝ) : (z.map (fun a => Real.exp a / c)).sum = (z.map Real.exp).sum / c := by
  induction z with
  | nil => simp
  | cons a z ih => simp only [List.map_cons, List.sum_cons, ih]; ring

theorem softmax_sum (z : List ℝ) (hz : z ≠ []) : (softmaxRow z).sum = 1 := by
  unfold softmaxRow
  rw [sum_map_div', div_self (expSum_pos z hz).ne']

theorem softmax_pos (z : List ℝ) (hz : z ≠ []) : ∀ a ∈ softmaxRow z, 0 < a := by
  intro a ha
  obtain ⟨b, _, rfl⟩ := List.mem_map.1 ha
  exact div_pos (Real.exp_pos b) (expSum_pos z hz)

theorem klRow_nonneg (s t : List ℝ) (h : s.length = t.length) : 0 ≤ klRow s t := by
  by_cases ht : t = []
  · subst ht; simp [klRow, softmaxRow]
  · have hs : s ≠ [] := by rintro rfl; simp at h; exact ht (List.eq_nil_of_length_eq_zero h.symm)
    have := kl_list_bound (softmaxRow t) (softmaxRow s) (by simp [softmaxRow, h]) (softmax_pos t ht) (softmax_pos s hs)
    rw [softmax_sum t ht, softmax_sum s hs] at this
    simpa [klRow] using this

/-- C79: the distillation loss is never negative, whatever the logits and temperature. -/
theorem C79_nonneg (temp : ℝ) (s t : Logits)
    (hr : ∀ p ∈ List.zip s t, p.1.length = p.2.length) : 0 ≤ kdLoss temp s t := by
  unfold kdLoss
  apply div_nonneg _ (Nat.cast_nonneg _)
  apply List.sum_nonneg
  intro x hx
  rw [← List.map_uncurry_zip_eq_zipWith] at hx
  obtain ⟨p, hp, rfl⟩ := List.mem_map.1 hx
  exact klRow_nonneg _ _ (by simpa using hr p hp)

theorem softmax_shift (z : List ℝ) (c : ℝ) : softmaxRow (z.map (· + c)) = softmaxRow z := by
  unfold softmaxRow
  have h1 : ((z.map (· + c)).map Real.exp).sum = (z.map Real.exp).sum * Real.exp c := by
    induction z with
    | nil => simp
    | cons a z ih => simp only [List.map_cons, List.sum_cons, ih, Real.exp_add]; ring
  rw [h1, List.map_map]
  apply List.map_congr_left
  intro a _
  simp only [Function.comp_def, Real.exp_add]
  rw [mul_div_mul_right _ _ (Real.exp_pos c).ne']

theorem klRow_self_shift (s : List ℝ) (c : ℝ) : klRow s (s.map (· + c)) = 0 := by
  unfold klRow
  rw [softmax_shift]
  generalize softmaxRow s = p
  induction p with
  | nil => simp
  | cons a p ih => simp [ih]

/-- C79: a student whose logits agree with the teacher's up to a constant per sample gets no
distillation loss, at any temperature. -/
theorem C79_zero_when_agree (temp : ℝ) (s : Logits) (c : List ℝ) (hc : c.length = s.length) :
    kdLoss temp s (List.zipWith (fun r k => r.map (· + k)) s c) = 0 := by
  unfold kdLoss
  have : (List.zipWith (fun a b => klRow (a.map (· / temp)) (b.map (· / temp))) s
      (List.zipWith (fun r k => r.map (· + k)) s c)).sum = 0 := by
    induction s generalizing c with
    | nil => simp
    | cons r s ih =>
      cases c with
      | nil => simp at hc
      | cons k c =>
        simp only [List.zipWith_cons_cons, List.sum_cons]
        rw [ih c (by simpa using hc)]
        have h1 : (r.map (· + k)).map (· / temp) = (r.map (· / temp)).map (· + k / temp) := by
          simp only [List.map_map]
          apply List.map_congr_left
          intro a _
          simp [Function.comp_def, add_div]
        rw [h1, klRow_self_shift, add_zero]
  rw [this, zero_div]

example : kdLoss 2 [[1, 2], [3, 4]] [[6, 7], [3, 4]] = 0 := by
  have := C79_zero_when_agree 2 [[1, 2], [3, 4]] [5, 0] rfl
  norm_num at this
  exact this

end Verif
