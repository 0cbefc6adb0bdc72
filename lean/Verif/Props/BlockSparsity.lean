import Verif.Props.Blocks
import Mathlib.Tactic.IntervalCases
/-!
# C60: block-wise sparsity
-/
namespace Verif

/-- Specification: every weight of the documented super-block `(bf, bc)` at spatial position `(h, w)`
(filters `f` with `f / reps = bf`, channels `c` with `c / depth = bc`) is zero. -/
def T4.ZeroSuperBlock (t : T4) (reps depth bf bc h w : ℕ) : Prop :=
  ∀ f < t.F, ∀ c < t.C, f / reps = bf → c / depth = bc → t.at f c h w = some 0

theorem blockSparsity_general (t : T4) (reps depth : ℕ) (v : ℕ × ℕ × ℕ) (n : ℕ) (hn : 0 < n)
    (h0 : reps * depth ≠ 0) (hl : t.data.length ≠ 0)
    (hv : blockView t reps depth = .ok v) (hvn : v.1 * v.2.2 = n)
    (htot : t.F * t.C * (t.H * t.W) = reps * depth * n) (P : ℕ → Prop)
    (hP : ∀ i < n, ((∀ x ∈ blockEntries t v (i / v.2.2) (i % v.2.2), x = 0) ↔ P i)) :
    sparsityBlocks t reps depth = .ok ((howMany n P : ℚ) / n) := by
  have h := structSparsity_eq n hn (fun i => blockEntries t v (i / v.2.2) (i % v.2.2)) P hP
  unfold sparsityBlocks
  rw [if_neg (by tauto), hv]
  show Except.ok _ = _
  unfold structSparsity at h
  rw [if_neg (by omega)] at h
  rw [← h]
  have e : ((t.F * t.C * (t.H * t.W) : ℕ) : ℚ) / ((reps * depth : ℕ) : ℚ) = n := by
    have h1 : ((reps * depth : ℕ) : ℚ) ≠ 0 := by exact_mod_cast h0
    rw [htot, Nat.cast_mul, mul_div_cancel_left₀ _ h1]
  rw [e, blockMags_eq, hvn]
  simp [l1Norm]

theorem mem_superBlock_zero (t : T4) (ht : t.WF) (reps depth bf bc h w : ℕ) (hr : 0 < reps) (hd : 0 < depth)
    (hf : (bf + 1) * reps ≤ t.F) (hc : (bc + 1) * depth ≤ t.C) (hh : h < t.H) (hw : w < t.W) :
    (∀ x ∈ t.superBlock reps depth (bf * reps) (bc * depth) h w, x = 0) ↔ t.ZeroSuperBlock reps depth bf bc h w := by
  unfold T4.superBlock T4.ZeroSuperBlock
  rw [Nat.mul_div_cancel _ hr, Nat.mul_div_cancel _ hd]
  constructor
  · intro H f hfl c hcl e1 e2
    have hlt : ((f * t.C + c) * t.H + h) * t.W + w < t.data.length := by
      rw [ht]
      have a1 : f * t.C + c < t.F * t.C := by
        calc f * t.C + c < f * t.C + t.C := by omega
          _ = (f + 1) * t.C := by ring
          _ ≤ _ := Nat.mul_le_mul_right _ hfl
      have a2 : (f * t.C + c) * t.H + h < t.F * t.C * t.H := by
        calc (f * t.C + c) * t.H + h < (f * t.C + c) * t.H + t.H := by omega
          _ = (f * t.C + c + 1) * t.H := by ring
          _ ≤ _ := Nat.mul_le_mul_right _ a1
      calc ((f * t.C + c) * t.H + h) * t.W + w < ((f * t.C + c) * t.H + h) * t.W + t.W := by omega
        _ = ((f * t.C + c) * t.H + h + 1) * t.W := by ring
        _ ≤ _ := Nat.mul_le_mul_right _ a2
    have hat : t.at f c h w = some (t.data[((f * t.C + c) * t.H + h) * t.W + w]'hlt) := by
      unfold T4.at; exact List.getElem?_eq_getElem hlt
    rw [hat]
    congr 1
    apply H
    rw [List.mem_filterMap]
    refine ⟨(f % reps) * depth + c % depth, ?_, ?_⟩
    · rw [List.mem_range]
      have b1 := Nat.mod_lt f hr
      have b2 := Nat.mod_lt c hd
      calc (f % reps) * depth + c % depth < (f % reps) * depth + depth := by omega
        _ = (f % reps + 1) * depth := by ring
        _ ≤ _ := Nat.mul_le_mul_right _ b1
    · rw [← hat]
      have b2 := Nat.mod_lt c hd
      have d1 : ((f % reps) * depth + c % depth) / depth = f % reps := by
        rw [Nat.mul_comm, Nat.mul_add_div hd, Nat.div_eq_of_lt b2, Nat.add_zero]
      have d2 : ((f % reps) * depth + c % depth) % depth = c % depth := by
        rw [Nat.mul_comm, Nat.mul_add_mod, Nat.mod_eq_of_lt b2]
      rw [d1, d2, ← e1, ← e2, Nat.div_add_mod', Nat.div_add_mod']
  · intro H x hx
    rw [List.mem_filterMap] at hx
    obtain ⟨j, hj, e⟩ := hx
    rw [List.mem_range] at hj
    have b1 : j / depth < reps := (Nat.div_lt_iff_lt_mul hd).2 hj
    have b2 := Nat.mod_lt j hd
    have f1 : bf * reps + j / depth < t.F := by
      calc bf * reps + j / depth < bf * reps + reps := by omega
        _ = (bf + 1) * reps := by ring
        _ ≤ _ := hf
    have c1 : bc * depth + j % depth < t.C := by
      calc bc * depth + j % depth < bc * depth + depth := by omega
        _ = (bc + 1) * depth := by ring
        _ ≤ _ := hc
    have := H _ f1 _ c1 (by rw [Nat.mul_comm, Nat.mul_add_div hr, Nat.div_eq_of_lt b1, Nat.add_zero])
      (by rw [Nat.mul_comm, Nat.mul_add_div hd, Nat.div_eq_of_lt b2, Nat.add_zero])
    rw [this] at e
    injection e with e
    exact e.symm

/-- **C60** (blocks; partial: block shapes for which the implementation's view is the documented one –
one repetition, depth one, or depth equal to the number of channels – see the violation below)
`sparsity_blocks` reports the fraction of documented super-blocks, enumerated by `i`, all of whose weights are zero. -/
theorem C60_sparsity_blocks_partial (t : T4) (ht : t.WF) (reps depth : ℕ) (hg : GoodShape t reps depth)
    (hpos : 0 < t.F * t.C * (t.H * t.W)) :
    let C' := t.C / depth
    let A := t.H * t.W
    let n := t.F / reps * C' * A
    sparsityBlocks t reps depth = .ok ((howMany n fun i =>
      t.ZeroSuperBlock reps depth (i / (C' * A)) (i / A % C') (i % A / t.W) (i % A % t.W) : ℚ) / n) := by
  intro C' A n
  obtain ⟨hr, ⟨F', hF⟩, hd, ⟨C1, hC⟩, hcase⟩ := hg
  have eF : t.F / reps = F' := by rw [hF]; exact Nat.mul_div_cancel_left _ hr
  have eC : C' = C1 := by show t.C / depth = C1; rw [hC]; exact Nat.mul_div_cancel_left _ hd
  have hA : 0 < A := Nat.pos_of_ne_zero (by rintro e; change t.H * t.W = 0 at e; simp [e] at hpos)
  have hW : 0 < t.W := Nat.pos_of_ne_zero (by rintro e; simp [e] at hpos)
  have hH : 0 < t.H := Nat.pos_of_ne_zero (by rintro e; simp [e] at hpos)
  have hFpos : 0 < t.F := Nat.pos_of_ne_zero (by rintro e; simp [e] at hpos)
  have hCpos : 0 < t.C := Nat.pos_of_ne_zero (by rintro e; simp [e] at hpos)
  have hF' : 0 < F' := Nat.pos_of_ne_zero (by rintro e; simp [e] at hF; omega)
  have hC' : 0 < C' := Nat.pos_of_ne_zero (by rw [eC]; rintro e; simp [e] at hC; omega)
  have en : n = F' * C' * A := by show t.F / reps * C' * A = _; rw [eF]
  have hn : 0 < n := by rw [en]; positivity
  have htot : t.F * t.C * (t.H * t.W) = reps * depth * n := by
    rw [en, eC]; show _ = reps * depth * (F' * C1 * (t.H * t.W)); rw [hF, hC]; ring
  have h0 : reps * depth ≠ 0 := (Nat.mul_pos hr hd).ne'
  have hl : t.data.length ≠ 0 := by rw [ht, Nat.mul_assoc]; exact hpos.ne'
  -- the block with index `i`
  have hidx : ∀ i < n, i / (C' * A) < F' ∧ i / A % C' < C' ∧ i % A / t.W < t.H ∧ i % A % t.W < t.W ∧
      i / A = i / (C' * A) * C' + i / A % C' ∧ i % A = i % A / t.W * t.W + i % A % t.W := by
    intro i hi
    refine ⟨?_, Nat.mod_lt _ hC', ?_, Nat.mod_lt _ hW, ?_, ?_⟩
    · rw [Nat.div_lt_iff_lt_mul (Nat.mul_pos hC' hA)]
      calc i < n := hi
        _ = _ := by rw [en]; ring
    · rw [Nat.div_lt_iff_lt_mul hW]; exact Nat.mod_lt _ hA
    · rw [Nat.mul_comm C' A, ← Nat.div_div_eq_div_mul i A C', Nat.div_add_mod']
    · rw [Nat.div_add_mod']
  have hzero : ∀ i < n, ((∀ x ∈ t.superBlock reps depth (i / (C' * A) * reps) (i / A % C' * depth)
      (i % A / t.W) (i % A % t.W), x = 0) ↔
      t.ZeroSuperBlock reps depth (i / (C' * A)) (i / A % C') (i % A / t.W) (i % A % t.W)) := by
    intro i hi
    obtain ⟨i1, i2, i3, i4, -, -⟩ := hidx i hi
    apply mem_superBlock_zero t ht _ _ _ _ _ _ hr hd _ _ i3 i4
    · rw [hF, Nat.mul_comm]; exact Nat.mul_le_mul_left _ i1
    · rw [hC, Nat.mul_comm, ← eC]; exact Nat.mul_le_mul_left _ i2
  by_cases hd1 : 1 < depth
  · have hnv : t.F * t.C / (reps * depth) = F' * C' := by
      rw [hF, hC, eC, show reps * F' * (depth * C1) = reps * depth * (F' * C1) by ring]
      exact Nat.mul_div_cancel_left _ (Nat.mul_pos hr hd)
    have hv : blockView t reps depth = .ok (F' * C', reps * depth, A) := by
      unfold blockView
      simp only [hd1, if_true, hnv]
      rw [if_pos]
      rw [htot, en]; ring
    apply blockSparsity_general t reps depth _ n hn h0 hl hv en.symm htot
    intro i hi
    rw [← hzero i hi]
    suffices e : blockEntries t (F' * C', reps * depth, A) (i / A) (i % A) =
        t.superBlock reps depth (i / (C' * A) * reps) (i / A % C' * depth) (i % A / t.W) (i % A % t.W) by
      show (∀ x ∈ blockEntries t (F' * C', reps * depth, A) (i / A) (i % A), x = 0) ↔ _
      rw [e]
    obtain ⟨i1, i2, i3, i4, i5, i6⟩ := hidx i hi
    unfold blockEntries T4.superBlock T4.at
    rw [Nat.mul_div_cancel _ hr, Nat.mul_div_cancel _ hd]
    apply List.filterMap_congr
    intro j hj
    rw [List.mem_range] at hj
    congr 1
    show ((i / A) * (reps * depth) + j) * (t.H * t.W) + i % A = _
    generalize i % A / t.W = h at *
    generalize i % A % t.W = w at *
    generalize i / (C' * A) = bf at *
    generalize hbc : i / A % C' = bc at *
    rw [i5, i6]
    rcases hcase with h1 | h1 | h1
    · subst h1
      change j < 1 * depth at hj
      rw [one_mul] at hj
      rw [Nat.div_eq_of_lt hj, Nat.mod_eq_of_lt hj, hC, eC]; ring
    · omega
    · have hC1 : C' = 1 := by
        have : depth * C1 = depth * 1 := by rw [mul_one, ← hC, h1]
        rw [eC]; exact Nat.eq_of_mul_eq_mul_left hd this
      have hb0 : bc = 0 := by omega
      rw [hb0, hC1, ← h1]
      have := Nat.div_add_mod j depth
      calc ((bf * 1 + 0) * (reps * depth) + j) * (t.H * t.W) + (h * t.W + w)
          = (bf * (reps * depth) + (depth * (j / depth) + j % depth)) * (t.H * t.W) + (h * t.W + w) := by
            rw [this]; ring
        _ = _ := by ring
  · have hd2 : depth = 1 := by omega
    subst hd2
    have hC2 : C' = t.C := by show t.C / 1 = t.C; exact Nat.div_one _
    have hne : F' * reps ≠ 0 := by rw [Nat.mul_comm, ← hF]; omega
    have htot2 : t.F * t.C * (t.H * t.W) = F' * reps * (t.C * (t.H * t.W)) := by rw [hF]; ring
    have hv : blockView t reps 1 = .ok (F', reps, t.C * A) := by
      unfold blockView
      simp only [hd1, if_false, eF, htot2]
      rw [if_pos ⟨hne, Nat.mul_mod_right _ _⟩, Nat.mul_div_cancel_left _ (Nat.pos_of_ne_zero hne)]
    apply blockSparsity_general t reps 1 _ n hn h0 hl hv (by rw [en, hC2]; ring) htot
    intro i hi
    rw [← hzero i hi]
    suffices e : blockEntries t (F', reps, t.C * A) (i / (t.C * A)) (i % (t.C * A)) =
        t.superBlock reps 1 (i / (C' * A) * reps) (i / A % C' * 1) (i % A / t.W) (i % A % t.W) by
      show (∀ x ∈ blockEntries t (F', reps, t.C * A) (i / (t.C * A)) (i % (t.C * A)), x = 0) ↔ _
      rw [e]
    obtain ⟨i1, i2, i3, i4, i5, i6⟩ := hidx i hi
    have i7 : i % (t.C * A) = i / A % C' * A + i % A := by
      rw [hC2, Nat.mul_comm t.C A, Nat.mod_mul]; ring
    unfold blockEntries T4.superBlock T4.at
    rw [Nat.mul_div_cancel _ hr]
    simp only [mul_one]
    apply List.filterMap_congr
    intro j hj
    rw [List.mem_range] at hj
    congr 1
    show (i / (t.C * A) * reps + j) * (t.C * A) + i % (t.C * A) = _
    simp only [Nat.div_one, Nat.mod_one, Nat.add_zero]
    rw [i7, hC2]
    generalize i / (t.C * A) = bf at *
    generalize i / A % t.C = bc at *
    rw [show bc * A + i % A = bc * A + (i % A / t.W * t.W + i % A % t.W) by rw [← i6]]
    show (bf * reps + j) * (t.C * (t.H * t.W)) + (bc * (t.H * t.W) + _) = _
    ring

/-- Non-vacuity: one of the two blocks of two filters, and one of four blocks of two channels, is zero. -/
example : GoodShape ⟨4, 1, 1, 1, [0, 0, 0, 3]⟩ 2 1 ∧ sparsityBlocks ⟨4, 1, 1, 1, [0, 0, 0, 3]⟩ 2 1 = .ok (1/2) ∧
    GoodShape ⟨2, 2, 1, 2, [0, 1, 0, 0, 2, 0, 0, 3]⟩ 1 2 ∧
    sparsityBlocks ⟨2, 2, 1, 2, [0, 1, 0, 0, 2, 0, 0, 3]⟩ 1 2 = .ok (1/4) := by
  refine ⟨⟨by decide, by decide, by decide, by decide, by decide⟩, by decide +kernel,
    ⟨by decide, by decide, by decide, by decide, by decide⟩, by decide +kernel⟩

/-- **C60** is violated for `block_shape = [2, 2, 1, 1]`: one of the two documented blocks is zero, but the
reported block sparsity is 0. -/
theorem C60_violated_sparsity_blocks : ∃ t : T4, t.WF ∧ 2 ∣ t.F ∧ 2 ∣ t.C ∧ 0 < t.F * t.C * (t.H * t.W) ∧
    t.ZeroSuperBlock 2 2 0 0 0 0 ∧ ¬ t.ZeroSuperBlock 2 2 0 1 0 0 ∧ sparsityBlocks t 2 2 = .ok 0 := by
  refine ⟨⟨2, 4, 1, 1, [0, 0, 1, 1, 0, 0, 1, 1]⟩, by decide, by decide, by decide, by decide, ?_, ?_, by decide +kernel⟩
  · intro f hf c hc e1 e2
    have hf : f < 2 := hf
    have hc : c < 4 := hc
    have : c < 2 := by omega
    interval_cases f <;> interval_cases c <;> decide +kernel
  · intro H
    have := H 0 (by decide) 2 (by decide) rfl rfl
    exact absurd this (by decide +kernel)

end Verif
