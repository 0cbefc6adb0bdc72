import Verif.Props.Metrics
/-!
# C60: block pruning
-/
namespace Verif

theorem range_mul_map {α : Type} (n w : ℕ) (g : ℕ → ℕ → α) :
    (List.range n).flatMap (fun b => (List.range w).map fun k => g b k)
      = (List.range (n * w)).map fun i => g (i / w) (i % w) := by
  rcases Nat.eq_zero_or_pos w with rfl | hw
  · simp
  induction n with
  | zero => simp
  | succ n ih =>
    rw [List.range_succ, List.flatMap_append, ih, Nat.succ_mul, List.range_add, List.map_append]
    congr 1
    simp only [List.flatMap_cons, List.flatMap_nil, List.append_nil, List.map_map]
    apply List.map_congr_left
    intro k hk
    rw [List.mem_range] at hk
    have h1 : (n * w + k) / w = n := by
      rw [Nat.mul_comm, Nat.mul_add_div hw, Nat.div_eq_of_lt hk, Nat.add_zero]
    have h2 : (n * w + k) % w = k := by
      rw [Nat.mul_comm, Nat.mul_add_mod, Nat.mod_eq_of_lt hk]
    simp [h1, h2]

theorem blockMags_eq (t : T4) (v : ℕ × ℕ × ℕ) (nf : NormFn) :
    blockMags t v nf = (List.range (v.1 * v.2.2)).map fun i => nf (blockEntries t v (i / v.2.2) (i % v.2.2)) / 1 := by
  unfold blockMags
  rw [range_mul_map v.1 v.2.2 (fun b k => nf (blockEntries t v b k))]
  simp

theorem getElem?_blockMask (v : ℕ × ℕ × ℕ) (bm : List ℚ) (hl : bm.length = v.1 * v.2.2)
    {b j k : ℕ} (hb : b < v.1) (hj : j < v.2.1) (hk : k < v.2.2) :
    (blockMask v bm)[(b * v.2.1 + j) * v.2.2 + k]? = bm[b * v.2.2 + k]? := by
  have hch : ∀ i < v.1, (chunk v.2.2 i bm).length = v.2.2 := by
    intro i hi; apply length_chunk; rw [hl]; exact Nat.mul_le_mul_right _ hi
  have hlen : ∀ i < v.1, (repeatAll v.2.1 (chunk v.2.2 i bm)).length = v.2.1 * v.2.2 := by
    intro i hi; rw [length_repeatAll, hch i hi]
  have h := chunk_flatMap_range v.1 (v.2.1 * v.2.2) b (fun i => repeatAll v.2.1 (chunk v.2.2 i bm)) hlen hb
  have hjk : j * v.2.2 + k < v.2.1 * v.2.2 := by
    calc j * v.2.2 + k < j * v.2.2 + v.2.2 := by omega
      _ = (j + 1) * v.2.2 := by ring
      _ ≤ _ := Nat.mul_le_mul_right _ hj
  have e : (b * v.2.1 + j) * v.2.2 + k = b * (v.2.1 * v.2.2) + (j * v.2.2 + k) := by ring
  rw [e, ← getElem?_chunk (v.2.1 * v.2.2) b _ _ hjk]
  unfold blockMask
  rw [h]
  have h2 := getElem?_repeatAll v.2.1 j k (chunk v.2.2 b bm) hj (by rw [hch b hb]; exact hk)
  rw [hch b hb] at h2
  rw [h2, getElem?_chunk _ _ _ _ hk]

/-- Specification: the weights of the documented super-block `[reps, depth, 1, 1]` that contains
position `(f, c, h, w)`: `reps` consecutive filters, `depth` consecutive channels, one spatial position. -/
def T4.superBlock (t : T4) (reps depth f c h w : ℕ) : Tensor :=
  (List.range (reps * depth)).filterMap fun j =>
    t.at (f / reps * reps + j / depth) (c / depth * depth + j % depth) h w

/-- Specification: two positions lie in the same documented super-block. -/
def SameBlock (reps depth f c h w f' c' h' w' : ℕ) : Prop :=
  f / reps = f' / reps ∧ c / depth = c' / depth ∧ h = h' ∧ w = w'

/-- The shapes for which the implementation's view coincides with the documented blocks. -/
def GoodShape (t : T4) (reps depth : ℕ) : Prop :=
  0 < reps ∧ reps ∣ t.F ∧ 0 < depth ∧ depth ∣ t.C ∧ (reps = 1 ∨ depth = 1 ∨ depth = t.C)

/-- Position of an entry in the block view. -/
theorem blockView_addr (t : T4) (reps depth : ℕ) (hg : GoodShape t reps depth)
    (hpos : 0 < t.F * t.C * (t.H * t.W)) :
    ∃ v, blockView t reps depth = .ok v ∧ ∀ f < t.F, ∀ c < t.C, ∀ h < t.H, ∀ w < t.W,
      ∃ b j k, b < v.1 ∧ j < v.2.1 ∧ k < v.2.2 ∧
        ((f * t.C + c) * t.H + h) * t.W + w = (b * v.2.1 + j) * v.2.2 + k ∧
        (∀ f' < t.F, ∀ c' < t.C, SameBlock reps depth f c h w f' c' h w →
          ∃ j', j' < v.2.1 ∧ ((f' * t.C + c') * t.H + h) * t.W + w = (b * v.2.1 + j') * v.2.2 + k) ∧
        blockEntries t v b k = t.superBlock reps depth f c h w := by
  obtain ⟨hr, ⟨F', hF⟩, hd, ⟨C', hC⟩, hcase⟩ := hg
  have hHW : 0 < t.H * t.W := Nat.pos_of_ne_zero (by rintro e; simp [e] at hpos)
  have hFpos : 0 < t.F := Nat.pos_of_ne_zero (by rintro e; simp [e] at hpos)
  have hCpos : 0 < t.C := Nat.pos_of_ne_zero (by rintro e; simp [e] at hpos)
  have hhw : ∀ h < t.H, ∀ w < t.W, h * t.W + w < t.H * t.W := by
    intro h hh w hw
    calc h * t.W + w < h * t.W + t.W := by omega
      _ = (h + 1) * t.W := by ring
      _ ≤ _ := Nat.mul_le_mul_right _ hh
  by_cases hd1 : 1 < depth
  · -- view (F*C/(reps*depth), reps*depth, H*W)
    have hn : t.F * t.C / (reps * depth) = F' * C' := by
      rw [hF, hC, show reps * F' * (depth * C') = reps * depth * (F' * C') by ring]
      exact Nat.mul_div_cancel_left _ (Nat.mul_pos hr hd)
    refine ⟨(F' * C', reps * depth, t.H * t.W), ?_, ?_⟩
    · unfold blockView
      simp only [hd1, if_true, hn]
      rw [if_pos]
      rw [show t.F * t.C = reps * F' * (depth * C') by rw [← hF, ← hC]]
      ring
    · intro f hf c hc h hh w hw
      -- block row index of any (f, c)
      have hrow : ∀ f < t.F, ∀ c < t.C, ∃ j < reps * depth,
          f * t.C + c = ((f / reps) * C' + c / depth) * (reps * depth) + j ∧ (f / reps) * C' + c / depth < F' * C' := by
        intro f hf c hc
        have hcd : c / depth < C' := by
          rw [Nat.div_lt_iff_lt_mul hd]; rw [hC] at hc; rwa [Nat.mul_comm] at hc
        have hfr : f / reps < F' := by
          rw [Nat.div_lt_iff_lt_mul hr]; rw [hF] at hf; rwa [Nat.mul_comm] at hf
        have hlt : (f / reps) * C' + c / depth < F' * C' := by
          calc (f / reps) * C' + c / depth < (f / reps) * C' + C' := by omega
            _ = (f / reps + 1) * C' := by ring
            _ ≤ _ := Nat.mul_le_mul_right _ hfr
        rcases hcase with h1 | h1 | h1
        · subst h1
          refine ⟨c % depth, by rw [one_mul]; exact Nat.mod_lt _ hd, ?_, hlt⟩
          have := Nat.div_add_mod c depth
          rw [Nat.div_one, hC, one_mul, Nat.add_mul]
          calc f * (depth * C') + c = f * (depth * C') + (depth * (c / depth) + c % depth) := by rw [this]
            _ = _ := by ring
        · omega
        · have hC1 : C' = 1 := by
            have : depth * C' = depth * 1 := by rw [mul_one, ← hC, h1]
            exact Nat.eq_of_mul_eq_mul_left hd this
          have hc0 : c / depth = 0 := Nat.div_eq_of_lt (by rw [h1]; exact hc)
          refine ⟨(f % reps) * depth + c, ?_, ?_, hlt⟩
          · have := Nat.mod_lt f hr
            calc (f % reps) * depth + c < (f % reps) * depth + depth := by rw [h1]; omega
              _ = (f % reps + 1) * depth := by ring
              _ ≤ _ := Nat.mul_le_mul_right _ this
          · rw [hc0, hC1, ← h1]
            have := Nat.div_add_mod f reps
            calc f * depth + c = (reps * (f / reps) + f % reps) * depth + c := by rw [this]
              _ = _ := by ring
      obtain ⟨j, hj, e, hlt⟩ := hrow f hf c hc
      refine ⟨(f / reps) * C' + c / depth, j, h * t.W + w, hlt, hj, hhw h hh w hw, ?_, ?_, ?_⟩
      · show _ = (((f / reps) * C' + c / depth) * (reps * depth) + j) * (t.H * t.W) + (h * t.W + w)
        rw [← e]; ring
      · intro f' hf' c' hc' ⟨s1, s2, _, _⟩
        obtain ⟨j', hj', e', _⟩ := hrow f' hf' c' hc'
        refine ⟨j', hj', ?_⟩
        show _ = (((f / reps) * C' + c / depth) * (reps * depth) + j') * (t.H * t.W) + (h * t.W + w)
        rw [s1, s2, ← e']; ring
      · unfold blockEntries T4.superBlock T4.at
        apply List.filterMap_congr
        intro i hi
        rw [List.mem_range] at hi
        congr 1
        show (((f / reps) * C' + c / depth) * (reps * depth) + i) * (t.H * t.W) + (h * t.W + w) = _
        rcases hcase with h1 | h1 | h1
        · subst h1
          rw [one_mul] at hi
          rw [Nat.div_eq_of_lt hi, Nat.mod_eq_of_lt hi, Nat.div_one, hC]; ring
        · omega
        · have hC1 : C' = 1 := by
            have : depth * C' = depth * 1 := by rw [mul_one, ← hC, h1]
            exact Nat.eq_of_mul_eq_mul_left hd this
          have hc0 : c / depth = 0 := Nat.div_eq_of_lt (by rw [h1]; exact hc)
          rw [hc0, hC1, ← h1]
          have := Nat.div_add_mod i depth
          calc ((f / reps * 1 + 0) * (reps * depth) + i) * (t.H * t.W) + (h * t.W + w)
              = ((f / reps) * (reps * depth) + (depth * (i / depth) + i % depth)) * (t.H * t.W) + (h * t.W + w) := by
                rw [this]; ring
            _ = _ := by ring
  · have hd2 : depth = 1 := by omega
    subst hd2
    have hn : t.F / reps = F' := by rw [hF]; exact Nat.mul_div_cancel_left _ hr
    have htot : t.F * t.C * (t.H * t.W) = F' * reps * (t.C * (t.H * t.W)) := by rw [hF]; ring
    have hne : F' * reps ≠ 0 := by rw [Nat.mul_comm, ← hF]; omega
    refine ⟨(F', reps, t.C * (t.H * t.W)), ?_, ?_⟩
    · unfold blockView
      simp only [hd1, if_false, hn, htot]
      rw [if_pos ⟨hne, Nat.mul_mod_right _ _⟩, Nat.mul_div_cancel_left _ (Nat.pos_of_ne_zero hne)]
    · intro f hf c hc h hh w hw
      have hk : c * (t.H * t.W) + (h * t.W + w) < t.C * (t.H * t.W) := by
        have := hhw h hh w hw
        calc c * (t.H * t.W) + (h * t.W + w) < c * (t.H * t.W) + t.H * t.W := by omega
          _ = (c + 1) * (t.H * t.W) := by ring
          _ ≤ _ := Nat.mul_le_mul_right _ hc
      have hfr : f / reps < F' := by
        rw [Nat.div_lt_iff_lt_mul hr]; rw [hF] at hf; rwa [Nat.mul_comm] at hf
      refine ⟨f / reps, f % reps, c * (t.H * t.W) + (h * t.W + w), hfr, Nat.mod_lt _ hr, hk, ?_, ?_, ?_⟩
      · have := Nat.div_add_mod f reps
        show _ = (f / reps * reps + f % reps) * (t.C * (t.H * t.W)) + (c * (t.H * t.W) + (h * t.W + w))
        rw [Nat.mul_comm (f / reps), this]; ring
      · intro f' hf' c' hc' ⟨s1, s2, _, _⟩
        rw [Nat.div_one, Nat.div_one] at s2
        refine ⟨f' % reps, Nat.mod_lt _ hr, ?_⟩
        have := Nat.div_add_mod f' reps
        show _ = (f / reps * reps + f' % reps) * (t.C * (t.H * t.W)) + (c * (t.H * t.W) + (h * t.W + w))
        rw [s1, Nat.mul_comm (f' / reps), this, s2]; ring
      · unfold blockEntries T4.superBlock T4.at
        simp only [mul_one]
        apply List.filterMap_congr
        intro i hi
        congr 1
        show (f / reps * reps + i) * (t.C * (t.H * t.W)) + (c * (t.H * t.W) + (h * t.W + w)) = _
        simp only [Nat.div_one, Nat.mod_one]; ring

/-- **C60** (partial: block shapes with one repetition, depth one, or depth equal to the number of
channels, dividing the tensor; see the violations below for the others) Block pruning sets every
mask entry to 0 or 1; all weights of one documented super-block get the same value; a removed
block has a smaller norm than every kept block; at least `int(fraction * number of blocks)` blocks
are removed. -/
theorem C60_blocks_partial (t : T4) (reps depth : ℕ) (hg : GoodShape t reps depth)
    (hpos : 0 < t.F * t.C * (t.H * t.W)) (nf : NormFn) (fraction : ℚ) (bm : List ℚ) (m : Tensor)
    (h : rankAndPruneBlocks fraction t reps depth nf = .ok ⟨some bm, some m⟩) :
    let mask : T4 := ⟨t.F, t.C, t.H, t.W, m⟩
    pyInt (fraction * bm.length) ≤ bm.count 0 ∧
    ∀ f < t.F, ∀ c < t.C, ∀ h < t.H, ∀ w < t.W,
      (mask.at f c h w = some 0 ∨ mask.at f c h w = some 1) ∧
      (∀ f' < t.F, ∀ c' < t.C, SameBlock reps depth f c h w f' c' h w → mask.at f' c' h w = mask.at f c h w) ∧
      (∀ f' < t.F, ∀ c' < t.C, ∀ h' < t.H, ∀ w' < t.W, mask.at f c h w = some 0 → mask.at f' c' h' w' = some 1 →
        nf (t.superBlock reps depth f c h w) < nf (t.superBlock reps depth f' c' h' w')) := by
  intro mask
  obtain ⟨v, hv, haddr⟩ := blockView_addr t reps depth hg hpos
  unfold rankAndPruneBlocks at h
  by_cases h0 : reps * depth = 0
  · rw [if_pos h0] at h; cases h
  rw [if_neg h0] at h
  by_cases h1 : t.F * t.C * (t.H * t.W) % (reps * depth) ≠ 0
  · rw [if_pos h1] at h; cases h
  rw [if_neg h1] at h
  rw [hv] at h
  obtain ⟨v', e, h⟩ := ok_bind h
  injection e with e; subst e
  by_cases hk : pyInt (fraction * ((blockMags t v nf).length : ℚ)) = 0
  · simp only [hk, if_true] at h; injection h with h; injection h with h _; cases h
  simp only [hk, if_false] at h
  obtain ⟨bot, hbot, h⟩ := ok_bind h
  obtain ⟨bm', hbm, h⟩ := ok_bind h
  cases bm' with
  | none => injection h with h; injection h with h _; cases h
  | some bm' =>
    injection h with h
    injection h with ha hb
    injection ha with ha; injection hb with hb
    subst ha; subst hb
    rw [blockMags_eq] at hbot hbm
    have R := removesLowest_of_mags (one_pos) hbot hbm
    have hat : ∀ f < t.F, ∀ c < t.C, ∀ h < t.H, ∀ w < t.W, ∃ i, mask.at f c h w = bm'[i]? ∧ i < bm'.length ∧
        (∀ f' < t.F, ∀ c' < t.C, SameBlock reps depth f c h w f' c' h w → mask.at f' c' h w = bm'[i]?) ∧
        blockEntries t v (i / v.2.2) (i % v.2.2) = t.superBlock reps depth f c h w := by
      intro f hf c hc h hh w hw
      obtain ⟨b, j, k, hb, hj, hk, e, hs, hent⟩ := haddr f hf c hc h hh w hw
      have hvpos : 0 < v.2.2 := by omega
      refine ⟨b * v.2.2 + k, ?_, ?_, ?_, ?_⟩
      · show (blockMask v bm')[_]? = _
        rw [e]; exact getElem?_blockMask v bm' R.len hb hj hk
      · rw [R.len]
        calc b * v.2.2 + k < b * v.2.2 + v.2.2 := by omega
          _ = (b + 1) * v.2.2 := by ring
          _ ≤ _ := Nat.mul_le_mul_right _ hb
      · intro f' hf' c' hc' hsame
        obtain ⟨j', hj', e'⟩ := hs f' hf' c' hc' hsame
        show (blockMask v bm')[_]? = _
        rw [e']; exact getElem?_blockMask v bm' R.len hb hj' hk
      · have q1 : (b * v.2.2 + k) / v.2.2 = b := by
          rw [Nat.mul_comm, Nat.mul_add_div hvpos, Nat.div_eq_of_lt hk, Nat.add_zero]
        have q2 : (b * v.2.2 + k) % v.2.2 = k := by
          rw [Nat.mul_comm, Nat.mul_add_mod, Nat.mod_eq_of_lt hk]
        rw [q1, q2, hent]
    refine ⟨?_, ?_⟩
    · have := R.atLeast
      rw [List.length_map, List.length_range, ← R.len] at this
      exact this
    · intro f hf c hc h hh w hw
      obtain ⟨i, e, hi, hs, hent⟩ := hat f hf c hc h hh w hw
      refine ⟨?_, ?_, ?_⟩
      · rw [e, List.getElem?_eq_getElem hi]
        rcases R.bin _ (List.getElem_mem hi) with h' | h' <;> simp [h']
      · intro f' hf' c' hc' hsame
        rw [hs f' hf' c' hc' hsame, e]
      · intro f' hf' c' hc' h' hh' w' hw' m0 m1
        obtain ⟨i', e', hi', hs', hent'⟩ := hat f' hf' c' hc' h' hh' w' hw'
        rw [← hent, ← hent']
        exact R.lowest i i' (by rw [← e]; exact m0) (by rw [← e']; exact m1)

/-- Non-vacuity: shape `[1, 2, 1, 1]` on a `(2, 4, 1, 1)` tensor. -/
example : GoodShape ⟨2, 4, 1, 1, [1, 1, 5, -5, 0, 1, 3, 3]⟩ 1 2 ∧
    rankAndPruneBlocks (1/2) ⟨2, 4, 1, 1, [1, 1, 5, -5, 0, 1, 3, 3]⟩ 1 2 l1Norm
      = .ok ⟨some [0, 1, 0, 1], some [0, 0, 1, 1, 0, 0, 1, 1]⟩ := by
  refine ⟨⟨by decide, by decide, by decide, by decide, Or.inl rfl⟩, by decide +kernel⟩

/-- **C60** is violated for `block_shape = [2, 2, 1, 1]`: positions `(0, 0)` and `(1, 0)` of a
`(2, 4, 1, 1)` tensor are in one documented super-block, yet only the first is removed. -/
theorem C60_violated_repetitions_and_depth : ∃ (t : T4) (fraction : ℚ) (bm m : Tensor), t.WF ∧
    2 ∣ t.F ∧ 2 ∣ t.C ∧
    rankAndPruneBlocks fraction t 2 2 l1Norm = .ok ⟨some bm, some m⟩ ∧
    SameBlock 2 2 0 0 0 0 1 0 0 0 ∧
    (⟨t.F, t.C, t.H, t.W, m⟩ : T4).at 0 0 0 0 = some 0 ∧ (⟨t.F, t.C, t.H, t.W, m⟩ : T4).at 1 0 0 0 = some 1 :=
  ⟨⟨2, 4, 1, 1, [1, 1, 1, 1, 5, 5, 5, 5]⟩, 1/2, [0, 1], [0, 0, 0, 0, 1, 1, 1, 1], by decide, by decide, by decide,
    by decide +kernel, by unfold SameBlock; decide, by decide +kernel, by decide +kernel⟩

/-- **C60** is violated when the depth divides the tensor but not the channels: with
`block_shape = [1, 2, 1, 1]` and 3 channels a block straddles two filters: channel 2 of filter 0
and channel 0 of filter 1 are removed together, while channels 0 and 1 of filter 1 (one
documented block) are separated. -/
theorem C60_violated_depth_not_dividing_channels : ∃ (t : T4) (fraction : ℚ) (bm m : Tensor), t.WF ∧
    rankAndPruneBlocks fraction t 1 2 l1Norm = .ok ⟨some bm, some m⟩ ∧
    SameBlock 1 2 1 0 0 0 1 1 0 0 ∧
    (⟨t.F, t.C, t.H, t.W, m⟩ : T4).at 1 0 0 0 = some 0 ∧ (⟨t.F, t.C, t.H, t.W, m⟩ : T4).at 1 1 0 0 = some 1 :=
  ⟨⟨2, 3, 1, 1, [5, 5, 1, 1, 5, 5]⟩, 1/3, [1, 0, 1], [1, 1, 0, 0, 1, 1], by decide, by decide +kernel,
    by unfold SameBlock; decide, by decide +kernel, by decide +kernel⟩

end Verif
