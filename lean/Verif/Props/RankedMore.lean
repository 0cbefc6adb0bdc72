import Verif.Props.Structures
/-!
# C21, C22: matrices, single bits, and the level-pruning entry point
-/
namespace Verif

/-- **C22** (columns) The "channels" of a fully-connected layer are the columns of its weights: ranked pruning removes the columns of
lowest norm. -/
theorem C22_columns (t : T2) (hpos : 0 < t.C) (nf : NormFn) (fraction : ℚ) (r : ℚ → ℤ) :
    (0 ≤ numStructsToPrune t.C 1 fraction r → numStructsToPrune t.C 1 fraction r ≤ t.C →
      ∃ out, rankAndPruneChannels2 fraction t true none nf none 1 r = .ok out) ∧
    ∀ out, rankAndPruneChannels2 fraction t true none nf none 1 r = .ok out →
      (numStructsToPrune t.C 1 fraction r = 0 → out = ⟨none, none⟩) ∧
      (numStructsToPrune t.C 1 fraction r ≠ 0 → ∃ b m, out = ⟨some b, some m⟩ ∧
        RemovesLowest t.C (fun c => nf (t.col c)) (numStructsToPrune t.C 1 fraction r) b ∧
        expandCols t b = .ok m) := by
  have hd : (0 : ℚ) < (t.C : ℚ) := by exact_mod_cast hpos
  have hmags : colsNorm t nf 1 true = (List.range t.C).map fun c => nf (t.col c) / (t.C : ℚ) := by
    unfold colsNorm genericNorm
    simp [List.map_map, Function.comp_def]
  set k := numStructsToPrune t.C 1 fraction r with hk
  by_cases hk0 : k = 0
  · have e : rankAndPruneChannels2 fraction t true none nf none 1 r = .ok ⟨none, none⟩ := by
      unfold rankAndPruneChannels2 rankChannels2
      rw [← hk]; simp only [hk0, if_true]; rfl
    refine ⟨fun _ _ => ⟨_, e⟩, fun out h => ⟨fun _ => ?_, fun h' => absurd hk0 h'⟩⟩
    rw [e] at h; injection h with h; exact h.symm
  · have hcomp : ∀ bot b, bottomK ((List.range t.C).map fun f => nf (t.col f) / (t.C : ℚ)) k = .ok bot →
        mapFromRanking (some (bot, (List.range t.C).map fun f => nf (t.col f) / (t.C : ℚ))) = .ok (some b) →
        rankAndPruneChannels2 fraction t true none nf none 1 r = (do
          let m ← expandCols t b
          return ⟨some b, some m⟩) := by
      intro bot b h1 h2
      unfold rankAndPruneChannels2 rankChannels2 kSmallestElems
      rw [← hk]
      simp only [hk0, if_false, hmags]
      simp only [bind, Except.bind, h1, pure, Except.pure, h2, if_true]
    refine ⟨?_, ?_⟩
    · intro h0 h1
      obtain ⟨bot, b, e1, e2⟩ := ranking_total (k := k)
        (mags := (List.range t.C).map fun f => nf (t.col f) / (t.C : ℚ))
        (by omega) (by simpa using h1)
      have hl := (removesLowest_of_mags hd e1 e2).len
      obtain ⟨m, hm, _⟩ := (C21_rows_cols t b).2 hl
      refine ⟨⟨some b, some m⟩, ?_⟩
      rw [hcomp bot b e1 e2, hm]; rfl
    · intro out h
      refine ⟨fun h' => absurd h' hk0, fun _ => ?_⟩
      have h' := h
      unfold rankAndPruneChannels2 rankChannels2 kSmallestElems at h'
      rw [← hk] at h'
      simp only [hk0, if_false, hmags] at h'
      obtain ⟨bm, hbm, h'⟩ := ok_bind h'
      obtain ⟨rk, hrk, hbm⟩ := ok_bind hbm
      obtain ⟨res, hres, hrk⟩ := ok_bind hrk
      obtain ⟨bot, hbot, hres⟩ := ok_bind hres
      injection hres with hres
      injection hrk with hrk
      subst hres; subst hrk
      cases bm with
      | none => exact absurd hbm mapFromRanking_none
      | some b =>
        rw [hcomp bot b hbot hbm] at h
        obtain ⟨m, hm, h⟩ := ok_bind h
        injection h with h
        exact ⟨b, m, h.symm, removesLowest_of_mags hd hbot hbm, hm⟩

example : rankAndPruneChannels2 (1/2) ⟨2, 2, [1, 5, -2, 0]⟩ true none l1Norm none 1 Int.floor =
    .ok ⟨some [0, 1], some [0, 1, 0, 1]⟩ := by decide +kernel

theorem numStructs_floor (n : ℕ) (f : ℚ) (h0 : 0 ≤ f) (h1 : f < 1) (hn : 0 < n) : numStructsToPrune n 1 f Int.floor = ⌊f * n⌋ := by
  have hq : (0 : ℚ) < n := by exact_mod_cast hn
  have hlt : ⌊f * n⌋ < (n : ℤ) := Int.floor_lt.2 (by push_cast; nlinarith)
  unfold numStructsToPrune
  simp only [Nat.cast_one, div_one, Int.floor_intCast, mul_one]
  rw [if_neg (by intro h; omega)]

/-- **C22** (level pruning) Pruning the filters or the channels of a convolution by a level between zero and one: `⌊level · n⌋` of the
`n` structures are removed, those of lowest norm, and nothing happens if that number is zero. -/
theorem C22_level (t : T4) (ht : t.WF) (hF : 0 < t.F) (hC : 0 < t.C) (hH : 0 < t.H) (hW : 0 < t.W) (nf : NormFn) (level : ℚ)
    (h0 : 0 ≤ level) (h1 : level < 1) :
    (∃ out, lpPruneGroup .filters nf 1 level t true none = .ok out ∧
      (⌊level * t.F⌋ = 0 → out = ⟨none, none⟩) ∧
      (⌊level * t.F⌋ ≠ 0 → ∃ b m, out = ⟨some b, some m⟩ ∧ RemovesLowest t.F (fun f => nf (t.filterEntries f)) ⌊level * t.F⌋ b ∧
        expandFilters t b = .ok m)) ∧
    (∃ out, lpPruneGroup .channels nf 1 level t true none = .ok out ∧
      (⌊level * t.C⌋ = 0 → out = ⟨none, none⟩) ∧
      (⌊level * t.C⌋ ≠ 0 → ∃ b m, out = ⟨some b, some m⟩ ∧ RemovesLowest t.C (fun c => nf (t.channelEntries c)) ⌊level * t.C⌋ b ∧
        expandChannels t b = .ok m)) := by
  have key : ∀ n : ℕ, 0 < n → 0 ≤ ⌊level * n⌋ ∧ ⌊level * n⌋ ≤ (n : ℤ) := by
    intro n hn
    have hq : (0 : ℚ) < n := by exact_mod_cast hn
    constructor
    · exact Int.floor_nonneg.2 (by positivity)
    · have : ⌊level * n⌋ < (n : ℤ) := Int.floor_lt.2 (by push_cast; nlinarith)
      omega
  by_cases hl : level = 0
  · subst hl
    refine ⟨⟨⟨none, none⟩, by unfold lpPruneGroup; rw [if_pos rfl], fun _ => rfl, fun h => absurd (by simp) h⟩,
      ⟨⟨none, none⟩, by unfold lpPruneGroup; rw [if_pos rfl], fun _ => rfl, fun h => absurd (by simp) h⟩⟩
  · constructor
    · have e : lpPruneGroup .filters nf 1 level t true none = rankAndPruneFilters level t true none nf none 1 Int.floor := by
        unfold lpPruneGroup; rw [if_neg hl]
      obtain ⟨a, b⟩ := C22_filters t (by positivity) nf level Int.floor
      rw [numStructs_floor t.F level h0 h1 hF] at a b
      obtain ⟨out, ho⟩ := a (key t.F hF).1 (key t.F hF).2
      exact ⟨out, by rw [e, ho], b out ho⟩
    · have e : lpPruneGroup .channels nf 1 level t true none = rankAndPruneChannels level t true none nf none 1 Int.floor := by
        unfold lpPruneGroup; rw [if_neg hl]
      obtain ⟨a, b⟩ := C22_channels t ht (by positivity) nf level Int.floor
      rw [numStructs_floor t.C level h0 h1 hC] at a b
      obtain ⟨out, ho⟩ := a (key t.C hC).1 (key t.C hC).2
      exact ⟨out, by rw [e, ho], b out ho⟩

example : lpPruneGroup .filters l1Norm 1 (3/5) ⟨4, 1, 1, 2, [1, 1, 5, -5, 0, 1, 3, 3]⟩ true none =
    .ok ⟨some [0, 1, 0, 1], some [0, 0, 1, 1, 0, 0, 1, 1]⟩ := by decide +kernel

/-- **C22** (mask of a parameter) The mask of a parameter after level pruning without group dependency: the decision expanded to the shape
of the parameter, or the mask it had before if the level is too low to remove a structure. -/
theorem C22_mask (t : T4) (ht : t.WF) (hF : 0 < t.F) (hC : 0 < t.C) (hH : 0 < t.H) (hW : 0 < t.W) (nf : NormFn) (level : ℚ)
    (h0 : 0 ≤ level) (h1 : level < 1) (old : Option Tensor) :
    (∃ new, freeSetMask (lpPruneGroup .filters nf 1) level t old = .ok new ∧
      (⌊level * t.F⌋ = 0 → new = old) ∧
      (⌊level * t.F⌋ ≠ 0 → ∃ b m, new = some m ∧ RemovesLowest t.F (fun f => nf (t.filterEntries f)) ⌊level * t.F⌋ b ∧
        expandFilters t b = .ok m)) ∧
    (∃ new, freeSetMask (lpPruneGroup .channels nf 1) level t old = .ok new ∧
      (⌊level * t.C⌋ = 0 → new = old) ∧
      (⌊level * t.C⌋ ≠ 0 → ∃ b m, new = some m ∧ RemovesLowest t.C (fun c => nf (t.channelEntries c)) ⌊level * t.C⌋ b ∧
        expandChannels t b = .ok m)) := by
  obtain ⟨⟨o1, e1, a1, b1⟩, ⟨o2, e2, a2, b2⟩⟩ := C22_level t ht hF hC hH hW nf level h0 h1
  constructor
  · refine ⟨(match o1.mask with | some m => some m | none => old), ?_, ?_, ?_⟩
    · unfold freeSetMask; rw [e1]; rfl
    · intro h; rw [a1 h]
    · intro h
      obtain ⟨b, m, rfl, r, x⟩ := b1 h
      exact ⟨b, m, rfl, r, x⟩
  · refine ⟨(match o2.mask with | some m => some m | none => old), ?_, ?_, ?_⟩
    · unfold freeSetMask; rw [e2]; rfl
    · intro h; rw [a2 h]
    · intro h
      obtain ⟨b, m, rfl, r, x⟩ := b2 h
      exact ⟨b, m, rfl, r, x⟩

example : freeSetMask (lpPruneGroup .filters l1Norm 1) (1/10) ⟨4, 1, 1, 1, [1, 2, 3, 4]⟩ (some [0, 1, 1, 1]) = .ok (some [0, 1, 1, 1]) := by
  decide +kernel

/-- **C21** (a single bit) A decision of one bit is the decision for every structure: the mask has the parameter's size and carries that bit
everywhere. -/
theorem C21_single (t : T4) (s : T2) (x : ℚ) :
    (∃ m, expandFilters t [x] = .ok m ∧ m.length = t.F * t.C * t.H * t.W ∧ ∀ y ∈ m, y = x) ∧
    (∃ m, expandChannels t [x] = .ok m ∧ m.length = t.F * t.C * t.H * t.W ∧ ∀ y ∈ m, y = x) ∧
    (∃ m, expandKernels t [x] = .ok m ∧ m.length = t.F * t.C * t.H * t.W ∧ ∀ y ∈ m, y = x) ∧
    (∃ m, expandRows s [x] = .ok m ∧ m.length = s.R * s.C ∧ ∀ y ∈ m, y = x) ∧
    (∃ m, expandCols s [x] = .ok m ∧ m.length = s.R * s.C ∧ ∀ y ∈ m, y = x) := by
  have ex : ∀ n, ∃ b, expandTo n [x] = .ok b ∧ b.length = n ∧ ∀ y ∈ b, y = x := by
    intro n
    unfold expandTo
    by_cases h : [x].length = n
    · rw [if_pos h]; exact ⟨[x], rfl, h, by simp⟩
    · rw [if_neg h]; exact ⟨List.replicate n x, rfl, by simp, fun y hy => (List.mem_replicate.1 hy).2⟩
  have me : ∀ (n : ℕ) (b : List ℚ), (∀ y ∈ b, y = x) → ∀ y ∈ repeatEach n b, y = x := by
    intro n b hb y hy
    unfold repeatEach at hy
    rw [List.mem_flatMap] at hy
    obtain ⟨z, hz, hy⟩ := hy
    rw [(List.mem_replicate.1 hy).2]; exact hb z hz
  have ma : ∀ (n : ℕ) (b : List ℚ), (∀ y ∈ b, y = x) → ∀ y ∈ repeatAll n b, y = x := by
    intro n b hb y hy
    unfold repeatAll at hy
    simp only [List.mem_flatten, List.mem_replicate] at hy
    obtain ⟨l, ⟨-, rfl⟩, hy⟩ := hy
    exact hb y hy
  refine ⟨?_, ?_, ?_, ?_, ?_⟩
  · obtain ⟨b, h1, h2, h3⟩ := ex t.F
    refine ⟨repeatEach (t.C * t.H * t.W) b, ?_, ?_, me _ _ h3⟩
    · unfold expandFilters; rw [h1]; rfl
    · rw [length_repeatEach, h2]; ring
  · obtain ⟨b, h1, h2, h3⟩ := ex t.C
    refine ⟨repeatEach (t.H * t.W) (repeatAll t.F b), ?_, ?_, me _ _ (ma _ _ h3)⟩
    · unfold expandChannels; rw [h1]; rfl
    · rw [length_repeatEach, length_repeatAll, h2]; ring
  · obtain ⟨b, h1, h2, h3⟩ := ex (t.F * t.C)
    refine ⟨repeatEach (t.H * t.W) b, ?_, ?_, me _ _ h3⟩
    · unfold expandKernels; rw [h1]; rfl
    · rw [length_repeatEach, h2]; ring
  · obtain ⟨b, h1, h2, h3⟩ := ex s.R
    refine ⟨repeatEach s.C b, ?_, ?_, me _ _ h3⟩
    · unfold expandRows; rw [h1]; rfl
    · rw [length_repeatEach, h2]
  · obtain ⟨b, h1, h2, h3⟩ := ex s.C
    refine ⟨repeatAll s.R b, ?_, ?_, ma _ _ h3⟩
    · unfold expandCols; rw [h1]; rfl
    · rw [length_repeatAll, h2]

example : expandFilters ⟨2, 1, 1, 2, []⟩ [0] = .ok [0, 0, 0, 0] := by decide +kernel

end Verif
