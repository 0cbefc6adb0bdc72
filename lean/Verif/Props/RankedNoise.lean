import Verif.Props.Structures
/-!
# C22: ranking with epsilon-greedy noise
-/
namespace Verif

theorem noisy_mags {n : ℕ} (mag : ℕ → ℚ) (d : ℚ) (v : List ℚ) (hv : v.length = n) :
    List.zipWith (· * ·) ((List.range n).map fun i => mag i / d) v = (List.range n).map fun i => (mag i * v.getD i 0) / d := by
  apply List.ext_getElem
  · simp [hv]
  · intro i h1 h2
    have hi : i < n := by simpa using h2
    simp only [List.getElem_zipWith, List.getElem_map, List.getElem_range, List.getD_eq_getElem?_getD,
      List.getElem?_eq_getElem (show i < v.length by omega), Option.getD_some]
    ring

/-- **C22** (exploration, filters) With the noise factors `v` drawn, the filters of the lowest products of norm and factor are removed. -/
theorem C22_noise_filters (t : T4) (hpos : 0 < t.C * t.H * t.W) (nf : NormFn) (fraction : ℚ) (r : ℚ → ℤ) (v : List ℚ) (hv : v.length = t.F)
    (out : PruneOut) (h : rankAndPruneFilters fraction t true none nf (some v) 1 r = .ok out)
    (hk : numStructsToPrune t.F 1 fraction r ≠ 0) : ∃ b m, out = ⟨some b, some m⟩ ∧
      RemovesLowest t.F (fun f => nf (t.filterEntries f) * v.getD f 0) (numStructsToPrune t.F 1 fraction r) b ∧ expandFilters t b = .ok m := by
  have hd : (0 : ℚ) < ((t.C * t.H * t.W : ℕ) : ℚ) := by exact_mod_cast hpos
  unfold rankAndPruneFilters rankFilters kSmallestElems at h
  simp only [hk, if_false, rankFilters_mags] at h
  obtain ⟨bm, hbm, h⟩ := ok_bind h
  obtain ⟨rk, hrk, hbm⟩ := ok_bind hbm
  obtain ⟨mags, hmags, hrk⟩ := ok_bind hrk
  obtain ⟨res, hres, hrk⟩ := ok_bind hrk
  obtain ⟨bot, hbot, hres⟩ := ok_bind hres
  injection hres with hres
  injection hrk with hrk
  injection hmags with hmags
  subst hmags
  rw [noisy_mags _ _ _ hv] at hbot hres
  subst hres; subst hrk
  cases bm with
  | none => exact absurd hbm mapFromRanking_none
  | some b =>
    obtain ⟨m, hm, h⟩ := ok_bind h
    injection h with h
    exact ⟨b, m, h.symm, removesLowest_of_mags hd hbot hbm, hm⟩

/-- **C22** (exploration, channels) See `C22_noise_filters`. -/
theorem C22_noise_channels (t : T4) (ht : t.WF) (hpos : 0 < t.F * (t.H * t.W)) (nf : NormFn) (fraction : ℚ) (r : ℚ → ℤ) (v : List ℚ)
    (hv : v.length = t.C) (out : PruneOut) (h : rankAndPruneChannels fraction t true none nf (some v) 1 r = .ok out)
    (hk : numStructsToPrune t.C 1 fraction r ≠ 0) : ∃ b m, out = ⟨some b, some m⟩ ∧
      RemovesLowest t.C (fun c => nf (t.channelEntries c) * v.getD c 0) (numStructsToPrune t.C 1 fraction r) b ∧ expandChannels t b = .ok m := by
  have hd : (0 : ℚ) < ((t.F * (t.H * t.W) : ℕ) : ℚ) := by exact_mod_cast hpos
  unfold rankAndPruneChannels rankChannels kSmallestElems at h
  simp only [hk, if_false, rankChannels_mags t ht] at h
  obtain ⟨bm, hbm, h⟩ := ok_bind h
  obtain ⟨rk, hrk, hbm⟩ := ok_bind hbm
  obtain ⟨mags, hmags, hrk⟩ := ok_bind hrk
  obtain ⟨res, hres, hrk⟩ := ok_bind hrk
  obtain ⟨bot, hbot, hres⟩ := ok_bind hres
  injection hres with hres
  injection hrk with hrk
  injection hmags with hmags
  subst hmags
  rw [noisy_mags _ _ _ hv] at hbot hres
  subst hres; subst hrk
  cases bm with
  | none => exact absurd hbm mapFromRanking_none
  | some b =>
    obtain ⟨m, hm, h⟩ := ok_bind h
    injection h with h
    exact ⟨b, m, h.symm, removesLowest_of_mags hd hbot hbm, hm⟩

/-- **C22** (exploration, columns) See `C22_noise_filters`. -/
theorem C22_noise_columns (t : T2) (hpos : 0 < t.C) (nf : NormFn) (fraction : ℚ) (r : ℚ → ℤ) (v : List ℚ) (hv : v.length = t.C)
    (out : PruneOut) (h : rankAndPruneChannels2 fraction t true none nf (some v) 1 r = .ok out)
    (hk : numStructsToPrune t.C 1 fraction r ≠ 0) : ∃ b m, out = ⟨some b, some m⟩ ∧
      RemovesLowest t.C (fun c => nf (t.col c) * v.getD c 0) (numStructsToPrune t.C 1 fraction r) b ∧ expandCols t b = .ok m := by
  have hd : (0 : ℚ) < (t.C : ℚ) := by exact_mod_cast hpos
  have hmags : colsNorm t nf 1 true = (List.range t.C).map fun c => nf (t.col c) / (t.C : ℚ) := by
    unfold colsNorm genericNorm
    simp [List.map_map, Function.comp_def]
  unfold rankAndPruneChannels2 rankChannels2 kSmallestElems at h
  simp only [hk, if_false, hmags, noisy_mags _ _ _ hv] at h
  obtain ⟨bm, hbm, h⟩ := ok_bind h
  obtain ⟨rk, hrk, hbm⟩ := ok_bind hbm
  obtain ⟨res, hres, hrk⟩ := ok_bind hrk
  obtain ⟨bot, hbot, hres⟩ := ok_bind hres
  injection hres with hres
  injection hrk with hrk
  subst hres; subst hrk
  cases bm with
  | none => exact absurd hbm mapFromRanking_none
  | some b =>
    obtain ⟨m, hm, h⟩ := ok_bind h
    injection h with h
    exact ⟨b, m, h.symm, removesLowest_of_mags hd hbot hbm, hm⟩

example : rankAndPruneChannels2 (1/2) ⟨2, 2, [1, 5, -2, 0]⟩ true none l1Norm (some [2, 1]) 1 Int.floor =
    .ok ⟨some [1, 0], some [1, 0, 1, 0]⟩ := by decide +kernel

end Verif
