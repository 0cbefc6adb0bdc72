import Verif.Model.Structures
import Verif.Lemmas.Structures
/-!
# C20–C23, C57, C58, C59: structured pruning
-/
namespace Verif

/-! ## C20: how many structures -/

/-- Specification of a rounding function: monotone and exact on integers.  `math.floor`,
`math.ceil` and `round` are such functions. -/
structure IsRounding (r : ℚ → ℤ) : Prop where
  mono : Monotone r
  int : ∀ n : ℤ, r n = n

theorem isRounding_floor : IsRounding Int.floor := ⟨Int.floor_mono, fun n => Int.floor_intCast n⟩
theorem isRounding_ceil : IsRounding Int.ceil := ⟨Int.ceil_mono, fun n => Int.ceil_intCast n⟩
theorem isRounding_round : IsRounding roundHalfEven := ⟨round_mono, round_int⟩

/-- **C20** With a group length dividing the number of structures and a fraction in [0,1], the
count is a multiple of the group length, between 0 and the number of structures; it is all of
them exactly when the fraction is 1. -/
theorem C20_count (n g : ℕ) (f : ℚ) (r : ℚ → ℤ) (hr : IsRounding r) (hn : 0 < n) (hg : 0 < g)
    (hd : g ∣ n) (h0 : 0 ≤ f) (h1 : f ≤ 1) :
    (g : ℤ) ∣ numStructsToPrune n g f r ∧
    0 ≤ numStructsToPrune n g f r ∧ numStructsToPrune n g f r ≤ n ∧
    (numStructsToPrune n g f r = n ↔ f = 1) := by
  obtain ⟨m, hm⟩ := hd
  have hgq : (0 : ℚ) < g := by exact_mod_cast hg
  have hnq : (0 : ℚ) < n := by exact_mod_cast hn
  have hmpos : 0 < m := by
    rcases Nat.eq_zero_or_pos m with h | h
    · rw [h] at hm; simp at hm; omega
    · exact h
  have k0 : 0 ≤ r (f * n) := by
    have := hr.mono (show ((0 : ℤ) : ℚ) ≤ f * n by push_cast; positivity)
    rwa [hr.int] at this
  have kn : r (f * n) ≤ n := by
    have := hr.mono (show f * n ≤ ((n : ℤ) : ℚ) by push_cast; nlinarith)
    rwa [hr.int] at this
  have q0 : 0 ≤ r ((r (f * n) : ℚ) / g) := by
    have := hr.mono (show ((0 : ℤ) : ℚ) ≤ (r (f * n) : ℚ) / g by
      push_cast; apply div_nonneg _ hgq.le; exact_mod_cast k0)
    rwa [hr.int] at this
  have qm : r ((r (f * n) : ℚ) / g) ≤ m := by
    have := hr.mono (show (r (f * n) : ℚ) / g ≤ ((m : ℤ) : ℚ) by
      rw [div_le_iff₀ hgq]
      have h2 : (r (f * n) : ℚ) ≤ ((n : ℤ) : ℚ) := by exact_mod_cast kn
      have h3 : (n : ℚ) = g * m := by exact_mod_cast hm
      push_cast at h2 ⊢; linarith)
    rwa [hr.int] at this
  have hnz : (n : ℤ) = g * m := by rw [hm]; push_cast; ring
  have hgz : (0 : ℤ) < g := by exact_mod_cast hg
  unfold numStructsToPrune
  dsimp only
  split
  · next h =>
    have hgn : (g : ℤ) ≤ n := by rw [hnz]; nlinarith
    refine ⟨⟨(m : ℤ) - 1, by rw [hnz]; ring⟩, by omega, by omega, ?_⟩
    constructor
    · intro h'; omega
    · intro h'; exact absurd h' h.2
  · next h =>
    refine ⟨⟨_, mul_comm _ _⟩, by positivity, by rw [hnz]; nlinarith, ?_⟩
    constructor
    · intro h'
      by_contra hf; exact h ⟨h', hf⟩
    · intro hf
      subst hf
      rw [one_mul]
      have e : r ((n : ℕ) : ℚ) = n := by
        have := hr.int (n : ℤ); push_cast at this; exact this
      rw [e]
      have e2 : (((n : ℤ) : ℚ) / g) = ((m : ℤ) : ℚ) := by
        rw [div_eq_iff hgq.ne', hnz]; push_cast; ring
      rw [e2, hr.int, hnz]; ring

/-- **C20** (respecting the request) With the default rounding (floor) the count never exceeds the
requested fraction and is short of it by less than one group. -/
theorem C20_floor_request (n g : ℕ) (f : ℚ) (hn : 0 < n) (hg : 0 < g) (hd : g ∣ n) (h0 : 0 ≤ f) (h1 : f < 1) :
    (numStructsToPrune n g f Int.floor : ℚ) ≤ f * n ∧
    f * n - g < (numStructsToPrune n g f Int.floor : ℚ) := by
  have hgq : (0 : ℚ) < g := by exact_mod_cast hg
  have hnq : (0 : ℚ) < n := by exact_mod_cast hn
  set k := ⌊f * (n : ℚ)⌋ with hk
  have a1 : (k : ℚ) ≤ f * n := Int.floor_le _
  have a2 : f * n < (k : ℚ) + 1 := Int.lt_floor_add_one _
  have b0 : ⌊(k : ℚ) / g⌋ = k / (g : ℤ) := by
    have := Rat.floor_intCast_div_natCast k g
    exact this
  set c := k / (g : ℤ) with hc
  have hgz : (0 : ℤ) < g := by exact_mod_cast hg
  have b1 : c * g ≤ k := Int.ediv_mul_le k hgz.ne'
  have b2 : k < c * g + g := Int.lt_ediv_add_one_mul_self k hgz |>.trans_eq (by ring)
  have hlt : c * (g : ℤ) < n := by
    have : (k : ℚ) < n := by nlinarith
    have : k < (n : ℤ) := by exact_mod_cast this
    omega
  have hval : numStructsToPrune n g f Int.floor = c * g := by
    unfold numStructsToPrune
    simp only [← hk, b0, ← hc]
    rw [if_neg]; rintro ⟨h, _⟩; omega
  rw [hval]
  have c1 : ((c * g : ℤ) : ℚ) ≤ k := by exact_mod_cast b1
  have c2 : (k : ℚ) + 1 ≤ ((c * g : ℤ) : ℚ) + g := by exact_mod_cast b2
  constructor <;> linarith

/-- The hypothesis `g ∣ n` is needed: rounding up 90% of 10 structures in groups of 4 gives 12,
more structures than there are. -/
theorem C20_violated_nondividing : ¬ ∀ (n g : ℕ) (f : ℚ) (r : ℚ → ℤ), IsRounding r → 0 < n → 0 < g → g ≤ n →
    0 ≤ f → f ≤ 1 → numStructsToPrune n g f r ≤ n := by
  intro h
  have := h 10 4 (9/10) Int.ceil isRounding_ceil (by omega) (by omega) (by omega) (by norm_num) (by norm_num)
  revert this
  decide +kernel

example : numStructsToPrune 16 4 (7/10) Int.floor = 8 ∧ numStructsToPrune 16 4 (99/100) Int.ceil = 12 ∧
    numStructsToPrune 16 4 1 Int.floor = 16 := by decide +kernel

/-! ## C21: masks are constant on structures -/

theorem idx_filter (t : T4) {c h w : ℕ} (f : ℕ) (hc : c < t.C) (hh : h < t.H) (hw : w < t.W) :
    ∃ j < t.C * t.H * t.W, ((f * t.C + c) * t.H + h) * t.W + w = f * (t.C * t.H * t.W) + j := by
  refine ⟨(c * t.H + h) * t.W + w, ?_, by ring⟩
  have h1 : c * t.H + h + 1 ≤ t.C * t.H := by
    have : (c + 1) * t.H ≤ t.C * t.H := Nat.mul_le_mul_right _ hc
    have e : (c + 1) * t.H = c * t.H + t.H := by ring
    omega
  have : (c * t.H + h + 1) * t.W ≤ t.C * t.H * t.W := Nat.mul_le_mul_right _ h1
  have e : (c * t.H + h + 1) * t.W = (c * t.H + h) * t.W + t.W := by ring
  omega

theorem idx_kernel (t : T4) {h w : ℕ} (k : ℕ) (hh : h < t.H) (hw : w < t.W) :
    ∃ j < t.H * t.W, (k * t.H + h) * t.W + w = k * (t.H * t.W) + j := by
  refine ⟨h * t.W + w, ?_, by ring⟩
  have : (h + 1) * t.W ≤ t.H * t.W := Nat.mul_le_mul_right _ hh
  have e : (h + 1) * t.W = h * t.W + t.W := by ring
  omega

/-- **C21** (filters) The mask has the parameter's size and every element of filter `f` carries
bit `f` of the decision. -/
theorem C21_filters (t : T4) (b : List ℚ) (hb : b.length = t.F) :
    ∃ m, expandFilters t b = .ok m ∧ m.length = t.F * t.C * t.H * t.W ∧
      ∀ f c h w, f < t.F → c < t.C → h < t.H → w < t.W → (⟨t.F, t.C, t.H, t.W, m⟩ : T4).at f c h w = b[f]? := by
  refine ⟨repeatEach (t.C * t.H * t.W) b, ?_, ?_, ?_⟩
  · unfold expandFilters; rw [expandTo_of_length hb]; rfl
  · rw [length_repeatEach, hb]; ring
  · intro f c h w hf hc hh hw
    obtain ⟨j, hj, e⟩ := idx_filter t f hc hh hw
    show (repeatEach (t.C * t.H * t.W) b)[((f * t.C + c) * t.H + h) * t.W + w]? = _
    rw [e, getElem?_repeatEach _ _ _ _ hj]

/-- **C21** (channels) -/
theorem C21_channels (t : T4) (b : List ℚ) (hb : b.length = t.C) :
    ∃ m, expandChannels t b = .ok m ∧ m.length = t.F * t.C * t.H * t.W ∧
      ∀ f c h w, f < t.F → c < t.C → h < t.H → w < t.W → (⟨t.F, t.C, t.H, t.W, m⟩ : T4).at f c h w = b[c]? := by
  refine ⟨repeatEach (t.H * t.W) (repeatAll t.F b), ?_, ?_, ?_⟩
  · unfold expandChannels; rw [expandTo_of_length hb]; rfl
  · rw [length_repeatEach, length_repeatAll, hb]; ring
  · intro f c h w hf hc hh hw
    obtain ⟨j, hj, e⟩ := idx_kernel t (f * t.C + c) hh hw
    show (repeatEach (t.H * t.W) (repeatAll t.F b))[((f * t.C + c) * t.H + h) * t.W + w]? = _
    rw [e, getElem?_repeatEach _ _ _ _ hj, ← hb, getElem?_repeatAll _ _ _ _ hf (by omega)]

/-- **C21** (kernels) -/
theorem C21_kernels (t : T4) (b : List ℚ) (hb : b.length = t.F * t.C) :
    ∃ m, expandKernels t b = .ok m ∧ m.length = t.F * t.C * t.H * t.W ∧
      ∀ f c h w, f < t.F → c < t.C → h < t.H → w < t.W →
        (⟨t.F, t.C, t.H, t.W, m⟩ : T4).at f c h w = b[f * t.C + c]? := by
  refine ⟨repeatEach (t.H * t.W) b, ?_, ?_, ?_⟩
  · unfold expandKernels; rw [expandTo_of_length hb]; rfl
  · rw [length_repeatEach, hb]; ring
  · intro f c h w hf hc hh hw
    obtain ⟨j, hj, e⟩ := idx_kernel t (f * t.C + c) hh hw
    show (repeatEach (t.H * t.W) b)[((f * t.C + c) * t.H + h) * t.W + w]? = _
    rw [e, getElem?_repeatEach _ _ _ _ hj]

/-- **C21** (rows and columns of a matrix) -/
theorem C21_rows_cols (t : T2) (b : List ℚ) :
    (b.length = t.R → ∃ m, expandRows t b = .ok m ∧ m.length = t.R * t.C ∧
      ∀ r c, r < t.R → c < t.C → (⟨t.R, t.C, m⟩ : T2).at r c = b[r]?) ∧
    (b.length = t.C → ∃ m, expandCols t b = .ok m ∧ m.length = t.R * t.C ∧
      ∀ r c, r < t.R → c < t.C → (⟨t.R, t.C, m⟩ : T2).at r c = b[c]?) := by
  constructor
  · intro hb
    refine ⟨repeatEach t.C b, ?_, by rw [length_repeatEach, hb], ?_⟩
    · unfold expandRows; rw [expandTo_of_length hb]; rfl
    · intro r c _ hc
      exact getElem?_repeatEach _ _ _ _ hc
  · intro hb
    refine ⟨repeatAll t.R b, ?_, by rw [length_repeatAll, hb], ?_⟩
    · unfold expandCols; rw [expandTo_of_length hb]; rfl
    · intro r c hr hc
      show (repeatAll t.R b)[r * t.C + c]? = _
      rw [← hb]; exact getElem?_repeatAll _ _ _ _ hr (by omega)

/-- **C21** (wrong sizes) A decision of any other length is refused (a single bit is broadcast). -/
theorem C21_wrong_size (t : T4) (b : List ℚ) (hb : b.length ≠ t.F) (h1 : b.length ≠ 1) :
    expandFilters t b = .error .runtime := by
  unfold expandFilters expandTo
  rw [if_neg hb]
  match b, h1 with
  | [], _ => rfl
  | [_], h1 => simp at h1
  | _ :: _ :: _, _ => rfl

example : expandFilters ⟨2, 1, 1, 2, []⟩ [0, 1] = .ok [0, 0, 1, 1] ∧
    expandChannels ⟨2, 2, 1, 2, []⟩ [0, 1] = .ok [0, 0, 1, 1, 0, 0, 1, 1] := by decide +kernel

/-! ## C22: ranked pruning -/

/-- Specification: the entries of channel `c`, over all filters. -/
def T4.channelEntries (t : T4) (c : ℕ) : Tensor :=
  (List.range t.F).flatMap fun f => chunk (t.H * t.W) (f * t.C + c) t.data

/-- Specification: the entries of filter `f`. -/
def T4.filterEntries (t : T4) (f : ℕ) : Tensor := chunk (t.C * t.H * t.W) f t.data

/-- What a ranking by magnitudes `mag 0, …, mag (n-1)` asked to remove `k` structures must
produce: bits for all structures, at least `k` removed, no removed structure as large as a kept
one, exactly `k` removed if magnitudes are distinct. -/
structure RemovesLowest (n : ℕ) (mag : ℕ → ℚ) (k : ℤ) (b : List ℚ) : Prop where
  len : b.length = n
  bin : ∀ x ∈ b, x = 0 ∨ x = 1
  atLeast : k ≤ b.count 0
  lowest : ∀ i j, b[i]? = some 0 → b[j]? = some 1 → mag i < mag j
  exact : (∀ i < n, ∀ j < n, mag i = mag j → i = j) → (b.count 0 : ℤ) = k

theorem removesLowest_of_mags {n : ℕ} {mag : ℕ → ℚ} {d : ℚ} (hd : 0 < d) {k : ℤ} {b bot : List ℚ}
    (hb : bottomK ((List.range n).map fun i => mag i / d) k = .ok bot)
    (h : mapFromRanking (some (bot, (List.range n).map fun i => mag i / d)) = .ok (some b)) :
    RemovesLowest n mag k b := by
  obtain ⟨_, _, h3, h4, h5, h6, h7⟩ := ranking_spec hb h
  rw [List.length_map, List.length_range] at h3
  refine ⟨h3, h4, h5, ?_, ?_⟩
  · intro i j hi hj
    have hin : i < n := by rw [← h3]; exact (List.getElem?_eq_some_iff.1 hi).1
    have hjn : j < n := by rw [← h3]; exact (List.getElem?_eq_some_iff.1 hj).1
    have := h7 i j (mag i / d) (mag j / d) hi hj (by simp [hin]) (by simp [hjn])
    exact (div_lt_div_iff_of_pos_right hd).1 this
  · intro hinj
    apply h6
    rw [List.nodup_map_iff_inj_on List.nodup_range]
    intro i hi j hj he
    rw [List.mem_range] at hi hj
    exact hinj i hi j hj ((div_left_inj' hd.ne').1 he)

theorem rankFilters_mags (t : T4) (nf : NormFn) :
    filtersNorm t nf 1 true =
      .ok ((List.range t.F).map fun f => nf (t.filterEntries f) / ((t.C * t.H * t.W : ℕ) : ℚ)) := by
  unfold filtersNorm genericNorm chunks T4.filterEntries
  simp [Nat.mod_one, List.map_map, Function.comp_def]

theorem rankChannels_mags (t : T4) (ht : t.WF) (nf : NormFn) :
    channelsNorm t nf 1 true =
      .ok ((List.range t.C).map fun c => nf (t.channelEntries c) / ((t.F * (t.H * t.W) : ℕ) : ℚ)) := by
  unfold channelsNorm genericNorm chunks
  simp only [Nat.mod_one, ne_eq, one_ne_zero, not_false_eq_true, and_self, if_true, Nat.div_one, one_mul,
    List.map_map]
  congr 1
  apply List.map_congr_left
  intro c hc
  rw [List.mem_range] at hc
  simp only [Function.comp_apply]
  rw [t.transposed_chunk ht hc]; rfl

/-- **C22** (filters) Lp-ranked filter pruning, for any norm, any rounding function and any
weights: when it returns, either the count is 0 and nothing happens, or the map removes the
lowest-ranked filters and the mask installed is that decision expanded filter-wise (see C21).  It
returns for every count from 0 to the number of filters. -/
theorem C22_filters (t : T4) (hpos : 0 < t.C * t.H * t.W) (nf : NormFn) (fraction : ℚ) (r : ℚ → ℤ) :
    (0 ≤ numStructsToPrune t.F 1 fraction r → numStructsToPrune t.F 1 fraction r ≤ t.F →
      ∃ out, rankAndPruneFilters fraction t true none nf none 1 r = .ok out) ∧
    ∀ out, rankAndPruneFilters fraction t true none nf none 1 r = .ok out →
      (numStructsToPrune t.F 1 fraction r = 0 → out = ⟨none, none⟩) ∧
      (numStructsToPrune t.F 1 fraction r ≠ 0 → ∃ b m, out = ⟨some b, some m⟩ ∧
        RemovesLowest t.F (fun f => nf (t.filterEntries f)) (numStructsToPrune t.F 1 fraction r) b ∧
        expandFilters t b = .ok m) := by
  have hd : (0 : ℚ) < ((t.C * t.H * t.W : ℕ) : ℚ) := by exact_mod_cast hpos
  set k := numStructsToPrune t.F 1 fraction r with hk
  by_cases hk0 : k = 0
  · have e : rankAndPruneFilters fraction t true none nf none 1 r = .ok ⟨none, none⟩ := by
      unfold rankAndPruneFilters rankFilters
      rw [← hk]; simp only [hk0, if_true]; rfl
    refine ⟨fun _ _ => ⟨_, e⟩, fun out h => ⟨fun _ => ?_, fun h' => absurd hk0 h'⟩⟩
    rw [e] at h; injection h with h; exact h.symm
  · have hcomp : ∀ bot b, bottomK ((List.range t.F).map fun f => nf (t.filterEntries f) / ((t.C * t.H * t.W : ℕ) : ℚ)) k = .ok bot →
        mapFromRanking (some (bot, (List.range t.F).map fun f => nf (t.filterEntries f) / ((t.C * t.H * t.W : ℕ) : ℚ))) = .ok (some b) →
        rankAndPruneFilters fraction t true none nf none 1 r = (do
          let m ← expandFilters t b
          return ⟨some b, some m⟩) := by
      intro bot b h1 h2
      unfold rankAndPruneFilters rankFilters kSmallestElems
      rw [← hk]
      simp only [hk0, if_false, rankFilters_mags]
      simp only [bind, Except.bind, h1, pure, Except.pure, h2, if_true]
    refine ⟨?_, ?_⟩
    · intro h0 h1
      obtain ⟨bot, b, e1, e2⟩ := ranking_total (k := k)
        (mags := (List.range t.F).map fun f => nf (t.filterEntries f) / ((t.C * t.H * t.W : ℕ) : ℚ))
        (by omega) (by simpa using h1)
      have hl := (removesLowest_of_mags hd e1 e2).len
      obtain ⟨m, hm, _⟩ := C21_filters t b hl
      refine ⟨⟨some b, some m⟩, ?_⟩
      rw [hcomp bot b e1 e2, hm]; rfl
    · intro out h
      refine ⟨fun h' => absurd h' hk0, fun _ => ?_⟩
      have h' := h
      unfold rankAndPruneFilters rankFilters kSmallestElems at h'
      rw [← hk] at h'
      simp only [hk0, if_false, rankFilters_mags] at h'
      obtain ⟨bm, hbm, h'⟩ := ok_bind h'
      obtain ⟨rk, hrk, hbm⟩ := ok_bind hbm
      obtain ⟨mags, hmags, hrk⟩ := ok_bind hrk
      injection hmags with hmags
      obtain ⟨res, hres, hrk⟩ := ok_bind hrk
      obtain ⟨bot, hbot, hres⟩ := ok_bind hres
      injection hres with hres
      injection hrk with hrk
      subst hmags
      subst hres; subst hrk
      cases bm with
      | none => exact absurd hbm mapFromRanking_none
      | some b =>
        rw [hcomp bot b hbot hbm] at h
        obtain ⟨m, hm, h⟩ := ok_bind h
        injection h with h
        exact ⟨b, m, h.symm, removesLowest_of_mags hd hbot hbm, hm⟩

/-- **C22** (channels) -/
theorem C22_channels (t : T4) (ht : t.WF) (hpos : 0 < t.F * (t.H * t.W)) (nf : NormFn) (fraction : ℚ)
    (r : ℚ → ℤ) :
    (0 ≤ numStructsToPrune t.C 1 fraction r → numStructsToPrune t.C 1 fraction r ≤ t.C →
      ∃ out, rankAndPruneChannels fraction t true none nf none 1 r = .ok out) ∧
    ∀ out, rankAndPruneChannels fraction t true none nf none 1 r = .ok out →
      (numStructsToPrune t.C 1 fraction r = 0 → out = ⟨none, none⟩) ∧
      (numStructsToPrune t.C 1 fraction r ≠ 0 → ∃ b m, out = ⟨some b, some m⟩ ∧
        RemovesLowest t.C (fun c => nf (t.channelEntries c)) (numStructsToPrune t.C 1 fraction r) b ∧
        expandChannels t b = .ok m) := by
  have hd : (0 : ℚ) < ((t.F * (t.H * t.W) : ℕ) : ℚ) := by exact_mod_cast hpos
  set k := numStructsToPrune t.C 1 fraction r with hk
  by_cases hk0 : k = 0
  · have e : rankAndPruneChannels fraction t true none nf none 1 r = .ok ⟨none, none⟩ := by
      unfold rankAndPruneChannels rankChannels
      rw [← hk]; simp only [hk0, if_true]; rfl
    refine ⟨fun _ _ => ⟨_, e⟩, fun out h => ⟨fun _ => ?_, fun h' => absurd hk0 h'⟩⟩
    rw [e] at h; injection h with h; exact h.symm
  · have hcomp : ∀ bot b, bottomK ((List.range t.C).map fun f => nf (t.channelEntries f) / ((t.F * (t.H * t.W) : ℕ) : ℚ)) k = .ok bot →
        mapFromRanking (some (bot, (List.range t.C).map fun f => nf (t.channelEntries f) / ((t.F * (t.H * t.W) : ℕ) : ℚ))) = .ok (some b) →
        rankAndPruneChannels fraction t true none nf none 1 r = (do
          let m ← expandChannels t b
          return ⟨some b, some m⟩) := by
      intro bot b h1 h2
      unfold rankAndPruneChannels rankChannels kSmallestElems
      rw [← hk]
      simp only [hk0, if_false, rankChannels_mags t ht]
      simp only [bind, Except.bind, h1, pure, Except.pure, h2, if_true]
    refine ⟨?_, ?_⟩
    · intro h0 h1
      obtain ⟨bot, b, e1, e2⟩ := ranking_total (k := k)
        (mags := (List.range t.C).map fun f => nf (t.channelEntries f) / ((t.F * (t.H * t.W) : ℕ) : ℚ))
        (by omega) (by simpa using h1)
      have hl := (removesLowest_of_mags hd e1 e2).len
      obtain ⟨m, hm, _⟩ := C21_channels t b hl
      refine ⟨⟨some b, some m⟩, ?_⟩
      rw [hcomp bot b e1 e2, hm]; rfl
    · intro out h
      refine ⟨fun h' => absurd h' hk0, fun _ => ?_⟩
      have h' := h
      unfold rankAndPruneChannels rankChannels kSmallestElems at h'
      rw [← hk] at h'
      simp only [hk0, if_false, rankChannels_mags t ht] at h'
      obtain ⟨bm, hbm, h'⟩ := ok_bind h'
      obtain ⟨rk, hrk, hbm⟩ := ok_bind hbm
      obtain ⟨mags, hmags, hrk⟩ := ok_bind hrk
      injection hmags with hmags
      obtain ⟨res, hres, hrk⟩ := ok_bind hrk
      obtain ⟨bot, hbot, hres⟩ := ok_bind hres
      injection hres with hres
      injection hrk with hrk
      subst hmags
      subst hres; subst hrk
      cases bm with
      | none => exact absurd hbm mapFromRanking_none
      | some b =>
        rw [hcomp bot b hbot hbm] at h
        obtain ⟨m, hm, h⟩ := ok_bind h
        injection h with h
        exact ⟨b, m, h.symm, removesLowest_of_mags hd hbot hbm, hm⟩

/-- Non-vacuity: 4 filters of 2 weights, half of them removed by L1 norm. -/
example : rankAndPruneFilters (1/2) ⟨4, 1, 1, 2, [1, 1, 5, -5, 0, 1, 3, 3]⟩ true none l1Norm none 1 Int.floor
    = .ok ⟨some [0, 1, 0, 1], some [0, 0, 1, 1, 0, 0, 1, 1]⟩ := by decide +kernel
example : rankAndPruneChannels (1/2) ⟨2, 2, 1, 2, [1, 1, 5, -5, 0, 1, 3, 3]⟩ true none l1Norm none 1 Int.floor
    = .ok ⟨some [0, 1], some [0, 0, 1, 1, 0, 0, 1, 1]⟩ := by decide +kernel

/-! ## C57: pruning in groups -/

/-- **C57** is violated: with `group_size > 1` filter ranking never produces a mask – for every
tensor and fraction it either does nothing (count 0) or raises, because the count is in filters
while the ranked magnitudes are per group. -/
theorem C57_violated_group_size (t : T4) (g : ℕ) (hg : 1 < g) (hF : 0 < t.F) (nf : NormFn)
    (fraction : ℚ) (h0 : 0 ≤ fraction) (h1 : fraction ≤ 1) (r : ℚ → ℤ) (hr : IsRounding r) :
    (numStructsToPrune t.F g fraction r = 0 ∧
      rankAndPruneFilters fraction t true none nf none g r = .ok ⟨none, none⟩) ∨
    ∃ e, rankAndPruneFilters fraction t true none nf none g r = .error e := by
  by_cases hk0 : numStructsToPrune t.F g fraction r = 0
  · left
    refine ⟨hk0, ?_⟩
    unfold rankAndPruneFilters rankFilters
    simp only [hk0, if_true]; rfl
  · right
    cases hres : rankAndPruneFilters fraction t true none nf none g r with
    | error e => exact ⟨e, rfl⟩
    | ok out =>
      exfalso
      unfold rankAndPruneFilters rankFilters kSmallestElems at hres
      simp only [hk0, if_false] at hres
      obtain ⟨bm, hbm, h'⟩ := ok_bind hres
      obtain ⟨rk, hrk, hbm⟩ := ok_bind hbm
      obtain ⟨mags, hmags, hrk⟩ := ok_bind hrk
      obtain ⟨res, hres, hrk⟩ := ok_bind hrk
      obtain ⟨bot, hbot, hres⟩ := ok_bind hres
      injection hres with hres
      injection hrk with hrk
      subst hres; subst hrk
      unfold filtersNorm at hmags
      dsimp only at hmags
      split at hmags
      swap; · cases hmags
      next hdiv =>
      injection hmags with hmags
      have hml : mags.length = t.F / g := by rw [← hmags]; simp [genericNorm, chunks]
      cases bm with
      | none => exact mapFromRanking_none hbm
      | some b =>
        obtain ⟨k1, k2, hbl, _⟩ := ranking_spec hbot hbm
        have hgd : g ∣ t.F := Nat.dvd_of_mod_eq_zero hdiv.2
        obtain ⟨c1, c2, c3, _⟩ := C20_count t.F g fraction r hr hF (by omega) hgd h0 h1
        simp only [if_true] at h'
        obtain ⟨m, hm, _⟩ := ok_bind h'
        unfold expandFilters at hm
        obtain ⟨b', hb', _⟩ := ok_bind hm
        have hgF : t.F / g < t.F := Nat.div_lt_self hF hg
        have hne : b.length ≠ t.F := by omega
        unfold expandTo at hb'
        rw [if_neg hne] at hb'
        have hge : (g : ℤ) ≤ numStructsToPrune t.F g fraction r := Int.le_of_dvd (by omega) c1
        match b, hbl, hb' with
        | [x], hbl, _ =>
          simp at hbl
          omega

/-- The hypotheses are met by an ordinary layer: 8 filters, groups of 2, half of them. -/
example : ∃ e, rankAndPruneFilters (1/2) ⟨8, 1, 1, 1, [1, 2, 3, 4, 5, 6, 7, 8]⟩ true none l1Norm none 2 Int.floor
    = .error e := ⟨.runtime, by decide +kernel⟩

/-! ## C23: leader and followers -/

/-- One `set_param_mask` call of a group: the parameter's weights, the leader's weights at that
time, and the parameter's mask before the call. -/
structure GroupCall where
  leader : T4
  param : T4
  old : Option Tensor

/-- All calls of a phase with the same target sparsity, in whatever order the parameters come. -/
def leaderRun (pg : ℚ → T4 → Bool → Option (List ℚ) → Except Err PruneOut) (target : ℚ) :
    LeaderState → List GroupCall → List (Except Err (Option Tensor))
  | _, [] => []
  | s, c :: cs =>
    (leaderSetMask pg s target c.leader c.param c.old).2 ::
      leaderRun pg target (leaderSetMask pg s target c.leader c.param c.old).1 cs

/-- **C23** For filters and channels: during a phase with one target sparsity, every parameter of
the group gets the decision computed from the leader's weights at the first call of the phase,
expanded to its own shape – in whatever order the parameters come and however the leader's weights
change meanwhile. -/
theorem C23_leader_decision (gt : GroupType) (nf : NormFn) (g : ℕ) (target : ℚ) (ht : target ≠ 0)
    (s : LeaderState) (hs : s.lastTarget ≠ some target) (c0 : GroupCall) (cs : List GroupCall)
    (b : List ℚ) (hb : lpPruneGroup gt nf g target c0.leader false none = .ok ⟨some b, none⟩) :
    leaderRun (lpPruneGroup gt nf g) target s (c0 :: cs) =
      (c0 :: cs).map fun c => (match gt with
        | .filters => expandFilters c.param b
        | .channels => expandChannels c.param b).map some := by
  have hpg : ∀ p : T4, lpPruneGroup gt nf g target p true (some b) = (do
      let m ← (match gt with
        | .filters => expandFilters p b
        | .channels => expandChannels p b)
      return ⟨some b, some m⟩) := by
    intro p
    unfold lpPruneGroup
    rw [if_neg ht]
    cases gt <;> rfl
  have hfin : ∀ (s : LeaderState) (c : GroupCall), s.leaderMap = some b → s.lastTarget = some target →
      leaderSetMask (lpPruneGroup gt nf g) s target c.leader c.param c.old =
        (s, (match gt with
        | .filters => expandFilters c.param b
        | .channels => expandChannels c.param b).map some) := by
    intro s c h1 h2
    unfold leaderSetMask
    simp only [h2, h1, ne_eq, not_true_eq_false, if_false, hpg]
    congr 1
    generalize (match gt with
        | .filters => expandFilters c.param b
        | .channels => expandChannels c.param b) = e
    cases e <;> rfl
  have hrun : ∀ (cs : List GroupCall) (s : LeaderState), s.leaderMap = some b → s.lastTarget = some target →
      leaderRun (lpPruneGroup gt nf g) target s cs =
        cs.map fun c => (match gt with
        | .filters => expandFilters c.param b
        | .channels => expandChannels c.param b).map some := by
    intro cs
    induction cs with
    | nil => intro _ _ _; rfl
    | cons c cs ih =>
      intro s h1 h2
      simp only [leaderRun, List.map_cons, hfin s c h1 h2, ih s h1 h2]
  have hfirst : leaderSetMask (lpPruneGroup gt nf g) s target c0.leader c0.param c0.old =
      leaderSetMask (lpPruneGroup gt nf g) { leaderMap := some b, lastTarget := some target } target
        c0.leader c0.param c0.old := by
    unfold leaderSetMask
    simp only [hb, ne_eq, not_true_eq_false, if_false]
    rw [if_pos (Ne.symm hs)]
  simp only [leaderRun, List.map_cons]
  rw [hfirst, hfin _ c0 rfl rfl]
  simp only
  rw [hrun cs _ rfl rfl]

/-- **C23** (failure) When the leader's ranking removes nothing (fraction 0, or too few structures),
every parameter of the group raises `AssertionError` – unlike pruning without group dependency,
which leaves the masks alone. -/
theorem C23_violated_nothing_to_prune (gt : GroupType) (nf : NormFn) (g : ℕ) (target : ℚ)
    (s : LeaderState) (hs : s.lastTarget ≠ some target) (c0 : GroupCall) (cs : List GroupCall)
    (hb : lpPruneGroup gt nf g target c0.leader false none = .ok ⟨none, none⟩) :
    leaderRun (lpPruneGroup gt nf g) target s (c0 :: cs) =
      (c0 :: cs).map fun _ => .error .assertion := by
  have hfin : ∀ (s : LeaderState) (c : GroupCall), s.leaderMap = none → s.lastTarget = some target →
      leaderSetMask (lpPruneGroup gt nf g) s target c.leader c.param c.old = (s, .error .assertion) := by
    intro s c h1 h2
    unfold leaderSetMask
    simp only [h2, h1, ne_eq, not_true_eq_false, if_false]
  have hrun : ∀ (cs : List GroupCall) (s : LeaderState), s.leaderMap = none → s.lastTarget = some target →
      leaderRun (lpPruneGroup gt nf g) target s cs = cs.map fun _ => .error .assertion := by
    intro cs
    induction cs with
    | nil => intro _ _ _; rfl
    | cons c cs ih =>
      intro s h1 h2
      simp only [leaderRun, List.map_cons, hfin s c h1 h2, ih s h1 h2]
  have hfirst : leaderSetMask (lpPruneGroup gt nf g) s target c0.leader c0.param c0.old =
      leaderSetMask (lpPruneGroup gt nf g) { leaderMap := none, lastTarget := some target } target
        c0.leader c0.param c0.old := by
    unfold leaderSetMask
    simp only [hb, ne_eq, not_true_eq_false, if_false]
    rw [if_pos (Ne.symm hs)]
  simp only [leaderRun, List.map_cons]
  rw [hfirst, hfin _ c0 rfl rfl]
  simp only
  rw [hrun cs _ rfl rfl]

/-- Non-vacuity of both: a leader of 4 filters and a follower of another kernel size; half of the
filters, and a fraction that is too small. -/
example : leaderRun (lpPruneGroup .filters l1Norm 1) (1/2) {}
    [⟨⟨4, 1, 1, 1, [1, 4, 2, 3]⟩, ⟨4, 1, 1, 2, [9, 9, 9, 9, 9, 9, 9, 9]⟩, none⟩,
     ⟨⟨4, 1, 1, 1, [7, 0, 0, 7]⟩, ⟨4, 1, 1, 1, [7, 0, 0, 7]⟩, none⟩] =
    [.ok (some [0, 0, 1, 1, 0, 0, 1, 1]), .ok (some [0, 1, 0, 1])] := by decide +kernel
example : lpPruneGroup .filters l1Norm 1 (1/10) ⟨4, 1, 1, 1, [1, 4, 2, 3]⟩ false none = .ok ⟨none, none⟩ := by
  decide +kernel

/-! ## C58: group thresholding by mean magnitude -/

/-- Mean of absolute values. -/
def meanOf (l : Tensor) : ℚ := (l.map fun x => |x|).sum / l.length

/-- **C58** (partial) With the `Mean_Abs` criterion a filter's bit is 1 exactly when the mean
magnitude of its elements exceeds the threshold, and the same for channels and kernels.  Missing:
rows and columns of a matrix, where the code divides by the wrong size. -/
theorem C58_mean_abs_partial (t : T4) (ht : t.WF) (thr : ℚ) :
    (∃ norms, filtersNorm t l1Norm 1 true = .ok norms ∧ ∀ f < t.F,
      (gtMap norms thr)[f]? = some (if meanOf (t.filterEntries f) > thr then 1 else 0)) ∧
    (∃ norms, channelsNorm t l1Norm 1 true = .ok norms ∧ ∀ c < t.C,
      (gtMap norms thr)[c]? = some (if meanOf (t.channelEntries c) > thr then 1 else 0)) ∧
    (∀ f < t.F, ∀ c < t.C, (gtMap (kernelsNorm t l1Norm true) thr)[f * t.C + c]? =
      some (if meanOf (chunk (t.H * t.W) (f * t.C + c) t.data) > thr then 1 else 0)) := by
  refine ⟨⟨_, rankFilters_mags t l1Norm, ?_⟩, ⟨_, rankChannels_mags t ht l1Norm, ?_⟩, ?_⟩
  · intro f hf
    have hl : (t.filterEntries f).length = t.C * t.H * t.W := by
      apply length_chunk
      rw [ht]
      calc (f + 1) * (t.C * t.H * t.W) ≤ t.F * (t.C * t.H * t.W) := Nat.mul_le_mul_right _ hf
        _ = _ := by ring
    simp only [gtMap, List.getElem?_map, List.getElem?_range hf, Option.map_some, meanOf, hl]
    rfl
  · intro c hc
    have hl : (t.channelEntries c).length = t.F * (t.H * t.W) :=
      length_flatMap_range _ _ _ (fun f hf => t.kernel_length ht hf hc)
    simp only [gtMap, List.getElem?_map, List.getElem?_range hc, Option.map_some, meanOf, hl]
    rfl
  · intro f hf c hc
    have hi : f * t.C + c < t.F * t.C := by
      have : (f + 1) * t.C ≤ t.F * t.C := Nat.mul_le_mul_right _ hf
      have e : (f + 1) * t.C = f * t.C + t.C := by ring
      omega
    have hl := t.kernel_length ht hf hc
    simp only [kernelsNorm, genericNorm, chunks, gtMap, List.getElem?_map, List.getElem?_range hi,
      Option.map_some, meanOf, hl, if_true]
    rfl

/-- **C58** is violated for the rows of a non-square matrix: the sum of a row's magnitudes is
divided by the number of rows.  Here the only row of a 1×4 matrix has mean magnitude 1, below the
threshold 2, but is kept. -/
theorem C58_violated_rows : ∃ (t : T2) (thr : ℚ), t.WF ∧ meanOf (chunk t.C 0 t.data) < thr ∧
    (gtMap (rowsNorm t l1Norm 1 true) thr)[0]? = some 1 :=
  ⟨⟨1, 4, [1, 1, 1, 1]⟩, 2, by decide +kernel⟩

/-- … and for columns, the other way round: a column of mean magnitude 3 is pruned with
threshold 2. -/
theorem C58_violated_cols : ∃ (t : T2) (thr : ℚ), t.WF ∧ thr < meanOf (t.col 0) ∧
    (gtMap (colsNorm t l1Norm 1 true) thr)[0]? = some 0 :=
  ⟨⟨1, 4, [3, 3, 3, 3]⟩, 2, by decide +kernel⟩

/-! ## C59: ranking by activations and gradients -/

/-- **C59** (gradient) The gradient-ranked pruner removes exactly `int(fraction * n)` filters, those
with the lowest criterion. -/
theorem C59_gradient_removes_lowest (crit : List ℚ) (fraction : ℚ)
    (hk0 : 0 ≤ pyInt (fraction * crit.length)) (hk : pyInt (fraction * crit.length) ≤ crit.length) :
    (pyInt (fraction * crit.length) = 0 → gradientMap crit fraction = none) ∧
    (pyInt (fraction * crit.length) ≠ 0 → ∃ b, gradientMap crit fraction = some b ∧
      b.length = crit.length ∧ (b.count 0 : ℤ) = pyInt (fraction * crit.length) ∧
      ∀ (i j : ℕ) (x y : ℚ), b[i]? = some 0 → b[j]? = some 1 → crit[i]? = some x → crit[j]? = some y → x ≤ y) := by
  refine ⟨fun h => by simp [gradientMap, h], fun h => ?_⟩
  refine ⟨_, by unfold gradientMap; simp only [h, if_false]; rfl, ?_⟩
  have hs := mapFromOrder_spec (crit.map fun x => -x) (k := (pyInt (fraction * crit.length)).toNat)
    (by rw [List.length_map]; omega)
  rw [List.length_map] at hs
  obtain ⟨h1, h2, h3⟩ := hs
  refine ⟨h1, by omega, ?_⟩
  intro i j x y hi hj hx hy
  have := h3 i j (-x) (-y) hi hj (by simp [hx]) (by simp [hy])
  linarith

/-- **C59** (activations, partial) The activation-ranked pruner removes exactly `int(fraction * n)`
filters – those with the *highest* criterion.  That is right for APoZ (fraction of zeros) … -/
theorem C59_activation_removes_highest_partial (crit : List ℚ) (fraction : ℚ)
    (hk0 : 0 ≤ pyInt (fraction * crit.length)) (hk : pyInt (fraction * crit.length) ≤ crit.length) :
    (pyInt (fraction * crit.length) = 0 → activationMap crit fraction = none) ∧
    (pyInt (fraction * crit.length) ≠ 0 → ∃ b, activationMap crit fraction = some b ∧
      b.length = crit.length ∧ (b.count 0 : ℤ) = pyInt (fraction * crit.length) ∧
      ∀ (i j : ℕ) (x y : ℚ), b[i]? = some 0 → b[j]? = some 1 → crit[i]? = some x → crit[j]? = some y → y ≤ x) := by
  refine ⟨fun h => by simp [activationMap, h], fun h => ?_⟩
  refine ⟨_, by unfold activationMap; simp only [h, if_false]; rfl, ?_⟩
  obtain ⟨h1, h2, h3⟩ := mapFromOrder_spec crit (k := (pyInt (fraction * crit.length)).toNat) (by omega)
  exact ⟨h1, by omega, h3⟩

/-- … **C59** is violated by the mean-activation pruner, which uses the same code: it removes the
most active filter. -/
theorem C59_violated_mean_activation :
    ¬ ∀ (crit : List ℚ) (fraction : ℚ) (b : List ℚ), activationMap crit fraction = some b →
      ∀ (i j : ℕ) (x y : ℚ), b[i]? = some 0 → b[j]? = some 1 → crit[i]? = some x → crit[j]? = some y → x ≤ y := by
  intro h
  have := h [1, 10] (1/2) [1, 0] (by decide +kernel) 1 0 10 1 (by decide +kernel) (by decide +kernel)
    (by decide +kernel) (by decide +kernel)
  norm_num at this

example : activationMap [3, 1, 4, 1, 5] (2/5) = some [1, 1, 0, 1, 0] ∧
    gradientMap [3, 1, 4, 2, 5] (2/5) = some [1, 0, 1, 0, 1] := by decide +kernel

end Verif
