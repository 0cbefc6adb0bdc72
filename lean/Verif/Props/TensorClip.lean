import Verif.Model.TensorClip
import Verif.Props.Stats
/-!
# C144: clipping a tensor is clipping with the statistics of that tensor
-/
namespace Verif

/-! ## Specification -/

/-- Smallest and largest element. -/
def IsMin (x : ℚ) (l : List ℚ) : Prop := x ∈ l ∧ ∀ y ∈ l, x ≤ y
def IsMax (x : ℚ) (l : List ℚ) : Prop := x ∈ l ∧ ∀ y ∈ l, y ≤ x

/-- The arithmetic mean. -/
def average (l : List ℚ) : ℚ := l.sum / l.length

/-- The statistics of one tensor: extremes and mean of all elements, averages over the samples (rows) of the extremes of a sample, mean
absolute deviation; `std` is given. -/
structure IsStatsOf (rows : List Tensor) (std : ℚ) (s : Stats) : Prop where
  min : IsMin s.min rows.flatten
  max : IsMax s.max rows.flatten
  avgMin : ∃ mins, List.Forall₂ (fun m r => IsMin m r) mins rows ∧ s.avgMin = average mins
  avgMax : ∃ maxs, List.Forall₂ (fun m r => IsMax m r) maxs rows ∧ s.avgMax = average maxs
  mean : s.mean = average rows.flatten
  std : s.std = std
  b : s.b = average (rows.flatten.map fun x => |x - average rows.flatten|)

/-! ## Proofs -/

theorem foldl_min_mem (l : List ℚ) (a : ℚ) : l.foldl min a = a ∨ l.foldl min a ∈ l := by
  induction l generalizing a with
  | nil => exact Or.inl rfl
  | cons y l ih =>
    rw [List.foldl_cons]
    rcases ih (min a y) with h | h
    · rw [h]
      rcases min_choice a y with h | h <;> rw [h] <;> simp
    · exact Or.inr (List.mem_cons_of_mem _ h)

theorem foldl_max_mem (l : List ℚ) (a : ℚ) : l.foldl max a = a ∨ l.foldl max a ∈ l := by
  induction l generalizing a with
  | nil => exact Or.inl rfl
  | cons y l ih =>
    rw [List.foldl_cons]
    rcases ih (max a y) with h | h
    · rw [h]
      rcases max_choice a y with h | h <;> rw [h] <;> simp
    · exact Or.inr (List.mem_cons_of_mem _ h)

theorem minmax_spec {t : Tensor} (h : t ≠ []) : ∃ lo hi, tensorMin t = .ok lo ∧ tensorMax t = .ok hi ∧ IsMin lo t ∧ IsMax hi t := by
  cases t with
  | nil => exact absurd rfl h
  | cons y t =>
    refine ⟨_, _, rfl, rfl, ⟨?_, ?_⟩, ⟨?_, ?_⟩⟩
    · rcases foldl_min_mem t y with h | h
      · rw [h]; simp
      · exact List.mem_cons_of_mem _ h
    · intro x hx
      rcases List.mem_cons.1 hx with rfl | hx
      · exact (foldl_min_le t x).1
      · exact (foldl_min_le t y).2 x hx
    · rcases foldl_max_mem t y with h | h
      · rw [h]; simp
      · exact List.mem_cons_of_mem _ h
    · intro x hx
      rcases List.mem_cons.1 hx with rfl | hx
      · exact (le_foldl_max t x).1
      · exact (le_foldl_max t y).2 x hx

theorem IsMin.unique {x y : ℚ} {l : List ℚ} (h : IsMin x l) (h' : IsMin y l) : x = y := le_antisymm (h.2 y h'.1) (h'.2 x h.1)
theorem IsMax.unique {x y : ℚ} {l : List ℚ} (h : IsMax x l) (h' : IsMax y l) : x = y := le_antisymm (h'.2 x h.1) (h.2 y h'.1)

theorem rows_minmax (rows : List Tensor) (h : ∀ r ∈ rows, r ≠ []) :
    ∃ mm, rows.mapM tensorMinMax = .ok mm ∧ List.Forall₂ (fun m r => IsMin m r) (mm.map Prod.fst) rows ∧
      List.Forall₂ (fun m r => IsMax m r) (mm.map Prod.snd) rows := by
  induction rows with
  | nil => exact ⟨[], rfl, .nil, .nil⟩
  | cons r rows ih =>
    obtain ⟨mm, h1, h2, h3⟩ := ih fun r' h' => h r' (by simp [h'])
    obtain ⟨lo, hi, e1, e2, m1, m2⟩ := minmax_spec (h r (by simp))
    refine ⟨(lo, hi) :: mm, ?_, .cons m1 h2, .cons m2 h3⟩
    rw [List.mapM_cons]
    unfold tensorMinMax at h1 ⊢
    rw [e1, e2, h1]
    rfl

theorem forall2_min_unique {a b : List ℚ} {rows : List Tensor} (ha : List.Forall₂ (fun m r => IsMin m r) a rows)
    (hb : List.Forall₂ (fun m r => IsMin m r) b rows) : a = b := by
  induction ha generalizing b with
  | nil => cases hb; rfl
  | cons h _ ih =>
    cases hb with
    | cons h' hb' => rw [h.unique h', ih hb']

theorem forall2_max_unique {a b : List ℚ} {rows : List Tensor} (ha : List.Forall₂ (fun m r => IsMax m r) a rows)
    (hb : List.Forall₂ (fun m r => IsMax m r) b rows) : a = b := by
  induction ha generalizing b with
  | nil => cases hb; rfl
  | cons h _ ih =>
    cases hb with
    | cons h' hb' => rw [h.unique h', ih hb']

theorem flatten_ne {rows : List Tensor} (hr : rows ≠ []) (h : ∀ r ∈ rows, r ≠ []) : rows.flatten ≠ [] := by
  cases rows with
  | nil => exact absurd rfl hr
  | cons r rows =>
    intro e
    rw [List.flatten_cons, List.append_eq_nil_iff] at e
    exact h r (by simp) e.1

/-- The values the code computes for a tensor are its statistics. -/
theorem code_stats {rows : List Tensor} (hr : rows ≠ []) (h : ∀ r ∈ rows, r ≠ []) {std : ℚ} {s : Stats} (hs : IsStatsOf rows std s) :
    tensorMin rows.flatten = .ok s.min ∧ tensorMinMax rows.flatten = .ok (s.min, s.max) ∧ tensorAvgMinMax rows = .ok (s.avgMin, s.avgMax) ∧
    meanQ rows.flatten = s.mean ∧ tensorB rows.flatten = s.b ∧ s.std = std := by
  obtain ⟨lo, hi, e1, e2, m1, m2⟩ := minmax_spec (flatten_ne hr h)
  have h1 : lo = s.min := m1.unique hs.min
  have h2 : hi = s.max := m2.unique hs.max
  subst h1; subst h2
  obtain ⟨mm, f1, f2, f3⟩ := rows_minmax rows h
  obtain ⟨mins, g1, g2⟩ := hs.avgMin
  obtain ⟨maxs, g3, g4⟩ := hs.avgMax
  have k1 := forall2_min_unique f2 g1
  have k2 := forall2_max_unique f3 g3
  refine ⟨e1, by unfold tensorMinMax; rw [e1, e2]; rfl, ?_, hs.mean.symm, ?_, hs.std⟩
  · unfold tensorAvgMinMax
    rw [f1]
    show Except.ok (meanQ _, meanQ _) = _
    rw [k1, k2, g2, g4]
    rfl
  · rw [hs.b]; rfl

theorem max_neg_self {c : ℚ} (h : 0 ≤ c) : max (-c) c = c := max_eq_right (by linarith)

/-- **C144** (partial) For every tensor, bit width, quantization mode and clipping mode, the parameters computed from the tensor are
those computed from the statistics of the tensor (dynamic and static quantization agree on the tensor the statistics were collected
from).  Missing: an asymmetric mode with analytical clipping, if the averaged minimum is not the minimum (`C144_violated_aciq`). -/
theorem C144_same_partial (rows : List Tensor) (hr : rows ≠ []) (hne : ∀ r ∈ rows, r ≠ []) (std : ℚ) (h0 : 0 ≤ std) (s : Stats)
    (hs : IsStatsOf rows std s) (bits : ℕ) (mode : QMode) (clip : ClipMode) (half : Bool) (approx : Option ℕ)
    (hex : mode.isSym = true ∨ (clip ≠ .gauss ∧ clip ≠ .laplace) ∨ s.avgMin = s.min) :
    paramsFromTensorC rows std bits mode clip half approx = paramsFromStats s bits mode clip half approx := by
  obtain ⟨e0, e1, e2, e3, e4, e5⟩ := code_stats hr hne hs
  have hb : 0 ≤ s.b := by
    rw [← e4]
    unfold tensorB meanQ
    apply div_nonneg _ (by positivity)
    apply List.sum_nonneg
    intro x hx
    obtain ⟨y, -, rfl⟩ := List.mem_map.1 hx
    exact abs_nonneg _
  have aS : ∀ lap, aciqSymT rows.flatten std lap bits = (do let r ← aciqSym s lap bits; return max |r.1| |r.2|) := by
    intro lap
    unfold aciqSymT aciqAlphaT aciqSym
    rw [e3, e4, e5]
    cases lap
    · simp only [Bool.false_eq_true, if_false]
      by_cases hbb : 1 ≤ bits ∧ bits ≤ 8
      · obtain ⟨a, ha, e⟩ := alphaGauss_ok false bits hbb.1 hbb.2
        rw [e]
        show Except.ok (max (-(|s.mean| + std * a)) (|s.mean| + std * a)) = Except.ok (max |(-(|s.mean| + std * a))| |(|s.mean| + std * a)|)
        have : 0 ≤ |s.mean| + std * a := by positivity
        rw [abs_neg, max_self, max_neg_self this, abs_of_nonneg this]
      · rw [alphaGauss_err false bits (by omega)]; rfl
    · simp only [if_true]
      by_cases hbb : bits ≤ 8
      · obtain ⟨a, ha, e⟩ := alphaLaplace_ok false bits hbb
        rw [e]
        show Except.ok (max (-(|s.mean| + s.b * a)) (|s.mean| + s.b * a)) = Except.ok (max |(-(|s.mean| + s.b * a))| |(|s.mean| + s.b * a)|)
        have : 0 ≤ |s.mean| + s.b * a := by positivity
        rw [abs_neg, max_self, max_neg_self this, abs_of_nonneg this]
      · rw [alphaLaplace_err false bits (by omega)]; rfl
  have nS : ∀ n, nStdsMinMaxT rows.flatten std n = satFromStats s bits mode (.nStd (some n)) half := by
    intro n
    unfold nStdsMinMaxT satFromStats
    rw [e1, e3, e5]
    rfl
  have hg : satFromStats s bits mode .gauss half = if mode.isSym then aciqSym s false bits else aciqAsym s false half bits := rfl
  have hl : satFromStats s bits mode .laplace half = if mode.isSym then aciqSym s true bits else aciqAsym s true half bits := rfl
  have hsym : mode.isSym = true → satSymT rows std bits clip = (do let r ← satFromStats s bits mode clip half; return max |r.1| |r.2|) := by
    intro hm
    cases clip with
    | none => show tensorMaxAbs _ = _; unfold tensorMaxAbs; rw [e1]; rfl
    | avg => show tensorAvgMaxAbs _ = _; unfold tensorAvgMaxAbs; rw [e2]; rfl
    | nStd k =>
      cases k with
      | none => rfl
      | some n =>
        show (do let mm ← nStdsMinMaxT rows.flatten std n; return max |mm.1| |mm.2|) = _
        rw [nS]
    | gauss => show aciqSymT _ _ _ _ = _; rw [aS, hg, if_pos hm]
    | laplace => show aciqSymT _ _ _ _ = _; rw [aS, hl, if_pos hm]
  have aA : s.avgMin = s.min → ∀ lap, aciqAsymT rows.flatten std lap half bits = aciqAsym s lap half bits := by
    intro heq lap
    unfold aciqAsymT aciqAlphaT aciqAsym
    rw [e0, e3, e4, e5, heq]
    rfl
  have hasym : mode.isSym ≠ true → satAsymT rows std bits half clip = satFromStats s bits mode clip half := by
    intro hm
    cases clip with
    | none => show tensorMinMax _ = _; rw [e1]; rfl
    | avg => show tensorAvgMinMax _ = _; rw [e2]; rfl
    | nStd k =>
      cases k with
      | none => rfl
      | some n => exact nS n
    | gauss =>
      show aciqAsymT _ _ _ _ _ = _
      rw [hg, if_neg hm]
      rcases hex with h | h | h
      · exact absurd h hm
      · exact absurd rfl h.1
      · exact aA h false
    | laplace =>
      show aciqAsymT _ _ _ _ _ = _
      rw [hl, if_neg hm]
      rcases hex with h | h | h
      · exact absurd h hm
      · exact absurd rfl h.2
      · exact aA h true
  unfold paramsFromTensorC paramsFromStats modeParams
  by_cases hm : mode.isSym = true
  · rw [if_pos hm, hsym hm]
    simp only [hm, if_true]
    cases satFromStats s bits mode clip half <;> rfl
  · rw [if_neg hm, hasym hm]
    simp only [hm, if_false, Bool.false_eq_true]
    cases satFromStats s bits mode clip half <;> rfl

/-- **C144** Without clipping and with averaged extremes, for every tensor: the parameters the layers compute for a tensor are those of its
statistics. -/
theorem C144_layers (rows : List Tensor) (hr : rows ≠ []) (hne : ∀ r ∈ rows, r ≠ []) (std : ℚ) (h0 : 0 ≤ std) (s : Stats)
    (hs : IsStatsOf rows std s) (bits : ℕ) (mode : QMode) (half : Bool) (approx : Option ℕ) :
    paramsFromTensor rows bits mode .none approx = paramsFromStats s bits mode .none half approx ∧
    paramsFromTensor rows bits mode .avg approx = paramsFromStats s bits mode .avg half approx := by
  constructor
  · rw [← C144_same_partial rows hr hne std h0 s hs bits mode .none half approx (.inr (.inl ⟨by simp, by simp⟩))]; rfl
  · rw [← C144_same_partial rows hr hne std h0 s hs bits mode .avg half approx (.inr (.inl ⟨by simp, by simp⟩))]; rfl

theorem sum_le_sum_forall2 {R : ℚ → Tensor → Prop} {ms : List ℚ} {rows : List Tensor} (h : List.Forall₂ R ms rows) (L : ℕ)
    (hL : ∀ r ∈ rows, r.length = L) :
    (∀ hR : ∀ m r, R m r → ∀ y ∈ r, m ≤ y, (L : ℚ) * ms.sum ≤ rows.flatten.sum) ∧
    (∀ hR : ∀ m r, R m r → ∀ y ∈ r, y ≤ m, rows.flatten.sum ≤ (L : ℚ) * ms.sum) := by
  induction h with
  | nil => simp
  | cons h _ ih =>
    rename_i m r ms rows _
    obtain ⟨i1, i2⟩ := ih fun r' h' => hL r' (by simp [h'])
    have hl := hL r (by simp)
    constructor
    · intro hR
      have : (L : ℚ) * m ≤ r.sum := by
        have := List.card_nsmul_le_sum r m (hR m r h)
        rw [hl, nsmul_eq_mul] at this
        exact this
      have := i1 hR
      rw [List.sum_cons, List.flatten_cons, List.sum_append]
      linarith
    · intro hR
      have : r.sum ≤ (L : ℚ) * m := by
        have := List.sum_le_card_nsmul r m (hR m r h)
        rw [hl, nsmul_eq_mul] at this
        exact this
      have := i2 hR
      rw [List.sum_cons, List.flatten_cons, List.sum_append]
      linarith

theorem flatten_length (rows : List Tensor) (L : ℕ) (hL : ∀ r ∈ rows, r.length = L) : rows.flatten.length = L * rows.length := by
  induction rows with
  | nil => rfl
  | cons r rows ih =>
    rw [List.flatten_cons, List.length_append, hL r (by simp), ih fun r' h' => hL r' (by simp [h']), List.length_cons]
    ring

/-- **C144** The statistics of a tensor whose samples have the same size are consistent: extremes, averaged extremes and mean are in order.  So
every clipping mode chooses a proper range around the mean of the tensor, which lies within the extremes of the tensor unless
clipping is analytical (C83). -/
theorem C144_consistent (rows : List Tensor) (L : ℕ) (hL0 : 0 < L) (hL : ∀ r ∈ rows, r.length = L) (hr : rows ≠ []) (std : ℚ) (h0 : 0 ≤ std)
    (s : Stats) (hs : IsStatsOf rows std s) : s.Consistent := by
  have hn : (0 : ℚ) < rows.length := by exact_mod_cast List.length_pos_iff.2 hr
  have hLq : (0 : ℚ) < L := by exact_mod_cast hL0
  have hlen := flatten_length rows L hL
  obtain ⟨mins, g1, g2⟩ := hs.avgMin
  obtain ⟨maxs, g3, g4⟩ := hs.avgMax
  have l1 := g1.length_eq
  have l2 := g3.length_eq
  have hmean : s.mean = rows.flatten.sum / (L * rows.length) := by
    rw [hs.mean]; unfold average; rw [hlen]; push_cast; rfl
  have s1 := (sum_le_sum_forall2 g1 L hL).1 (fun m r h => h.2)
  have s2 := (sum_le_sum_forall2 g3 L hL).2 (fun m r h => h.2)
  have memMin : ∀ m ∈ mins, s.min ≤ m := by
    intro m hm
    obtain ⟨i, hi, rfl⟩ := List.getElem_of_mem hm
    have := List.Forall₂.get g1 hi (by omega)
    exact hs.min.2 _ (List.mem_flatten.2 ⟨_, List.getElem_mem _, this.1⟩)
  have memMax : ∀ m ∈ maxs, m ≤ s.max := by
    intro m hm
    obtain ⟨i, hi, rfl⟩ := List.getElem_of_mem hm
    have := List.Forall₂.get g3 hi (by omega)
    exact hs.max.2 _ (List.mem_flatten.2 ⟨_, List.getElem_mem _, this.1⟩)
  refine ⟨?_, ?_, ?_, ?_, by rw [hs.std]; exact h0, ?_⟩
  · rw [g2]; unfold average; rw [l1, le_div_iff₀ hn]
    have := List.card_nsmul_le_sum mins s.min memMin
    rw [l1, nsmul_eq_mul] at this
    linarith
  · rw [g2, hmean]; unfold average; rw [l1, div_le_div_iff₀ hn (by positivity)]
    nlinarith
  · rw [g4, hmean]; unfold average; rw [l2, div_le_div_iff₀ (by positivity) hn]
    nlinarith
  · rw [g4]; unfold average; rw [l2, div_le_iff₀ hn]
    have := List.sum_le_card_nsmul maxs s.max memMax
    rw [l2, nsmul_eq_mul] at this
    linarith
  · rw [hs.b]; unfold average
    apply div_nonneg _ (by positivity)
    apply List.sum_nonneg
    intro x hx
    obtain ⟨y, -, rfl⟩ := List.mem_map.1 hx
    exact abs_nonneg _

/-- Two samples; the statistics. -/
def exRows : List Tensor := [[-4, 0], [0, 4]]
def exRowStats : Stats := ⟨-4, 4, -2, 2, 0, 3, 2⟩

theorem exRows_stats : IsStatsOf exRows 3 exRowStats where
  min := ⟨by decide +kernel, by decide +kernel⟩
  max := ⟨by decide +kernel, by decide +kernel⟩
  avgMin := ⟨[-4, 0], .cons ⟨by decide +kernel, by decide +kernel⟩ (.cons ⟨by decide +kernel, by decide +kernel⟩ .nil), by decide +kernel⟩
  avgMax := ⟨[0, 4], .cons ⟨by decide +kernel, by decide +kernel⟩ (.cons ⟨by decide +kernel, by decide +kernel⟩ .nil), by decide +kernel⟩
  mean := by decide +kernel
  std := rfl
  b := by decide +kernel

example : exRows ≠ [] ∧ (∀ r ∈ exRows, r ≠ []) ∧ (∀ r ∈ exRows, r.length = 2) ∧
    paramsFromTensorC exRows 3 8 .asymmetricUnsigned .avg false none = .ok (255/4, -128) ∧
    paramsFromTensorC exRows 3 8 .symmetric (.nStd (some 1)) false none = .ok (85/2, 0) ∧
    paramsFromTensorC exRows 3 2 .symmetric .laplace false none = .ok (75/283, 0) := by
  refine ⟨by decide, by decide, by decide, by decide +kernel, by decide +kernel, by decide +kernel⟩

/-- **C144** is violated by analytical clipping in asymmetric modes: on a tensor the range starts at the minimum of all elements, with the
statistics of the same tensor at the averaged minimum. -/
theorem C144_violated_aciq : IsStatsOf exRows 3 exRowStats ∧
    satAsymT exRows 3 8 false .laplace = .ok (-4, 3556/100) ∧
    satFromStats exRowStats 8 .asymmetricUnsigned .laplace false = .ok (-2, 3756/100) ∧
    paramsFromTensorC exRows 3 8 .asymmetricUnsigned .laplace false none ≠
      paramsFromStats exRowStats 8 .asymmetricUnsigned .laplace false none :=
  ⟨exRows_stats, by decide +kernel, by decide +kernel, by decide +kernel⟩

/-- **C144** (violation) With averaged extremes the samples of a vector are its elements, so the range is the single point at the mean: all
values other than those near zero and the mean are clipped. -/
theorem C144_violated_vector (x : List ℚ) (hx : x ≠ []) (std : ℚ) (bits : ℕ) (half : Bool) :
    satAsymT (x.map fun a => [a]) std bits half .avg = .ok (average x, average x) := by
  have hm : (x.map fun a => [a]).mapM tensorMinMax = .ok (x.map fun a => (a, a)) := by
    clear hx
    induction x with
    | nil => rfl
    | cons a x ih =>
      rw [List.map_cons, List.mapM_cons, ih]
      rfl
  show tensorAvgMinMax _ = _
  unfold tensorAvgMinMax
  rw [hm]
  show Except.ok (meanQ _, meanQ _) = _
  simp only [List.map_map, Function.comp_def, List.map_id']
  rfl

/-- **C144** (violation) Per-channel parameters with any clipping are refused: with a `ValueError` for a number of deviations, with an
`IndexError` otherwise. -/
theorem C144_violated_per_channel (rows : List Tensor) (std : ℚ) (bits : ℕ) (mode : QMode) (half : Bool) (approx : Option ℕ)
    (clip : ClipMode) (hc : clip ≠ .none) : ∃ e, paramsPerChannelC rows std bits mode clip half approx = .error e := by
  cases clip with
  | none => exact absurd rfl hc
  | nStd k => exact ⟨_, rfl⟩
  | avg =>
    show ∃ e, (do let _ ← paramsFromTensorC rows std bits mode .avg half approx; (.error .index : Except Err (List (ℚ × ℚ)))) = .error e
    cases paramsFromTensorC rows std bits mode .avg half approx <;> exact ⟨_, rfl⟩
  | gauss =>
    show ∃ e, (do let _ ← paramsFromTensorC rows std bits mode .gauss half approx; (.error .index : Except Err (List (ℚ × ℚ)))) = .error e
    cases paramsFromTensorC rows std bits mode .gauss half approx <;> exact ⟨_, rfl⟩
  | laplace =>
    show ∃ e, (do let _ ← paramsFromTensorC rows std bits mode .laplace half approx; (.error .index : Except Err (List (ℚ × ℚ)))) = .error e
    cases paramsFromTensorC rows std bits mode .laplace half approx <;> exact ⟨_, rfl⟩

end Verif
