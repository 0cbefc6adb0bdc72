import Verif.Model.MaskSummary
import Verif.Props.Metrics
/-!
# C114: the mask summary
-/
namespace Verif

/-- Number of elements of an entry that are masked (none if it has no mask). -/
def maskedIn (e : MaskEntry) : ℕ :=
  match e.masker with
  | some (some m) => m.count 0
  | _ => 0

/-- A parameter as the scheduler keeps it: it has a masker, whose mask, if any, has its shape; it is not empty. -/
structure GoodEntry (e : MaskEntry) : Prop where
  masker : e.masker.isSome
  shape : ∀ m, e.masker = some (some m) → m.length = e.data.length
  size : e.data ≠ []

theorem maskDensity_good {e : MaskEntry} (h : GoodEntry e) :
    maskDensity e = .ok (1 - (maskedIn e : ℚ) / e.data.length) := by
  obtain ⟨h1, h2, h3⟩ := h
  unfold maskDensity maskedIn
  match hm : e.masker with
  | none => rw [hm] at h1; cases h1
  | some none => simp
  | some (some m) =>
    have hl := h2 m hm
    have h0 : e.data.length ≠ 0 := by simpa using h3
    have hq : (e.data.length : ℚ) ≠ 0 := by exact_mod_cast h0
    simp only [density]
    rw [if_neg (by rw [hl]; exact h0), hl]
    congr 1
    have := count_split m
    have hs : (m.count 0 : ℚ) + ((m.countP fun x => |x| > 0 : ℕ) : ℚ) = e.data.length := by rw [← hl]; exact_mod_cast this
    rw [eq_sub_iff_add_eq, ← add_div, add_comm, hs, div_self hq]

/-- **C114** The summary lists every covered parameter with the percentage of its elements that are masked, and as
total the percentage of all covered elements that are masked. -/
theorem C114_summary (l : List MaskEntry) (hg : ∀ e ∈ l, e.counted = true → GoodEntry e) (hex : ∃ e ∈ l, e.counted = true) :
    masksSummary l = .ok ((l.filter (·.counted)).map (fun e => 100 * ((maskedIn e : ℚ) / e.data.length)),
      100 * ((((l.filter (·.counted)).map maskedIn).sum : ℕ) / (((l.filter (·.counted)).map fun e => e.data.length).sum : ℕ))) := by
  have H : ∀ (l : List MaskEntry) (r : List ℚ) (a b : ℚ), (∀ e ∈ l, e.counted = true → GoodEntry e) →
      l.foldlM maskSummaryStep (r, a, b) = .ok (r ++ (l.filter (·.counted)).map (fun e => 100 * ((maskedIn e : ℚ) / e.data.length)),
        a + (((l.filter (·.counted)).map fun e => e.data.length).sum : ℕ),
        b + ((((l.filter (·.counted)).map fun e => e.data.length).sum : ℕ) - (((l.filter (·.counted)).map maskedIn).sum : ℕ))) := by
    intro l
    induction l with
    | nil => intro r a b _; simp; rfl
    | cons e l ih =>
      intro r a b h
      rw [List.foldlM_cons]
      have ih := fun r a b => ih r a b fun e' he => h e' (List.mem_cons_of_mem _ he)
      by_cases hc : e.counted = true
      · have hge := h e (by simp) hc
        have hq : (e.data.length : ℚ) ≠ 0 := by
          have : e.data.length ≠ 0 := by simpa using hge.size
          exact_mod_cast this
        have : maskSummaryStep (r, a, b) e = .ok (r ++ [100 * ((maskedIn e : ℚ) / e.data.length)], a + e.data.length,
            b + (e.data.length - maskedIn e)) := by
          unfold maskSummaryStep
          rw [if_pos hc, maskDensity_good hge]
          simp only [Except.map]
          congr 3
          · congr 1; ring
          · congr 1
            field_simp
        rw [this]
        change List.foldlM maskSummaryStep _ l = _
        rw [ih, List.filter_cons_of_pos (by simpa using hc)]
        simp only [List.map_cons, List.sum_cons, List.append_assoc, List.singleton_append]
        push_cast
        congr 3
        · ring
        · ring
      · have : maskSummaryStep (r, a, b) e = .ok (r, a, b) := by
          unfold maskSummaryStep; rw [if_neg hc]
        rw [this]
        change List.foldlM maskSummaryStep _ l = _
        rw [ih, List.filter_cons_of_neg (by simpa using hc)]
  unfold masksSummary
  rw [H l [] 0 0 hg]
  set n : ℕ := ((l.filter (·.counted)).map fun e => e.data.length).sum with hn
  have hpos : n ≠ 0 := by
    obtain ⟨e, he, hc⟩ := hex
    have h1 : e.data.length ≠ 0 := by simpa using (hg e he hc).size
    have h2 : e.data.length ≤ n := List.single_le_sum (by simp) _ (List.mem_map.2 ⟨e, List.mem_filter.2 ⟨he, hc⟩, rfl⟩)
    omega
  have hq : (n : ℚ) ≠ 0 := by exact_mod_cast hpos
  simp only [Except.bind, zero_add, List.nil_append]
  rw [if_neg hq]
  congr 2
  field_simp
  ring

theorem maskedIn_le {e : MaskEntry} (h : ∀ m, e.masker = some (some m) → m.length = e.data.length ∧ ZeroWhere m e.data) :
    maskedIn e ≤ e.data.count 0 := by
  unfold maskedIn
  match hm : e.masker with
  | none => simp
  | some none => simp
  | some (some m) =>
    obtain ⟨hl, hz⟩ := h m hm
    simp only
    generalize e.data = w at hl hz
    clear hm
    induction m generalizing w with
    | nil => simp
    | cons x m ih =>
      match w with
      | [] => simp at hl
      | y :: w =>
        have h1 := ih w (by simpa using hl) (by
          intro i hi z hz'
          exact hz (i + 1) (by simpa using hi) z (by simpa using hz'))
        have h2 : x = 0 → y = 0 := fun e => hz 0 (by simp [e]) y (by simp)
        rw [List.count_cons, List.count_cons]
        by_cases hx : x = 0
        · simp [hx, h2 hx, h1]
        · simp [hx]; omega

/-- **C114** The total never exceeds the weight sparsity that `model_params_stats` reports once the masks have been
applied. -/
theorem C114_bound (l : List MaskEntry) (hg : ∀ e ∈ l, e.counted = true → GoodEntry e) (hex : ∃ e ∈ l, e.counted = true)
    (hz : ∀ e ∈ l, ∀ m, e.masker = some (some m) → ZeroWhere m e.data) :
    ∃ rows total stats, masksSummary l = .ok (rows, total) ∧
      modelParamsStats (l.map fun e => ⟨e.counted, e.data⟩) = .ok stats ∧ total ≤ stats.1 := by
  have h1 := C114_summary l hg hex
  have h2 := C61_model_stats (l.map fun e => ⟨e.counted, e.data⟩)
    (by intro e he hc; obtain ⟨e', he', rfl⟩ := List.mem_map.1 he; exact (hg e' he' hc).size)
    (by obtain ⟨e, he, hc⟩ := hex; exact ⟨_, List.mem_map.2 ⟨e, he, rfl⟩, hc⟩)
  refine ⟨_, _, _, h1, h2, ?_⟩
  have hf : ((l.map fun e => (⟨e.counted, e.data⟩ : StatEntry)).filter (·.counted)).flatMap (·.data) =
      (l.filter (·.counted)).flatMap (·.data) := by
    rw [List.filter_map, List.flatMap_map]; rfl
  have hn : ((l.filter (·.counted)).map fun e => e.data.length).sum = ((l.filter (·.counted)).flatMap (·.data)).length := by
    rw [List.length_flatMap]
  have hc : ((l.filter (·.counted)).map maskedIn).sum ≤ ((l.filter (·.counted)).flatMap (·.data)).count 0 := by
    rw [List.count_flatMap]
    refine List.sum_le_sum fun e he => ?_
    have he' := (List.mem_filter.1 he)
    refine maskedIn_le fun m hm => ⟨(hg e he'.1 (by simpa using he'.2)).shape m hm, hz e he'.1 m hm⟩
  simp only [hf, hn]
  have hcq : ((((l.filter (·.counted)).map maskedIn).sum : ℕ) : ℚ) ≤ ((((l.filter (·.counted)).flatMap (·.data)).count 0 : ℕ) : ℚ) := by
    exact_mod_cast hc
  have : (0 : ℚ) ≤ ((((l.filter (·.counted)).flatMap (·.data)).length : ℕ) : ℚ) := Nat.cast_nonneg _
  have := div_le_div_of_nonneg_right hcq this
  linarith

def exMasks : List MaskEntry := [⟨true, [0, 3, 0], some (some [0, 1, 1])⟩, ⟨true, [4], some none⟩, ⟨false, [5], none⟩]

example : (∀ e ∈ exMasks, e.counted = true → GoodEntry e) ∧ masksSummary exMasks = .ok ([100 / 3, 0], 25) := by
  refine ⟨?_, by decide +kernel⟩
  intro e he hc
  simp only [exMasks, List.mem_cons, List.not_mem_nil, or_false] at he
  rcases he with rfl | rfl | rfl
  · exact ⟨rfl, by intro m h; cases h; rfl, by simp⟩
  · exact ⟨rfl, fun m h => (by cases h), by simp⟩
  · cases hc

/-- **C114** is violated by models with a covered buffer (2-D or 4-D, with `weight` or `bias` in its name): it has no
masker, and the summary raises `KeyError`. -/
theorem C114_violated_buffers (pre post : List MaskEntry) (e : MaskEntry) (hp : ∀ e ∈ pre, e.counted = true → GoodEntry e)
    (hc : e.counted = true) (hm : e.masker = none) : masksSummary (pre ++ e :: post) = .error .key := by
  have H : ∀ acc, (pre ++ e :: post).foldlM maskSummaryStep acc = .error .key := by
    induction pre with
    | nil =>
      intro acc
      rw [List.nil_append, List.foldlM_cons]
      have : maskSummaryStep acc e = .error .key := by
        unfold maskSummaryStep maskDensity; rw [if_pos hc, hm]; rfl
      rw [this]; rfl
    | cons x pre ih =>
      intro acc
      rw [List.cons_append, List.foldlM_cons]
      have ih := ih fun e' he => hp e' (List.mem_cons_of_mem _ he)
      by_cases hx : x.counted = true
      · unfold maskSummaryStep
        rw [if_pos hx, maskDensity_good (hp x (by simp) hx)]
        exact ih _
      · unfold maskSummaryStep
        rw [if_neg hx]
        exact ih _
  unfold masksSummary
  rw [H]; rfl

end Verif
