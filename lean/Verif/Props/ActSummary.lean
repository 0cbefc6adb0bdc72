import Verif.Model.ActSummary
import Verif.Props.Collectors
import Mathlib.Tactic.Ring
import Mathlib.Tactic.FieldSimp
import Mathlib.Tactic.Linarith
/-!
# C137: activation summaries are those of the whole data set
-/
namespace Verif

/-! ## The specification -/

/-- All values of channel `c` in a list of samples. -/
def chanValues (samples : List (List (List ℚ))) (c : ℕ) : List ℚ := samples.flatMap fun s => s.getD c []

/-- What a per-channel statistic means for a whole data set: the average over the samples of the sum of the
absolute values, the average of the values, the percentage of zeros. -/
def dataStat (st : ChanStat) (samples : List (List (List ℚ))) (c : ℕ) : ℚ :=
  match st with
  | .l1 => ((chanValues samples c).map fun x => |x|).sum / samples.length
  | .mean => (chanValues samples c).sum / (chanValues samples c).length
  | .apoz => 100 * ((chanValues samples c).countP fun x => x = 0) / (chanValues samples c).length

/-- Every activation has at least one sample, and every sample `chans` channels of `size` elements. -/
structure Shaped (chans size : ℕ) (xs : List Act4) : Prop where
  ne : ∀ x ∈ xs, x ≠ []
  chans : ∀ x ∈ xs, ∀ s ∈ x, s.length = chans
  size : ∀ x ∈ xs, ∀ s ∈ x, ∀ v ∈ s, v.length = size

/-! ## The statistic -/

theorem last_affine (st : ChanStat) : ∃ a b : ℚ, ∀ m, st.last m = a + b * m := by
  cases st
  · exact ⟨0, 1, fun m => by simp [ChanStat.last]⟩
  · exact ⟨0, 1, fun m => by simp [ChanStat.last]⟩
  · exact ⟨100, -100, fun m => by simp [ChanStat.last]; ring⟩

/-- The pairs (value, weight) given to the meter of channel `c`. -/
def chanPairs (st : ChanStat) (chans size : ℕ) (c : ℕ) (xs : List Act4) : List (ℚ × ℚ) :=
  xs.map fun x => (st.last (batchMean st x c), ((x.length * (chans * size) : ℕ) : ℚ))

theorem meterAddAll_snoc (l : List (ℚ × ℚ)) (x : ℚ × ℚ) : meterAddAll (l ++ [x]) = ((meterAddAll l).add x.1 x.2).1 := by
  simp [meterAddAll]

theorem summaryRun_spec (st : ChanStat) (chans size : ℕ) (xs pre : List Act4) (hk : 0 < chans * size)
    (hpre : pre ≠ []) (hx : ∀ x ∈ xs, x ≠ []) :
    summaryRun st chans size (some ((List.range chans).map fun c => meterAddAll (chanPairs st chans size c pre))) xs =
      .ok (some ((List.range chans).map fun c => meterAddAll (chanPairs st chans size c (pre ++ xs)))) := by
  induction xs generalizing pre with
  | nil => simp [summaryRun]
  | cons x xs ih =>
    have hx0 : x ≠ [] := hx x (by simp)
    have hpos : (0 : ℚ) < ((x.length * (chans * size) : ℕ) : ℚ) := by
      exact_mod_cast Nat.mul_pos (List.length_pos_iff.2 hx0) hk
    have hv : vecAdd (some ((List.range chans).map fun c => meterAddAll (chanPairs st chans size c pre))) (chanSummary4 st chans x)
        ((x.length * (chans * size) : ℕ) : ℚ) =
        .ok ((List.range chans).map fun c => meterAddAll (chanPairs st chans size c (pre ++ [x]))) := by
      unfold vecAdd
      simp only
      rw [if_neg (by simp [chanSummary4]), if_neg (not_le.2 hpos)]
      congr 1
      unfold chanSummary4
      rw [List.zipWith_map, List.zipWith_self]
      apply List.map_congr_left
      intro c _
      unfold chanPairs
      rw [List.map_append, List.map_singleton, meterAddAll_snoc]
    unfold summaryRun
    rw [hv]
    simp only [bind, Except.bind]
    rw [ih (pre ++ [x]) (by simp) (fun y hy => hx y (by simp [hy])), List.append_assoc]
    rfl

theorem summaryRun_all (st : ChanStat) (chans size : ℕ) (xs : List Act4) (hk : 0 < chans * size) (hne : xs ≠ [])
    (hx : ∀ x ∈ xs, x ≠ []) :
    summaryRun st chans size none xs = .ok (some ((List.range chans).map fun c => meterAddAll (chanPairs st chans size c xs))) := by
  cases xs with
  | nil => exact absurd rfl hne
  | cons x xs =>
    have hpos : (0 : ℚ) < ((x.length * (chans * size) : ℕ) : ℚ) := by
      exact_mod_cast Nat.mul_pos (List.length_pos_iff.2 (hx x (by simp))) hk
    have hv : vecAdd none (chanSummary4 st chans x) ((x.length * (chans * size) : ℕ) : ℚ) =
        .ok ((List.range chans).map fun c => meterAddAll (chanPairs st chans size c [x])) := by
      unfold vecAdd
      simp only
      rw [if_neg (not_le.2 hpos)]
      congr 1
      unfold chanSummary4
      rw [List.map_map]
      rfl
    unfold summaryRun
    rw [hv]
    simp only [bind, Except.bind]
    rw [summaryRun_spec st chans size xs [x] hk (by simp) (fun y hy => hx y (by simp [hy]))]
    rfl

theorem chanPairs_wtot (st : ChanStat) (chans size c : ℕ) (xs : List Act4) :
    wtot (chanPairs st chans size c xs) = (xs.flatten.length : ℚ) * ((chans * size : ℕ) : ℚ) := by
  induction xs with
  | nil => simp [chanPairs, wtot]
  | cons x xs ih =>
    have : wtot (chanPairs st chans size c (x :: xs)) = ((x.length * (chans * size) : ℕ) : ℚ) + wtot (chanPairs st chans size c xs) := by
      simp [chanPairs, wtot]
    rw [this, ih, List.flatten_cons, List.length_append]
    push_cast
    ring

theorem chanPairs_wsum (st : ChanStat) (chans size c : ℕ) (a b : ℚ) (hab : ∀ m, st.last m = a + b * m) (xs : List Act4) (hx : ∀ x ∈ xs, x ≠ []) :
    wsum (chanPairs st chans size c xs) =
      ((chans * size : ℕ) : ℚ) * (a * xs.flatten.length + b * (xs.flatten.map fun s => st.one (s.getD c [])).sum) := by
  induction xs with
  | nil => simp [chanPairs, wsum]
  | cons x xs ih =>
    have h1 : wsum (chanPairs st chans size c (x :: xs)) =
        ((x.length * (chans * size) : ℕ) : ℚ) * st.last (batchMean st x c) + wsum (chanPairs st chans size c xs) := by
      simp [chanPairs, wsum]
    have hl : (x.length : ℚ) ≠ 0 := by
      have := List.length_pos_iff.2 (hx x (by simp))
      exact_mod_cast this.ne'
    rw [h1, ih (fun y hy => hx y (by simp [hy])), hab, List.flatten_cons, List.length_append, List.map_append, List.sum_append]
    unfold batchMean
    push_cast
    field_simp
    ring

theorem chan_mean (st : ChanStat) (chans size c : ℕ) (xs : List Act4) (hk : 0 < chans * size) (hne : xs ≠ []) (hx : ∀ x ∈ xs, x ≠ []) :
    (meterAddAll (chanPairs st chans size c xs)).mean =
      st.last ((xs.flatten.map fun s => st.one (s.getD c [])).sum / xs.flatten.length) := by
  obtain ⟨a, b, hab⟩ := last_affine st
  have hk' : ((chans * size : ℕ) : ℚ) ≠ 0 := by exact_mod_cast hk.ne'
  have hl : (xs.flatten.length : ℚ) ≠ 0 := by
    cases xs with
    | nil => exact absurd rfl hne
    | cons x xs =>
      have := List.length_pos_iff.2 (hx x (by simp))
      rw [List.flatten_cons, List.length_append]
      have : 0 < x.length + xs.flatten.length := by omega
      exact_mod_cast this.ne'
  rw [(C47_meter _ ?_ ?_).1, chanPairs_wtot, chanPairs_wsum st chans size c a b hab xs hx, hab]
  · field_simp
  · intro vn hvn
    obtain ⟨x, hxm, rfl⟩ := List.mem_map.1 hvn
    have := Nat.mul_pos (List.length_pos_iff.2 (hx x hxm)) hk
    show (0 : ℚ) < ((x.length * (chans * size) : ℕ) : ℚ)
    exact_mod_cast this
  · simpa [chanPairs] using hne

theorem one_sum (st : ChanStat) (size c : ℕ) (samples : List (List (List ℚ))) (hs : ∀ s ∈ samples, (s.getD c []).length = size)
    (hsz : 0 < size) (hne : samples ≠ []) :
    st.last ((samples.map fun s => st.one (s.getD c [])).sum / samples.length) = dataStat st samples c := by
  have hlen : (chanValues samples c).length = samples.length * size := by
    clear hne
    induction samples with
    | nil => simp [chanValues]
    | cons s r ih =>
      have : chanValues (s :: r) c = s.getD c [] ++ chanValues r c := by simp [chanValues]
      rw [this, List.length_append, hs s (by simp), ih (fun t ht => hs t (by simp [ht])), List.length_cons]
      ring
  have hsz' : (size : ℚ) ≠ 0 := by exact_mod_cast hsz.ne'
  have hl : (samples.length : ℚ) ≠ 0 := by exact_mod_cast (List.length_pos_iff.2 hne).ne'
  cases st with
  | l1 =>
    have : (samples.map fun s => ChanStat.one .l1 (s.getD c [])).sum = ((chanValues samples c).map fun x => |x|).sum := by
      clear hlen hl hne hs
      induction samples with
      | nil => simp [chanValues]
      | cons s r ih =>
        have : chanValues (s :: r) c = s.getD c [] ++ chanValues r c := by simp [chanValues]
        rw [this, List.map_append, List.sum_append, List.map_cons, List.sum_cons, ih]
        rfl
    simp only [ChanStat.last, dataStat, this]
  | mean =>
    have : (samples.map fun s => ChanStat.one .mean (s.getD c [])).sum = (chanValues samples c).sum / size := by
      clear hlen hl hne
      induction samples with
      | nil => simp [chanValues]
      | cons s r ih =>
        have e : chanValues (s :: r) c = s.getD c [] ++ chanValues r c := by simp [chanValues]
        rw [e, List.sum_append, List.map_cons, List.sum_cons, ih (fun t ht => hs t (by simp [ht]))]
        simp only [ChanStat.one, hs s (by simp)]
        ring
    simp only [ChanStat.last, dataStat, this, hlen]
    push_cast
    field_simp
  | apoz =>
    have hz : ∀ v : List ℚ, ((v.filter fun x => 0 < |x|).length : ℚ) = v.length - (v.countP fun x => x = 0) := by
      intro v
      induction v with
      | nil => simp
      | cons x v ih =>
        by_cases h : x = 0
        · have h0 : ¬ 0 < |x| := by simp [h]
          rw [List.filter_cons_of_neg (by simpa using h0), List.countP_cons_of_pos (by simpa using h), List.length_cons, ih]
          push_cast
          ring
        · have h0 : 0 < |x| := abs_pos.2 h
          rw [List.filter_cons_of_pos (by simpa using h0), List.countP_cons_of_neg (by simpa using h), List.length_cons, List.length_cons]
          push_cast
          rw [ih]
          ring
    have : (samples.map fun s => ChanStat.one .apoz (s.getD c [])).sum = samples.length - ((chanValues samples c).countP fun x => x = 0 : ℕ) / size := by
      clear hlen hl hne
      induction samples with
      | nil => simp [chanValues]
      | cons s r ih =>
        have e : chanValues (s :: r) c = s.getD c [] ++ chanValues r c := by simp [chanValues]
        rw [e, List.countP_append, List.map_cons, List.sum_cons, ih (fun t ht => hs t (by simp [ht]))]
        simp only [ChanStat.one, hz, hs s (by simp), List.length_cons]
        push_cast
        field_simp
        ring
    simp only [ChanStat.last, dataStat, this, hlen]
    push_cast
    field_simp
    ring

/-- **C137** (per-channel statistics): after any sequence of activations of one shape, in batches of any sizes, the
collector reports for every channel the statistic of the whole data: mean L1 magnitude per sample, mean value, or
percentage of zeros. -/
theorem C137_channels_partial (st : ChanStat) (chans size : ℕ) (xs : List Act4) (hc : 0 < chans) (hs : 0 < size) (hne : xs ≠ [])
    (hx : Shaped chans size xs) :
    ∃ ms, summaryRun st chans size none xs = .ok (some ms) ∧
      ms.map WMeter.mean = (List.range chans).map fun c => dataStat st xs.flatten c := by
  refine ⟨_, summaryRun_all st chans size xs (Nat.mul_pos hc hs) hne hx.ne, ?_⟩
  rw [List.map_map]
  apply List.map_congr_left
  intro c hcm
  have hcm := List.mem_range.1 hcm
  show (meterAddAll (chanPairs st chans size c xs)).mean = _
  rw [chan_mean st chans size c xs (Nat.mul_pos hc hs) hne hx.ne]
  refine one_sum st size c _ ?_ hs ?_
  · intro s hsm
    obtain ⟨x, hxm, hsx⟩ := List.mem_flatten.1 hsm
    have h1 : c < s.length := by rw [hx.chans x hxm s hsx]; exact hcm
    have hg : s.getD c [] = s[c] := by simp [List.getD, h1]
    rw [hg]
    exact hx.size x hxm s hsx _ (List.getElem_mem h1)
  · cases xs with
    | nil => exact absurd rfl hne
    | cons x r =>
      have := hx.ne x (by simp)
      simp [this]

/-- **C137** (batching): the report does not depend on how the samples were divided into batches. -/
theorem C137_batching (st : ChanStat) (chans size : ℕ) (xs ys : List Act4) (hc : 0 < chans) (hs : 0 < size) (hx0 : xs ≠ []) (hy0 : ys ≠ [])
    (hx : Shaped chans size xs) (hy : Shaped chans size ys) (h : xs.flatten = ys.flatten) :
    ∃ ms ns, summaryRun st chans size none xs = .ok (some ms) ∧ summaryRun st chans size none ys = .ok (some ns) ∧
      ms.map WMeter.mean = ns.map WMeter.mean := by
  obtain ⟨ms, h1, h2⟩ := C137_channels_partial st chans size xs hc hs hx0 hx
  obtain ⟨ns, h3, h4⟩ := C137_channels_partial st chans size ys hc hs hy0 hy
  exact ⟨ms, ns, h1, h3, by rw [h2, h4, h]⟩

/-- **C137** (sparsity): for activations of any shapes and batches, the reported sparsity is the percentage of zeros
among all values. -/
theorem C137_sparsity (xs : List (List ℚ)) (hne : xs ≠ []) (hx : ∀ x ∈ xs, x ≠ []) :
    (sparsityRun xs).mean = 100 * (xs.flatten.countP fun x => x = 0) / xs.flatten.length := by
  have e : sparsityRun xs = meterAddAll (xs.map fun t => (sparsityPct t, (t.length : ℚ))) := by
    unfold sparsityRun meterAddAll
    rw [List.foldl_map]
  have hpos : ∀ x ∈ xs, (0 : ℚ) < x.length := fun x h => by exact_mod_cast List.length_pos_iff.2 (hx x h)
  rw [e, (C47_meter _ ?_ (by simpa using hne)).1]
  · have h1 : wtot (xs.map fun t => (sparsityPct t, (t.length : ℚ))) = xs.flatten.length := by
      clear e hne hx hpos
      induction xs with
      | nil => simp [wtot]
      | cons x xs ih =>
        simp only [wtot, List.map_cons, List.sum_cons, List.flatten_cons, List.length_append] at ih ⊢
        rw [ih]
        push_cast
        ring
    have h2 : wsum (xs.map fun t => (sparsityPct t, (t.length : ℚ))) = 100 * (xs.flatten.countP fun x => x = 0) := by
      clear e hne h1
      induction xs with
      | nil => simp [wsum]
      | cons x xs ih =>
        have := ih (fun y hy => hx y (by simp [hy])) (fun y hy => hpos y (by simp [hy]))
        simp only [wsum, List.map_cons, List.sum_cons, List.flatten_cons, List.countP_append] at this ⊢
        rw [this]
        have hl := (hpos x (by simp)).ne'
        have hc : (x.filter fun y => y = 0).length = x.countP fun y => y = 0 := by rw [List.countP_eq_length_filter]
        unfold sparsityPct
        rw [hc]
        push_cast
        field_simp
    rw [h1, h2]
  · intro vn h
    obtain ⟨x, hxm, rfl⟩ := List.mem_map.1 h
    exact hpos x hxm

/-- Two batches, of two samples and one, with two channels of two elements. -/
def exActs : List Act4 := [[[[1, -1], [0, 0]], [[0, 3], [2, 2]]], [[[0, 0], [1, 0]]]]

example : Shaped 2 2 exActs := by
  constructor <;> decide +kernel
example : (List.range 2).map (dataStat .l1 exActs.flatten) = [5 / 3, 5 / 3] ∧ (List.range 2).map (dataStat .apoz exActs.flatten) = [50, 50] ∧
    (List.range 2).map (dataStat .mean exActs.flatten) = [1 / 2, 5 / 6] := by decide +kernel
example : (summaryRun .apoz 2 2 none exActs).map (fun m => m.map fun l => l.map WMeter.mean) = .ok (some [50, 50]) := by decide +kernel

/-- **C137** (linear layers): a 2-D activation is summarized as if its features were the pixels of one channel: the
result is the statistic of that channel over the data. -/
theorem C137_linear_partial (st : ChanStat) (x : List (List ℚ)) : [chanSummary2 st x] = chanSummary4 st 1 (x.map fun s => [s]) := by
  unfold chanSummary2 chanSummary4 batchMean
  simp [List.map_map, Function.comp_def]

/-- **C137** is violated by linear layers: for a 2-D activation, where the features are the channels, the result is
a single number, the same for activations whose channels differ. -/
theorem C137_violated_linear :
    chanSummary2 .mean [[1, 3], [1, 3]] = chanSummary2 .mean [[3, 1], [3, 1]] ∧
    dataStat .mean [[[1], [3]], [[1], [3]]] 0 ≠ dataStat .mean [[[3], [1]], [[3], [1]]] 0 := by decide +kernel

/-- **C137** is violated by feature maps of different sizes: samples with larger feature maps weigh more in the mean
L1 magnitude. -/
theorem C137_violated_sizes :
    (meterAddAll [(batchMean .l1 [[[1]]] 0, 1), (batchMean .l1 [[[2, 2]]] 0, 2)]).mean ≠ dataStat .l1 [[[1]], [[2, 2]]] 0 := by
  decide +kernel

/-- **C137** is violated by two collectors of the same statistic on one model, as made for the training, validation
and test phases: the counters are attributes of the modules, so after the second one ran the first one reports
its data. -/
theorem C137_violated_phases (cs : ℕ → WMeter) (k : ℕ) (train valid : List (List ℚ)) (hv : valid ≠ []) (hx : ∀ x ∈ valid, x ≠ []) :
    (phases cs [⟨k, train⟩, ⟨k, valid⟩] k).mean = 100 * (valid.flatten.countP fun x => x = 0) / valid.flatten.length := by
  have : phases cs [⟨k, train⟩, ⟨k, valid⟩] k = sparsityRun valid := by simp [phases]
  rw [this, C137_sparsity valid hv hx]

/-- **C137** (phases): collectors of statistics with different names do not disturb each other: at the end each reports
the sparsity of its own data, and other counters are as before. -/
theorem C137_phases (runs : List PhaseRun) (hn : (runs.map PhaseRun.stat).Nodup) : ∀ (cs : ℕ → WMeter),
    (∀ r ∈ runs, r.data ≠ [] → (∀ x ∈ r.data, x ≠ []) →
      (phases cs runs r.stat).mean = 100 * (r.data.flatten.countP fun x => x = 0) / r.data.flatten.length) ∧
    (∀ k, k ∉ runs.map PhaseRun.stat → phases cs runs k = cs k) := by
  induction runs with
  | nil => intro cs; exact ⟨by simp, fun _ _ => rfl⟩
  | cons r rs ih =>
    intro cs
    rw [List.map_cons, List.nodup_cons] at hn
    obtain ⟨i1, i2⟩ := ih hn.2 (fun k => if k = r.stat then sparsityRun r.data else cs k)
    have e : ∀ k, phases cs (r :: rs) k = phases (fun k => if k = r.stat then sparsityRun r.data else cs k) rs k := fun _ => rfl
    constructor
    · intro r' hr' h1 h2
      rw [e]
      rcases List.mem_cons.1 hr' with rfl | hr'
      · rw [i2 _ hn.1, if_pos rfl, C137_sparsity _ h1 h2]
      · exact i1 r' hr' h1 h2
    · intro k hk
      rw [List.map_cons, List.mem_cons, not_or] at hk
      rw [e, i2 k hk.2, if_neg hk.1]

example : (phases (fun _ => WMeter.init) [⟨0, [[0, 1]]⟩, ⟨1, [[0, 0, 0, 1], [1]]⟩] 0).mean = 50 ∧
    (phases (fun _ => WMeter.init) [⟨0, [[0, 1]]⟩, ⟨1, [[0, 0, 0, 1], [1]]⟩] 1).mean = 60 := by decide +kernel

/-! ## Which modules are monitored -/

/-- The module and what is below it. -/
inductive Below : ATree → ATree → Prop where
  | here (t s : ATree) : s ∈ t.ch.toList → Below t s
  | there (t u s : ATree) : u ∈ t.ch.toList → Below u s → Below t s

/-- A model after `prepare_model`: names are unique, and a quantization wrapper has exactly one sub-module,
the wrapped module, which has no sub-modules.  Not converted to PyTorch quantization. -/
structure Quantized (root : ATree) : Prop where
  names : (root.all.map ATree.name).Nodup
  wrap : ∀ t ∈ root.all, t.kind = .ptq → ∃ w, t.ch.toList = [w] ∧ w.ch.toList = [] ∧ w.kind ≠ .ptq
  native : ∀ t ∈ root.all, t.kind ≠ .qfunc

mutual
theorem below_mem : ∀ (t s : ATree), s ∈ t.ch.toList → s ∈ t.all
  | .node n k c ch, s, h => by
    have := below_memF ch s h
    simp [ATree.all, this]
theorem below_memF : ∀ (f : AForest) (s : ATree), s ∈ f.toList → s ∈ f.all
  | .nil, s, h => by simp [AForest.toList] at h
  | .cons t r, s, h => by
    simp only [AForest.toList, List.mem_cons] at h
    simp only [AForest.all, List.mem_append]
    rcases h with rfl | h
    · left
      cases s with
      | node n k c ch => simp [ATree.all]
    · exact Or.inr (below_memF r s h)
end

mutual
theorem all_trans : ∀ (t u s : ATree), u ∈ t.all → s ∈ u.all → s ∈ t.all
  | .node n k c ch, u, s, h1, h2 => by
    simp only [ATree.all, List.mem_cons] at h1
    rcases h1 with rfl | h1
    · exact h2
    · simp only [ATree.all, List.mem_cons]
      exact Or.inr (all_transF ch u s h1 h2)
theorem all_transF : ∀ (f : AForest) (u s : ATree), u ∈ f.all → s ∈ u.all → s ∈ f.all
  | .nil, u, s, h1, _ => by simp [AForest.all] at h1
  | .cons t r, u, s, h1, h2 => by
    simp only [AForest.all, List.mem_append] at h1 ⊢
    rcases h1 with h1 | h1
    · exact Or.inl (all_trans t u s h1 h2)
    · exact Or.inr (all_transF r u s h1 h2)
end

theorem self_all (t : ATree) : t ∈ t.all := by
  cases t with
  | node n k c ch => simp [ATree.all]

theorem below_all {t s : ATree} (h : Below t s) : s ∈ t.all := by
  induction h with
  | here t s h => exact below_mem t s h
  | there t u s h _ ih => exact all_trans t u s (below_mem t u h) ih

theorem actName_inj {root : ATree} (h : Quantized root) {a b : ATree} (ha : a ∈ root.all) (hb : b ∈ root.all) (e : a.name = b.name) : a = b :=
  List.inj_on_of_nodup_map h.names ha hb e

theorem wrapped_iff {root : ATree} (h : Quantized root) {t : ATree} (ht : t ∈ root.all) :
    t.name ∈ root.wrappedNames ↔ ∃ w ∈ root.all, w.kind = .ptq ∧ w.ch.toList = [t] := by
  unfold ATree.wrappedNames
  simp only [List.mem_flatMap, List.mem_filter, decide_eq_true_eq, List.mem_map]
  constructor
  · rintro ⟨w, ⟨hw, hk⟩, u, hu, e⟩
    obtain ⟨x, hx, _, _⟩ := h.wrap w hw hk
    rw [hx] at hu
    simp only [List.take_succ_cons, List.take_zero, List.mem_singleton] at hu
    subst hu
    have hm : u ∈ root.all := all_trans root w u hw (below_mem w u (by rw [hx]; simp))
    have : u = t := actName_inj h hm ht e
    subst this
    exact ⟨w, hw, hk, hx⟩
  · rintro ⟨w, hw, hk, hx⟩
    exact ⟨w, ⟨hw, hk⟩, t, by rw [hx]; simp, rfl⟩

theorem hooked_iff {root : ATree} (h : Quantized root) (anyClass : Bool) (t : ATree) :
    t ∈ root.hooked anyClass ↔ t ∈ root.all ∧ (¬ ∃ w ∈ root.all, w.kind = .ptq ∧ w.ch.toList = [t]) ∧
      (t.ch.toList = [] ∨ t.kind = .ptq) ∧ t.kind ≠ .identity ∧ (anyClass = true ∨ t.cls = true) := by
  unfold ATree.hooked
  rw [List.mem_filter]
  constructor
  · rintro ⟨h1, h2⟩
    have hq := h.native t h1
    unfold shouldCollect at h2
    split at h2
    · simp at h2
    · rename_i hn
      split at h2
      · simp at h2
      · rename_i hc
        split at h2
        · simp at h2
        · rename_i hi
          refine ⟨h1, ?_, ?_, hi, by simpa using h2⟩
          · rw [← wrapped_iff h h1]
            simpa using hn
          · by_cases hp : t.kind = .ptq
            · exact Or.inr hp
            · left
              simpa [hp, hq] using hc
  · rintro ⟨h1, h2, h3, h4, h5⟩
    refine ⟨h1, ?_⟩
    rw [← wrapped_iff h h1] at h2
    unfold shouldCollect
    rw [if_neg (by simpa using h2), if_neg (by
      rcases h3 with h3 | h3
      · simp [h3]
      · simp [h3]), if_neg h4]
    simpa using h5

/-- **C137** (monitored modules): in a model, quantized or not, exactly the following are monitored: the modules without
sub-modules that are not the inside of a quantization wrapper, and the wrappers; of the requested classes only, and
no identities. -/
theorem C137_monitored (root : ATree) (h : Quantized root) (anyClass : Bool) (t : ATree) (ht : t ∈ root.all) :
    t ∈ root.hooked anyClass ↔
      ((t.kind = .ptq ∨ t.ch.toList = [] ∧ ∀ w ∈ root.all, w.kind = .ptq → t ∉ w.ch.toList) ∧ t.kind ≠ .identity ∧ (anyClass = true ∨ t.cls = true)) := by
  rw [hooked_iff h]
  constructor
  · rintro ⟨_, h2, h3, h4, h5⟩
    refine ⟨?_, h4, h5⟩
    rcases h3 with h3 | h3
    · by_cases hp : t.kind = .ptq
      · exact Or.inl hp
      · refine Or.inr ⟨h3, ?_⟩
        intro w hw hk hm
        obtain ⟨x, hx, _⟩ := h.wrap w hw hk
        rw [hx] at hm
        simp only [List.mem_singleton] at hm
        subst hm
        exact h2 ⟨w, hw, hk, hx⟩
    · exact Or.inl h3
  · rintro ⟨h1, h2, h3⟩
    refine ⟨ht, ?_, ?_, h2, h3⟩
    · rintro ⟨w, hw, hk, hx⟩
      rcases h1 with h1 | ⟨_, h1⟩
      · obtain ⟨x, hx', _, hnp⟩ := h.wrap w hw hk
        rw [hx] at hx'
        simp only [List.cons.injEq, and_true] at hx'
        subst hx'
        exact hnp h1
      · exact h1 w hw hk (by rw [hx]; simp)
    · rcases h1 with h1 | ⟨h1, _⟩
      · exact Or.inr h1
      · exact Or.inl h1

/-- **C137** (each operation once): no monitored module contains another one, so nothing is counted both inside and
outside a wrapper. -/
theorem C137_once (root : ATree) (h : Quantized root) (anyClass : Bool) (t s : ATree) (ht : t ∈ root.hooked anyClass)
    (hs : Below t s) : s ∉ root.hooked anyClass := by
  intro hs'
  obtain ⟨h1, _, h3, _⟩ := (hooked_iff h anyClass t).1 ht
  obtain ⟨_, g2, _, _⟩ := (hooked_iff h anyClass s).1 hs'
  rcases h3 with h3 | h3
  · cases hs with
    | here _ _ hm => rw [h3] at hm; simp at hm
    | there _ u _ hm _ => rw [h3] at hm; simp at hm
  · obtain ⟨w, hw, hwl, _⟩ := h.wrap t h1 h3
    cases hs with
    | here _ _ hm =>
      rw [hw] at hm
      simp only [List.mem_singleton] at hm
      subst hm
      exact g2 ⟨t, h1, h3, hw⟩
    | there _ u _ hm hb =>
      rw [hw] at hm
      simp only [List.mem_singleton] at hm
      subst hm
      cases hb with
      | here _ _ hm => rw [hwl] at hm; simp at hm
      | there _ v _ hm _ => rw [hwl] at hm; simp at hm

/-- **C137** (nothing is missed): if all classes are monitored, every module that computes something, other than an
identity, is monitored itself or is inside a monitored wrapper. -/
theorem C137_covered (root : ATree) (h : Quantized root) (t : ATree) (ht : t ∈ root.all) (hl : t.ch.toList = []) (hi : t.kind ≠ .identity) :
    t ∈ root.hooked true ∨ ∃ w ∈ root.hooked true, w.kind = .ptq ∧ w.ch.toList = [t] := by
  by_cases hw : ∃ w ∈ root.all, w.kind = .ptq ∧ w.ch.toList = [t]
  · obtain ⟨w, hwm, hk, hx⟩ := hw
    right
    refine ⟨w, (hooked_iff h true w).2 ⟨hwm, ?_, Or.inr hk, by rw [hk]; simp, Or.inl rfl⟩, hk, hx⟩
    rintro ⟨v, hv, hvk, hvx⟩
    obtain ⟨x, hx', _, hnp⟩ := h.wrap v hv hvk
    rw [hvx] at hx'
    simp only [List.cons.injEq, and_true] at hx'
    subst hx'
    exact hnp hk
  · exact Or.inl ((hooked_iff h true t).2 ⟨ht, hw, Or.inl hl, hi, Or.inl rfl⟩)

/-- A network with a convolution in a wrapper, a plain ReLU and an identity. -/
def exATree : ATree :=
  .node 0 .plain false (.cons (.node 1 .ptq false (.cons (.node 2 .plain false .nil) .nil))
    (.cons (.node 3 .plain true .nil) (.cons (.node 4 .identity false .nil) .nil)))

theorem exATree_all : exATree.all = [exATree, .node 1 .ptq false (.cons (.node 2 .plain false .nil) .nil), .node 2 .plain false .nil,
    .node 3 .plain true .nil, .node 4 .identity false .nil] := rfl
example : Quantized exATree := by
  refine ⟨by decide +kernel, ?_, ?_⟩
  · intro t ht hk
    rw [exATree_all] at ht
    simp only [List.mem_cons, List.not_mem_nil, or_false] at ht
    rcases ht with rfl | rfl | rfl | rfl | rfl <;> first | exact absurd hk (by decide +kernel) | exact ⟨_, rfl, rfl, by decide +kernel⟩
  · intro t ht
    rw [exATree_all] at ht
    simp only [List.mem_cons, List.not_mem_nil, or_false] at ht
    rcases ht with rfl | rfl | rfl | rfl | rfl <;> decide +kernel
example : (exATree.hooked true).map ATree.name = [1, 3] ∧ (exATree.hooked false).map ATree.name = [3] := by decide +kernel

/-- **C137** is violated by class filters after quantization: a ReLU that the quantizer put into a wrapper is no longer
monitored by a collector for ReLUs. -/
theorem C137_violated_wrapped_class :
    ∃ before after : ATree, before = .node 0 .plain false (.cons (.node 1 .plain true .nil) .nil) ∧
      after = .node 0 .plain false (.cons (.node 1 .ptq false (.cons (.node 2 .plain true .nil) .nil)) .nil) ∧
      (before.hooked false).map ATree.name = [1] ∧ after.hooked false = [] := by
  refine ⟨_, _, rfl, rfl, by decide +kernel, ?_⟩
  have : ((ATree.node 0 .plain false (.cons (.node 1 .ptq false (.cons (.node 2 .plain true .nil) .nil)) .nil)).hooked false).map ATree.name = [] := by
    decide +kernel
  exact List.map_eq_nil_iff.1 this

end Verif
