import Verif.Model.Logging
import Verif.Lemmas.Fold
import Mathlib.Tactic.Ring
import Mathlib.Tactic.Linarith
import Mathlib.Tactic.FieldSimp
import Mathlib.Tactic.NormNum
import Mathlib.Data.Rat.Floor
/-!
# C159 (TensorBoard records), C160 (CSV records)
-/
namespace Verif

/-! ## C159 -/

/-- Specification: the directory of the `i`-th of several values. -/
def dirOf (i : ℕ) : TBDir := if i = 0 then .root else .sub i

/-- The writers are numbered without gaps. -/
def TBack.Good (b : TBack) : Prop := 0 < b.writers.length ∧ ∀ (i : ℕ) (d : TBDir), b.writers[i]? = some d → d = dirOf i

theorem good_init : TBack.init.Good := by
  refine ⟨by simp [TBack.init], ?_⟩
  intro i d h
  cases i with
  | zero => simp [TBack.init] at h; simp [dirOf, h.symm]
  | succ i => simp [TBack.init] at h

theorem write_root {b : TBack} (h : b.Good) (tag : String) (vals : List ℚ) (step : Int) :
    b.write 0 tag vals step = { b with recs := b.recs ++ [⟨.root, tag, vals, step⟩] } := by
  unfold TBack.write
  obtain ⟨d, hd⟩ : ∃ d, b.writers[0]? = some d := ⟨b.writers[0]'h.1, List.getElem?_eq_getElem h.1⟩
  rw [hd]
  have := h.2 0 d hd
  simp only [dirOf, if_true] at this
  rw [this]

theorem good_recs {b : TBack} (h : b.Good) (r : List TBRec) : TBack.Good { b with recs := r } := h

theorem progress_spec (pre : String) (step : Int) (stats : List (String × ℚ)) : ∀ (b : TBack), b.Good →
    stats.foldl (fun b s => b.scalar (pre ++ s.1) s.2 step) b =
      { b with recs := b.recs ++ stats.map fun s => ⟨.root, pre ++ s.1, [s.2], step⟩ } := by
  induction stats with
  | nil => intro b _; simp
  | cons s stats ih =>
    intro b h
    rw [List.foldl_cons, TBack.scalar, write_root h, ih _ (good_recs h _)]
    simp

/-- **C159** A training run logged at any sequence of points (epoch, completed steps) is recorded completely and in order: each value
under its name, at step `total * epoch + completed`. -/
theorem C159_run (b : TBack) (hb : b.Good) (pre : String) (total : Int) (stats : Int × Int → List (String × ℚ))
    (pts : List (Int × Int)) :
    (pts.foldl (fun b p => b.progress pre (stats p) p.1 p.2 total) b).recs = b.recs ++
      pts.flatMap fun p => (stats p).map fun s => ⟨.root, pre ++ s.1, [s.2], total * p.1 + p.2⟩ := by
  induction pts generalizing b with
  | nil => simp
  | cons p pts ih =>
    rw [List.foldl_cons, ih]
    · rw [TBack.progress, progress_spec _ _ _ b hb]; simp
    · rw [TBack.progress, progress_spec _ _ _ b hb]; exact hb

/-- **C159** The steps order the points of a run: a later point has a greater step, so no two points share one. -/
theorem C159_steps (total e c e' c' : Int) (hc : 1 ≤ c ∧ c ≤ total) (hc' : 1 ≤ c' ∧ c' ≤ total) :
    (total * e + c < total * e' + c' ↔ e < e' ∨ (e = e' ∧ c < c')) ∧ (total * e + c = total * e' + c' → e = e' ∧ c = c') := by
  have hlt : ∀ e c e' c' : Int, 1 ≤ c → c ≤ total → 1 ≤ c' → c' ≤ total → e < e' → total * e + c < total * e' + c' := by
    intro e c e' c' h1 h2 h3 h4 h
    have : total * (e + 1) ≤ total * e' := by apply mul_le_mul_of_nonneg_left <;> omega
    linarith
  have key : total * e + c < total * e' + c' ↔ e < e' ∨ (e = e' ∧ c < c') := by
    constructor
    · intro h
      rcases lt_trichotomy e e' with h1 | h1 | h1
      · exact Or.inl h1
      · right; subst h1; exact ⟨rfl, by omega⟩
      · exfalso; have := hlt e' c' e c hc'.1 hc'.2 hc.1 hc.2 h1; omega
    · rintro (h | ⟨rfl, h⟩)
      · exact hlt e c e' c' hc.1 hc.2 hc'.1 hc'.2 h
      · omega
  refine ⟨key, fun h => ?_⟩
  rcases lt_trichotomy e e' with h1 | h1 | h1
  · have := hlt e c e' c' hc.1 hc.2 hc'.1 hc'.2 h1; omega
  · subst h1; exact ⟨rfl, by omega⟩
  · have := hlt e' c' e c hc'.1 hc'.2 hc.1 hc.2 h1; omega

theorem listOne_multi {b : TBack} (h : b.Good) (tag : String) (step : Int) (v : ℚ) (i : ℕ) (hi : i ≤ b.writers.length) :
    (TBack.listOne tag step true b (v, i)).Good ∧ i + 1 ≤ (TBack.listOne tag step true b (v, i)).writers.length ∧
    (TBack.listOne tag step true b (v, i)).recs = b.recs ++ [⟨dirOf i, tag, [v], step⟩] := by
  unfold TBack.listOne TBack.write
  by_cases hlen : i + 1 > b.writers.length
  · have hi' : i = b.writers.length := by omega
    have hg : TBack.Good { b with writers := b.writers ++ [.sub i] } := by
      refine ⟨by simp, ?_⟩
      intro j d hj
      by_cases hjl : j < b.writers.length
      · exact h.2 j d (by simpa [List.getElem?_append_left hjl] using hj)
      · have hj' : j = i := by
          by_contra hne
          rw [List.getElem?_eq_none (by simp; omega)] at hj
          cases hj
        subst hj'
        have hne : j ≠ 0 := by have := h.1; omega
        have hj2 : (b.writers ++ [TBDir.sub j])[j]? = some (.sub j) := by
          rw [List.getElem?_append_right (by omega), hi']; simp
        have hj3 : (b.writers ++ [TBDir.sub j])[j]? = some d := hj
        rw [hj2] at hj3
        cases hj3
        simp [dirOf, hne]
    have hd : (b.writers ++ [TBDir.sub i])[i]? = some (.sub i) := by rw [hi']; simp
    simp only [Bool.true_and, hlen, decide_true, if_true, hd]
    have hne : i ≠ 0 := by have := h.1; omega
    refine ⟨hg, by simp; omega, by simp [dirOf, hne]⟩
  · obtain ⟨d, hd⟩ : ∃ d, b.writers[i]? = some d := ⟨b.writers[i]'(by omega), List.getElem?_eq_getElem (by omega)⟩
    simp only [Bool.true_and, hlen, decide_false, Bool.false_eq_true, if_false, if_true, hd]
    exact ⟨h, by omega, by rw [h.2 i d hd]⟩

theorem list_multi (tag : String) (step : Int) (l : List ℚ) : ∀ (b : TBack) (k : ℕ), b.Good → k ≤ b.writers.length →
    ((l.zipIdx k).foldl (TBack.listOne tag step true) b).Good ∧
    ((l.zipIdx k).foldl (TBack.listOne tag step true) b).recs = b.recs ++ (l.zipIdx k).map fun p => ⟨dirOf p.2, tag, [p.1], step⟩ := by
  induction l with
  | nil => intro b k h _; exact ⟨h, by simp⟩
  | cons v l ih =>
    intro b k h hk
    rw [List.zipIdx_cons, List.foldl_cons]
    obtain ⟨h1, h2, h3⟩ := listOne_multi h tag step v k hk
    obtain ⟨h4, h5⟩ := ih _ (k + 1) h1 h2
    refine ⟨h4, ?_⟩
    rw [h5, h3, List.map_cons, List.append_assoc]
    rfl

/-- **C159** Several values of one tag: with separate graphs, the `i`-th value always goes to the `i`-th directory, whatever was
logged before, for lists of any lengths; without, all values go to the log directory. -/
theorem C159_lists (b : TBack) (hb : b.Good) (tag : String) (l : List ℚ) (step : Int) (multi : Bool) :
    (b.list tag l step multi).Good ∧
    (b.list tag l step multi).recs =
      b.recs ++ l.zipIdx.map fun p => ⟨if multi then dirOf p.2 else .root, tag, [p.1], step⟩ := by
  cases multi with
  | true => exact list_multi tag step l b 0 hb (Nat.zero_le _)
  | false =>
    have key : ∀ (k : ℕ) (b : TBack), b.Good → ((l.zipIdx k).foldl (TBack.listOne tag step false) b).Good ∧
        ((l.zipIdx k).foldl (TBack.listOne tag step false) b).recs =
          b.recs ++ (l.zipIdx k).map fun p => ⟨.root, tag, [p.1], step⟩ := by
      induction l with
      | nil => intro k b hb; exact ⟨hb, by simp⟩
      | cons v l ih =>
        intro k b hb
        rw [List.zipIdx_cons, List.foldl_cons]
        have h1 : TBack.listOne tag step false b (v, k) = { b with recs := b.recs ++ [⟨.root, tag, [v], step⟩] } := by
          unfold TBack.listOne
          simp only [Bool.false_and, Bool.false_eq_true, if_false]
          exact write_root hb _ _ _
        rw [h1]
        obtain ⟨h2, h3⟩ := ih (k + 1) _ (good_recs hb _)
        exact ⟨h2, by rw [h3]; simp⟩
    exact key 0 b hb

example : ((TBack.init.list "a" [1] 0 true).list "b" [5, 6, 7] 1 true).writers = [.root, .sub 1, .sub 2] := by decide +kernel
example : ((TBack.init.list "a" [1, 2, 3] 0 true).list "b" [5, 6] 1 true).recs.map (·.dir) =
    [.root, .sub 1, .sub 2, .root, .sub 1] := by decide +kernel

theorem distribution_spec (params : List (String × Bool × List ℚ)) (steps : Int) : ∀ (b : TBack), b.Good →
    b.distribution params steps =
      { b with recs := b.recs ++ (params.filter (·.2.1)).map fun p => ⟨.root, p.1, p.2.2, steps⟩ } := by
  unfold TBack.distribution
  induction params with
  | nil => intro b _; simp
  | cons p params ih =>
    intro b h
    rw [List.foldl_cons]
    cases hp : p.2.1 with
    | false => simp only [Bool.false_eq_true, if_false]; rw [ih b h]; simp [hp]
    | true =>
      simp only [if_true]
      rw [TBack.histogram, write_root h, ih _ (good_recs h _)]
      simp [hp]

/-- **C159** (histograms, _partial) The first logger – and every logger, if the parameters are given as a list – records for each
parameter whose name contains `weight` all its values, after the scalars; the step is that *within the epoch*. -/
theorem C159_histograms_partial (loggers : List TBack) (pre : String) (stats : List (String × ℚ))
    (params : List (String × Bool × List ℚ)) (gen : Bool) (epoch completed total : Int) (i : ℕ) (b : TBack) (hb : b.Good)
    (h : loggers[i]? = some b) (hg : i = 0 ∨ gen = false) :
    ∃ b', (logProgress loggers pre stats (some params) gen epoch completed total)[i]? = some b' ∧
      b'.recs = b.recs ++ stats.map (fun s => ⟨.root, pre ++ s.1, [s.2], total * epoch + completed⟩) ++
        (params.filter (·.2.1)).map (fun p => ⟨.root, p.1, p.2.2, completed⟩) := by
  unfold logProgress
  refine ⟨_, by rw [List.getElem?_map, List.getElem?_zipIdx, h]; rfl, ?_⟩
  have hif : (if (gen && decide (0 + i > 0)) = true then ([] : List (String × Bool × List ℚ)) else params) = params := by
    rcases hg with rfl | rfl <;> simp
  show (TBack.distribution _ (if (gen && decide (0 + i > 0)) = true then ([] : List (String × Bool × List ℚ)) else params) completed).recs = _
  rw [hif, TBack.progress, progress_spec _ _ _ b hb, distribution_spec _ _ _ (good_recs hb _)]

/-- **C159** Without parameters only the scalars are recorded, by every logger. -/
theorem C159_no_params (loggers : List TBack) (pre : String) (stats : List (String × ℚ)) (gen : Bool)
    (epoch completed total : Int) (i : ℕ) (b : TBack) (hb : b.Good) (h : loggers[i]? = some b) :
    ∃ b', (logProgress loggers pre stats none gen epoch completed total)[i]? = some b' ∧
      b'.recs = b.recs ++ stats.map (fun s => ⟨.root, pre ++ s.1, [s.2], total * epoch + completed⟩) := by
  unfold logProgress
  refine ⟨_, by rw [List.getElem?_map, List.getElem?_zipIdx, h]; rfl, ?_⟩
  show (TBack.progress b pre stats epoch completed total).recs = _
  rw [TBack.progress, progress_spec _ _ _ b hb]

/-- **C159** Activation statistics are recorded under `<statistic>/activations/<phase>/<layer>` at the epoch. -/
theorem C159_activations (b : TBack) (hb : b.Good) (phase stat : String) (vals : List (String × ℚ)) (epoch : Int) :
    (b.actStat phase stat vals epoch).recs =
      b.recs ++ vals.map fun s => ⟨.root, stat ++ "/activations/" ++ phase ++ "/" ++ s.1, [s.2], epoch⟩ := by
  rw [TBack.actStat, progress_spec (stat ++ "/activations/" ++ phase ++ "/") _ _ b hb]

/-- The histograms of a two-epoch run with one weight. -/
def histRun : List TBack :=
  let ps : List (String × Bool × List ℚ) := [("conv/weight", true, [1, 2]), ("conv/bias", false, [0])]
  logProgress (logProgress [TBack.init, TBack.init] "Train/" [("Loss", 3)] (some ps) true 0 10 100) "Train/" [("Loss", 2)]
    (some ps) true 1 10 100

/-- **C159, violated**: histograms of different epochs have the same step (`steps_completed` restarts every epoch), while the scalars
logged with them do not. -/
theorem C159_violated_histogram_steps :
    (histRun[0]?.map fun b => b.recs) = some [⟨.root, "Train/Loss", [3], 10⟩, ⟨.root, "conv/weight", [1, 2], 10⟩,
      ⟨.root, "Train/Loss", [2], 110⟩, ⟨.root, "conv/weight", [1, 2], 10⟩] := by decide +kernel

/-- **C159, violated**: a second TensorBoard logger gets no histograms, because the first has used up `model.named_parameters()`. -/
theorem C159_violated_second_logger :
    (histRun[1]?.map fun b => b.recs) = some [⟨.root, "Train/Loss", [3], 10⟩, ⟨.root, "Train/Loss", [2], 110⟩] := by decide +kernel

/-- Specification: the zero elements of the tensors with 2 or 4 dimensions. -/
def loggedVals (sd : List SDTensor) : List ℚ := (sd.filter fun t => t.dim = 2 ∨ t.dim = 4).flatMap (·.vals)

theorem logged_filter (sd : List SDTensor) : sd.filter SDTensor.logged = sd.filter fun t => t.dim = 2 ∨ t.dim = 4 := by
  apply List.filter_congr
  intro t _
  rw [Bool.eq_iff_iff]
  simp [SDTensor.logged]

/-- **C159** (sparsity) `log_weights_sparsity` records for every tensor with 2 or 4 dimensions the percentage of zero elements and
its kernel sparsity, then the percentage of zeros in all of them together. -/
theorem C159_sparsity (b b' : TBack) (hb : b.Good) (sd : List SDTensor) (epoch : Int)
    (h : b.weightsSparsity sd epoch = .ok b') :
    ∃ rs, b'.recs = b.recs ++ rs ++
        [⟨.root, "sparsity/weights/total", [100 * ((((loggedVals sd).filter (· = 0)).length : ℚ) / (loggedVals sd).length)], epoch⟩] ∧
      rs = (sd.filter fun t => t.dim = 2 ∨ t.dim = 4).flatMap fun t =>
        [⟨.root, "sparsity/weights/" ++ t.name, [100 * (((t.vals.filter (· = 0)).length : ℚ) / t.vals.length)], epoch⟩,
         ⟨.root, "sparsity-2D/weights/" ++ t.name, [t.sp2 * 100], epoch⟩] := by
  unfold TBack.weightsSparsity at h
  obtain ⟨r, hr, h⟩ := ok_bind h
  have hcount : ∀ l : List ℚ, ((l.filter (· = 0)).length : ℚ) = l.length - (l.countP fun x => |x| > 0 : ℕ) := by
    intro l
    induction l with
    | nil => simp
    | cons x l ih =>
      by_cases hx : x = 0
      · subst hx; simp [ih]; ring
      · have : |x| > 0 := abs_pos.2 hx
        simp only [List.filter_cons, hx, decide_false, Bool.false_eq_true, if_false, ih, List.length_cons, List.countP_cons]
        simp [hx]
  have key : ∀ (ts : List SDTensor) (acc r : TBack × ℚ × ℚ), acc.1.Good → ts.foldlM (TBack.sparsOne epoch) acc = .ok r →
      r.1.Good ∧ r.1.recs = acc.1.recs ++ (ts.flatMap fun t =>
        [⟨.root, "sparsity/weights/" ++ t.name, [100 * (((t.vals.filter (· = 0)).length : ℚ) / t.vals.length)], epoch⟩,
         ⟨.root, "sparsity-2D/weights/" ++ t.name, [t.sp2 * 100], epoch⟩]) ∧
      r.2.1 = acc.2.1 + ((ts.flatMap (·.vals)).length : ℚ) ∧
      r.2.2 = acc.2.2 + (((ts.flatMap (·.vals)).countP fun x => |x| > 0 : ℕ) : ℚ) := by
    intro ts
    induction ts with
    | nil => intro acc r hg h; cases h; simp [hg]
    | cons t ts ih =>
      intro acc r hg h
      rw [List.foldlM_cons] at h
      obtain ⟨acc1, h1, h⟩ := ok_bind h
      unfold TBack.sparsOne at h1
      split at h1
      · cases h1
      · next d hd =>
        unfold density at hd
        split at hd
        · cases hd
        · next hne =>
          have hne' : (t.vals.length : ℚ) ≠ 0 := by exact_mod_cast hne
          have hd' := Except.ok.inj hd
          have h1' := Except.ok.inj h1
          have hs : acc.1.sparsRecs t d epoch = ⟨acc.1.writers, acc.1.recs ++ [⟨.root, "sparsity/weights/" ++ t.name, [(1 - d) * 100], epoch⟩,
                ⟨.root, "sparsity-2D/weights/" ++ t.name, [t.sp2 * 100], epoch⟩]⟩ := by
            rw [TBack.sparsRecs, TBack.scalar, TBack.scalar, write_root hg, write_root (good_recs hg _)]
            simp
          rw [hs] at h1'
          obtain ⟨g1, g2, g3, g4⟩ := ih acc1 r (by rw [← h1']; exact hg) h
          refine ⟨g1, ?_, ?_, ?_⟩
          · have hdd : (1 - d) * 100 = 100 * (((t.vals.filter (· = 0)).length : ℚ) / t.vals.length) := by
              rw [hcount, ← hd']; field_simp
            rw [g2, List.flatMap_cons, ← List.append_assoc, ← h1', ← hdd]
          · rw [g3, List.flatMap_cons, List.length_append, ← h1']; push_cast; ring
          · rw [g4, List.flatMap_cons, List.countP_append, ← h1', ← hd']; push_cast; field_simp; ring
  rw [logged_filter] at hr
  obtain ⟨k1, k2, k3, k4⟩ := key _ _ _ hb hr
  refine ⟨_, ?_, rfl⟩
  by_cases h0 : r.2.1 = 0
  · simp only [h0, if_true, throw, throwThe, MonadExceptOf.throw, bind, Except.bind] at h
    cases h
  · simp only [h0, if_false, bind, Except.bind, pure, Except.pure] at h
    cases h
    rw [TBack.scalar, write_root k1]
    show r.1.recs ++ _ = _
    rw [k2]
    congr 4
    simp only [zero_add] at k3 k4
    have hl : ((loggedVals sd).length : ℚ) ≠ 0 := by unfold loggedVals; rw [← k3]; exact h0
    rw [hcount]
    unfold loggedVals at hl ⊢
    rw [k3, k4]
    field_simp

example : ((TBack.init.weightsSparsity [⟨"a", 4, [0, 1, 0, 3], 0⟩, ⟨"b", 1, [0], 0⟩, ⟨"c", 2, [5, 0], 1⟩] 7).map fun b => b.recs) =
    .ok [⟨.root, "sparsity/weights/a", [50], 7⟩, ⟨.root, "sparsity-2D/weights/a", [0], 7⟩, ⟨.root, "sparsity/weights/c", [50], 7⟩,
      ⟨.root, "sparsity-2D/weights/c", [100], 7⟩, ⟨.root, "sparsity/weights/total", [50], 7⟩] := by decide +kernel

/-- **C159** A model without such tensors cannot be logged. -/
theorem C159_no_weights (b : TBack) (sd : List SDTensor) (epoch : Int) (h : ∀ t ∈ sd, t.dim ≠ 2 ∧ t.dim ≠ 4) :
    b.weightsSparsity sd epoch = .error .zeroDiv := by
  have : sd.filter SDTensor.logged = [] := by
    rw [List.filter_eq_nil_iff]
    intro t ht
    simp [SDTensor.logged, h t ht]
  unfold TBack.weightsSparsity
  rw [this]
  rfl

/-! ## C160 -/

/-- **C160** (sparsity table) In exact arithmetic every tensor with 2 or 4 dimensions has a row with its size, its number of non-zero
elements and its percentage of zeros. -/
theorem C160_sparsity_exact_partial (sd : List SDTensor) (rows : List (String × ℕ × Int × ℚ)) (h : csvSparsity id sd = .ok rows) :
    rows = (sd.filter fun t => t.dim = 2 ∨ t.dim = 4).map fun t =>
      (t.name, t.vals.length, ((t.vals.filter (· ≠ 0)).length : Int), (1 - ((t.vals.filter (· ≠ 0)).length : ℚ) / t.vals.length) * 100) := by
  unfold csvSparsity at h
  rw [logged_filter] at h
  have hn : ∀ t : SDTensor, t.nnz = (t.vals.filter (· ≠ 0)).length := by
    intro t
    unfold SDTensor.nnz
    rw [List.countP_eq_length_filter]
    congr 1
    apply List.filter_congr
    intro x _
    simp [abs_pos]
  generalize (sd.filter fun t => t.dim = 2 ∨ t.dim = 4) = ts at h
  induction ts generalizing rows with
  | nil => cases h; rfl
  | cons t ts ih =>
    rw [List.mapM_cons] at h
    obtain ⟨r, hr, h⟩ := ok_bind h
    obtain ⟨rs, hrs, h⟩ := ok_bind h
    cases h
    rw [List.map_cons, ih rs hrs]
    congr 1
    split at hr
    · cases hr
    · next hne =>
      cases hr
      have hne' : (t.vals.length : ℚ) ≠ 0 := by exact_mod_cast hne
      unfold csvRow
      rw [hn]
      simp only [id]
      rw [div_mul_cancel₀ _ hne', Int.floor_natCast]

/-- **C160** (sparsity table) In floating-point arithmetic (relative rounding error at most `2 ^ -53`, fewer than `2 ^ 51` elements)
the number of non-zero elements reported is the right one or one too small. -/
theorem C160_sparsity_float_partial (fl : ℚ → ℚ) (hfl : ∀ x, |fl x - x| ≤ |x| / 2 ^ 53) (t : SDTensor) (hl : 0 < t.vals.length)
    (hs : t.vals.length < 2 ^ 51) :
    (csvRow fl t).2.2.1 = t.nnz ∨ (csvRow fl t).2.2.1 = t.nnz - 1 := by
  have hl' : (0 : ℚ) < t.vals.length := by exact_mod_cast hl
  have hk : t.nnz ≤ t.vals.length := List.countP_le_length
  have hk2 : (t.nnz : ℚ) < 2 ^ 51 := by
    have : t.nnz < 2 ^ 51 := by omega
    exact_mod_cast this
  have hk0 : (0 : ℚ) ≤ t.nnz := Nat.cast_nonneg _
  set k : ℚ := (t.nnz : ℚ) with hkd
  set n : ℚ := (t.vals.length : ℚ) with hnd
  set d := fl (k / n) with hdd
  have h1 : |d - k / n| ≤ k / n / 2 ^ 53 := by
    have := hfl (k / n)
    rwa [abs_of_nonneg (div_nonneg hk0 hl'.le)] at this
  have h2 : |d * n - k| ≤ k / 2 ^ 53 := by
    have e : d * n - k = (d - k / n) * n := by field_simp
    rw [e, abs_mul, abs_of_pos hl']
    calc |d - k / n| * n ≤ k / n / 2 ^ 53 * n := mul_le_mul_of_nonneg_right h1 hl'.le
      _ = k / 2 ^ 53 := by field_simp
  have h2' := abs_le.1 h2
  have h3 := hfl (d * n)
  have h4 : |d * n| ≤ 2 * k := by
    rw [abs_le]
    constructor <;> norm_num at h2' ⊢ <;> linarith [h2'.1, h2'.2]
  have h5 : |fl (d * n) - k| < 1 := by
    have ha : |fl (d * n) - k| ≤ |fl (d * n) - d * n| + |d * n - k| := by
      have := abs_add_le (fl (d * n) - d * n) (d * n - k)
      simpa using this
    have hb : |fl (d * n) - d * n| ≤ 2 * k / 2 ^ 53 := le_trans h3 (by
      apply div_le_div_of_nonneg_right h4; norm_num)
    norm_num at hb h2 hk2
    linarith
  have h6 := abs_lt.1 h5
  show ⌊fl (d * n)⌋ = _ ∨ ⌊fl (d * n)⌋ = _
  have hlo : (t.nnz : Int) - 1 ≤ ⌊fl (d * n)⌋ := by
    rw [Int.le_floor]; push_cast; linarith [h6.1]
  have hhi : ⌊fl (d * n)⌋ < (t.nnz : Int) + 1 := by
    rw [Int.floor_lt]; push_cast; linarith [h6.2]
  omega

/-- Specification: `y` is `x` rounded to the nearest double-precision number (`2 ^ (p - 53)` being the unit in the last place of
numbers in `[2 ^ (p - 1), 2 ^ p)`, for `p ≤ 53` given by `q = 53 - p`). -/
def RoundsTo (x y : ℚ) : Prop :=
  ∃ q : ℕ, 2 ^ 52 ≤ x * 2 ^ q ∧ x * 2 ^ q < 2 ^ 53 ∧ (∃ k : ℤ, y * 2 ^ q = k) ∧ |y * 2 ^ q - x * 2 ^ q| ≤ 1 / 2

/-- **C160, violated**: the number of non-zero elements reported for a tensor with 29 non-zero elements out of 100 is 28: in double
precision `29 / 100 * 100` is less than `29`. -/
theorem C160_violated_sparse_volume : ∃ d v : ℚ, RoundsTo (29 / 100) d ∧ RoundsTo (d * 100) v ∧ ⌊v⌋ = 28 := by
  refine ⟨5224175567749775 / 2 ^ 54, 8162774324609023 / 2 ^ 48, ⟨54, by norm_num, by norm_num, ⟨5224175567749775, by norm_num⟩, by norm_num [abs_le]⟩,
    ⟨48, by norm_num, by norm_num, ⟨8162774324609023, by norm_num⟩, by norm_num [abs_le]⟩, ?_⟩
  rw [Int.floor_eq_iff]
  constructor <;> norm_num

/-- Specification: the rows of one call for one buffer. -/
def bufRows (b : String) (c : BufCall) : List CsvLine :=
  c.mods.filterMap fun m =>
    match (Dict.get? m.2 b : Option BufVal) with
    | some (.tensor l) => some (.row (normalizeName m.1 ++ [b]) c.epoch c.step c.total l)
    | some (.list l) => some (.row (normalizeName m.1 ++ [b]) c.epoch c.step c.total l.flatten)
    | _ => none

/-- Specification: no module has the value `None` under one of the names. -/
def NoNones (names : List String) (c : BufCall) : Prop := ∀ m ∈ c.mods, ∀ b ∈ names, Dict.get? m.2 b ≠ some .none

theorem openCsv_spec (names : List String) (files : Dict String (List CsvLine)) (b : String) :
    Dict.get? (names.foldl openCsv files) b =
      if b ∈ names then some ((Dict.get? files b).getD [.header]) else Dict.get? files b := by
  induction names generalizing files with
  | nil => simp
  | cons a names ih =>
    rw [List.foldl_cons, ih]
    have ho : Dict.get? (openCsv files a) b = if b = a then some ((Dict.get? files b).getD [.header]) else Dict.get? files b := by
      unfold openCsv
      cases h : Dict.get? files a with
      | some l =>
        by_cases hba : b = a
        · subst hba; simp [h]
        · simp [hba]
      | none =>
        simp only [Dict.get?_set]
        by_cases hba : b = a
        · subst hba; simp [h]
        · have hab : ¬ a = b := fun e => hba e.symm
          simp [hba, hab]
    rw [ho]
    by_cases h1 : b ∈ names <;> by_cases h2 : b = a <;> simp [h1, h2]

theorem writeBufs_spec (c : BufCall) (m : Name × Dict String BufVal) (names : List String) (hn : names.Nodup)
    (hnn : ∀ b ∈ names, Dict.get? m.2 b ≠ some .none) : ∀ (files : Dict String (List CsvLine)),
    ∃ fs, names.foldlM (writeBuf c m) files = .ok fs ∧
      (∀ b ∉ names, Dict.get? fs b = Dict.get? files b) ∧
      (∀ b ∈ names, ∀ l, Dict.get? files b = some l → Dict.get? fs b = some (l ++ bufRows b { c with mods := [m] })) := by
  induction names with
  | nil => intro files; exact ⟨files, rfl, fun _ _ => rfl, by simp⟩
  | cons a names ih =>
    intro files
    rw [List.nodup_cons] at hn
    have hone : ∃ f1, writeBuf c m files a = .ok f1 ∧ (∀ b, b ≠ a → Dict.get? f1 b = Dict.get? files b) ∧
        ∀ l, Dict.get? files a = some l → Dict.get? f1 a = some (l ++ bufRows a { c with mods := [m] }) := by
      unfold writeBuf bufRows
      cases hv : Dict.get? m.2 a with
      | none => exact ⟨files, rfl, fun _ _ => rfl, fun l hl => by simp [hl, hv]⟩
      | some v =>
        cases v with
        | none => exact absurd hv (hnn a (by simp))
        | tensor vs =>
          refine ⟨_, rfl, fun b hb => Dict.get?_set_ne _ _ (fun e => hb e.symm), fun l hl => ?_⟩
          rw [Dict.get?_set_self, hl]; simp [hv]
        | list vs =>
          refine ⟨_, rfl, fun b hb => Dict.get?_set_ne _ _ (fun e => hb e.symm), fun l hl => ?_⟩
          rw [Dict.get?_set_self, hl]; simp [hv]
    obtain ⟨f1, h1, h2, h3⟩ := hone
    obtain ⟨fs, g1, g2, g3⟩ := ih hn.2 (fun b hb => hnn b (by simp [hb])) f1
    refine ⟨fs, by rw [List.foldlM_cons, h1]; exact g1, ?_, ?_⟩
    · intro b hb
      simp only [List.mem_cons, not_or] at hb
      rw [g2 b hb.2, h2 b hb.1]
    · intro b hb l hl
      rcases List.mem_cons.1 hb with rfl | hb
      · rw [g2 b hn.1]; exact h3 l hl
      · have hne : b ≠ a := fun e => hn.1 (e ▸ hb)
        exact g3 b hb l (by rw [h2 b hne]; exact hl)

theorem writeMods_spec (c : BufCall) (names : List String) (hn : names.Nodup) : ∀ (ms : List (Name × Dict String BufVal)),
    (∀ m ∈ ms, ∀ b ∈ names, Dict.get? m.2 b ≠ some .none) → ∀ (files : Dict String (List CsvLine)),
    ∃ fs, ms.foldlM (fun fs m => names.foldlM (writeBuf c m) fs) files = .ok fs ∧
      (∀ b ∉ names, Dict.get? fs b = Dict.get? files b) ∧
      (∀ b ∈ names, ∀ l, Dict.get? files b = some l → Dict.get? fs b = some (l ++ bufRows b { c with mods := ms })) := by
  intro ms
  induction ms with
  | nil => intro _ files; exact ⟨files, rfl, fun _ _ => rfl, fun b _ l hl => by simp [bufRows, hl]⟩
  | cons m ms ih =>
    intro hnn files
    obtain ⟨f1, h1, h2, h3⟩ := writeBufs_spec c m names hn (hnn m (by simp)) files
    obtain ⟨fs, g1, g2, g3⟩ := ih (fun m hm => hnn m (by simp [hm])) f1
    refine ⟨fs, by rw [List.foldlM_cons, h1]; exact g1, fun b hb => by rw [g2 b hb, h2 b hb], fun b hb l hl => ?_⟩
    rw [g3 b hb _ (h3 b hb l hl), List.append_assoc]
    congr 2
    unfold bufRows
    rw [show m :: ms = [m] ++ ms from rfl, List.filterMap_append]

/-- **C160** (buffers, _partial) After any history of calls the file of each buffer holds the header – or what was there before –
followed by one line for each call and each module that has the buffer, in order; other files are not touched. -/
theorem C160_buffers_partial (names : List String) (hn : names.Nodup) (calls : List BufCall) (hc : ∀ c ∈ calls, NoNones names c)
    (files : Dict String (List CsvLine)) (hne : calls ≠ []) :
    ∃ fs, calls.foldlM (csvBuffers names) files = .ok fs ∧
      (∀ b ∉ names, Dict.get? fs b = Dict.get? files b) ∧
      ∀ b ∈ names, Dict.get? fs b = some ((Dict.get? files b).getD [.header] ++ calls.flatMap (bufRows b)) := by
  have one : ∀ (c : BufCall) (files : Dict String (List CsvLine)), NoNones names c → ∃ fs, csvBuffers names files c = .ok fs ∧
      (∀ b ∉ names, Dict.get? fs b = Dict.get? files b) ∧
      ∀ b ∈ names, Dict.get? fs b = some ((Dict.get? files b).getD [.header] ++ bufRows b c) := by
    intro c files hcn
    obtain ⟨fs, h1, h2, h3⟩ := writeMods_spec c names hn c.mods hcn (names.foldl openCsv files)
    refine ⟨fs, h1, fun b hb => by rw [h2 b hb, openCsv_spec, if_neg hb], fun b hb => ?_⟩
    rw [h3 b hb _ (by rw [openCsv_spec, if_pos hb])]
  induction calls generalizing files with
  | nil => exact absurd rfl hne
  | cons c calls ih =>
    obtain ⟨f1, h1, h2, h3⟩ := one c files (hc c (by simp))
    cases calls with
    | nil => exact ⟨f1, by rw [List.foldlM_cons, h1]; rfl, h2, fun b hb => by rw [h3 b hb]; simp⟩
    | cons c' calls =>
      obtain ⟨fs, g1, g2, g3⟩ := ih (fun x hx => hc x (by simp [hx])) f1 (by simp)
      refine ⟨fs, by rw [List.foldlM_cons, h1]; exact g1, fun b hb => by rw [g2 b hb, h2 b hb], fun b hb => ?_⟩
      rw [g3 b hb, h3 b hb]
      simp

/-- A call with two quantized layers. -/
def bufEx (step : Int) : BufCall :=
  ⟨[(["module", "conv"], [("scale", .tensor [step]), ("zp", .list [[0], [1]])]), (["module", "relu"], []),
    (["module", "fc"], [("scale", .tensor [7])])], 2, step, 100⟩

example : ([bufEx 1, bufEx 2].foldlM (csvBuffers ["scale", "zp"]) []).map (fun fs => (Dict.get? fs "scale", Dict.get? fs "zp")) =
    .ok (some [.header, .row ["conv", "scale"] 2 1 100 [1], .row ["fc", "scale"] 2 1 100 [7], .row ["conv", "scale"] 2 2 100 [2],
      .row ["fc", "scale"] 2 2 100 [7]],
      some [.header, .row ["conv", "zp"] 2 1 100 [0, 1], .row ["conv", "zp"] 2 2 100 [0, 1]]) := by decide +kernel

example : NoNones ["scale", "zp"] (bufEx 1) := by unfold NoNones bufEx; decide +kernel

/-- **C160, violated**: a module that has the buffer with value `None` (a layer without bias, a batch-norm without running
statistics) makes the call fail instead of being skipped. -/
theorem C160_violated_none : csvBuffers ["bias"] []
    ⟨[(["conv"], [("bias", .none)]), (["fc"], [("bias", .tensor [1])])], 0, 1, 10⟩ = .error .attribute := by decide +kernel

end Verif
