import Verif.Model.QuantStats
import Verif.Props.Collectors
/-!
# C147: `collect_quant_stats` reports the statistics of the data, for the modules asked for
-/
namespace Verif

/-! ## Specification -/

/-- The batches a module produced in a run. -/
def batchesOf (run : List (ℕ × Batch)) (i : ℕ) : List Batch := (run.filter (·.1 = i)).map (·.2)

/-- A record with the statistics of a list of batches: extremes, mean, variance, mean absolute deviation of all values. -/
structure HasStats (q : QRec) (bs : List Batch) : Prop where
  min : IsLeastOf q.min (allValues bs)
  max : IsGreatestOf q.max (allValues bs)
  mean : q.mean = collMean (allValues bs)
  var : q.var = collMean ((allValues bs).map fun v => (v - collMean (allValues bs)) ^ 2)
  b : q.b = collMean ((allValues bs).map fun v => |v - collMean (allValues bs)|)

/-! ## Proofs -/

theorem get_mapVals {α β γ : Type} [DecidableEq α] (f : α → β → γ) (d : Dict α β) (k : α) :
    Dict.get? (Dict.mapVals f d) k = (Dict.get? d k).map (f k) := by
  induction d with
  | nil => rfl
  | cons e d ih =>
    obtain ⟨a, b⟩ := e
    show Dict.get? ((a, f a b) :: Dict.mapVals f d) k = _
    rw [Dict.get?_cons, Dict.get?_cons]
    by_cases h : a = k
    · subst h; simp
    · simp [h, ih]

theorem get_qsStart (hooks : List ℕ) (r : QSRecs) (i : ℕ) :
    Dict.get? (qsStart hooks r) i = if i ∈ hooks then some QRec.init else Dict.get? r i := by
  unfold qsStart
  induction hooks generalizing r with
  | nil => simp
  | cons h l ih =>
    rw [List.foldl_cons, ih, Dict.get?_set]
    by_cases h1 : i ∈ l
    · simp [h1]
    · by_cases h2 : h = i
      · simp [h2]
      · simp [h1, h2, Ne.symm h2]

theorem get_qsFeed (upd : QRec → Batch → QRec) (hooks : List ℕ) (hn : hooks.Nodup) (r : QSRecs) (e : ℕ × Batch) (i : ℕ) :
    Dict.get? (qsFeed upd hooks r e) i =
      if i ∈ hooks ∧ e.1 = i then some (upd ((Dict.get? r i).getD QRec.init) e.2) else Dict.get? r i := by
  unfold qsFeed
  have : hooks.filter (· = e.1) = if e.1 ∈ hooks then [e.1] else [] := by
    induction hooks with
    | nil => rfl
    | cons h l ih =>
      rw [List.nodup_cons] at hn
      rw [List.filter_cons, ih hn.2]
      by_cases h1 : h = e.1
      · have : e.1 ∉ l := h1 ▸ hn.1
        simp [h1, this]
      · have : e.1 ≠ h := Ne.symm h1
        simp [h1, this]
  rw [this]
  by_cases h1 : e.1 ∈ hooks
  · simp only [h1, if_true, List.foldl_cons, List.foldl_nil, Dict.get?_set]
    by_cases h2 : e.1 = i
    · rw [← h2]; simp [h1]
    · simp [h2]
  · simp only [h1, if_false, List.foldl_nil]
    rw [if_neg]
    rintro ⟨h2, h3⟩
    exact h1 (h3 ▸ h2)

theorem get_qsRun (upd : QRec → Batch → QRec) (hooks : List ℕ) (hn : hooks.Nodup) (run : List (ℕ × Batch)) (r : QSRecs) (i : ℕ) (q : QRec)
    (hq : Dict.get? r i = some q) :
    Dict.get? (run.foldl (qsFeed upd hooks) r) i = some (if i ∈ hooks then (batchesOf run i).foldl upd q else q) := by
  induction run generalizing r q with
  | nil => simp [batchesOf, hq]
  | cons e run ih =>
    rw [List.foldl_cons]
    by_cases h1 : i ∈ hooks ∧ e.1 = i
    · have hg : Dict.get? (qsFeed upd hooks r e) i = some (upd q e.2) := by
        rw [get_qsFeed upd hooks hn, if_pos h1, hq]; rfl
      rw [ih _ _ hg, if_pos h1.1, if_pos h1.1]
      simp [batchesOf, List.filter_cons, h1.2]
    · have hg : Dict.get? (qsFeed upd hooks r e) i = some q := by rw [get_qsFeed upd hooks hn, if_neg h1, hq]
      rw [ih _ _ hg]
      by_cases h2 : i ∈ hooks
      · have : e.1 ≠ i := fun h => h1 ⟨h2, h⟩
        simp [batchesOf, List.filter_cons, this]
      · simp [h2]

theorem get_qsRun_none (upd : QRec → Batch → QRec) (hooks : List ℕ) (hn : hooks.Nodup) (run : List (ℕ × Batch)) (r : QSRecs) (i : ℕ)
    (hi : i ∉ hooks) (hq : Dict.get? r i = none) : Dict.get? (run.foldl (qsFeed upd hooks) r) i = none := by
  induction run generalizing r with
  | nil => exact hq
  | cons e run ih =>
    rw [List.foldl_cons]
    apply ih
    rw [get_qsFeed upd hooks hn, if_neg (fun h => hi h.1), hq]

/-- What the collection returns for every module, when the check passes. -/
theorem collect_get (m : QSModel) (root : List ℕ) (sel : List Name) (run1 run2 : List (ℕ × Batch)) (r0 r : QSRecs) (v : List ℕ)
    (hv : m.visited root sel = .ok v) (hn : v.Nodup) (hall : ∀ i ∈ v, i ∈ m.all)
    (h : collectQuantStats m root sel run1 run2 r0 = .ok r) (i : ℕ) :
    Dict.get? r i =
      if i ∈ v ∧ m.eligible i = true then
        some ((batchesOf run2 i).foldl QRec.update2 ((batchesOf run1 i).foldl QRec.update1 QRec.init).second)
      else (Dict.get? r0 i).map fun _ => QRec.init := by
  unfold collectQuantStats at h
  rw [hv] at h
  have hn' : (v.filter m.eligible).Nodup := hn.filter _
  have hmem : i ∈ v.filter m.eligible ↔ i ∈ v ∧ m.eligible i = true := by rw [List.mem_filter]
  have hr : r = run2.foldl (qsFeed QRec.update2 (v.filter m.eligible))
      (qsSecond m (run1.foldl (qsFeed QRec.update1 (v.filter m.eligible)) (qsStart (v.filter m.eligible) (qsReset r0)))) := by
    have h' : ((m.check (run1.foldl (qsFeed QRec.update1 (v.filter m.eligible)) (qsStart (v.filter m.eligible) (qsReset r0)))).bind
      fun _ => Except.ok _) = Except.ok r := h
    cases hc : m.check (run1.foldl (qsFeed QRec.update1 (v.filter m.eligible)) (qsStart (v.filter m.eligible) (qsReset r0))) with
    | error e => rw [hc] at h'; cases h'
    | ok u => rw [hc] at h'; exact (Except.ok.inj h').symm
  rw [hr]
  by_cases hi : i ∈ v.filter m.eligible
  · have h1 : Dict.get? (qsStart (v.filter m.eligible) (qsReset r0)) i = some QRec.init := by rw [get_qsStart, if_pos hi]
    have h2 := get_qsRun QRec.update1 _ hn' run1 _ i _ h1
    rw [if_pos hi] at h2
    have h3 : Dict.get? (qsSecond m (run1.foldl (qsFeed QRec.update1 (v.filter m.eligible)) (qsStart (v.filter m.eligible) (qsReset r0)))) i =
        some ((batchesOf run1 i).foldl QRec.update1 QRec.init).second := by
      unfold qsSecond
      rw [get_mapVals, h2]
      have := hmem.1 hi
      simp [hall i this.1, this.2]
    rw [get_qsRun QRec.update2 _ hn' run2 _ i _ h3, if_pos hi, if_pos (hmem.1 hi)]
  · rw [if_neg (fun h => hi (hmem.2 h))]
    have h1 : Dict.get? (qsStart (v.filter m.eligible) (qsReset r0)) i = (Dict.get? r0 i).map fun _ => QRec.init := by
      rw [get_qsStart, if_neg hi]
      unfold qsReset
      rw [get_mapVals]
    cases h0 : Dict.get? r0 i with
    | none =>
      rw [h0] at h1
      have h2 := get_qsRun_none QRec.update1 _ hn' run1 _ i hi h1
      apply get_qsRun_none _ _ hn' _ _ _ hi
      unfold qsSecond
      rw [get_mapVals, h2]
      rfl
    | some q =>
      rw [h0] at h1
      have h2 := get_qsRun QRec.update1 _ hn' run1 _ i _ h1
      rw [if_neg hi] at h2
      have h3 : Dict.get? (qsSecond m (run1.foldl (qsFeed QRec.update1 (v.filter m.eligible)) (qsStart (v.filter m.eligible) (qsReset r0)))) i =
          some QRec.init := by
        unfold qsSecond
        rw [get_mapVals, h2]
        simp [QRec.second, QRec.init]
      rw [get_qsRun QRec.update2 _ hn' run2 _ i _ h3, if_neg hi]
      rfl

/-- When the selection covers every eligible module the check passes. -/
theorem collect_ok (m : QSModel) (root : List ℕ) (sel : List Name) (run1 run2 : List (ℕ × Batch)) (r0 : QSRecs) (v : List ℕ)
    (hv : m.visited root sel = .ok v) (hn : v.Nodup) (hcov : ∀ i ∈ m.all, m.eligible i = true → i ∈ v) :
    ∃ r, collectQuantStats m root sel run1 run2 r0 = .ok r := by
  have hn' : (v.filter m.eligible).Nodup := hn.filter _
  have hc : m.check (run1.foldl (qsFeed QRec.update1 (v.filter m.eligible)) (qsStart (v.filter m.eligible) (qsReset r0))) = .ok () := by
    unfold QSModel.check
    rw [if_pos]
    intro i hi he
    have hi' : i ∈ v.filter m.eligible := List.mem_filter.2 ⟨hcov i hi he, he⟩
    have h1 : Dict.get? (qsStart (v.filter m.eligible) (qsReset r0)) i = some QRec.init := by rw [get_qsStart, if_pos hi']
    rw [get_qsRun QRec.update1 _ hn' run1 _ i _ h1]
    rfl
  unfold collectQuantStats
  rw [hv]
  exact ⟨_, by
    show ((m.check (run1.foldl (qsFeed QRec.update1 (v.filter m.eligible)) (qsStart (v.filter m.eligible) (qsReset r0)))).bind
      fun _ => Except.ok _) = _
    rw [hc]
    rfl⟩

/-- **C147** (partial) Collecting over a whole model (or a selection with every eligible module), with the same data in both passes:
every eligible module that ran gets the minimum, maximum, mean, variance and mean absolute deviation of all values it produced,
whatever was collected before; on a model without earlier records exactly the eligible modules are reported.  Missing: selections
that leave out a module (`C147_violated_selection`), and modules that did not run (`C147_violated_not_run`). -/
theorem C147_whole_model_partial (m : QSModel) (root : List ℕ) (sel : List Name) (run : List (ℕ × Batch)) (r0 : QSRecs) (v : List ℕ)
    (hv : m.visited root sel = .ok v) (hn : v.Nodup) (hall : ∀ i ∈ v, i ∈ m.all)
    (hcov : ∀ i ∈ m.all, m.eligible i = true → i ∈ v) (hg : ∀ e ∈ run, GoodBatch e.2) :
    ∃ r, collectQuantStats m root sel run run r0 = .ok r ∧
      (∀ i ∈ m.all, m.eligible i = true → batchesOf run i ≠ [] → ∃ q, Dict.get? r i = some q ∧ HasStats q (batchesOf run i)) ∧
      (r0 = [] → ∀ i, (Dict.get? r i).isSome = true ↔ i ∈ m.all ∧ m.eligible i = true) := by
  obtain ⟨r, hr⟩ := collect_ok m root sel run run r0 v hv hn hcov
  have hget := collect_get m root sel run run r0 r v hv hn hall hr
  refine ⟨r, hr, ?_, ?_⟩
  · intro i hi he hb
    have hgood : ∀ x ∈ batchesOf run i, GoodBatch x := by
      intro x hx
      obtain ⟨e, he, rfl⟩ := List.mem_map.1 hx
      exact hg e (List.mem_of_mem_filter he)
    refine ⟨_, by rw [hget i, if_pos ⟨hcov i hi he, he⟩], ?_⟩
    obtain ⟨a1, a2, a3⟩ := C45_min_max_mean (batchesOf run i) hgood hb
    obtain ⟨b1, b2, b3, b4, b5⟩ := C45_second_pass ((batchesOf run i).foldl QRec.update1 QRec.init) (batchesOf run i) hgood hb
    refine ⟨by rw [b4]; exact a1, by rw [b5]; exact a2, by rw [b3]; exact a3, ?_, ?_⟩
    · rw [b1, a3]
    · rw [b2, a3]
  · rintro rfl i
    rw [hget i]
    constructor
    · intro h
      by_cases hc : i ∈ v ∧ m.eligible i = true
      · exact ⟨hall i hc.1, hc.2⟩
      · rw [if_neg hc] at h
        simp at h
    · intro h
      rw [if_pos ⟨hcov i h.1 h.2, h.2⟩]
      rfl

/-- **C147** (partial, no selection) Without a list of modules the whole model is covered. -/
theorem C147_no_selection_partial (m : QSModel) (root : List ℕ) (run : List (ℕ × Batch)) (r0 : QSRecs) (hn : root.Nodup)
    (hall : ∀ i, i ∈ root ↔ i ∈ m.all) (hg : ∀ e ∈ run, GoodBatch e.2) :
    ∃ r, collectQuantStats m root [] run run r0 = .ok r ∧
      (∀ i ∈ m.all, m.eligible i = true → batchesOf run i ≠ [] → ∃ q, Dict.get? r i = some q ∧ HasStats q (batchesOf run i)) ∧
      (r0 = [] → ∀ i, (Dict.get? r i).isSome = true ↔ i ∈ m.all ∧ m.eligible i = true) :=
  C147_whole_model_partial m root [] run r0 root rfl hn (fun i hi => (hall i).1 hi) (fun i hi _ => (hall i).2 hi) hg

/-- **C147** An unknown module name in the selection is refused. -/
theorem C147_unknown_name (m : QSModel) (root : List ℕ) (sel : List Name) (run1 run2 : List (ℕ × Batch)) (r0 : QSRecs)
    (n : Name) (hn : n ∈ sel) (hm : Dict.get? m.subtree n = none) : collectQuantStats m root sel run1 run2 r0 = .error .key := by
  have hmap : (sel.mapM fun n => Dict.getE m.subtree n) = .error .key := by
    clear r0 run1 run2 root
    induction sel with
    | nil => simp at hn
    | cons a l ih =>
      rw [List.mapM_cons]
      cases ha : Dict.get? m.subtree a with
      | none =>
        have : Dict.getE m.subtree a = .error .key := by unfold Dict.getE; rw [ha]
        rw [this]; rfl
      | some v =>
        have : Dict.getE m.subtree a = .ok v := by unfold Dict.getE; rw [ha]
        rw [this]
        rcases List.mem_cons.1 hn with rfl | hl
        · rw [hm] at ha; cases ha
        · rw [ih hl]; rfl
  unfold collectQuantStats QSModel.visited
  rw [if_neg (by rintro rfl; simp at hn), hmap]
  rfl

/-- **C147 violated** Every collection restricted to a selection that leaves out an eligible module fails before its second pass
(unless that module has records of an earlier collection). -/
theorem C147_violated_selection (m : QSModel) (root : List ℕ) (sel : List Name) (run1 run2 : List (ℕ × Batch)) (r0 : QSRecs) (v : List ℕ)
    (hv : m.visited root sel = .ok v) (hn : v.Nodup) (i : ℕ) (hi : i ∈ m.all) (he : m.eligible i = true) (hiv : i ∉ v)
    (h0 : Dict.get? r0 i = none) : collectQuantStats m root sel run1 run2 r0 = .error .runtime := by
  have hn' : (v.filter m.eligible).Nodup := hn.filter _
  have hih : i ∉ v.filter m.eligible := fun h => hiv (List.mem_of_mem_filter h)
  have hc : m.check (run1.foldl (qsFeed QRec.update1 (v.filter m.eligible)) (qsStart (v.filter m.eligible) (qsReset r0))) = .error .runtime := by
    unfold QSModel.check
    rw [if_neg]
    intro h
    have := h i hi he
    rw [get_qsRun_none QRec.update1 _ hn' run1 _ i hih] at this
    · simp at this
    · rw [get_qsStart, if_neg hih]
      unfold qsReset
      rw [get_mapVals, h0]
      rfl
  unfold collectQuantStats
  rw [hv]
  show ((m.check (run1.foldl (qsFeed QRec.update1 (v.filter m.eligible)) (qsStart (v.filter m.eligible) (qsReset r0)))).bind
      fun _ => Except.ok _) = _
  rw [hc]
  rfl

/-- **C147 violated** An eligible module that did not run, and a module that is not selected but has records of an earlier collection,
are reported with the initial record: minimum `sys.float_info.max`, maximum its negative. -/
theorem C147_violated_not_run (m : QSModel) (root : List ℕ) (sel : List Name) (run1 run2 : List (ℕ × Batch)) (r0 r : QSRecs) (v : List ℕ)
    (hv : m.visited root sel = .ok v) (hn : v.Nodup) (hall : ∀ i ∈ v, i ∈ m.all)
    (h : collectQuantStats m root sel run1 run2 r0 = .ok r) (i : ℕ)
    (hi : (i ∈ v ∧ m.eligible i = true ∧ batchesOf run1 i = [] ∧ batchesOf run2 i = []) ∨ (i ∉ v ∧ (Dict.get? r0 i).isSome = true)) :
    ∃ q, Dict.get? r i = some q ∧ q.min = fltMax ∧ q.max = -fltMax := by
  rw [collect_get m root sel run1 run2 r0 r v hv hn hall h i]
  rcases hi with ⟨h1, h2, h3, h4⟩ | ⟨h1, h2⟩
  · rw [if_pos ⟨h1, h2⟩, h3, h4]
    exact ⟨_, rfl, rfl, rfl⟩
  · rw [if_neg (fun h => h1 h.1)]
    obtain ⟨q, hq⟩ := Option.isSome_iff_exists.1 h2
    rw [hq]
    exact ⟨_, rfl, rfl, rfl⟩

/-- Two layers under a root. -/
def qsModel : QSModel := ⟨[0, 1, 2], [(["a"], [1]), (["b"], [2])], fun i => i ≠ 0⟩

example : qsModel.visited [1, 2, 0] [] = .ok [1, 2, 0] ∧ ([1, 2, 0] : List ℕ).Nodup := ⟨rfl, by decide⟩
example : qsModel.visited [1, 2, 0] [["a"], ["b"]] = .ok [1, 2] := rfl
example : ∀ i ∈ qsModel.all, qsModel.eligible i = true → i ∈ [1, 2] := by decide
example : GoodBatch [[1, 2], [3, 5]] := ⟨by simp, ⟨2, by simp⟩, by decide +kernel⟩
example : collectQuantStats qsModel [1, 2, 0] [["a"]] [(1, [[1, 2]])] [(1, [[1, 2]])] [] = .error .runtime :=
  C147_violated_selection qsModel _ _ _ _ _ [1] rfl (by decide) 2 (by decide) (by decide) (by decide) rfl

end Verif
