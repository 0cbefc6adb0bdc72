import Verif.Model.EarlyExit
import Verif.Lemmas.Fold
import Mathlib.Tactic.Ring
import Mathlib.Tactic.Linarith
import Mathlib.Tactic.FieldSimp
import Mathlib.Algebra.BigOperators.Group.List.Basic
import Mathlib.Algebra.Order.Field.Rat
/-!
# C87, C88: early exits
-/
namespace Verif

/-! ## C87: validation -/

/-- Exit `e` is the one sample `s` should take: the first whose loss is below its threshold, the final
exit (number `thr.length`) if there is none. -/
def TakesExit (thr : List ℚ) (s : EESample) (e : ℕ) : Prop :=
  e ≤ thr.length ∧ (∀ (j : ℕ) (t : ℚ), j < e → thr[j]? = some t → t ≤ s.loss j) ∧
    (∀ t, thr[e]? = some t → s.loss e < t)

theorem takeExit_spec (ts : List ℚ) (i : ℕ) (s : EESample) :
    i ≤ takeExit ts i s ∧ takeExit ts i s ≤ i + ts.length ∧
    (∀ (j : ℕ) (t : ℚ), i + j < takeExit ts i s → ts[j]? = some t → t ≤ s.loss (i + j)) ∧
    (∀ t, ts[takeExit ts i s - i]? = some t → s.loss (takeExit ts i s) < t) := by
  induction ts generalizing i with
  | nil => simp [takeExit]
  | cons t ts ih =>
    unfold takeExit
    split
    · next h =>
      refine ⟨le_rfl, by omega, fun j t' hj => by omega, ?_⟩
      intro t' ht'
      simp at ht'; rw [← ht']; exact h
    · next h =>
      obtain ⟨h1, h2, h3, h4⟩ := ih (i + 1)
      refine ⟨by omega, by simp; omega, ?_, ?_⟩
      · intro j t' hj ht'
        cases j with
        | zero => simp at ht'; subst ht'; simpa using h
        | succ j =>
          have := h3 j t' (by omega) (by simpa using ht')
          rw [show i + (j + 1) = i + 1 + j by omega]; exact this
      · intro t' ht'
        refine h4 t' ?_
        rw [show takeExit ts (i + 1) s - i = (takeExit ts (i + 1) s - (i + 1)) + 1 by omega] at ht'
        simpa using ht'

theorem takeExit_takes (thr : List ℚ) (s : EESample) : TakesExit thr s (takeExit thr 0 s) := by
  obtain ⟨h1, h2, h3, h4⟩ := takeExit_spec thr 0 s
  refine ⟨by simpa using h2, ?_, ?_⟩
  · intro j t hj ht
    have := h3 j t (by omega) ht
    simpa using this
  · intro t ht; exact h4 t (by simpa using ht)

theorem takes_unique {thr : List ℚ} {s : EESample} {e e' : ℕ} (h : TakesExit thr s e) (h' : TakesExit thr s e') : e = e' := by
  rcases lt_trichotomy e e' with hlt | heq | hgt
  · have hlen : e < thr.length := by have := h'.1; omega
    have h1 := h.2.2 _ (List.getElem?_eq_getElem hlen)
    have h2 := h'.2.1 e _ hlt (List.getElem?_eq_getElem hlen)
    linarith
  · exact heq
  · have hlen : e' < thr.length := by have := h.1; omega
    have h1 := h'.2.2 _ (List.getElem?_eq_getElem hlen)
    have h2 := h.2.1 e' _ hgt (List.getElem?_eq_getElem hlen)
    linarith

/-- number of samples for which `p` holds among those leaving at exit `e` -/
def countAt (thr : List ℚ) (L : List EESample) (p : EESample → ℕ → Bool) (e : ℕ) : ℕ :=
  L.countP fun s => decide (takeExit thr 0 s = e) && p s e

theorem modify_map_range {β : Type} (E i : ℕ) (f : ℕ → β) (g : β → β) :
    ((List.range E).map f).modify i g = (List.range E).map fun e => if e = i then g (f e) else f e := by
  apply List.ext_getElem?
  intro k
  rw [List.getElem?_modify]
  by_cases hk : k < E
  · simp only [List.getElem?_map, List.getElem?_range hk, Option.map_some]
    by_cases hik : i = k
    · subst hik; simp
    · have : ¬ k = i := fun h => hik h.symm
      simp [this, hik]
  · have : (List.range E)[k]? = none := List.getElem?_eq_none (by simpa using hk)
    simp [this]

/-- The meters after the samples `L`. -/
def meterAt (thr : List ℚ) (L : List EESample) (e : ℕ) : ErrMeter :=
  ⟨countAt thr L (fun _ _ => true) e, countAt thr L (fun s e => s.hit1 e) e, countAt thr L (fun s e => s.hit5 e) e⟩

theorem addSample_fold (thr : List ℚ) (E : ℕ) (L batch : List EESample) (st : EEStats)
    (he : st.errors = (List.range E).map (meterAt thr L))
    (ht : st.taken = (List.range E).map (countAt thr L fun _ _ => true)) :
    let st' := batch.foldl (EEStats.addSample thr) st
    st'.errors = (List.range E).map (meterAt thr (L ++ batch)) ∧
    st'.taken = (List.range E).map (countAt thr (L ++ batch) fun _ _ => true) ∧
    st'.lossSum = st.lossSum ∧ st'.batches = st.batches := by
  induction batch generalizing L st with
  | nil => simp [he, ht]
  | cons s batch ih =>
    have := ih (L ++ [s]) (st.addSample thr s) (by
        simp only [EEStats.addSample, he, modify_map_range]
        apply List.map_congr_left
        intro e _
        by_cases hx : e = takeExit thr 0 s
        · subst hx
          simp only [if_true, meterAt, ErrMeter.add, countAt, List.countP_append, List.countP_cons, List.countP_nil]
          simp
        · have hx' : ¬ takeExit thr 0 s = e := fun h => hx h.symm
          simp only [if_neg hx, meterAt, countAt, List.countP_append, List.countP_cons, List.countP_nil]
          simp [hx']) (by
        simp only [EEStats.addSample, ht, modify_map_range]
        apply List.map_congr_left
        intro e _
        by_cases hx : e = takeExit thr 0 s
        · subst hx; simp [countAt, List.countP_cons]
        · have hx' : ¬ takeExit thr 0 s = e := fun h => hx h.symm
          simp [hx, hx', countAt])
    simpa [List.append_assoc, EEStats.addSample] using this

/-- average of the batch means of the losses at exit `e`, as a sum -/
def lossSumAt (batches : List (List EESample)) (e : ℕ) : ℚ :=
  (batches.map fun b => (b.map fun s => s.loss e).sum / (b.length : ℚ)).sum

theorem stats_spec (thr : List ℚ) (batches : List (List EESample)) :
    let st := batches.foldl (EEStats.addBatch thr) (EEStats.init (thr.length + 1))
    st.errors = (List.range (thr.length + 1)).map (meterAt thr batches.flatten) ∧
    st.taken = (List.range (thr.length + 1)).map (countAt thr batches.flatten fun _ _ => true) ∧
    st.lossSum = (List.range (thr.length + 1)).map (lossSumAt batches) ∧ st.batches = batches.length := by
  have H : ∀ (bs done : List (List EESample)) (st : EEStats),
      st.errors = (List.range (thr.length + 1)).map (meterAt thr done.flatten) →
      st.taken = (List.range (thr.length + 1)).map (countAt thr done.flatten fun _ _ => true) →
      st.lossSum = (List.range (thr.length + 1)).map (lossSumAt done) → st.batches = done.length →
      let st' := bs.foldl (EEStats.addBatch thr) st
      st'.errors = (List.range (thr.length + 1)).map (meterAt thr (done ++ bs).flatten) ∧
      st'.taken = (List.range (thr.length + 1)).map (countAt thr (done ++ bs).flatten fun _ _ => true) ∧
      st'.lossSum = (List.range (thr.length + 1)).map (lossSumAt (done ++ bs)) ∧ st'.batches = (done ++ bs).length := by
    intro bs
    induction bs with
    | nil => intro done st h1 h2 h3 h4; simpa using ⟨h1, h2, h3, h4⟩
    | cons b bs ih =>
      intro done st h1 h2 h3 h4
      have hb := addSample_fold thr (thr.length + 1) done.flatten b { st with
          batches := st.batches + 1
          lossSum := st.lossSum.mapIdx fun e acc => acc + (b.map fun s => s.loss e).sum / b.length } h1 h2
      obtain ⟨g1, g2, g3, g4⟩ := hb
      have := ih (done ++ [b]) (st.addBatch thr b) (by
          simpa [EEStats.addBatch] using g1) (by simpa [EEStats.addBatch] using g2) (by
          show (EEStats.addBatch thr st b).lossSum = _
          unfold EEStats.addBatch
          rw [g3]
          dsimp only
          rw [h3]
          apply List.ext_getElem?
          intro k
          by_cases hk : k < thr.length + 1
          · simp [List.getElem?_mapIdx, List.getElem?_range hk, lossSumAt]
          · have : (List.range (thr.length + 1))[k]? = none := List.getElem?_eq_none (by simpa using hk)
            simp [List.getElem?_mapIdx, this]) (by
          show (EEStats.addBatch thr st b).batches = _
          unfold EEStats.addBatch
          rw [g4]; simp [h4])
      simpa [List.append_assoc] using this
  have := H batches [] (EEStats.init (thr.length + 1)) (by
      simp only [EEStats.init, List.flatten_nil]
      apply List.ext_getElem?
      intro k
      by_cases hk : k < thr.length + 1
      · simp [List.getElem?_replicate, hk, List.getElem?_range hk, meterAt, countAt]
      · have : (List.range (thr.length + 1))[k]? = none := List.getElem?_eq_none (by simpa using hk)
        simp [List.getElem?_replicate, hk, this]) (by
      simp only [EEStats.init, List.flatten_nil]
      apply List.ext_getElem?
      intro k
      by_cases hk : k < thr.length + 1
      · simp [List.getElem?_replicate, hk, List.getElem?_range hk, countAt]
      · have : (List.range (thr.length + 1))[k]? = none := List.getElem?_eq_none (by simpa using hk)
        simp [List.getElem?_replicate, hk, this]) (by
      simp only [EEStats.init]
      apply List.ext_getElem?
      intro k
      by_cases hk : k < thr.length + 1
      · simp [List.getElem?_replicate, hk, List.getElem?_range hk, lossSumAt]
      · have : (List.range (thr.length + 1))[k]? = none := List.getElem?_eq_none (by simpa using hk)
        simp [List.getElem?_replicate, hk, this]) rfl
  simpa using this

theorem sum_ite_range (E i c : ℕ) (hi : i < E) : ((List.range E).map fun e => if i = e then c else 0).sum = c := by
  induction E with
  | zero => omega
  | succ E ih =>
    rw [List.range_succ, List.map_append, List.sum_append]
    by_cases h : i = E
    · subst h
      have : ((List.range i).map fun e => if i = e then c else 0) = (List.range i).map fun _ => 0 := by
        apply List.map_congr_left; intro e he; simp at he
        rw [if_neg (by omega)]
      simp [this]
    · simp [ih (by omega), h]

theorem countAt_sum (thr : List ℚ) (L : List EESample) (p : EESample → ℕ → Bool) :
    ((List.range (thr.length + 1)).map (countAt thr L p)).sum = L.countP fun s => p s (takeExit thr 0 s) := by
  induction L with
  | nil =>
    have : countAt thr [] p = fun _ => 0 := by funext e; simp [countAt]
    simp [this]
  | cons s L ih =>
    have : (List.range (thr.length + 1)).map (countAt thr (s :: L) p) =
        (List.range (thr.length + 1)).map fun e => countAt thr L p e +
          (if takeExit thr 0 s = e then (if p s (takeExit thr 0 s) then 1 else 0) else 0) := by
      apply List.map_congr_left
      intro e _
      unfold countAt
      rw [List.countP_cons]
      by_cases h : takeExit thr 0 s = e
      · subst h; simp
      · simp [h]
    rw [this, List.sum_map_add, ih, sum_ite_range _ _ _ (by have := (takeExit_takes thr s).1; omega), List.countP_cons]

theorem weighted_sum (E : ℕ) (taken : ℕ → ℕ) (m : ℕ → ErrMeter) (ok : ErrMeter → ℕ)
    (h : ∀ e, (m e).n = taken e) (hok : ∀ e, ok (m e) ≤ taken e) (N : ℕ) :
    (List.zipWith (fun (m : ErrMeter) (t : ℕ) => (if t = 0 then 0 else 100 * (ok m : ℚ) / (m.n : ℚ)) * ((t : ℚ) / (N : ℚ)))
      ((List.range E).map m) ((List.range E).map taken)).sum = 100 * (((List.range E).map fun e => ok (m e)).sum : ℕ) / N := by
  rw [List.zipWith_map, List.zipWith_self]
  induction E with
  | zero => simp
  | succ E ih =>
    rw [List.range_succ, List.map_append, List.sum_append, ih, List.map_append, List.sum_append]
    simp only [List.map_cons, List.map_nil, List.sum_cons, List.sum_nil, add_zero, h]
    by_cases h0 : taken E = 0
    · have := hok E
      have h1 : ok (m E) = 0 := by omega
      simp [h0, h1]
    · have : (taken E : ℚ) ≠ 0 := by exact_mod_cast h0
      simp only [h0, if_false]
      push_cast
      field_simp

/-- **C87** (one exit per sample) Every sample takes exactly one exit. -/
theorem C87_one_exit (thr : List ℚ) (s : EESample) : ∃! e, TakesExit thr s e :=
  ⟨_, takeExit_takes thr s, fun _ h => takes_unique h (takeExit_takes thr s)⟩

/-- **C87** (reported accuracy) For every split of the samples into batches, the accuracies reported for the
whole network are the percentages of samples classified correctly by the exit they take; without samples
`ZeroDivisionError` is raised.  The loss returned is the mean over the batches of the final exit's batch-mean
loss on *all* samples if some sample reaches that exit, and 0 otherwise. -/
theorem C87_reported (thr : List ℚ) (batches : List (List EESample)) (exit : EESample → ℕ)
    (hexit : ∀ s, TakesExit thr s (exit s)) :
    let all := batches.flatten
    (all = [] → eeValidate thr batches = .error .zeroDiv) ∧
    (all ≠ [] → ∃ r, eeValidate thr batches = .ok r ∧
      r.top1 = 100 * (all.countP fun s => s.hit1 (exit s)) / all.length ∧
      r.top5 = 100 * (all.countP fun s => s.hit5 (exit s)) / all.length ∧
      ((∃ s ∈ all, exit s = thr.length) → r.loss =
        (batches.map fun b => (b.map fun s => s.loss thr.length).sum / (b.length : ℚ)).sum / (batches.length : ℚ)) ∧
      ((∀ s ∈ all, exit s ≠ thr.length) → r.loss = 0)) := by
  have hex : exit = fun s => takeExit thr 0 s := funext fun s => takes_unique (hexit s) (takeExit_takes thr s)
  subst hex
  intro all
  obtain ⟨h1, h2, h3, h4⟩ := stats_spec thr batches
  have hsum : (batches.foldl (EEStats.addBatch thr) (EEStats.init (thr.length + 1))).taken.sum = all.length := by
    rw [h2, countAt_sum]; simp [all]
  unfold eeValidate EEStats.result
  dsimp only
  rw [hsum]
  constructor
  · intro h; rw [h]; rfl
  · intro h
    have hne : all.length ≠ 0 := by simpa using h
    rw [if_neg hne]
    have hle : ∀ (p : EESample → ℕ → Bool) e, countAt thr all p e ≤ countAt thr all (fun _ _ => true) e := by
      intro p e
      unfold countAt
      apply List.countP_mono_left
      intro s _ hs
      simp at hs ⊢
      exact hs.1
    refine ⟨_, rfl, ?_, ?_, ?_, ?_⟩
    · dsimp only
      rw [h1, h2]
      have := weighted_sum (thr.length + 1) (countAt thr all fun _ _ => true) (meterAt thr all) ErrMeter.ok1
        (fun _ => rfl) (fun e => hle _ e) all.length
      unfold ErrMeter.value1
      rw [this]
      rw [show (fun e => (meterAt thr all e).ok1) = countAt thr all fun s e => s.hit1 e from rfl, countAt_sum]
    · dsimp only
      rw [h1, h2]
      have := weighted_sum (thr.length + 1) (countAt thr all fun _ _ => true) (meterAt thr all) ErrMeter.ok5
        (fun _ => rfl) (fun e => hle _ e) all.length
      unfold ErrMeter.value5
      rw [this]
      rw [show (fun e => (meterAt thr all e).ok5) = countAt thr all fun s e => s.hit5 e from rfl, countAt_sum]
    · rintro ⟨s, hs, hse⟩
      have hpos : countAt thr all (fun _ _ => true) thr.length ≠ 0 := by
        have : 0 < all.countP fun s => decide (takeExit thr 0 s = thr.length) && true := by
          rw [List.countP_pos_iff]; exact ⟨s, hs, by simpa using hse⟩
        unfold countAt
        exact this.ne'
      rw [h2, h3, h4]
      have e1 : ((List.range (thr.length + 1)).map (countAt thr all fun _ _ => true)).getLast? =
          some (countAt thr all (fun _ _ => true) thr.length) := by simp [List.range_succ]
      have e2 : ((List.range (thr.length + 1)).map (lossSumAt batches)).getLast? =
          some (lossSumAt batches thr.length) := by simp [List.range_succ]
      rw [e1, e2]
      simp [hpos, lossSumAt]
    · intro hs
      have hzero : countAt thr all (fun _ _ => true) thr.length = 0 := by
        unfold countAt
        rw [List.countP_eq_zero]
        intro s hsm; simpa using hs s hsm
      rw [h2, h3]
      have e1 : ((List.range (thr.length + 1)).map (countAt thr all fun _ _ => true)).getLast? =
          some (countAt thr all (fun _ _ => true) thr.length) := by simp [List.range_succ]
      have e2 : ((List.range (thr.length + 1)).map (lossSumAt batches)).getLast? =
          some (lossSumAt batches thr.length) := by simp [List.range_succ]
      rw [e1, e2]
      simp [hzero]

def exSample (l0 l1 : ℚ) (h0 h1 : Bool) : EESample :=
  ⟨fun e => if e = 0 then l0 else l1, fun e => if e = 0 then h0 else h1, fun _ => true⟩

-- non-vacuity: one threshold, three samples in two batches
example : eeValidate [1] [[exSample (1/2) 9 true false, exSample 2 3 false true], [exSample 1 5 true false]] =
    .ok ⟨200/3, 100, 11/2⟩ := by decide +kernel

/-- **C87 fails** for the loss: when every sample leaves early, the loss reported (and used for
ranking/`ReduceLROnPlateau`) is 0 although no loss is 0. -/
theorem C87_violated_loss_zero : ∃ (thr : List ℚ) (s : EESample), (∀ e, 0 < s.loss e) ∧
    ∃ r, eeValidate thr [[s]] = .ok r ∧ r.loss = 0 :=
  ⟨[1], exSample (1/2) 9 true false, by intro e; simp only [exSample]; split <;> norm_num,
    ⟨100, 100, 0⟩, by decide +kernel, rfl⟩

/-! ## C88: the training loss -/

/-- **C88** (weighted mean) With a loss at every exit and one weight per early exit: weights adding to 1 or
more are refused with `AssertionError`, others give `Σ wᵢ·lossᵢ + (1 - Σ wᵢ)·loss_last`. -/
theorem C88_weighted_sum (weights losses : List ℚ) (last : ℚ) (hlen : losses.length = weights.length) :
    (1 ≤ weights.sum → earlyexitLoss weights ((losses ++ [last]).map some) = .error .assertion) ∧
    (weights.sum < 1 → earlyexitLoss weights ((losses ++ [last]).map some) =
      .ok ((List.zipWith (· * ·) weights losses).sum + (1 - weights.sum) * last)) := by
  constructor
  · intro h; unfold earlyexitLoss; simp [not_lt.2 h]
  · intro h
    unfold earlyexitLoss
    simp only [h, not_true_eq_false, if_false]
    have hd : ((losses ++ [last]).map some).dropLast = losses.map some := by simp
    have hl : ((losses ++ [last]).map some).getLast? = some (some last) := by simp
    rw [hd, hl]
    have key : ∀ (ls ws pre : List ℚ) (acc : ℚ), ls.length = ws.length → weights = pre ++ ws →
        ((ls.map some).zipIdx pre.length).foldlM (earlyexitStep weights) acc = .ok (acc + (List.zipWith (· * ·) ws ls).sum) := by
      intro ls
      induction ls with
      | nil => intro ws pre acc h1 h2; simp [pure, Except.pure]
      | cons l ls ih =>
        intro ws pre acc h1 h2
        cases ws with
        | nil => simp at h1
        | cons w ws =>
          have hw : weights[pre.length]? = some w := by rw [h2]; simp
          have := ih ws (pre ++ [w]) (acc + w * l) (by simpa using h1) (by rw [h2]; simp)
          simp only [List.map_cons, List.zipIdx_cons, List.foldlM_cons, earlyexitStep, hw, bind, Except.bind]
          simp only [List.length_append, List.length_cons, List.length_nil, bind, Except.bind] at this
          rw [this]
          simp [add_assoc]
    have := key losses weights [] 0 hlen rfl
    simp only [List.length_nil] at this
    rw [this]
    simp [bind, Except.bind]

/-- **C88** Hence with non-negative weights the training loss lies between the smallest and the largest
exit loss. -/
theorem C88_between (weights losses : List ℚ) (last lo hi v : ℚ) (hlen : losses.length = weights.length)
    (hw : ∀ w ∈ weights, 0 ≤ w) (hb : ∀ l ∈ losses ++ [last], lo ≤ l ∧ l ≤ hi)
    (h : earlyexitLoss weights ((losses ++ [last]).map some) = .ok v) : lo ≤ v ∧ v ≤ hi := by
  obtain ⟨h1, h2⟩ := C88_weighted_sum weights losses last hlen
  by_cases hs : weights.sum < 1
  · rw [h2 hs] at h
    injection h with h
    have key : ∀ (ws ls : List ℚ), ls.length = ws.length → (∀ w ∈ ws, 0 ≤ w) → (∀ l ∈ ls, lo ≤ l ∧ l ≤ hi) →
        ws.sum * lo ≤ (List.zipWith (· * ·) ws ls).sum ∧ (List.zipWith (· * ·) ws ls).sum ≤ ws.sum * hi := by
      intro ws
      induction ws with
      | nil => intro ls _ _ _; simp
      | cons w ws ih =>
        intro ls hl hw hb
        cases ls with
        | nil => simp at hl
        | cons l ls =>
          obtain ⟨i1, i2⟩ := ih ls (by simpa using hl) (fun x hx => hw x (by simp [hx])) (fun x hx => hb x (by simp [hx]))
          have hw0 := hw w (by simp)
          obtain ⟨b1, b2⟩ := hb l (by simp)
          have p1 := mul_le_mul_of_nonneg_left b1 hw0
          have p2 := mul_le_mul_of_nonneg_left b2 hw0
          simp only [List.sum_cons, List.zipWith_cons_cons]
          constructor <;> nlinarith
    obtain ⟨k1, k2⟩ := key weights losses hlen hw (fun l hl => hb l (by simp [hl]))
    obtain ⟨b1, b2⟩ := hb last (by simp)
    have p1 := mul_le_mul_of_nonneg_left b1 (sub_nonneg.2 hs.le)
    have p2 := mul_le_mul_of_nonneg_left b2 (sub_nonneg.2 hs.le)
    constructor <;> nlinarith
  · rw [h1 (not_lt.1 hs)] at h; cases h

-- non-vacuity
example : earlyexitLoss [1/10, 3/10] [some 2, some 4, some 1] = .ok 2 := by decide +kernel

/-- **C88 fails** when an exit has no output: its weight is dropped, the weights no longer add up to 1, and
the training loss is smaller than every exit's loss. -/
theorem C88_violated_missing_exit : ∃ (weights : List ℚ) (l : ℚ), (∀ w ∈ weights, 0 ≤ w) ∧
    ∃ v, earlyexitLoss weights [none, some l] = .ok v ∧ v < l :=
  ⟨[1/2], 4, by decide +kernel, 2, by decide +kernel, by norm_num⟩

theorem earlyexit_missing (weights : List ℚ) (l : List (Option ℚ × ℕ)) (acc : ℚ)
    (h : ∃ x ∈ l, x.1.isSome = true ∧ weights.length ≤ x.2) : l.foldlM (earlyexitStep weights) acc = .error .index := by
  induction l generalizing acc with
  | nil => simp at h
  | cons y l ih =>
    rw [List.foldlM_cons]
    obtain ⟨x, hx, h1, h2⟩ := h
    cases hs : earlyexitStep weights acc y with
    | error e =>
      have : e = .index := by
        unfold earlyexitStep at hs
        split at hs
        · cases hs
        · split at hs
          · cases hs; rfl
          · cases hs
      subst this; rfl
    | ok acc' =>
      refine ih acc' ⟨x, ?_, h1, h2⟩
      rcases List.mem_cons.1 hx with rfl | hx
      · exfalso
        obtain ⟨v, hv⟩ := Option.isSome_iff_exists.1 h1
        unfold earlyexitStep at hs
        rw [hv, List.getElem?_eq_none h2] at hs
        cases hs
      · exact hx

/-- **C88** (missing weights) With fewer weights than early exits that have an output, nothing is guessed: the loss raises
`IndexError` (weights adding to 1 or more are refused first). -/
theorem C88_too_few_weights (weights : List ℚ) (losses : List (Option ℚ)) (last : Option ℚ) (i : ℕ) (l : ℚ)
    (hi : losses[i]? = some (some l)) (hw : weights.length ≤ i) :
    earlyexitLoss weights (losses ++ [last]) = .error (if weights.sum < 1 then .index else .assertion) := by
  unfold earlyexitLoss
  dsimp only
  by_cases h : weights.sum < 1
  · rw [if_neg (not_not.2 h), if_pos h, List.dropLast_concat, earlyexit_missing weights losses.zipIdx 0]
    · rfl
    · obtain ⟨hlt, he⟩ := List.getElem?_eq_some_iff.1 hi
      exact ⟨(some l, i), by rw [List.mem_iff_getElem]; exact ⟨i, by simpa using hlt, by simp [he]⟩, rfl, hw⟩
  · rw [if_pos h, if_neg h]

example : earlyexitLoss [1/4] [some 2, some 3, some 4] = .error .index := by decide +kernel

end Verif
