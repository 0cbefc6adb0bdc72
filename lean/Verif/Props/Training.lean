import Verif.Model.Training
import Verif.Lemmas.Fold
import Mathlib.Tactic.Ring
import Mathlib.Tactic.Linarith
import Mathlib.Data.List.Induction
import Mathlib.Data.List.Sort
import Mathlib.Algebra.Order.Floor.Ring
/-!
# C48 (learning rate), C73 (resuming it), C49 (performance tracker), C50 (data split)
-/
namespace Verif

/-! ## C48 -/

theorem bisect_inv {a : List ℤ} {x : ℤ} (hs : a.Pairwise (· ≤ ·)) :
    ∀ (f lo hi : ℕ), hi - lo ≤ f → lo ≤ hi → hi ≤ a.length →
      (∀ i < lo, ∀ v, a[i]? = some v → v ≤ x) → (∀ i, hi ≤ i → ∀ v, a[i]? = some v → x < v) →
      (∀ i < bisectGo a x f lo hi, ∀ v, a[i]? = some v → v ≤ x) ∧
      (∀ i, bisectGo a x f lo hi ≤ i → ∀ v, a[i]? = some v → x < v) := by
  intro f
  induction f with
  | zero =>
    intro lo hi h1 h2 _ h4 h5
    have : lo = hi := by omega
    subst this
    exact ⟨h4, h5⟩
  | succ f ih =>
    intro lo hi h1 h2 h3 h4 h5
    unfold bisectGo
    by_cases c : lo < hi
    · rw [if_pos c]
      simp only
      have hm1 : (lo + hi) / 2 < hi := by omega
      have hm0 : lo ≤ (lo + hi) / 2 := by omega
      generalize hmid : (lo + hi) / 2 = mid at *
      have hmlen : mid < a.length := by omega
      have hget : a.getD mid 0 = a[mid] := by
        rw [List.getD_eq_getElem?_getD, List.getElem?_eq_getElem hmlen]; rfl
      have mono : ∀ {i j : ℕ} {u v : ℤ}, i ≤ j → a[i]? = some u → a[j]? = some v → u ≤ v := by
        intro i j u v hij hu hv
        obtain ⟨hi', rfl⟩ := List.getElem?_eq_some_iff.1 hu
        obtain ⟨hj', rfl⟩ := List.getElem?_eq_some_iff.1 hv
        rcases Nat.lt_or_ge i j with h | h
        · exact List.pairwise_iff_getElem.1 hs i j hi' hj' h
        · have : i = j := by omega
          subst this; exact le_refl _
      have hmid_get : a[mid]? = some a[mid] := List.getElem?_eq_getElem hmlen
      by_cases d : x < a.getD mid 0
      · rw [if_pos d]
        apply ih lo mid (by omega) hm0 (by omega) h4
        intro i hi' v hv
        rw [hget] at d
        have := mono hi' hmid_get hv
        omega
      · rw [if_neg d]
        apply ih (mid + 1) hi (by omega) (by omega) h3 _ h5
        intro i hi' v hv
        rw [hget] at d
        have := mono (show i ≤ mid by omega) hv hmid_get
        omega
    · rw [if_neg c]
      have : lo = hi := by omega
      subst this
      exact ⟨h4, h5⟩

theorem bisect_le {a : List ℤ} {x : ℤ} : ∀ (f lo hi : ℕ), lo ≤ hi → bisectGo a x f lo hi ≤ hi := by
  intro f
  induction f with
  | zero => intro lo hi h; exact h
  | succ f ih =>
    intro lo hi h
    unfold bisectGo
    by_cases c : lo < hi
    · rw [if_pos c]; simp only
      split
      · exact le_trans (ih _ _ (by omega)) (by omega)
      · exact ih _ _ (by omega)
    · rw [if_neg c]; exact h

theorem multGammas_spec (gs : List ℚ) :
    (multGammas gs).length = gs.length + 1 ∧ (multGammas gs).getLastD 1 = gs.prod ∧
    ∀ k ≤ gs.length, (multGammas gs).getD k 0 = (gs.take k).prod := by
  induction gs using List.reverseRecOn with
  | nil => simp [multGammas]
  | append_singleton gs g ih =>
    obtain ⟨h1, h2, h3⟩ := ih
    have e : multGammas (gs ++ [g]) = multGammas gs ++ [g * (multGammas gs).getLastD 1] := by
      simp [multGammas, List.foldl_append]
    rw [e]
    refine ⟨by simp [h1], by rw [h2]; simp; ring, ?_⟩
    intro k hk
    simp at hk
    rw [List.getD_eq_getElem?_getD]
    by_cases c : k ≤ gs.length
    · rw [List.getElem?_append_left (by omega), ← List.getD_eq_getElem?_getD, h3 k c,
        List.take_append_of_le_length c]
    · have : k = gs.length + 1 := by omega
      subst this
      rw [List.getElem?_append_right (by omega), h1, h2]
      rw [List.take_of_length_le (by simp)]
      simp; ring

/-- Specification: the product of the gammas whose milestone has been reached at `epoch`. -/
def reachedGammas (milestones : List ℤ) (gammas : List ℚ) (epoch : ℤ) : ℚ :=
  (((milestones.zip gammas).filter fun mg => mg.1 ≤ epoch).map Prod.snd).prod

/-- **C48** For every list of milestones, gammas, base rate and epoch: the rate is the base rate times the product
of the gammas whose milestone is at most the epoch. -/
theorem C48_rate (milestones : List ℤ) (gammas : List ℚ) (s : MultiStep) (h : MultiStep.new milestones gammas = .ok s)
    (base : ℚ) (epoch : ℤ) : s.lr base epoch = base * reachedGammas milestones gammas epoch := by
  unfold MultiStep.new at h
  by_cases c : milestones.IsChain (· ≤ ·)
  · rw [if_neg (by simpa using c)] at h
    by_cases d : milestones.length ≠ gammas.length
    · rw [if_pos d] at h; cases h
    · rw [if_neg d] at h; cases h
      have hlen : milestones.length = gammas.length := by simpa using d
      have hs : milestones.Pairwise (· ≤ ·) := List.isChain_iff_pairwise.1 c
      unfold MultiStep.lr
      simp only
      congr 1
      obtain ⟨b1, b2⟩ := bisect_inv hs (x := epoch) milestones.length 0 milestones.length (by omega) (by omega) (le_refl _)
        (by omega) (fun i hi v hv => by rw [List.getElem?_eq_none hi] at hv; cases hv)
      have hk : bisectRight milestones epoch ≤ milestones.length := bisect_le _ _ _ (by omega)
      change ∀ i < bisectRight milestones epoch, _ at b1
      change ∀ i, bisectRight milestones epoch ≤ i → _ at b2
      generalize bisectRight milestones epoch = k at *
      rw [(multGammas_spec gammas).2.2 k (by omega)]
      unfold reachedGammas
      have hsplit : milestones.zip gammas = (milestones.zip gammas).take k ++ (milestones.zip gammas).drop k := (List.take_append_drop _ _).symm
      have f1 : ((milestones.zip gammas).take k).filter (fun mg => decide (mg.1 ≤ epoch)) = (milestones.zip gammas).take k := by
        rw [List.filter_eq_self]
        intro mg hmg
        obtain ⟨i, hi, e⟩ := List.getElem_of_mem hmg
        have hi' : i < k := by simp at hi; omega
        have : milestones[i]? = some mg.1 := by
          have h1 : i < (milestones.zip gammas).length := by simp at hi ⊢; omega
          have e' : (milestones.zip gammas)[i] = mg := by rw [← e]; simp
          rw [← e', List.getElem_zip]
          simp at h1
          exact List.getElem?_eq_getElem (by omega)
        exact decide_eq_true (b1 i hi' _ this)
      have f2 : ((milestones.zip gammas).drop k).filter (fun mg => decide (mg.1 ≤ epoch)) = [] := by
        rw [List.filter_eq_nil_iff]
        intro mg hmg
        obtain ⟨i, hi, e⟩ := List.getElem_of_mem hmg
        have : milestones[k + i]? = some mg.1 := by
          have h1 : k + i < (milestones.zip gammas).length := by simp at hi ⊢; omega
          have e' : (milestones.zip gammas)[k + i] = mg := by rw [← e]; simp
          rw [← e', List.getElem_zip]
          simp at h1
          exact List.getElem?_eq_getElem (by omega)
        have := b2 (k + i) (by omega) _ this
        simp; omega
      rw [hsplit, List.filter_append, f1, f2, List.append_nil, List.map_take]
      congr 2
      rw [List.map_snd_zip]
      omega
  · rw [if_pos c] at h; cases h

/-- **C48** Construction is refused exactly when the milestones are not in non-decreasing order or the
numbers of milestones and gammas differ. -/
theorem C48_construction (milestones : List ℤ) (gammas : List ℚ) :
    MultiStep.new milestones gammas = .error .value ↔
      (¬ (∀ i j, ∀ (hi : i < milestones.length) (hj : j < milestones.length), i < j → milestones[i] ≤ milestones[j]) ∨
        milestones.length ≠ gammas.length) := by
  rw [← List.pairwise_iff_getElem, ← List.isChain_iff_pairwise]
  unfold MultiStep.new
  by_cases c : milestones.IsChain (· ≤ ·)
  · by_cases d : milestones.length = gammas.length <;> simp [c, d]
  · simp [c]

example : (MultiStep.new [10, 20, 20] [1/2, 1/5, 3]).map (fun s => ([0, 9, 10, 19, 20, 99].map fun e => s.lr 1 e)) =
    .ok [1, 1, 1/2, 1/2, 3/10, 3/10] := by decide +kernel
example : MultiStep.new [20, 10] [1, 1] = .error .value := by decide +kernel

/-- **C48** (polynomial decay) starts at the base rate, reaches 0 at `T_max` and never increases before. -/
theorem C48_polynomial (base : ℚ) (hb : 0 ≤ base) (tMax : ℤ) (ht : 0 < tMax) (power : ℕ) (hp : 0 < power) :
    polyLR base tMax power 0 = base ∧ polyLR base tMax power tMax = 0 ∧
    ∀ e e' : ℤ, 0 ≤ e → e ≤ e' → e' ≤ tMax → polyLR base tMax power e' ≤ polyLR base tMax power e := by
  have htq : (0 : ℚ) < tMax := by exact_mod_cast ht
  refine ⟨by simp [polyLR], by simp [polyLR, htq.ne', hp.ne'], ?_⟩
  intro e e' h0 h1 h2
  have h1q : (e : ℚ) ≤ e' := by exact_mod_cast h1
  have h2q : (e' : ℚ) ≤ tMax := by exact_mod_cast h2
  unfold polyLR
  apply mul_le_mul_of_nonneg_left _ hb
  apply pow_le_pow_left₀
  · have : (e' : ℚ) / tMax ≤ 1 := (div_le_one htq).2 h2q
    linarith
  · have := div_le_div_of_nonneg_right h1q htq.le
    linarith

/-! ## C73: resuming the learning rate -/

/-- The group at the end of epoch `e` of an uninterrupted run started at epoch 0. -/
def lrRun (f : ℚ → ℤ → ℚ) (active : ℤ → Bool) (g0 : OptGroup) (e : ℕ) : Except Err OptGroup :=
  (lrConstruct f (-1) g0).map fun g => (List.range (e + 1)).foldl (fun (g : OptGroup) (i : ℕ) => lrEpochEnd f active g i) g

theorem foldl_initial (f : ℚ → ℤ → ℚ) (active : ℤ → Bool) (l : List ℕ) (g : OptGroup) :
    (l.foldl (fun (g : OptGroup) (i : ℕ) => lrEpochEnd f active g i) g).initial = g.initial := by
  induction l generalizing g with
  | nil => rfl
  | cons a l ih => rw [List.foldl_cons, ih]; unfold lrEpochEnd; split <;> rfl

/-- **C73** For every schedule `f`, set of active epochs and epoch `e`: if the run is stopped after epoch `e`, in which
the learning-rate policy was active, and the schedule is rebuilt from the saved optimizer with the saved epoch, the optimizer has the same rate as if
training had not been interrupted – so all later epochs use the same rates too. -/
theorem C73_resume_partial (f : ℚ → ℤ → ℚ) (active : ℤ → Bool) (g0 g : OptGroup) (e : ℕ) (ha : active e = true)
    (h : lrRun f active g0 e = .ok g) : lrConstruct f e g = .ok g := by
  unfold lrRun lrConstruct at h
  simp only [if_true, Except.map] at h
  cases h
  rw [List.range_succ, List.foldl_append, List.foldl_cons, List.foldl_nil]
  have hi := foldl_initial f active (List.range e) ⟨f (g0.initial.getD g0.lr) (-1 + 1), some (g0.initial.getD g0.lr)⟩
  generalize (List.range e).foldl _ _ = q at *
  have hne : ¬ ((e : ℤ) = -1) := by omega
  unfold lrConstruct lrEpochEnd
  simp [ha, hne, hi]

example : lrRun (fun b e => b * (e + 1)) (fun _ => true) ⟨3, none⟩ 4 = .ok ⟨18, some 3⟩ := by decide +kernel

/-- **C73** is violated when the policy is not active in the epoch after which the run stopped (for
instance it starts later): rebuilding the schedule already sets the rate of the next epoch, which the uninterrupted run does not. -/
theorem C73_violated_inactive : ∃ (s : MultiStep) (active : ℤ → Bool) (g0 g g' : OptGroup) (e : ℕ),
    MultiStep.new [2, 5] [1/2, 1/2] = .ok s ∧
    lrRun s.lr active g0 e = .ok g ∧ lrConstruct s.lr e g = .ok g' ∧ g'.lr ≠ g.lr :=
  ⟨⟨[2, 5], [1, 1/2, 1/4]⟩, fun e => decide (4 ≤ e), ⟨1, none⟩, ⟨1, some 1⟩, ⟨1/2, some 1⟩, 1, by decide +kernel⟩

/-! ## C49: performance tracker -/

/-- Specification: `a` is ranked at least as high as `b` – fewer non-zero parameters first, then higher top-1,
then higher top-5, then the later epoch. -/
def RankedGE (a b : Perf) : Prop :=
  b.nnzNeg < a.nnzNeg ∨ (b.nnzNeg = a.nnzNeg ∧ (b.top1 < a.top1 ∨ (b.top1 = a.top1 ∧
    (b.top5 < a.top5 ∨ (b.top5 = a.top5 ∧ b.epoch ≤ a.epoch)))))

theorem rankedGE_iff (a b : Perf) : RankedGE a b ↔ b.key ≤ a.key := by
  unfold RankedGE Perf.key
  simp only [Prod.Lex.toLex_le_toLex]

/-- All entries recorded since the last reset. -/
def trackAll (maxLen : ℕ) (ps : List Perf) : Tracker := ps.foldl Tracker.step ⟨[], maxLen⟩

theorem track_inv (maxLen : ℕ) (ps : List Perf) :
    (trackAll maxLen ps).history.Perm ps ∧ (trackAll maxLen ps).history.Pairwise RankedGE ∧ (trackAll maxLen ps).maxLen = maxLen := by
  induction ps using List.reverseRecOn with
  | nil => simp [trackAll]
  | append_singleton ps p ih =>
    obtain ⟨h1, _, h3⟩ := ih
    have e : trackAll maxLen (ps ++ [p]) = (trackAll maxLen ps).step p := by simp [trackAll, List.foldl_append]
    rw [e]
    unfold Tracker.step
    refine ⟨(List.perm_insertionSort _ _).trans (h1.append_right _), ?_, h3⟩
    haveI : Std.Total (fun a b : Perf => b.key ≤ a.key) := ⟨fun a b => le_total _ _⟩
    haveI : IsTrans Perf (fun a b : Perf => b.key ≤ a.key) := ⟨fun a b c h1 h2 => le_trans h2 h1⟩
    have := List.pairwise_insertionSort (fun a b : Perf => b.key ≤ a.key) ((trackAll maxLen ps).history ++ [p])
    exact this.imp fun {a b} h => (rankedGE_iff a b).2 h

/-- **C49** For every sequence of recorded epochs and every `k`: `best_scores(k)` returns `min(k, limit,
number recorded)` of the recorded entries (all of them counted with multiplicity), best first, and every entry it
does not return is ranked no higher than every entry it returns. -/
theorem C49_best_scores (maxLen : ℕ) (ps : List Perf) (k : ℕ) (hk : 1 ≤ k) :
    ((trackAll maxLen ps).best k).length = min (min k maxLen) ps.length ∧
    ((trackAll maxLen ps).best k).Pairwise RankedGE ∧
    ∃ rest, ps.Perm ((trackAll maxLen ps).best k ++ rest) ∧
      ∀ a ∈ (trackAll maxLen ps).best k, ∀ b ∈ rest, RankedGE a b := by
  obtain ⟨h1, h2, h3⟩ := track_inv maxLen ps
  have hb : (trackAll maxLen ps).best k = (trackAll maxLen ps).history.take (min k maxLen) := by
    unfold Tracker.best
    have : ¬ ((k : ℤ) < 1) := by omega
    simp [this, h3]
  rw [hb]
  generalize (trackAll maxLen ps).history = l at *
  refine ⟨by rw [List.length_take, h1.length_eq], h2.sublist (List.take_sublist _ _), l.drop (min k maxLen), ?_, ?_⟩
  · rw [List.take_append_drop]; exact h1.symm
  · intro a ha b hb'
    have h4 : (l.take (min k maxLen) ++ l.drop (min k maxLen)).Pairwise RankedGE := by rw [List.take_append_drop]; exact h2
    exact (List.pairwise_append.1 h4).2.2 a ha b hb'

/-- **C49** The first entry is the best of the entire history. -/
theorem C49_first_is_best (maxLen : ℕ) (hm : 1 ≤ maxLen) (ps : List Perf) (hne : ps ≠ []) :
    ∃ a ∈ ps, (trackAll maxLen ps).best 1 = [a] ∧ ∀ b ∈ ps, RankedGE a b := by
  obtain ⟨h1, h2, h3⟩ := C49_best_scores maxLen ps 1 (le_refl _)
  obtain ⟨rest, hp, hr⟩ := h3
  have hl : 0 < ps.length := List.length_pos_iff.2 hne
  have hlen : ((trackAll maxLen ps).best ((1 : ℕ) : ℤ)).length = 1 := by rw [h1]; omega
  obtain ⟨a, ha⟩ := List.length_eq_one_iff.1 hlen
  rw [ha] at hp hr
  refine ⟨a, hp.mem_iff.2 (by simp), ha, ?_⟩
  intro b hb
  rcases List.mem_append.1 (hp.mem_iff.1 hb) with h | h
  · simp at h; subst h
    rw [rankedGE_iff]
  · exact hr a (by simp) b h

/-- **C49** Asking for fewer than one entry means asking for the limit. -/
theorem C49_default (t : Tracker) (k : ℤ) (hk : k < 1) : t.best k = t.history.take t.maxLen := by
  unfold Tracker.best; simp [hk]

example : ((trackAll 2 [⟨-5, 90, 99, 0⟩, ⟨-5, 91, 99, 1⟩, ⟨-4, 80, 95, 2⟩]).best 2).map (·.epoch) = [2, 1] := by
  decide +kernel

/-! ## C50: splitting the data -/

/-- What a random permutation of `range n` returns. -/
def IsPermOfRange (l : List ℕ) (n : ℕ) : Prop := l.Perm (List.range n)

theorem getD_eq_of_lt {l : List ℕ} {i : ℕ} (h : i < l.length) : l.getD i 0 = l[i] := by
  rw [List.getD_eq_getElem?_getD, List.getElem?_eq_getElem h]; rfl

/-- **C50** Validation and training indices partition the data set; the validation part has `⌊split·n⌋`
elements. -/
theorem C50_partition (n : ℕ) (shuffled : List ℕ) (hp : IsPermOfRange shuffled n) (split : ℚ) (h0 : 0 ≤ split) (h1 : split ≤ 1) :
    ((splitList shuffled split).1 ++ (splitList shuffled split).2).Perm (List.range n) ∧
    (∀ i ∈ (splitList shuffled split).1, i ∉ (splitList shuffled split).2) ∧
    ((splitList shuffled split).1.length : ℤ) = ⌊split * n⌋ := by
  have hlen : shuffled.length = n := by rw [hp.length_eq]; simp
  have hnd : shuffled.Nodup := hp.nodup_iff.2 List.nodup_range
  unfold splitList
  simp only [List.take_append_drop]
  refine ⟨hp, ?_, ?_⟩
  · intro i hi
    have h : (shuffled.take ⌊split * (shuffled.length : ℚ)⌋.toNat ++ shuffled.drop ⌊split * (shuffled.length : ℚ)⌋.toNat).Nodup := by
      rw [List.take_append_drop]; exact hnd
    exact fun hj => (List.nodup_append.1 h).2.2 i hi i hj rfl
  · rw [List.length_take, hlen]
    have hn : (0 : ℚ) ≤ n := by positivity
    have a1 : 0 ≤ ⌊split * (n : ℚ)⌋ := Int.floor_nonneg.2 (mul_nonneg h0 hn)
    have a2 : ⌊split * (n : ℚ)⌋ ≤ n := by
      have h2 : split * n ≤ n := by nlinarith
      have h3 : ((⌊split * (n : ℚ)⌋ : ℤ) : ℚ) ≤ ((n : ℤ) : ℚ) := le_trans (Int.floor_le _) (by exact_mod_cast h2)
      exact_mod_cast h3
    omega

/-- **C50** With the default (re-sampled) subsets: in every epoch, whatever the random permutations, no data-set
item is delivered both for training and for validation, each is delivered at most once, and all come from
the data set. -/
theorem C50_switching (n : ℕ) (shuffled : List ℕ) (hp : IsPermOfRange shuffled n) (split effT effV : ℚ)
    (permT permV t v : List ℕ) (h0 : 0 ≤ split) (h1 : split ≤ 1)
    (hT : IsPermOfRange permT (splitList shuffled split).2.length) (hV : IsPermOfRange permV (splitList shuffled split).1.length)
    (h : loaderIndices false shuffled split effT effV permT permV = .ok (t, v)) :
    t.Nodup ∧ v.Nodup ∧ (∀ i ∈ t, i ∉ v) ∧ (∀ i ∈ t ++ v, i < n) ∧
    (t.length : ℤ) = ⌊((splitList shuffled split).2.length : ℚ) * effT⌋ ∧
    (v.length : ℤ) = ⌊((splitList shuffled split).1.length : ℚ) * effV⌋ := by
  have size : ∀ {src perm out : List ℕ} {eff : ℚ}, IsPermOfRange perm src.length → switchingEpoch src perm eff = .ok out →
      (out.length : ℤ) = ⌊(src.length : ℚ) * eff⌋ := by
    intro src perm out eff hperm ho
    unfold switchingEpoch at ho
    obtain ⟨k, hk, ho⟩ := ok_bind ho
    cases ho
    have hpl : perm.length = src.length := by rw [hperm.length_eq]; simp
    unfold subsetLength at hk
    split at hk
    · cases hk
    · rename_i c
      have c1 : 0 < eff := by by_contra h; exact c (Or.inl (not_lt.1 h))
      have c2 : eff ≤ 1 := by by_contra h; exact c (Or.inr (not_le.1 h))
      cases hk
      have hn : (0 : ℚ) ≤ src.length := by positivity
      have a1 : 0 ≤ ⌊(src.length : ℚ) * eff⌋ := Int.floor_nonneg.2 (mul_nonneg hn c1.le)
      have a2 : ⌊(src.length : ℚ) * eff⌋ ≤ src.length := by
        have h2 : (src.length : ℚ) * eff ≤ src.length := by nlinarith
        have h3 : ((⌊(src.length : ℚ) * eff⌋ : ℤ) : ℚ) ≤ ((src.length : ℤ) : ℚ) := le_trans (Int.floor_le _) (by exact_mod_cast h2)
        exact_mod_cast h3
      rw [List.length_map, List.length_take, hpl]
      omega
  obtain ⟨p1, p2, _⟩ := C50_partition n shuffled hp split h0 h1
  have key : ∀ {src perm out : List ℕ} {eff : ℚ}, src.Nodup → IsPermOfRange perm src.length → switchingEpoch src perm eff = .ok out →
      out.Nodup ∧ ∀ i ∈ out, i ∈ src := by
    intro src perm out eff hs hperm ho
    unfold switchingEpoch at ho
    obtain ⟨k, _, ho⟩ := ok_bind ho
    cases ho
    have hb : ∀ i ∈ perm.take k, i < src.length := fun i hi => List.mem_range.1 (hperm.mem_iff.1 (List.mem_of_mem_take hi))
    constructor
    · apply List.Nodup.map_on _ ((hperm.nodup_iff.2 List.nodup_range).sublist (List.take_sublist _ _))
      intro i hi j hj e
      rw [getD_eq_of_lt (hb i hi), getD_eq_of_lt (hb j hj)] at e
      exact (hs.getElem_inj_iff).1 e
    · intro i hi
      obtain ⟨j, hj, rfl⟩ := List.mem_map.1 hi
      rw [getD_eq_of_lt (hb j hj)]
      exact List.getElem_mem _
  have hnd : ((splitList shuffled split).1 ++ (splitList shuffled split).2).Nodup := p1.nodup_iff.2 List.nodup_range
  obtain ⟨n1, n2, _⟩ := List.nodup_append.1 hnd
  unfold loaderIndices at h
  simp only [Bool.false_eq_true, if_false] at h
  obtain ⟨t', ht, h⟩ := ok_bind h
  obtain ⟨v', hv, h⟩ := ok_bind h
  cases h
  obtain ⟨k1, k2⟩ := key n2 hT ht
  have kv : v.Nodup ∧ ∀ i ∈ v, i ∈ (splitList shuffled split).1 := by
    by_cases c : (splitList shuffled split).1 = []
    · rw [if_pos c] at hv; cases hv; simp
    · rw [if_neg c] at hv; exact key n1 hV hv
  refine ⟨k1, kv.1, fun i hi hj => p2 i (kv.2 i hj) (k2 i hi), ?_, size hT ht, ?_⟩
  swap
  · by_cases c : (splitList shuffled split).1 = []
    · rw [if_pos c] at hv; cases hv; simp [c]
    · rw [if_neg c] at hv; exact size hV hv
  intro i hi
  apply List.mem_range.1
  rw [← p1.mem_iff]
  rcases List.mem_append.1 hi with h | h
  · exact List.mem_append_right _ (k2 i h)
  · exact List.mem_append_left _ (kv.2 i h)

example : loaderIndices false [2, 0, 3, 1] (1/2) 1 1 [1, 0] [0, 1] = .ok ([1, 3], [2, 0]) := by decide +kernel

/-- **C50** is violated with `fixed_subset=True`: positions inside the split are used as data-set indices, so
the validation loader delivers items that are also used for training (here *all* of them). -/
theorem C50_violated_fixed_subset : ∃ (n : ℕ) (shuffled permT permV t v : List ℕ) (split : ℚ),
    IsPermOfRange shuffled n ∧ 0 ≤ split ∧ split ≤ 1 ∧
    IsPermOfRange permT (splitList shuffled split).2.length ∧ IsPermOfRange permV (splitList shuffled split).1.length ∧
    loaderIndices true shuffled split 1 1 permT permV = .ok (t, v) ∧ v ≠ [] ∧ ∀ i ∈ v, i ∈ t :=
  ⟨4, [3, 1, 0, 2], [2, 0, 1], [0], [2, 0, 1], [0], 1/4, by unfold IsPermOfRange; decide, by decide +kernel, by decide +kernel,
    by unfold IsPermOfRange; decide +kernel, by unfold IsPermOfRange; decide +kernel, by decide +kernel, by simp, by simp⟩

/-- **C50** with `fixed_subset=True` this always happens (for full-size subsets): every validation item whose
index is smaller than the size of the training part is also a training item. -/
theorem C50_fixed_subset_overlap (shuffled : List ℕ) (split : ℚ) (permT permV t v : List ℕ)
    (hT : IsPermOfRange permT (splitList shuffled split).2.length) (hV : IsPermOfRange permV (splitList shuffled split).1.length)
    (h : loaderIndices true shuffled split 1 1 permT permV = .ok (t, v)) :
    (∀ i, i ∈ t ↔ i < (splitList shuffled split).2.length) ∧ (∀ i, i ∈ v ↔ i < (splitList shuffled split).1.length) := by
  have key : ∀ {src perm out : List ℕ}, IsPermOfRange perm src.length → fixedEpoch src perm 1 = .ok out → ∀ i, i ∈ out ↔ i < src.length := by
    intro src perm out hperm ho i
    unfold fixedEpoch at ho
    obtain ⟨k, hk, ho⟩ := ok_bind ho
    cases ho
    unfold subsetLength at hk
    rw [if_neg (by norm_num)] at hk
    cases hk
    have : ⌊(src.length : ℚ) * 1⌋.toNat = src.length := by rw [mul_one, Int.floor_natCast]; simp
    rw [this, ← show perm.length = src.length by rw [hperm.length_eq]; simp, List.take_length, hperm.mem_iff, List.mem_range]
    rw [show perm.length = src.length by rw [hperm.length_eq]; simp]
  unfold loaderIndices at h
  simp only [if_true] at h
  obtain ⟨t', ht, h⟩ := ok_bind h
  obtain ⟨v', hv, h⟩ := ok_bind h
  cases h
  refine ⟨key hT ht, ?_⟩
  by_cases c : (splitList shuffled split).1 = []
  · rw [if_pos c] at hv; cases hv; simp [c]
  · rw [if_neg c] at hv; exact key hV hv

/-- **C50** Effective sizes outside `(0, 1]` are rejected; accepted ones give between 0 and all items, namely `⌊n·eff⌋`. -/
theorem C50_effective_size (src : List ℕ) (eff : ℚ) :
    (subsetLength src eff = .error .value ↔ ¬ (0 < eff ∧ eff ≤ 1)) ∧
    ∀ k, subsetLength src eff = .ok k → (k : ℤ) = ⌊(src.length : ℚ) * eff⌋ ∧ k ≤ src.length := by
  unfold subsetLength
  by_cases c : eff ≤ 0 ∨ 1 < eff
  · rw [if_pos c]
    refine ⟨iff_of_true rfl ?_, by intro k h; cases h⟩
    rintro ⟨a, b⟩
    rcases c with c | c <;> linarith
  · rw [if_neg c]
    have c1 : 0 < eff := by by_contra h; exact c (Or.inl (not_lt.1 h))
    have c2 : eff ≤ 1 := by by_contra h; exact c (Or.inr (not_le.1 h))
    refine ⟨iff_of_false (by simp) (by simp [c1, c2]), ?_⟩
    intro k h
    cases h
    have hn : (0 : ℚ) ≤ src.length := by positivity
    have a1 : 0 ≤ ⌊(src.length : ℚ) * eff⌋ := Int.floor_nonneg.2 (mul_nonneg hn c1.le)
    have a2 : ⌊(src.length : ℚ) * eff⌋ ≤ src.length := by
      have h2 : (src.length : ℚ) * eff ≤ src.length := by nlinarith
      have h3 : ((⌊(src.length : ℚ) * eff⌋ : ℤ) : ℚ) ≤ ((src.length : ℤ) : ℚ) := le_trans (Int.floor_le _) (by exact_mod_cast h2)
      exact_mod_cast h3
    constructor <;> omega

/-- **C50** is violated for small data sets: an accepted effective size can give an empty subset. -/
theorem C50_violated_empty_subset : ∃ (src : List ℕ) (eff : ℚ), src ≠ [] ∧ subsetLength src eff = .ok 0 :=
  ⟨[0, 1, 2], 1/4, by simp, by decide +kernel⟩

end Verif
