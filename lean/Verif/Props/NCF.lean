import Verif.Model.NCF
import Verif.Props.LangModel
import Mathlib.Data.Finset.Card
import Mathlib.Data.List.Dedup
/-!
# C177, C178, C179: the collaborative filtering example
-/
namespace Verif

/-! ## Evaluation -/

/-- The scores of a user's items, as the batches of `predict` give them. -/
theorem ncfPredict_eq (score : ℕ → ℕ → ℚ) (bs : ℕ) (hb : 0 < bs) (users items : List ℕ) (h : users.length = items.length) :
    ncfPredict score bs users items = List.zipWith score users items := by
  unfold ncfPredict bpttRange
  rw [List.flatMap_map]
  have e : (fun k => List.zipWith score ((users.drop (k * bs)).take bs) ((items.drop (k * bs)).take bs)) =
      fun k => ((List.zipWith score users items).drop (k * bs)).take bs := by
    funext k
    rw [List.drop_zipWith, List.take_zipWith]
  rw [e, flatMap_drop_take]
  rw [List.length_zipWith, ← h, Nat.min_self]
  exact bpttRange_cover _ _ hb

/-- The dictionary of scores of the items `l` of user `u`. -/
def scoreDict (score : ℕ → ℕ → ℚ) (u : ℕ) (l : List ℕ) : Dict ℕ ℚ := l.foldl (fun d i => Dict.set d i (score u i)) []

theorem ncfScores_eq (score : ℕ → ℕ → ℚ) (bs : ℕ) (hb : 0 < bs) (u : ℕ) (l : List ℕ) :
    ncfScores l (ncfPredict score bs (List.replicate l.length u) l) = scoreDict score u l := by
  rw [ncfPredict_eq score bs hb _ _ (by simp)]
  have e : List.zipWith score (List.replicate l.length u) l = l.map (score u) := by
    induction l with
    | nil => rfl
    | cons a l ih => rw [List.length_cons, List.replicate_succ, List.zipWith_cons_cons, ih, List.map_cons]
  rw [e]
  unfold ncfScores scoreDict
  have e2 : l.zip (l.map (score u)) = l.map fun i => (i, score u i) := by
    clear e
    induction l with
    | nil => rfl
    | cons a l ih => rw [List.map_cons, List.zip_cons_cons, ih, List.map_cons]
  rw [e2, List.foldl_map]

theorem scoreDict_append (score : ℕ → ℕ → ℚ) (u : ℕ) (l : List ℕ) (i : ℕ) :
    scoreDict score u (l ++ [i]) = Dict.set (scoreDict score u l) i (score u i) := by
  unfold scoreDict
  rw [List.foldl_append]
  rfl

theorem scoreDict_spec (score : ℕ → ℕ → ℚ) (u : ℕ) (l : List ℕ) : Dict.Nodup (scoreDict score u l) ∧
    ∀ i, Dict.get? (scoreDict score u l) i = if i ∈ l then some (score u i) else none := by
  induction l using List.reverseRecOn with
  | nil => exact ⟨Dict.nodup_nil, by simp [scoreDict]⟩
  | append_singleton l x ih =>
    rw [scoreDict_append]
    refine ⟨Dict.nodup_set ih.1 _ _, fun i => ?_⟩
    by_cases h : x = i
    · subst h; rw [Dict.get?_set_self]; simp
    · rw [Dict.get?_set_ne _ _ h, ih.2]
      have : i ≠ x := fun e => h e.symm
      simp [this]

theorem set_absent (d : Dict ℕ ℚ) (k : ℕ) (v : ℚ) (h : k ∉ d.map Prod.fst) : Dict.set d k v = d ++ [(k, v)] := by
  induction d with
  | nil => rfl
  | cons x d ih =>
    obtain ⟨k', w⟩ := x
    have h1 : k' ≠ k := fun e => h (by simp [e])
    rw [Dict.set, if_neg h1, ih fun hm => h (List.mem_cons_of_mem _ hm), List.cons_append]

/-- In the stable descending order the last entry comes directly after those of at least its value. -/
theorem sort_last (D : Dict ℕ ℚ) (t : ℕ) (s : ℚ) (hn : Dict.Nodup (D ++ [(t, s)])) :
    ∃ A B, (D ++ [(t, s)]).insertionSort (fun a b => b.2 ≤ a.2) = A ++ (t, s) :: B ∧ t ∉ A.map Prod.fst ∧
      A.length = (D.filter fun kv => s ≤ kv.2).length := by
  have : Std.Total (fun a b : ℕ × ℚ => b.2 ≤ a.2) := ⟨fun a b => le_total _ _⟩
  have : IsTrans (ℕ × ℚ) (fun a b : ℕ × ℚ => b.2 ≤ a.2) := ⟨fun a b c h1 h2 => le_trans h2 h1⟩
  obtain ⟨S, hS⟩ : ∃ S, S = (D ++ [(t, s)]).insertionSort (fun a b => b.2 ≤ a.2) := ⟨_, rfl⟩
  have hperm : S.Perm (D ++ [(t, s)]) := hS ▸ List.perm_insertionSort _ _
  have hsort : S.Pairwise (fun a b => b.2 ≤ a.2) := hS ▸ List.pairwise_insertionSort _ _
  have hSn : (S.map Prod.fst).Nodup := (hperm.map _).nodup_iff.2 hn
  have hSn' : S.Nodup := List.Nodup.of_map _ hSn
  have hmem : (t, s) ∈ S := hperm.mem_iff.2 (by simp)
  obtain ⟨A, B, hAB⟩ := List.append_of_mem hmem
  refine ⟨A, B, by rw [← hS, hAB], ?_, ?_⟩
  · rw [hAB, List.map_append, List.map_cons] at hSn
    intro h
    exact (List.nodup_append.1 hSn).2.2 t h t (by simp) rfl
  · have hA : ∀ a ∈ A, s ≤ a.2 := by
      intro a ha
      rw [hAB, List.pairwise_append] at hsort
      exact hsort.2.2 a ha (t, s) (by simp)
    have hperm2 : (A ++ B).Perm D := by
      have : ((t, s) :: (A ++ B)).Perm ((t, s) :: D) := by
        refine List.perm_middle.symm.trans ?_
        rw [← hAB]
        exact hperm.trans (List.perm_append_singleton _ _)
      exact this.cons_inv
    have hB : ∀ b ∈ B, ¬ s ≤ b.2 := by
      intro b hb hle
      have hbD : b ∈ D := hperm2.mem_iff.1 (List.mem_append_right _ hb)
      have hsub : [b, (t, s)].Sublist (D ++ [(t, s)]) :=
        (List.singleton_sublist.2 hbD).append (List.Sublist.refl [(t, s)])
      have := List.sublist_insertionSort (r := fun a b : ℕ × ℚ => b.2 ≤ a.2) (c := [b, (t, s)]) (by simpa using hle) hsub
      rw [← hS, hAB] at this
      have hnA : b ∉ A := by
        intro h
        rw [hAB] at hSn'
        exact (List.nodup_append.1 hSn').2.2 b h b (List.mem_cons_of_mem _ hb) rfl
      have hnt : b ≠ (t, s) := by
        intro h
        rw [hAB] at hSn'
        have := (List.nodup_append.1 hSn').2.1
        exact (List.nodup_cons.1 this).1 (h ▸ hb)
      -- the entry after `b` in the sublist must lie in `B`
      obtain ⟨l1, l2, e, s1, s2⟩ := List.sublist_append_iff.1 this
      cases l1 with
      | cons x l1 =>
        simp only [List.cons_append, List.cons.injEq] at e
        exact hnA (e.1 ▸ s1.subset (by simp))
      | nil =>
        simp only [List.nil_append] at e
        rw [← e] at s2
        cases s2 with
        | cons _ h2 =>
          have hmB : (t, s) ∈ B := h2.subset (by simp)
          rw [hAB] at hSn'
          exact (List.nodup_cons.1 (List.nodup_append.1 hSn').2.1).1 hmB
        | cons_cons _ h2 => exact hnt rfl
    rw [← (hperm2.filter fun kv => s ≤ kv.2).length_eq, List.filter_append, List.filter_eq_self.2 (by simpa using hA),
      List.filter_eq_nil_iff.2 (by simpa using hB), List.append_nil]

/-- **C177** (one user) For a test item that is not among the negatives: with `b` the number of different negatives scored at least as high as the test item, the test
item is a hit if `b < K`, and its gain is that of place `b`; otherwise both are zero.  Neither the order nor repetitions of the negatives matter. -/
theorem C177_eval (score : ℕ → ℕ → ℚ) (bs : ℕ) (hb : 0 < bs) (gain : ℕ → ℚ) (K u t : ℕ) (items : List ℕ) (ht : t ∉ items) :
    evalOne score bs gain K (u, t) items =
      (if (items.toFinset.filter fun i => score u t ≤ score u i).card < K then 1 else 0,
        if (items.toFinset.filter fun i => score u t ≤ score u i).card < K then gain (items.toFinset.filter fun i => score u t ≤ score u i).card else 0,
        items ++ [t]) := by
  obtain ⟨hn, hg⟩ := scoreDict_spec score u items
  have htk : t ∉ (scoreDict score u items).map Prod.fst := by
    rw [← Dict.get?_eq_none_iff, hg, if_neg ht]
  have hd : scoreDict score u (items ++ [t]) = scoreDict score u items ++ [(t, score u t)] := by
    rw [scoreDict_append, set_absent _ _ _ htk]
  have hn2 : Dict.Nodup (scoreDict score u items ++ [(t, score u t)]) := by
    rw [← hd]; exact (scoreDict_spec score u _).1
  obtain ⟨A, B, hS, htA, hA⟩ := sort_last _ t (score u t) hn2
  have hcard : (items.toFinset.filter fun i => score u t ≤ score u i).card = A.length := by
    rw [hA]
    have hn3 : (((scoreDict score u items).filter fun kv => score u t ≤ kv.2).map Prod.fst).Nodup :=
      hn.sublist (List.filter_sublist.map _)
    rw [← List.length_map (f := Prod.fst), ← List.toFinset_card_of_nodup hn3]
    congr 1
    ext i
    rw [Finset.mem_filter, List.mem_toFinset, List.mem_toFinset, List.mem_map]
    constructor
    · rintro ⟨h1, h2⟩
      have := hg i
      rw [if_pos h1] at this
      exact ⟨(i, score u i), List.mem_filter.2 ⟨Dict.mem_of_get? this, by simpa using h2⟩, rfl⟩
    · rintro ⟨⟨i', v⟩, hm, rfl⟩
      obtain ⟨h1, h2⟩ := List.mem_filter.1 hm
      have h3 := Dict.get?_of_mem hn h1
      rw [hg] at h3
      dsimp only
      by_cases hi : i' ∈ items
      · rw [if_pos hi] at h3
        cases h3
        exact ⟨hi, by simpa using h2⟩
      · rw [if_neg hi] at h3; cases h3
  rw [hcard]
  unfold evalOne
  simp only
  rw [ncfScores_eq score bs hb, hd]
  unfold ncfRanked
  rw [hS]
  by_cases hk : A.length < K
  · have hsplit : (A ++ (t, score u t) :: B).take K = A ++ (t, score u t) :: B.take (K - A.length - 1) := by
      rw [List.take_append, List.take_of_length_le (by omega)]
      congr 1
      rw [show K - A.length = (K - A.length - 1) + 1 by omega, List.take_succ_cons]
      congr 2
    have hm : t ∈ ((A ++ (t, score u t) :: B).take K).map Prod.fst := by
      rw [hsplit]; simp
    unfold ncfNdcg
    rw [if_pos hm, if_pos hm, if_pos hk, if_pos hk]
    congr 2
    rw [hsplit, List.map_append, List.map_cons]
    dsimp only
    rw [List.idxOf_append, if_neg htA, List.idxOf_cons_self, List.length_map]
    simp
  · have hm : t ∉ ((A ++ (t, score u t) :: B).take K).map Prod.fst := by
      rw [List.take_append_of_le_length (by omega)]
      intro h
      obtain ⟨a, ha, e⟩ := List.mem_map.1 h
      exact htA (List.mem_map.2 ⟨a, List.mem_of_mem_take ha, e⟩)
    unfold ncfNdcg
    rw [if_neg hm, if_neg hm, if_neg hk, if_neg hk]

/-- **C177** (one user again) The test item appended to the list of negatives does not change later evaluations. -/
theorem C177_again (score : ℕ → ℕ → ℚ) (bs : ℕ) (hb : 0 < bs) (gain : ℕ → ℚ) (K : ℕ) (rating : ℕ × ℕ) (items : List ℕ) :
    (evalOne score bs gain K rating (evalOne score bs gain K rating items).2.2).1 = (evalOne score bs gain K rating items).1 ∧
    (evalOne score bs gain K rating (evalOne score bs gain K rating items).2.2).2.1 = (evalOne score bs gain K rating items).2.1 := by
  unfold evalOne
  simp only
  rw [ncfScores_eq score bs hb, ncfScores_eq score bs hb]
  have : scoreDict score rating.1 (items ++ [rating.2] ++ [rating.2]) = scoreDict score rating.1 (items ++ [rating.2]) := by
    rw [scoreDict_append score rating.1 (items ++ [rating.2]), Dict.set_get?_self]
    rw [(scoreDict_spec score rating.1 _).2, if_pos (by simp)]
  rw [this]
  exact ⟨rfl, rfl⟩

/-- **C177** (epochs) Evaluating again gives the same hits and gains, with any numbers of processes, although the negatives have been changed. -/
theorem C177_repeat (score : ℕ → ℕ → ℚ) (bs : ℕ) (hb : 0 < bs) (gain : ℕ → ℚ) (K p q : ℕ) (n : ℤ) (ratings : List (ℕ × ℕ))
    (negs : List (List ℕ)) :
    (valEpoch score bs gain K q n ratings (valEpoch score bs gain K p n ratings negs).2).1 = (valEpoch score bs gain K p n ratings negs).1 := by
  obtain ⟨N, hN⟩ : ∃ N : ℕ, N = (if 0 < n then n.toNat else max ratings.length negs.length) := ⟨_, rfl⟩
  obtain ⟨res, hres⟩ : ∃ res, res = List.zipWith (evalOne score bs gain K) (ratings.take N) (negs.take N) := ⟨_, rfl⟩
  have hrl : res.length = min (min N ratings.length) (min N negs.length) := by
    rw [hres, List.length_zipWith, List.length_take, List.length_take]
  have h1 : valEpoch score bs gain K p n ratings negs =
      (res.map fun r => (r.1, r.2.1), if 1 < p then negs else res.map (fun r => r.2.2) ++ negs.drop res.length) := by
    rw [hres, hN]; rfl
  rw [h1]
  by_cases hp : 1 < p
  · simp only [if_pos hp]
    rw [hres, hN]; rfl
  · simp only [if_neg hp]
    have hnl : (res.map (fun r => r.2.2) ++ negs.drop res.length).length = negs.length := by
      rw [List.length_append, List.length_map, List.length_drop]
      omega
    have h2 : (valEpoch score bs gain K q n ratings (res.map (fun r => r.2.2) ++ negs.drop res.length)).1 =
        (List.zipWith (evalOne score bs gain K) (ratings.take N) ((res.map (fun r => r.2.2) ++ negs.drop res.length).take N)).map
          fun r => (r.1, r.2.1) := by
      unfold valEpoch
      simp only [hnl]
      rw [hN]
    rw [h2]
    apply List.ext_getElem?
    intro k
    rw [List.getElem?_map, List.getElem?_map]
    by_cases hk : k < res.length
    · have hkr : k < (ratings.take N).length := by rw [List.length_take]; omega
      have hkn : k < (negs.take N).length := by rw [List.length_take]; omega
      have e1 : res[k]? = some (evalOne score bs gain K (ratings.take N)[k] (negs.take N)[k]) := by
        rw [List.getElem?_eq_getElem hk]
        simp only [hres, List.getElem_zipWith]
      have e2 : ((res.map (fun r => r.2.2) ++ negs.drop res.length).take N)[k]? =
          some (evalOne score bs gain K (ratings.take N)[k] (negs.take N)[k]).2.2 := by
        rw [List.getElem?_take_of_lt (by omega), List.getElem?_append_left (by rw [List.length_map]; exact hk), List.getElem?_map, e1]
        rfl
      rw [e1, List.getElem?_zipWith, e2, List.getElem?_eq_getElem hkr]
      simp only [Option.map_some]
      obtain ⟨a1, a2⟩ := C177_again score bs hb gain K (ratings.take N)[k] (negs.take N)[k]
      rw [a1, a2]
    · have e1 : res[k]? = none := List.getElem?_eq_none (by omega)
      have e2 : (List.zipWith (evalOne score bs gain K) (ratings.take N) ((res.map (fun r => r.2.2) ++ negs.drop res.length).take N))[k]? = none := by
        apply List.getElem?_eq_none
        rw [List.length_zipWith, List.length_take, List.length_take, hnl]
        omega
      rw [e1, e2]

/-- **C177, violated**: a test item that is among its own negatives wins ties it would lose otherwise: the order of the negatives matters. -/
theorem C177_violated_order : evalOne (fun _ _ => 1) 2 (fun _ => 1) 1 (0, 7) [7, 5] = (1, 1, [7, 5, 7]) ∧
    evalOne (fun _ _ => 1) 2 (fun _ => 1) 1 (0, 7) [5, 7] = (0, 0, [5, 7, 7]) := by decide +kernel

example : evalOne (fun _ i => [5, 1, 4, 4, 9].getD i 0) 2 (fun i => 1 / (i + 1)) 3 (0, 2) [3, 1, 4, 3, 1] = (1, 1 / 3, [3, 1, 4, 3, 1, 2]) := by
  decide +kernel

/-! ## Training samples -/

/-- The samples, with the code's list of positive ratings. -/
theorem ncf_samples (n : ℕ) (rows : List NcfRow) :
    (∀ k (h : k < (ncfData rows).length) ds, ncfItem n rows (k * (n + 1)) ds = .ok (some ((ncfData rows)[k].user, (ncfData rows)[k].item, 1))) ∧
    (∀ k (h : k < (ncfData rows).length) r ds, 0 < r → r ≤ n → ncfItem n rows (k * (n + 1) + r) ds =
      .ok ((ds.find? fun j => ¬ ∃ x ∈ rows, x.user = (ncfData rows)[k].user ∧ x.item = j).map fun j => ((ncfData rows)[k].user, j, 0))) ∧
    (∀ idx ds, ncfLen n rows ≤ idx → ncfItem n rows idx ds = .error .index) ∧
    ncfLen n rows = (ncfData rows).length * (n + 1) ∧ ∀ idx < ncfLen n rows, ∃ k r, k < (ncfData rows).length ∧ r ≤ n ∧ idx = k * (n + 1) + r := by
  have hdraw : ∀ u ds, ncfDraw rows u ds = ds.find? fun j => ¬ ∃ x ∈ rows, x.user = u ∧ x.item = j := by
    intro u ds
    induction ds with
    | nil => rfl
    | cons j ds ih =>
      rw [ncfDraw, List.find?_cons]
      by_cases h : ∃ x ∈ rows, x.user = u ∧ x.item = j
      · have : ncfMat rows u j = true := by
          unfold ncfMat
          rw [List.any_eq_true]
          obtain ⟨x, h1, h2, h3⟩ := h
          exact ⟨x, h1, by simp [h2, h3]⟩
        rw [if_pos this, ih]
        simp [h]
      · have : ¬ ncfMat rows u j = true := by
          unfold ncfMat
          rw [List.any_eq_true]
          rintro ⟨x, h1, h2⟩
          simp only [Bool.and_eq_true, beq_iff_eq] at h2
          exact h ⟨x, h1, h2⟩
        rw [if_neg this]
        simp [h]
  refine ⟨?_, ?_, ?_, Nat.mul_comm _ _, ?_⟩
  · intro k h ds
    unfold ncfItem
    rw [Nat.mul_div_cancel _ (by omega), List.getElem?_eq_getElem h]
    simp only
    rw [if_pos (Nat.mul_mod_left _ _)]
  · intro k h r ds h0 hr
    have e1 : (k * (n + 1) + r) / (n + 1) = k := by
      rw [Nat.add_comm, Nat.add_mul_div_right _ _ (by omega), Nat.div_eq_of_lt (by omega), Nat.zero_add]
    have e2 : (k * (n + 1) + r) % (n + 1) = r := by
      rw [Nat.add_comm, Nat.add_mul_mod_self_right, Nat.mod_eq_of_lt (by omega)]
    unfold ncfItem
    rw [e1, e2, List.getElem?_eq_getElem h]
    simp only
    rw [if_neg (by omega), hdraw]
  · intro idx ds h
    unfold ncfItem
    have : (ncfData rows).length ≤ idx / (n + 1) := by
      rw [Nat.le_div_iff_mul_le (by omega), Nat.mul_comm]; exact h
    rw [List.getElem?_eq_none this]
  · intro idx h
    refine ⟨idx / (n + 1), idx % (n + 1), ?_, ?_, ?_⟩
    · rw [Nat.div_lt_iff_lt_mul (by omega), Nat.mul_comm]; exact h
    · have := Nat.mod_lt idx (show 0 < n + 1 by omega); omega
    · rw [Nat.mul_comm]; exact (Nat.div_add_mod idx (n + 1)).symm

/-- **C178** (training samples) With `n` negatives per rating the samples `k (n + 1), …, k (n + 1) + n` are: the `k`-th positive rating with label one, then `n`
times the same user with the first item drawn that is not rated by the user in the training set, with label zero; there are no
others.  Every draw returned is one of those made. -/
theorem C178_samples (n : ℕ) (rows : List NcfRow) :
    (∀ k (h : k < (rows.filter fun r => r.pos).length) ds, ncfItem n rows (k * (n + 1)) ds = .ok (some ((rows.filter fun r => r.pos)[k].user, (rows.filter fun r => r.pos)[k].item, 1))) ∧
    (∀ k (h : k < (rows.filter fun r => r.pos).length) r ds, 0 < r → r ≤ n → ncfItem n rows (k * (n + 1) + r) ds =
      .ok ((ds.find? fun j => ¬ ∃ x ∈ rows, x.user = (rows.filter fun r => r.pos)[k].user ∧ x.item = j).map fun j => ((rows.filter fun r => r.pos)[k].user, j, 0))) ∧
    (∀ idx ds, ncfLen n rows ≤ idx → ncfItem n rows idx ds = .error .index) ∧
    ncfLen n rows = (rows.filter fun r => r.pos).length * (n + 1) ∧ ∀ idx < ncfLen n rows, ∃ k r, k < (rows.filter fun r => r.pos).length ∧ r ≤ n ∧ idx = k * (n + 1) + r :=
  ncf_samples n rows

/-- **C178, violated** (termination): if a user has rated every item, no draws end the loop. -/
theorem C178_violated_all_rated (n : ℕ) (rows : List NcfRow) (k : ℕ) (h : k < (rows.filter fun r => r.pos).length) (r : ℕ) (h0 : 0 < r) (hr : r ≤ n)
    (nbItems : ℕ) (hall : ∀ j < nbItems, ∃ x ∈ rows, x.user = (rows.filter fun r => r.pos)[k].user ∧ x.item = j) (ds : List ℕ) (hds : ∀ j ∈ ds, j < nbItems) :
    ncfItem n rows (k * (n + 1) + r) ds = .ok none := by
  rw [(C178_samples n rows).2.1 k h r ds h0 hr]
  rw [List.find?_eq_none.2]
  · rfl
  · intro j hj
    simpa using hall j (hds j hj)

example : ncfItem 2 [⟨0, 3, true⟩, ⟨0, 4, false⟩, ⟨1, 1, true⟩] 2 [3, 4, 5] = .ok (some (0, 5, 0)) ∧
    ncfItem 2 [⟨0, 3, true⟩, ⟨0, 4, false⟩, ⟨1, 1, true⟩] 3 [] = .ok (some (1, 1, 1)) := by decide +kernel

/-! ## Train and test data -/

/-- **C178** (leave one out) If every user has rated something, the test pair of a user is the last one in time; the training pairs are all the others, each once;
no item of the pool for a user's negatives is in the user's training pairs, and every item the user never rated is in it. -/
theorem C178_leave_one_out (nbUsers nbItems : ℕ) (ratings : List (ℕ × ℕ)) (last : ℕ → ℕ)
    (hl : ∀ u < nbUsers, ((ratings.filter fun r => r.1 = u).map Prod.snd).getLast? = some (last u)) :
    ∃ train pools, convertData nbUsers nbItems ratings = .ok (train, (List.range nbUsers).map fun u => (u, last u), pools) ∧ train.Nodup ∧
      (∀ p, p ∈ train ↔ p ∈ ratings ∧ ¬ (p.1 < nbUsers ∧ p.2 = last p.1)) ∧ pools.length = nbUsers ∧
      ∀ u < nbUsers, ∀ i, (i ∈ pools.getD u [] → i < nbItems ∧ (u, i) ∉ train) ∧ (i < nbItems → (u, i) ∉ ratings → i ∈ pools.getD u []) := by
  have key : ∀ n, n ≤ nbUsers → ∃ train, convertData n nbItems ratings = .ok (train, (List.range n).map (fun u => (u, last u)),
      (List.range n).map fun u => (List.range nbItems).filter fun i => i ∉ (userItems ratings u).dropLast) ∧ train.Nodup ∧
      ∀ p, p ∈ train ↔ p ∈ ratings ∧ ¬ (p.1 < n ∧ p.2 = last p.1) := by
    intro n
    induction n with
    | zero => intro _; exact ⟨ratings.dedup, rfl, List.nodup_dedup _, by simp⟩
    | succ n ih =>
      intro hn
      obtain ⟨train, h1, h2, h3⟩ := ih (by omega)
      refine ⟨train.filter (· ≠ (n, last n)), ?_, h2.filter _, ?_⟩
      · unfold convertData at h1 ⊢
        rw [List.range_succ, List.foldlM_append, h1]
        have : (userItems ratings n).getLast? = some (last n) := hl n (by omega)
        simp only [List.foldlM_cons, List.foldlM_nil, bind, Except.bind, this, pure, Except.pure, List.map_append, List.map_cons, List.map_nil]
      · intro p
        rw [List.mem_filter, h3]
        obtain ⟨u, i⟩ := p
        simp only [ne_eq, Prod.mk.injEq, decide_not, Bool.not_eq_eq_eq_not, Bool.not_true, decide_eq_false_iff_not]
        constructor
        · rintro ⟨⟨a, b⟩, c⟩
          refine ⟨a, ?_⟩
          rintro ⟨d, e⟩
          by_cases hu : u = n
          · subst hu; exact c ⟨rfl, e⟩
          · exact b ⟨by omega, e⟩
        · rintro ⟨a, b⟩
          exact ⟨⟨a, fun hh => b ⟨by omega, hh.2⟩⟩, fun hh => b ⟨by omega, by rw [hh.1]; exact hh.2⟩⟩
  obtain ⟨train, h1, h2, h3⟩ := key nbUsers (le_refl _)
  refine ⟨train, _, h1, h2, h3, by simp, ?_⟩
  intro u hu i
  have hp : ((List.range nbUsers).map fun u => (List.range nbItems).filter fun i => i ∉ (userItems ratings u).dropLast).getD u [] =
      (List.range nbItems).filter fun i => i ∉ (userItems ratings u).dropLast := by
    rw [List.getD_eq_getElem?_getD, List.getElem?_map, List.getElem?_range hu]; rfl
  rw [hp, List.mem_filter, List.mem_range]
  have hui : ∀ j, j ∈ userItems ratings u ↔ (u, j) ∈ ratings := by
    intro j
    unfold userItems
    rw [List.mem_map]
    constructor
    · rintro ⟨⟨a, b⟩, hm, rfl⟩
      obtain ⟨m1, m2⟩ := List.mem_filter.1 hm
      have : a = u := by simpa using m2
      subst this; exact m1
    · intro h
      exact ⟨(u, j), List.mem_filter.2 ⟨h, by simp⟩, rfl⟩
  have hlast : (userItems ratings u).getLast? = some (last u) := hl u hu
  constructor
  · rintro ⟨a, b⟩
    refine ⟨a, ?_⟩
    rw [h3]
    rintro ⟨c, d⟩
    have hm := (hui i).2 c
    have hne : userItems ratings u ≠ [] := List.ne_nil_of_mem hm
    rw [← List.dropLast_append_getLast hne, List.mem_append] at hm
    rcases hm with hm | hm
    · simp [hm] at b
    · rw [List.mem_singleton] at hm
      apply d
      refine ⟨hu, ?_⟩
      rw [List.getLast?_eq_some_getLast hne] at hlast
      exact hm.trans (Option.some.inj hlast)
  · intro a b
    refine ⟨a, ?_⟩
    simp only [decide_not, Bool.not_eq_eq_eq_not, Bool.not_true, decide_eq_false_iff_not]
    intro hm
    exact b ((hui i).1 ((List.dropLast_sublist _).subset hm))

/-- **C178, violated** (negatives): the pool for a user's negatives contains the test item itself, unless the user rated it before. -/
theorem C178_violated_test_item (nbUsers nbItems : ℕ) (ratings : List (ℕ × ℕ)) (train test : List (ℕ × ℕ)) (pools : List (List ℕ))
    (h : convertData nbUsers nbItems ratings = .ok (train, test, pools)) (u t : ℕ) (hu : u < nbUsers) (ht : t < nbItems)
    (h1 : t ∉ (userItems ratings u).dropLast) : t ∈ pools.getD u [] := by
  have key : ∀ n train test pools, convertData n nbItems ratings = .ok (train, test, pools) →
      pools = (List.range n).map fun u => (List.range nbItems).filter fun i => i ∉ (userItems ratings u).dropLast := by
    intro n
    induction n with
    | zero => intro train test pools h; cases h; rfl
    | succ n ih =>
      intro train test pools h
      unfold convertData at h ih
      rw [List.range_succ, List.foldlM_append] at h
      obtain ⟨s, hs, h⟩ := ok_bind h
      have := ih s.1 s.2.1 s.2.2 hs
      simp only [List.foldlM_cons, List.foldlM_nil, bind, Except.bind, pure, Except.pure] at h
      cases hg : (userItems ratings n).getLast? with
      | none => rw [hg] at h; cases h
      | some t =>
        rw [hg] at h
        cases h
        rw [this, List.range_succ, List.map_append]
        rfl
  rw [key nbUsers train test pools h, List.getD_eq_getElem?_getD, List.getElem?_map, List.getElem?_range hu]
  simp only [Option.map_some, Option.getD_some]
  exact List.mem_filter.2 ⟨List.mem_range.2 ht, by simpa using h1⟩

example : convertData 2 4 [(0, 1), (1, 2), (0, 3), (1, 0), (1, 2)] = .ok ([(0, 1), (1, 0)], [(0, 3), (1, 2)], [[0, 2, 3], [1, 3]]) := by decide +kernel

/-! ## Saved data structures -/

/-- **C179** (recovery) From files left by any earlier runs, none of which was stopped while writing the matrix, the data set is loaded completely, and
the files are complete afterwards; the same if one of the files has been removed. -/
theorem C179_recovery_partial (pkl npz : FileSt) (h1 : npz ≠ .begun) (h2 : npz = .complete → pkl ≠ .begun) :
    loadTrain true pkl npz = (.ok ⟨true, true, true⟩, .complete, .complete) := by
  cases npz <;> cases pkl <;> simp_all [loadTrain]

/-- **C179** (crash points) Wherever a run is stopped: the matrix is complete or begun only if the list is complete, so that stopping elsewhere than in the
writing of the matrix leaves files from which the data set is recovered. -/
theorem C179_steps (pkl npz : FileSt) (h : npz ≠ .absent → pkl = .complete) (s : FileSt × FileSt) (hs : s ∈ loadSteps pkl npz) :
    (s.2 ≠ .absent → s.1 = .complete) ∧ (s.2 = .begun → npz = .begun ∨ npz = .absent) := by
  cases npz <;> cases pkl <;> simp_all [loadSteps] <;> rcases hs with rfl | rfl | rfl | rfl | rfl <;> simp

/-- **C179, violated** (a run stopped while writing the list, when the other file exists): every later run returns a data set without data. -/
theorem C179_violated_pickle (csv : Bool) : (.begun, .complete) ∈ loadSteps .absent .complete ∧
    loadTrain csv .begun .complete = (.ok ⟨false, true, true⟩, .begun, .complete) := by
  constructor
  · simp [loadSteps]
  · rfl

/-- **C179, violated** (a run stopped while writing the matrix): this can happen from the start, and every later run fails. -/
theorem C179_violated_npz (csv : Bool) : (.complete, .begun) ∈ loadSteps .absent .absent ∧
    loadTrain csv .complete .begun = (.error .attribute, .complete, .begun) := by
  constructor
  · simp [loadSteps]
  · rfl

/-- **C179, violated** (exceptions are suppressed): with a training file that cannot be parsed the constructor returns a data set without data, and leaves an
empty `.pkl` file. -/
theorem C179_violated_silent (npz : FileSt) (pkl : FileSt) (h : npz = .absent ∨ pkl = .absent) :
    loadTrain false pkl npz = (.ok ⟨false, false, false⟩, .begun, npz) := by
  unfold loadTrain
  rw [if_neg (by tauto)]
  rfl

end Verif
