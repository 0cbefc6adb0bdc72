import Verif.Model.Sampler
import Verif.Lemmas.Fold
import Mathlib.Data.List.Perm.Basic
import Mathlib.Tactic.Ring
/-!
# C174: the bucketing sampler
-/
namespace Verif

/-! ## Rows and strides -/

theorem rowsOf_eq {α : Type} (n : ℕ) : ∀ (k : ℕ) (l : List α), rowsOf n k l = (List.range k).map fun j => (l.drop (j * n)).take n := by
  intro k
  induction k with
  | zero => intro l; rfl
  | succ k ih =>
    intro l
    rw [rowsOf, ih, List.range_succ_eq_map, List.map_cons, List.map_map]
    simp only [Nat.zero_mul, List.drop_zero]
    congr 1
    apply List.map_congr_left
    intro j _
    simp only [Function.comp, List.drop_drop]
    congr 2
    rw [Nat.succ_mul]; omega

theorem flatten_rowsOf {α : Type} (n : ℕ) : ∀ (k : ℕ) (l : List α), l.length ≤ k * n → (rowsOf n k l).flatten = l := by
  intro k
  induction k with
  | zero => intro l h; simp only [Nat.zero_mul, Nat.le_zero] at h; rw [List.eq_nil_of_length_eq_zero h]; rfl
  | succ k ih =>
    intro l h
    rw [rowsOf, List.flatten_cons, ih, List.take_append_drop]
    rw [List.length_drop, Nat.succ_mul] at *
    omega

theorem strided_map {α : Type} (f : ℕ → α) (m W r : ℕ) (hr : r < W) :
    strided r W ((List.range (m * W)).map f) = (List.range m).map fun k => f (r + k * W) := by
  unfold strided
  have hc : ((m * W - r + W - 1) / W) = m := by
    cases m with
    | zero =>
      rw [Nat.zero_mul, Nat.zero_sub, Nat.zero_add]
      exact Nat.div_eq_of_lt (by omega)
    | succ m =>
      have e : (m + 1) * W - r + W - 1 = (W - 1 - r) + (m + 1) * W := by
        rw [Nat.succ_mul]; omega
      rw [e, Nat.add_mul_div_right _ _ (by omega), Nat.div_eq_of_lt (by omega), Nat.zero_add]
  rw [List.length_map, List.length_range, hc]
  have e3 : (List.range m).filterMap (fun k => ((List.range (m * W)).map f)[r + k * W]?) =
      (List.range m).filterMap (some ∘ fun k => f (r + k * W)) := ?_
  · rw [e3, List.filterMap_eq_map]
  apply List.filterMap_congr
  intro k hk
  have hk' : k < m := by simpa using hk
  have : r + k * W < m * W := by
    have : (k + 1) * W ≤ m * W := Nat.mul_le_mul_right _ hk'
    rw [Nat.succ_mul] at this; omega
  rw [List.getElem?_map, List.getElem?_range this]
  rfl

theorem flatMap_strides {β : Type} (f : ℕ → List β) (W : ℕ) : ∀ m : ℕ,
    ((List.range W).flatMap fun r => (List.range m).flatMap fun k => f (r + k * W)).Perm ((List.range (m * W)).flatMap f) := by
  intro m
  induction m with
  | zero => simp
  | succ m ih =>
    have e1 : (fun r => (List.range (m + 1)).flatMap fun k => f (r + k * W)) =
        fun r => (List.range m).flatMap (fun k => f (r + k * W)) ++ f (r + m * W) := by
      funext r
      rw [List.range_succ, List.flatMap_append]
      simp
    have e2 : List.range ((m + 1) * W) = List.range (m * W) ++ (List.range W).map fun r => r + m * W := by
      rw [Nat.succ_mul, List.range_add]
      congr 1
      apply List.map_congr_left
      intro r _; omega
    rw [e1, e2, List.flatMap_append, List.flatMap_map]
    exact (List.flatMap_append_perm _ _ _).symm.trans (ih.append_right _)

theorem filterMap_get_perm {α : Type} {idx : List ℕ} {l : List α} (h : idx.Perm (List.range l.length)) : (idx.filterMap (l[·]?)).Perm l := by
  refine (h.filterMap _).trans ?_
  have : (List.range l.length).filterMap (l[·]?) = l := by
    apply List.ext_getElem?
    intro i
    have e : (List.range l.length).filterMap (l[·]?) = (List.range l.length).pmap (fun i hi => l[i]) (fun i hi => by simpa using hi) := by
      rw [List.pmap_eq_map_attach, ← List.filterMap_eq_map]
      conv_lhs => rw [← List.attach_map_subtype_val (List.range l.length), List.filterMap_map]
      apply List.filterMap_congr
      rintro ⟨x, hx⟩ _
      have : x < l.length := by simpa using hx
      simp [this]
    rw [e]
    by_cases hi : i < l.length
    · simp [List.getElem?_pmap, hi]
    · simp [List.getElem?_pmap, hi]
  rw [this]

/-! ## Bucketing -/

/-- What `torch.sort` returns: indices that put the values in order. -/
def IsSortIdx (sortIdx : List ℕ → List ℕ) : Prop :=
  ∀ l : List ℕ, (sortIdx l).Perm (List.range l.length) ∧ ((sortIdx l).filterMap (l[·]?)).Pairwise (· ≤ ·)

theorem sortShard_perm {sortIdx : List ℕ → List ℕ} (hs : IsSortIdx sortIdx) (lens : ℕ → ℕ) (shard : List ℕ) :
    (sortShard sortIdx lens shard).Perm shard := by
  have := (hs (shard.map lens)).1
  rw [List.length_map] at this
  exact filterMap_get_perm this

theorem sortShard_sorted {sortIdx : List ℕ → List ℕ} (hs : IsSortIdx sortIdx) (lens : ℕ → ℕ) (shard : List ℕ) :
    (sortShard sortIdx lens shard).Pairwise fun x y => lens x ≤ lens y := by
  have := (hs (shard.map lens)).2
  unfold sortShard
  have e : ((sortIdx (shard.map lens)).filterMap ((shard.map lens)[·]?)) = ((sortIdx (shard.map lens)).filterMap (shard[·]?)).map lens := by
    rw [List.map_filterMap]
    apply List.filterMap_congr
    intro i _
    rw [List.getElem?_map]
  rw [e, List.pairwise_map] at this
  exact this

theorem flatten_map_perm {α : Type} (f : List α → List α) (hf : ∀ l, (f l).Perm l) : ∀ ls : List (List α), (ls.map f).flatten.Perm ls.flatten := by
  intro ls
  induction ls with
  | nil => exact List.Perm.refl _
  | cons l ls ih => rw [List.map_cons, List.flatten_cons, List.flatten_cons]; exact (hf l).append ih

theorem bucketize_perm {sortIdx : List ℕ → List ℕ} (hs : IsSortIdx sortIdx) (lens : ℕ → ℕ) (gb m : ℕ) (hg : 0 < gb) (order indices : List ℕ)
    (hl : indices.length = m * gb) (ho : order.Perm (List.range m)) : (bucketize sortIdx lens gb order indices).Perm indices := by
  unfold bucketize
  simp only
  have hm : indices.length / gb = m := by rw [hl, Nat.mul_div_cancel _ hg]
  have hcov : indices.length ≤ (indices.length + gb * 80 - 1) / (gb * 80) * (gb * 80) := by
    have h1 : 0 < gb * 80 := by omega
    generalize gb * 80 = q at h1
    have h2 := Nat.div_add_mod (indices.length + q - 1) q
    have h3 := Nat.mod_lt (indices.length + q - 1) h1
    rw [Nat.mul_comm] at h2
    omega
  have hflat : ((rowsOf (gb * 80) ((indices.length + gb * 80 - 1) / (gb * 80)) indices).map (sortShard sortIdx lens)).flatten.Perm indices :=
    (flatten_map_perm _ (sortShard_perm hs lens) _).trans (by rw [flatten_rowsOf _ _ _ hcov])
  rw [hm]
  have hrows : (rowsOf gb m ((rowsOf (gb * 80) ((indices.length + gb * 80 - 1) / (gb * 80)) indices).map (sortShard sortIdx lens)).flatten).length = m := by
    rw [rowsOf_eq]; simp
  have := filterMap_get_perm (l := rowsOf gb m ((rowsOf (gb * 80) ((indices.length + gb * 80 - 1) / (gb * 80)) indices).map (sortShard sortIdx lens)).flatten)
    (idx := order) (by rw [hrows]; exact ho)
  refine (List.Perm.flatten this).trans ?_
  rw [flatten_rowsOf _ _ _ (by rw [hflat.length_eq, hl])]
  exact hflat

/-- A row of `n` consecutive elements of shards, all of which but the last have a length divisible by `n`, lies in one shard. -/
theorem row_in_shard {α : Type} (n : ℕ) : ∀ (ss : List (List α)) (j : ℕ), (∀ s ∈ ss.dropLast, n ∣ s.length) →
    ((ss.flatten.drop (j * n)).take n) = [] ∨ ∃ s ∈ ss, ((ss.flatten.drop (j * n)).take n).Sublist s := by
  intro ss
  induction ss with
  | nil => intro j _; left; simp
  | cons s ss ih =>
    intro j hd
    cases ss with
    | nil =>
      right
      refine ⟨s, by simp, ?_⟩
      simp only [List.flatten_cons, List.flatten_nil, List.append_nil]
      exact (List.take_sublist _ _).trans (List.drop_sublist _ _)
    | cons t ss =>
      have hn : n ∣ s.length := hd s (by simp)
      rw [List.flatten_cons]
      by_cases hj : (j + 1) * n ≤ s.length
      · right
        refine ⟨s, by simp, ?_⟩
        rw [Nat.succ_mul] at hj
        rw [List.drop_append_of_le_length (by omega), List.take_append_of_le_length (by rw [List.length_drop]; omega)]
        exact (List.take_sublist _ _).trans (List.drop_sublist _ _)
      · obtain ⟨q, hq⟩ := hn
        have hqj : q ≤ j := by
          by_contra c
          apply hj
          rw [hq, Nat.mul_comm]
          exact Nat.mul_le_mul_left _ (by omega)
        have e : j * n = s.length + (j - q) * n := by
          rw [hq, Nat.mul_comm n q, ← Nat.add_mul]
          congr 1
          omega
        rw [e, List.drop_append, List.drop_eq_nil_of_le (by omega), List.nil_append, show s.length + (j - q) * n - s.length = (j - q) * n by omega]
        rcases ih (j - q) (fun x hx => hd x (by rw [List.dropLast_cons₂]; exact List.mem_cons_of_mem _ hx)) with h | ⟨x, hx, h⟩
        · exact Or.inl h
        · exact Or.inr ⟨x, List.mem_cons_of_mem _ hx, h⟩

theorem bucketize_rows {sortIdx : List ℕ → List ℕ} (hs : IsSortIdx sortIdx) (lens : ℕ → ℕ) (gb m : ℕ) (hg : 0 < gb) (order indices : List ℕ)
    (hl : indices.length = m * gb) (ho : order.Perm (List.range m)) :
    ∃ rows : List (List ℕ), bucketize sortIdx lens gb order indices = rows.flatten ∧
      ∀ row ∈ rows, row.length = gb ∧ row.Pairwise fun x y => lens x ≤ lens y := by
  have hm : indices.length / gb = m := by rw [hl, Nat.mul_div_cancel _ hg]
  refine ⟨_, rfl, ?_⟩
  intro row hrow
  obtain ⟨j, hj, hrow⟩ := List.mem_filterMap.1 hrow
  have hjm : j < m := by simpa using ho.mem_iff.1 hj
  rw [hm, rowsOf_eq, List.getElem?_map, List.getElem?_range hjm] at hrow
  simp only [Option.map_some, Option.some.injEq] at hrow
  have hcov : indices.length ≤ (indices.length + gb * 80 - 1) / (gb * 80) * (gb * 80) := by
    have h1 : 0 < gb * 80 := by omega
    generalize gb * 80 = q at h1
    have h2 := Nat.div_add_mod (indices.length + q - 1) q
    have h3 := Nat.mod_lt (indices.length + q - 1) h1
    rw [Nat.mul_comm] at h2
    omega
  have hflat : ((rowsOf (gb * 80) ((indices.length + gb * 80 - 1) / (gb * 80)) indices).map (sortShard sortIdx lens)).flatten.Perm indices :=
    (flatten_map_perm _ (sortShard_perm hs lens) _).trans (by rw [flatten_rowsOf _ _ _ hcov])
  constructor
  · rw [← hrow, List.length_take, List.length_drop, hflat.length_eq, hl]
    have : (j + 1) * gb ≤ m * gb := Nat.mul_le_mul_right _ hjm
    rw [Nat.succ_mul] at this
    omega
  · have hdvd : ∀ s ∈ ((rowsOf (gb * 80) ((indices.length + gb * 80 - 1) / (gb * 80)) indices).map (sortShard sortIdx lens)).dropLast, gb ∣ s.length := by
      intro s hs'
      rw [← List.map_dropLast] at hs'
      obtain ⟨sh, hsh, rfl⟩ := List.mem_map.1 hs'
      rw [(sortShard_perm hs lens sh).length_eq]
      rw [rowsOf_eq, ← List.map_dropLast] at hsh
      obtain ⟨i, hi, rfl⟩ := List.mem_map.1 hsh
      have hi' : i + 1 < (indices.length + gb * 80 - 1) / (gb * 80) := by
        generalize hk : (indices.length + gb * 80 - 1) / (gb * 80) = K at hi
        cases K with
        | zero => simp at hi
        | succ K => rw [List.range_succ, List.dropLast_concat] at hi; simp at hi; omega
      have hfull : (i + 1) * (gb * 80) ≤ indices.length := by
        have h1 : 0 < gb * 80 := by omega
        generalize gb * 80 = q at h1 hi'
        have h2 : (i + 2) * q ≤ indices.length + q - 1 := by
          have := Nat.div_mul_le_self (indices.length + q - 1) q
          exact le_trans (Nat.mul_le_mul_right q (by omega)) this
        have : (i + 2) * q = (i + 1) * q + q := by ring
        omega
      rw [List.length_take, List.length_drop]
      have : min (gb * 80) (indices.length - i * (gb * 80)) = gb * 80 := by
        rw [Nat.succ_mul] at hfull; omega
      rw [this]
      exact ⟨80, rfl⟩
    rcases row_in_shard gb ((rowsOf (gb * 80) ((indices.length + gb * 80 - 1) / (gb * 80)) indices).map (sortShard sortIdx lens)) j hdvd with h | ⟨s, hs', h⟩
    · rw [← hrow, h]; exact List.Pairwise.nil
    · rw [← hrow]
      obtain ⟨sh, -, rfl⟩ := List.mem_map.1 hs'
      exact (sortShard_sorted hs lens sh).sublist h

/-- **C174** (partition) In every epoch, whatever permutations are drawn: each rank gets the same number of samples; batch `k` of rank `r` is the `r`-th
part of the `k`-th global batch of one common sequence `L`; together the ranks get the first `num_samples` samples of the permutation, each
exactly once; fewer than `batch_size * world_size` samples are left out. -/
theorem C174_partition {sortIdx : List ℕ → List ℕ} (hs : IsSortIdx sortIdx) (n b W : ℕ) (bucket : Bool) (lens : ℕ → ℕ) (perm order : List ℕ)
    (hb : 0 < b) (hW : 0 < W) (hn : b * W ≤ n) (hp : perm.Perm (List.range n)) (ho : order.Perm (List.range (n / (b * W)))) :
    ∃ (L : List ℕ) (out : ℕ → List ℕ), L.Perm (perm.take (n / (b * W) * (b * W))) ∧
      (∀ r < W, bucketIter sortIdx n b W bucket lens perm order r = .ok (out r) ∧ (out r).length = n / (b * W) * b ∧
        out r = (List.range (n / (b * W))).flatMap fun k => (L.drop (k * (b * W) + r * b)).take b) ∧
      ((List.range W).flatMap out).Perm L ∧ ((List.range W).flatMap out).Nodup ∧ n < n / (b * W) * (b * W) + b * W := by
  have hg : 0 < b * W := Nat.mul_pos hb hW
  obtain ⟨m, hm⟩ : ∃ m, m = n / (b * W) := ⟨_, rfl⟩
  have hmpos : 0 < m := by rw [hm]; exact Nat.div_pos hn hg
  have hle : m * (b * W) ≤ n := by rw [hm]; exact Nat.div_mul_le_self _ _
  rw [← hm] at ho ⊢
  have htake : (perm.take (m * (b * W))).length = m * (b * W) := by
    rw [List.length_take, hp.length_eq, List.length_range]; omega
  obtain ⟨L, hL⟩ : ∃ L, L = if bucket then bucketize sortIdx lens (b * W) order (perm.take (m * (b * W))) else perm.take (m * (b * W)) := ⟨_, rfl⟩
  have hLp : L.Perm (perm.take (m * (b * W))) := by
    rw [hL]
    cases bucket with
    | true => exact bucketize_perm hs lens (b * W) m hg order _ htake ho
    | false => exact List.Perm.refl _
  have hLl : L.length = m * (b * W) := by rw [hLp.length_eq, htake]
  have hrows : L.length / b = m * W := by
    rw [hLl, show m * (b * W) = (m * W) * b by ring, Nat.mul_div_cancel _ hb]
  have hout : ∀ r < W, (strided r W (rowsOf b (L.length / b) L)).flatten = (List.range m).flatMap fun k => (L.drop (k * (b * W) + r * b)).take b := by
    intro r hr
    rw [hrows, rowsOf_eq, strided_map _ _ _ _ hr, List.flatMap_def]
    congr 1
    apply List.map_congr_left
    intro k _
    congr 2
    ring
  have hlen : ∀ r < W, ((List.range m).flatMap fun k => (L.drop (k * (b * W) + r * b)).take b).length = m * b := by
    intro r hr
    rw [List.length_flatMap]
    have : (List.range m).map (fun k => ((L.drop (k * (b * W) + r * b)).take b).length) = (List.range m).map fun _ => b := by
      apply List.map_congr_left
      intro k hk
      have hk' : k < m := by simpa using hk
      rw [List.length_take, List.length_drop, hLl]
      have h1 : (k + 1) * (b * W) ≤ m * (b * W) := Nat.mul_le_mul_right _ hk'
      have h2 : (r + 1) * b ≤ W * b := Nat.mul_le_mul_right _ hr
      rw [Nat.succ_mul] at h1 h2
      rw [Nat.mul_comm W b] at h2
      omega
    rw [this, List.map_const', List.length_range, List.sum_replicate_nat]
  have hperm : ((List.range W).flatMap fun r => (List.range m).flatMap fun k => (L.drop (k * (b * W) + r * b)).take b).Perm L := by
    have e : (fun r => (List.range m).flatMap fun k => (L.drop (k * (b * W) + r * b)).take b) =
        fun r => (List.range m).flatMap fun k => (fun j => (L.drop (j * b)).take b) (r + k * W) := by
      funext r
      congr 1
      funext k
      simp only
      congr 2
      ring
    rw [e]
    refine (flatMap_strides (fun j => (L.drop (j * b)).take b) W m).trans ?_
    have := flatten_rowsOf b (m * W) L (by rw [hLl]; apply le_of_eq; ring)
    rw [rowsOf_eq, ← List.flatMap_def] at this
    rw [this]
  refine ⟨L, fun r => (List.range m).flatMap fun k => (L.drop (k * (b * W) + r * b)).take b, hLp, ?_, hperm, ?_, ?_⟩
  · intro r hr
    refine ⟨?_, hlen r hr, rfl⟩
    unfold bucketIter bucketNum
    rw [if_neg (by omega), ← hm]
    simp only
    rw [if_neg (by rw [htake]; exact fun h => Nat.ne_of_gt (Nat.mul_pos hmpos hg) h.2), ← hL, if_neg (by rw [hLl]; simp), hout r hr, hlen r hr, if_neg]
    have : m * (b * W) / W = m * b := by
      rw [show m * (b * W) = m * b * W by ring, Nat.mul_div_cancel _ hW]
    rw [this]
    simp
  · rw [(hperm.trans hLp).nodup_iff]
    exact List.Nodup.sublist (List.take_sublist _ _) (hp.nodup_iff.2 List.nodup_range)
  · have := Nat.div_add_mod n (b * W)
    have h2 := Nat.mod_lt n hg
    rw [← hm, Nat.mul_comm] at this
    omega

/-- **C174** (bucketing) With bucketing every global batch consists of samples in the order of their lengths, consecutive ones of a sorted shard. -/
theorem C174_buckets {sortIdx : List ℕ → List ℕ} (hs : IsSortIdx sortIdx) (n b W : ℕ) (lens : ℕ → ℕ) (perm order : List ℕ)
    (hb : 0 < b) (hW : 0 < W) (hp : perm.Perm (List.range n)) (ho : order.Perm (List.range (n / (b * W))))
    (r : ℕ) (hr : r < W) (out : List ℕ) (h : bucketIter sortIdx n b W true lens perm order r = .ok out) (k : ℕ) :
    ((out.drop (k * b)).take b).Pairwise fun x y => lens x ≤ lens y := by
  have hg : 0 < b * W := Nat.mul_pos hb hW
  obtain ⟨m, hm⟩ : ∃ m, m = n / (b * W) := ⟨_, rfl⟩
  have hle : m * (b * W) ≤ n := by rw [hm]; exact Nat.div_mul_le_self _ _
  rw [← hm] at ho
  have htake : (perm.take (m * (b * W))).length = m * (b * W) := by
    rw [List.length_take, hp.length_eq, List.length_range]; omega
  obtain ⟨rows, e, hrows⟩ := bucketize_rows hs lens (b * W) m hg order _ htake ho
  have hlen := (bucketize_perm hs lens (b * W) m hg order _ htake ho).length_eq
  rw [htake] at hlen
  unfold bucketIter bucketNum at h
  rw [if_neg (by omega), ← hm] at h
  simp only [if_true] at h
  split at h
  · cases h
  · rw [if_neg (by rw [hlen]; simp)] at h
    split at h
    · cases h
    · cases h
      generalize hL : bucketize sortIdx lens (b * W) order (perm.take (m * (b * W))) = L at e hlen
      have hr2 : L.length / b = m * W := by
        rw [hlen, show m * (b * W) = (m * W) * b by ring, Nat.mul_div_cancel _ hb]
      rw [hr2, rowsOf_eq, strided_map _ _ _ _ hr]
      -- the rows handed out have length b, so that the k-th one is the k-th batch
      have key : ∀ (g : ℕ → List ℕ) (M : ℕ), (∀ k < M, (g k).length = b) → (∀ k < M, (g k).Pairwise fun x y => lens x ≤ lens y) →
          ∀ k, ((((List.range M).map g).flatten.drop (k * b)).take b).Pairwise fun x y => lens x ≤ lens y := by
        intro g M
        induction M generalizing g with
        | zero => intro _ _ k; simp
        | succ M ih =>
          intro h1 h2 k
          rw [List.range_succ_eq_map, List.map_cons, List.map_map, List.flatten_cons]
          cases k with
          | zero =>
            rw [Nat.zero_mul, List.drop_zero, ← h1 0 (by omega), List.take_left]
            exact h2 0 (by omega)
          | succ k =>
            have : (k + 1) * b = (g 0).length + k * b := by rw [h1 0 (by omega), Nat.succ_mul]; omega
            rw [this, List.drop_append, List.drop_eq_nil_of_le (by omega), List.nil_append,
              show (g 0).length + k * b - (g 0).length = k * b by omega]
            exact ih (g ∘ Nat.succ) (fun j hj => h1 _ (by omega)) (fun j hj => h2 _ (by omega)) k
      apply key
      · intro k hk
        rw [List.length_take, List.length_drop, hlen]
        have h1 : (k + 1) * W ≤ m * W := Nat.mul_le_mul_right _ hk
        have h2 : (r + k * W + 1) * b ≤ (m * W) * b := Nat.mul_le_mul_right _ (by rw [Nat.succ_mul] at h1; omega)
        rw [Nat.succ_mul, show m * W * b = m * (b * W) by ring] at h2
        omega
      · intro k hk
        -- the part lies in one global batch
        have e2 : (r + k * W) * b = k * (b * W) + r * b := by ring
        rw [e2]
        have hsub : ((L.drop (k * (b * W) + r * b)).take b).Sublist ((L.drop (k * (b * W))).take (b * W)) := by
          rw [← List.drop_drop]
          generalize L.drop (k * (b * W)) = X
          have h3 : (r + 1) * b ≤ W * b := Nat.mul_le_mul_right _ hr
          rw [Nat.succ_mul, Nat.mul_comm W b] at h3
          have : (X.drop (r * b)).take b = ((X.take (b * W)).drop (r * b)).take b := by
            rw [List.drop_take, List.take_take]
            congr 1
            omega
          rw [this]
          exact (List.take_sublist _ _).trans (List.drop_sublist _ _)
        rcases row_in_shard (b * W) rows k (fun s hs' => (hrows s ((List.dropLast_sublist rows).subset hs')).1 ▸ Nat.dvd_refl _) with hnil | ⟨s, hs', hsub'⟩
        · rw [← e] at hnil
          rw [hnil] at hsub
          rw [List.sublist_nil.1 hsub]
          exact List.Pairwise.nil
        · rw [← e] at hsub'
          exact (hrows s hs').2.sublist (hsub.trans hsub')

/-- **C174** is violated for data sets smaller than a global batch: with bucketing iterating raises, instead of delivering nothing as without. -/
theorem C174_violated_small (sortIdx : List ℕ → List ℕ) (n b W : ℕ) (lens : ℕ → ℕ) (perm order : List ℕ) (r : ℕ)
    (hn : n < b * W) : bucketIter sortIdx n b W true lens perm order r = .error .runtime ∧
      bucketIter sortIdx n b W false lens perm order r = .ok [] := by
  unfold bucketIter bucketNum
  rw [Nat.div_eq_of_lt hn]
  have h0 : ¬ b * W = 0 := by omega
  constructor <;> rw [if_neg h0]
  · simp
  · simp [rowsOf, strided]

/-- An argsort for the examples. -/
def toySort (l : List ℕ) : List ℕ := (l.zipIdx.insertionSort fun a b => a.1 ≤ b.1).map Prod.snd

example : (bucketIter toySort 9 1 2 true (fun i => [5, 1, 4, 2, 3, 9, 7, 8, 6].getD i 0) [3, 0, 8, 1, 2, 4, 6, 5, 7] [2, 0, 1, 3] 0,
    bucketIter toySort 9 1 2 true (fun i => [5, 1, 4, 2, 3, 9, 7, 8, 6].getD i 0) [3, 0, 8, 1, 2, 4, 6, 5, 7] [2, 0, 1, 3] 1) =
    (.ok [0, 1, 4, 6], .ok [8, 3, 2, 5]) := by decide +kernel

end Verif
