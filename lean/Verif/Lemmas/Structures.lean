import Verif.Model.Structures
import Verif.Lemmas.Chunks
import Verif.Lemmas.Kth
import Verif.Lemmas.Fold
import Mathlib.Tactic.Linarith
import Mathlib.Tactic.Positivity
import Mathlib.Tactic.FieldSimp
/-! Helper lemmas for structured pruning. -/
namespace Verif

theorem round_bounds (q : ℚ) : q - 1/2 ≤ roundHalfEven q ∧ (roundHalfEven q : ℚ) ≤ q + 1/2 := by
  have h1 := Int.floor_le q
  have h2 := Int.lt_floor_add_one q
  unfold roundHalfEven
  dsimp only
  split
  · constructor <;> linarith
  · split
    · push_cast; constructor <;> linarith
    · split <;> (push_cast; constructor <;> linarith)

theorem round_int (n : ℤ) : roundHalfEven (n : ℚ) = n := by
  unfold roundHalfEven
  simp

theorem round_mono : Monotone roundHalfEven := by
  intro a b hab
  rcases eq_or_lt_of_le hab with h | h
  · rw [h]
  · by_contra hc
    have h1 := (round_bounds a).2
    have h2 := (round_bounds b).1
    have h3 : roundHalfEven b + 1 ≤ roundHalfEven a := by omega
    have h4 : (roundHalfEven b : ℚ) + 1 ≤ roundHalfEven a := by exact_mod_cast h3
    linarith

/-- The map obtained by ranking: everything C22 needs, in terms of the magnitudes. -/
theorem ranking_spec {mags : List ℚ} {k : ℤ} {b bot : List ℚ}
    (hb : bottomK mags k = .ok bot) (h : mapFromRanking (some (bot, mags)) = .ok (some b)) :
    1 ≤ k ∧ k ≤ mags.length ∧ b.length = mags.length ∧ (∀ x ∈ b, x = 0 ∨ x = 1) ∧
    k ≤ b.count 0 ∧ (mags.Nodup → (b.count 0 : ℤ) = k) ∧
    (∀ (i j : ℕ) (x y : ℚ), b[i]? = some 0 → b[j]? = some 1 → mags[i]? = some x → mags[j]? = some y → x < y) := by
  unfold bottomK at hb
  split at hb
  swap; · cases hb
  next hk =>
  injection hb with hb
  subst hb
  unfold mapFromRanking at h
  dsimp only at h
  cases hg : ((mags.insertionSort (· ≤ ·)).take k.toNat).getLast? with
  | none => rw [hg] at h; cases h
  | some thr =>
    rw [hg] at h
    injection h with h
    injection h with h
    subst h
    have h1 : 1 ≤ k := by
      by_contra hc
      have : k.toNat = 0 := by omega
      rw [this] at hg; simp at hg
    have hle : k.toNat ≤ mags.length := by omega
    have hcount : (gtMap mags thr).count 0 = mags.countP (fun x => x ≤ thr) := by
      unfold gtMap
      rw [List.count_eq_countP, List.countP_map]
      apply List.countP_congr
      intro x _
      by_cases hx : x > thr
      · simp [hx]
      · simp [hx, not_lt.1 hx]
    refine ⟨h1, hk.2, by simp [gtMap], ?_, ?_, ?_, ?_⟩
    · intro x hx
      simp only [gtMap, List.mem_map] at hx
      obtain ⟨y, _, rfl⟩ := hx
      split <;> simp
    · have := kth_count_ge hle hg
      rw [hcount]; omega
    · intro hn
      have := kth_count_eq hn hle hg
      rw [hcount, this]; omega
    · intro i j x y hi hj hx hy
      simp only [gtMap, List.getElem?_map, hx, hy, Option.map_some, Option.some.injEq] at hi hj
      split at hi
      · norm_num at hi
      · next h1 =>
        split at hj
        · next h2 => exact lt_of_le_of_lt (not_lt.1 h1) h2
        · norm_num at hj

/-- When the ranking succeeds for an admissible count. -/
theorem ranking_total {mags : List ℚ} {k : ℤ} (h1 : 1 ≤ k) (h2 : k ≤ mags.length) :
    ∃ bot b, bottomK mags k = .ok bot ∧ mapFromRanking (some (bot, mags)) = .ok (some b) := by
  have hlen : ((mags.insertionSort (· ≤ ·)).take k.toNat).length = k.toNat := by
    rw [List.length_take, (List.perm_insertionSort (· ≤ ·) _).length_eq]; omega
  cases hg : ((mags.insertionSort (· ≤ ·)).take k.toNat).getLast? with
  | none =>
    rw [List.getLast?_eq_none_iff] at hg
    rw [hg] at hlen; simp at hlen; omega
  | some thr =>
    refine ⟨_, gtMap mags thr, by unfold bottomK; rw [if_pos (by omega)], ?_⟩
    unfold mapFromRanking
    simp only [hg]

theorem mapFromRanking_none {bot mags : List ℚ} (h : mapFromRanking (some (bot, mags)) = .ok none) : False := by
  unfold mapFromRanking at h
  dsimp only at h
  split at h <;> cases h

theorem expandTo_of_length {n : ℕ} {b : List ℚ} (h : b.length = n) : expandTo n b = .ok b := by
  unfold expandTo; rw [if_pos h]

theorem argsort_perm (key : List ℚ) : (argsort key).Perm (List.range key.length) :=
  List.perm_insertionSort _ _

theorem argsort_sorted (key : List ℚ) :
    (argsort key).Pairwise fun i j => key.getD i 0 ≤ key.getD j 0 := by
  unfold argsort
  haveI : Std.Total (fun i j : ℕ => key.getD i 0 ≤ key.getD j 0) := ⟨fun i j => le_total _ _⟩
  haveI : IsTrans ℕ (fun i j : ℕ => key.getD i 0 ≤ key.getD j 0) := ⟨fun i j k h1 h2 => le_trans h1 h2⟩
  exact List.pairwise_insertionSort _ _

/-- Keeping the first `n-k` of an ordering. -/
theorem mapFromOrder_spec (key : List ℚ) {k : ℕ} (hk : k ≤ key.length) :
    (mapFromOrder key.length (dropLastN k (argsort key))).length = key.length ∧
    (mapFromOrder key.length (dropLastN k (argsort key))).count 0 = k ∧
    ∀ (i j : ℕ) (x y : ℚ),
      (mapFromOrder key.length (dropLastN k (argsort key)))[i]? = some 0 →
      (mapFromOrder key.length (dropLastN k (argsort key)))[j]? = some 1 →
      key[i]? = some x → key[j]? = some y → y ≤ x := by
  have hp := argsort_perm key
  have hlen : (argsort key).length = key.length := by rw [hp.length_eq, List.length_range]
  set n := key.length with hn
  set kept := dropLastN k (argsort key) with hkept
  have hkept' : kept = (argsort key).take (n - k) := by rw [hkept, dropLastN, hlen]
  have hnodup : (argsort key).Nodup := hp.nodup_iff.2 List.nodup_range
  refine ⟨by simp [mapFromOrder], ?_, ?_⟩
  · have h1 : (mapFromOrder n kept).count 0 = (List.range n).countP (fun i => i ∉ kept) := by
      unfold mapFromOrder
      rw [List.count_eq_countP, List.countP_map]
      apply List.countP_congr
      intro x _
      by_cases hx : x ∈ kept <;> simp [hx]
    rw [h1, ← hp.countP_eq]
    rw [← List.take_append_drop (n - k) (argsort key), ← hkept', List.countP_append]
    have e1 : kept.countP (fun i => decide (i ∉ kept)) = 0 := by
      rw [List.countP_eq_zero]; intro a ha; simp [ha]
    have e2 : ((argsort key).drop (n - k)).countP (fun i => decide (i ∉ kept)) = k := by
      rw [List.countP_eq_length.2, List.length_drop, hlen]
      · omega
      · intro a ha
        rw [← List.take_append_drop (n - k) (argsort key), ← hkept', List.nodup_append] at hnodup
        have := hnodup.2.2
        simp only [decide_eq_true_eq]
        intro hin; exact this a hin a ha rfl
    omega
  · intro i j x y hi hj hx hy
    have hin : i < n := (List.getElem?_eq_some_iff.1 hx).1
    have hjn : j < n := (List.getElem?_eq_some_iff.1 hy).1
    unfold mapFromOrder at hi hj
    rw [List.getElem?_map, List.getElem?_range hin] at hi
    rw [List.getElem?_map, List.getElem?_range hjn] at hj
    simp only [Option.map_some, Option.some.injEq] at hi hj
    have hi' : i ∉ kept := by
      intro h; rw [if_pos h] at hi; norm_num at hi
    have hj' : j ∈ kept := by
      by_contra h; rw [if_neg h] at hj; norm_num at hj
    have hmem : i ∈ (argsort key).drop (n - k) := by
      have : i ∈ argsort key := hp.mem_iff.2 (List.mem_range.2 hin)
      rw [← List.take_append_drop (n - k) (argsort key), ← hkept'] at this
      rcases List.mem_append.1 this with h | h
      · exact absurd h hi'
      · exact h
    have hs := argsort_sorted key
    rw [← List.take_append_drop (n - k) (argsort key), ← hkept', List.pairwise_append] at hs
    have := hs.2.2 j hj' i hmem
    rwa [List.getD_eq_getElem?_getD, List.getD_eq_getElem?_getD, hx, hy] at this

end Verif
