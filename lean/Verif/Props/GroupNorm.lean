import Verif.Model.GroupNorm
import Verif.Props.Structures
/-!
# C181: the norm of a group of structures
-/
namespace Verif

theorem take_flatMap_chunks (l : Tensor) (o s g : ℕ) :
    (l.drop o).take (g * s) = (List.range g).flatMap fun i => (l.drop (o + i * s)).take s := by
  induction g with
  | zero => simp
  | succ g ih =>
    rw [Nat.succ_mul, List.take_add, ih, List.range_succ, List.flatMap_append, List.drop_drop]
    simp

theorem chunk_group (l : Tensor) (s g k : ℕ) : chunk (g * s) k l = (List.range g).flatMap fun i => chunk s (k * g + i) l := by
  unfold chunk
  rw [take_flatMap_chunks]
  congr 1
  funext i
  rw [Nat.add_mul, Nat.mul_assoc]

/-- The norm of the group of `g` structures starting with number `k * g`, the structures having `n` elements each: the norm of the list of all
their elements, divided by the number of these elements if the norm is to be normalized. -/
def groupNormSpec (nf : NormFn) (ln : Bool) (g n : ℕ) (entries : ℕ → List ℚ) (k : ℕ) : ℚ :=
  let all := (List.range g).flatMap fun i => entries (k * g + i)
  if ln then nf all / ((g * n : ℕ) : ℚ) else nf all

/-- **C181** (filters) If the group length divides the number of filters, `filters_norm` returns one norm per group of adjacent filters, that of all elements of
the group; otherwise it raises an error. -/
theorem C181_filters (t : T4) (nf : NormFn) (g : ℕ) (hg : 0 < g) (ln : Bool) :
    (g ∣ t.F → filtersNorm t nf g ln = .ok ((List.range (t.F / g)).map (groupNormSpec nf ln g (t.C * t.H * t.W) fun f =>
      (t.data.drop (f * (t.C * t.H * t.W))).take (t.C * t.H * t.W)))) ∧
    (¬ g ∣ t.F → filtersNorm t nf g ln = .error .runtime) := by
  constructor
  · intro h
    unfold filtersNorm
    simp only
    rw [if_pos ⟨by omega, Nat.mod_eq_zero_of_dvd h⟩]
    unfold genericNorm chunks
    rw [List.map_map]
    congr 1
    apply List.map_congr_left
    intro k _
    simp only [Function.comp_apply]
    rw [chunk_group]
    rfl
  · intro h
    unfold filtersNorm
    simp only
    rw [if_neg fun hh => h (Nat.dvd_of_mod_eq_zero hh.2)]

/-- **C181** (channels) The same for the input channels of a convolution; the elements of a channel are those with this second index. -/
theorem C181_channels (t : T4) (ht : t.WF) (nf : NormFn) (g : ℕ) (hg : 0 < g) (ln : Bool) :
    (g ∣ t.C → channelsNorm t nf g ln = .ok ((List.range (t.C / g)).map (groupNormSpec nf ln g (t.F * (t.H * t.W)) fun c =>
      (List.range t.F).flatMap fun f => (t.data.drop ((f * t.C + c) * (t.H * t.W))).take (t.H * t.W)))) ∧
    (¬ g ∣ t.C → channelsNorm t nf g ln = .error .runtime) := by
  constructor
  · intro h
    unfold channelsNorm
    simp only
    rw [if_pos ⟨by omega, Nat.mod_eq_zero_of_dvd h⟩]
    unfold genericNorm chunks
    rw [List.map_map]
    congr 1
    apply List.map_congr_left
    intro k hk
    rw [List.mem_range] at hk
    simp only [Function.comp_apply]
    have e : chunk (g * (t.F * (t.H * t.W))) k t.transposed = (List.range g).flatMap fun i => (List.range t.F).flatMap fun f =>
        (t.data.drop ((f * t.C + (k * g + i)) * (t.H * t.W))).take (t.H * t.W) := by
      rw [chunk_group]
      have key : ∀ i ∈ List.range g, chunk (t.F * (t.H * t.W)) (k * g + i) t.transposed = (List.range t.F).flatMap fun f =>
          (t.data.drop ((f * t.C + (k * g + i)) * (t.H * t.W))).take (t.H * t.W) := by
        intro i hi
        rw [List.mem_range] at hi
        have hc : k * g + i < t.C := by
          obtain ⟨q, hq0⟩ := h
          rw [hq0] at hk ⊢
          have hq : k < q := by rwa [Nat.mul_div_cancel_left _ hg] at hk
          calc k * g + i < k * g + g := by omega
            _ = g * (k + 1) := by ring
            _ ≤ g * q := Nat.mul_le_mul_left _ hq
        rw [t.transposed_chunk ht hc]
        rfl
      rw [List.flatMap_def, List.flatMap_def, List.map_congr_left key]
    rw [e]
    rfl
  · intro h
    unfold channelsNorm
    simp only
    rw [if_neg fun hh => h (Nat.dvd_of_mod_eq_zero hh.2)]

/-- **C181** (kernels) The same for kernels, numbered by filter and channel. -/
theorem C181_kernels (t : T4) (nf : NormFn) (g : ℕ) (hg : 0 < g) (ln : Bool) :
    (g ∣ t.F * t.C → kernelsNormG t nf g ln = .ok ((List.range (t.F * t.C / g)).map (groupNormSpec nf ln g (t.H * t.W) fun i =>
      (t.data.drop (i * (t.H * t.W))).take (t.H * t.W)))) ∧
    (¬ g ∣ t.F * t.C → kernelsNormG t nf g ln = .error .runtime) := by
  constructor
  · intro h
    unfold kernelsNormG
    simp only
    rw [if_pos ⟨by omega, Nat.mod_eq_zero_of_dvd h⟩]
    unfold genericNorm chunks
    rw [List.map_map]
    congr 1
    apply List.map_congr_left
    intro k _
    simp only [Function.comp_apply]
    rw [chunk_group]
    rfl
  · intro h
    unfold kernelsNormG
    simp only
    rw [if_neg fun hh => h (Nat.dvd_of_mod_eq_zero hh.2)]

/-- **C181** (kernels, agreement) With group length one this is the norm used by the thresholding of kernels. -/
theorem C181_kernels_one (t : T4) (nf : NormFn) (ln : Bool) : kernelsNormG t nf 1 ln = .ok (kernelsNorm t nf ln) := by
  unfold kernelsNormG kernelsNorm
  simp [Nat.mod_one]

/-- **C181** (rows and columns) With group length one and without normalization: the norms of the rows and of the columns of a matrix. -/
theorem C181_rows_cols_partial (t : T2) (nf : NormFn) : rowsNorm t nf 1 false = (List.range t.R).map (fun r => nf ((t.data.drop (r * t.C)).take t.C)) ∧
    colsNorm t nf 1 false = (List.range t.C).map fun c => nf ((List.range t.R).filterMap fun r => t.data[r * t.C + c]?) := by
  constructor
  · unfold rowsNorm genericNorm chunks
    rw [List.map_map]
    rfl
  · unfold colsNorm genericNorm
    rw [List.map_map]
    rfl

/-- **C181, violated** (rows and columns): the group length is ignored but for the divisor: there is one norm per row or column, not per group, and each is divided
as if it had been computed for a group. -/
theorem C181_violated_groups (t : T2) (nf : NormFn) (g : ℕ) :
    rowsNorm t nf g false = rowsNorm t nf 1 false ∧ colsNorm t nf g false = colsNorm t nf 1 false ∧
    rowsNorm t nf g true = (rowsNorm t nf 1 false).map (· / ((g * t.R : ℕ) : ℚ)) ∧
    colsNorm t nf g true = (colsNorm t nf 1 false).map (· / ((g * t.C : ℕ) : ℚ)) ∧
    (rowsNorm t nf g false).length = t.R ∧ (colsNorm t nf g false).length = t.C := by
  unfold rowsNorm colsNorm genericNorm chunks
  simp [List.map_map, Function.comp_def]

/-- **C181, violated** (kernels): if the group length does not divide the number of channels, a group holds kernels of different filters. -/
theorem C181_violated_kernels : kernelsNormG ⟨2, 3, 1, 1, [1, 2, 4, 8, 16, 32]⟩ l1Norm 2 false = .ok [3, 12, 48] := by decide +kernel

example : filtersNorm ⟨4, 1, 1, 2, [1, -2, 3, 4, 0, 1, -1, 2]⟩ l1Norm 2 true = .ok [5 / 2, 1] ∧
    channelsNorm ⟨2, 2, 1, 1, [1, 2, 3, 4]⟩ l1Norm 2 false = .ok [10] := by decide +kernel

end Verif
