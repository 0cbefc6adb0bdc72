import Verif.Props.Collectors
/-!
# C46: exactly when the recorded averages are wrong
-/
namespace Verif

private theorem flatten_length {x : Batch} {k : ℕ} (h : ∀ s ∈ x, s.length = k) : x.flatten.length = x.length * k := by
  induction x with
  | nil => simp
  | cons a x ih =>
    rw [List.flatten_cons, List.length_append, ih fun s hs => h s (by simp [hs]), h a (by simp), List.length_cons]
    ring

private theorem two_means {B1 B2 k s1 s2 : ℚ} (h1 : 0 < B1) (h2 : 0 < B2) (hk : 1 < k) :
    (B1 * k * (s1 / B1) + s2) / (B1 * k + B2) = (s1 + s2) / (B1 + B2) ↔ s1 / B1 = s2 / B2 := by
  have hk0 : 0 < k := by linarith
  have d1 : 0 < B1 * k + B2 := by positivity
  have d2 : 0 < B1 + B2 := by positivity
  have e : B1 * k * (s1 / B1) = k * s1 := by field_simp
  rw [e, div_eq_div_iff d1.ne' d2.ne', div_eq_div_iff h1.ne' h2.ne']
  constructor
  · intro h
    have h' : (k - 1) * (s1 * B2) = (k - 1) * (s2 * B1) := by linarith
    exact mul_left_cancel₀ (by linarith : k - 1 ≠ 0) h'
  · intro h
    have h' : (k - 1) * (s1 * B2) = (k - 1) * (s2 * B1) := by rw [h]
    linarith

/-- **C46 fails** for almost all data: after two batches of samples with `k > 1` values each, the recorded average
minimum equals the mean over all samples of the sample's minimum only if both batches happen to have the same mean
minimum; likewise for the maximum. -/
theorem C46_violated_always (x y : Batch) (k : ℕ) (hk : 1 < k) (hx : x ≠ []) (hy : y ≠ [])
    (h1 : ∀ s ∈ x, s.length = k) (h2 : ∀ s ∈ y, s.length = k) :
    (([x, y].foldl QRec.update1 QRec.init).avgMin = collMean (sampleMins [x, y]) ↔
      collMean (sampleMins [x]) = collMean (sampleMins [y])) ∧
    (([x, y].foldl QRec.update1 QRec.init).avgMax = collMean (sampleMaxs [x, y]) ↔
      collMean (sampleMaxs [x]) = collMean (sampleMaxs [y])) := by
  have px := List.length_pos_iff.2 hx
  have py := List.length_pos_iff.2 hy
  have fx := flatten_length h1
  have fy := flatten_length h2
  have nx : x.flatten.length ≠ x.length := by
    rw [fx]; intro h
    have : x.length * k > x.length * 1 := Nat.mul_lt_mul_of_pos_left hk px
    omega
  have ny : y.flatten.length ≠ y.length := by
    rw [fy]; intro h
    have : y.length * k > y.length * 1 := Nat.mul_lt_mul_of_pos_left hk py
    omega
  have ex : minPerSample x = x.map minL := if_neg nx
  have ey : minPerSample y = y.map minL := if_neg ny
  have gx : maxPerSample x = x.map maxL := if_neg nx
  have gy : maxPerSample y = y.map maxL := if_neg ny
  have qx : (0 : ℚ) < x.length := by exact_mod_cast px
  have qy : (0 : ℚ) < y.length := by exact_mod_cast py
  have qk : (1 : ℚ) < k := by exact_mod_cast hk
  constructor
  · have := two_means (s1 := (x.map minL).sum) (s2 := (y.map minL).sum) qx qy qk
    simp only [List.foldl_cons, List.foldl_nil, QRec.update1, ex, ey, runMean, QRec.init, collMean, sampleMins,
      List.flatten_cons, List.flatten_nil, List.append_nil, List.map_append, List.sum_append, List.length_append,
      List.length_map]
    push_cast [fx]
    simpa using this
  · have := two_means (s1 := (x.map maxL).sum) (s2 := (y.map maxL).sum) qx qy qk
    simp only [List.foldl_cons, List.foldl_nil, QRec.update1, gx, gy, runMean, QRec.init, collMean, sampleMaxs,
      List.flatten_cons, List.flatten_nil, List.append_nil, List.map_append, List.sum_append, List.length_append,
      List.length_map]
    push_cast [fx]
    simpa using this

example : (1 : ℕ) < 2 ∧ (∀ s ∈ ([[1, 2], [3, 6]] : Batch), s.length = 2) ∧ ∀ s ∈ ([[-1, 7]] : Batch), s.length = 2 := by
  decide

end Verif
