import Verif.Model.QOps
import Verif.Props.QLayer
import Mathlib.Algebra.Order.Group.MinMax
import Mathlib.Algebra.BigOperators.Ring.List
import Mathlib.Algebra.Order.BigOperators.Ring.List
import Mathlib.Algebra.Order.BigOperators.GroupWithZero.List
/-!
# C81: quantized element-wise operations, concatenation and matrix product
-/
namespace Verif

/-! ## Preparation of the inputs -/

theorem bind_ok_eq {ε α β : Type} (a : α) (f : α → Except ε β) : (Except.ok a >>= f) = f a := rfl

theorem prepareInputs_length (cfg : OpCfg) : ∀ (ts : List QTensor) (i : ℕ) (xs : List (QMeta × List ℚ)),
    cfg.prepareInputs i ts = .ok xs → xs.length = ts.length := by
  intro ts
  induction ts with
  | nil => intro i xs h; cases h; rfl
  | cons t ts ih =>
    intro i xs h
    unfold OpCfg.prepareInputs at h
    cases h1 : cfg.prepareInput i t with
    | error e => rw [h1] at h; cases h
    | ok x =>
      cases h2 : cfg.prepareInputs (i + 1) ts with
      | error e => rw [h1, bind_ok_eq, h2] at h; cases h
      | ok xs' =>
        rw [h1, bind_ok_eq, h2, bind_ok_eq] at h
        cases h
        simp [ih _ _ h2]

/-- Specification: the parameters used for input number `i`: the ones attached to the tensor, else
those of the calibration statistics. -/
def OpCfg.metaSpec (cfg : OpCfg) (i : ℕ) (t : QTensor) (q : QMeta) : Prop :=
  (t.md = some q ∧ cfg.overridden i = false) ∨
  (t.md = none ∧ cfg.fallback i = .ok q ∧ (cfg.overridden i = true ∨ cfg.autoFallback = true))

theorem inputMeta_ok_iff (cfg : OpCfg) (i : ℕ) (t : QTensor) (q : QMeta) :
    cfg.inputMeta i t = .ok q ↔ cfg.metaSpec i t q := by
  unfold OpCfg.inputMeta OpCfg.metaSpec
  cases ht : t.md with
  | some q' =>
    cases ho : cfg.overridden i <;> simp
  | none =>
    cases ho : cfg.overridden i <;> cases ha : cfg.autoFallback <;> simp

theorem prepareInputs_get (cfg : OpCfg) : ∀ (ts : List QTensor) (i : ℕ) (xs : List (QMeta × List ℚ)),
    cfg.prepareInputs i ts = .ok xs → ∀ (k : ℕ) (t : QTensor), ts[k]? = some t →
      ∃ q, cfg.metaSpec (i + k) t q ∧ xs[k]? = some (q, quantInput q t.data) := by
  intro ts
  induction ts with
  | nil => intro i xs h k t hk; simp at hk
  | cons t0 ts ih =>
    intro i xs h k t hk
    unfold OpCfg.prepareInputs at h
    cases h1 : cfg.prepareInput i t0 with
    | error e => rw [h1] at h; cases h
    | ok x =>
      cases h2 : cfg.prepareInputs (i + 1) ts with
      | error e => rw [h1, bind_ok_eq, h2] at h; cases h
      | ok xs' =>
        rw [h1, bind_ok_eq, h2, bind_ok_eq] at h
        cases h
        cases k with
        | zero =>
          simp at hk; subst hk
          unfold OpCfg.prepareInput at h1
          cases h3 : cfg.inputMeta i t0 with
          | error e => rw [h3] at h1; cases h1
          | ok q =>
            rw [h3, bind_ok_eq] at h1
            cases h1
            exact ⟨q, (inputMeta_ok_iff cfg i t0 q).1 h3, rfl⟩
        | succ k =>
          simp at hk
          obtain ⟨q, hq, hx⟩ := ih (i + 1) xs' h2 k t hk
          exact ⟨q, by rw [show i + (k + 1) = i + 1 + k by omega]; exact hq, by simpa using hx⟩

/-- **C81** A wrapper accepts its inputs exactly when every one has usable parameters: attached
metadata and no user settings, or no metadata and (user settings or automatic fall-back) with
statistics; a mixture (attached metadata *and* user settings) or a missing source is refused. -/
theorem C81_inputs_accepted_iff (cfg : OpCfg) (ts : List QTensor) :
    (∃ xs, cfg.prepareInputs 0 ts = .ok xs) ↔
      ∀ (k : ℕ) (t : QTensor), ts[k]? = some t → ∃ q, cfg.metaSpec k t q := by
  constructor
  · rintro ⟨xs, h⟩ k t hk
    obtain ⟨q, hq, _⟩ := prepareInputs_get cfg ts 0 xs h k t hk
    exact ⟨q, by simpa using hq⟩
  · intro h
    have H : ∀ (ts : List QTensor) (i : ℕ),
        (∀ (k : ℕ) (t : QTensor), ts[k]? = some t → ∃ q, cfg.metaSpec (i + k) t q) →
        ∃ xs, cfg.prepareInputs i ts = .ok xs := by
      intro ts
      induction ts with
      | nil => intro i _; exact ⟨[], rfl⟩
      | cons t ts ih =>
        intro i hq
        obtain ⟨q, hq0⟩ := hq 0 t (by simp)
        have hm := (inputMeta_ok_iff cfg i t q).2 (by simpa using hq0)
        obtain ⟨xs, hxs⟩ := ih (i + 1) (fun k t' hk => by
          have := hq (k + 1) t' (by simpa using hk)
          rwa [show i + (k + 1) = i + 1 + k by omega] at this)
        refine ⟨(q, quantInput q t.data) :: xs, ?_⟩
        show (do let x ← cfg.prepareInput i t; let xs ← cfg.prepareInputs (i + 1) ts; return x :: xs) = _
        unfold OpCfg.prepareInput
        rw [hm, bind_ok_eq, hxs]
        rfl
    exact H ts 0 (by simpa using h)

/-! ## Element-wise folds -/

theorem foldl_zipWith_get (op : ℚ → ℚ → ℚ) : ∀ (xs : List (List ℚ)) (x : List ℚ) (j : ℕ) (v : ℚ) (vs : List ℚ),
    x[j]? = some v → xs.length = vs.length → (∀ (k : ℕ) (y : List ℚ), xs[k]? = some y → y[j]? = vs[k]?) →
    (xs.foldl (List.zipWith op) x)[j]? = some (vs.foldl op v) := by
  intro xs
  induction xs with
  | nil =>
    intro x j v vs hx hl _
    have : vs = [] := by simpa using hl.symm
    subst this
    exact hx
  | cons y xs ih =>
    intro x j v vs hx hl h
    cases vs with
    | nil => simp at hl
    | cons w vs =>
      have hy : y[j]? = some w := h 0 y (by simp)
      exact ih (List.zipWith op x y) j (op v w) vs (by simp [List.getElem?_zipWith, hx, hy])
        (by simpa using hl) (fun k z hk => h (k + 1) z (by simpa using hk))

theorem foldl_mul_prod (l : List ℚ) (a : ℚ) : l.foldl (· * ·) a = a * l.prod := by
  induction l generalizing a with
  | nil => simp
  | cons x l ih => simp [ih, mul_assoc]

theorem foldl_add_sum (l : List ℚ) (a : ℚ) : l.foldl (· + ·) a = a + l.sum := by
  induction l generalizing a with
  | nil => simp
  | cons x l ih => simp [ih, add_assoc]

/-- The values of all inputs at position `j`. -/
def column (xs : List (QMeta × List ℚ)) (j : ℕ) : List ℚ := xs.map fun x => x.2.getD j 0

theorem eltwise_get (op : ℚ → ℚ → ℚ) (xs : List (List ℚ)) (acc : List ℚ) (h : eltwiseModule op xs = .ok acc)
    (j : ℕ) (hj : ∀ x ∈ xs, j < x.length) :
    ∃ v vs, (xs.map fun x => x.getD j 0) = v :: vs ∧ acc[j]? = some (vs.foldl op v) := by
  cases xs with
  | nil => simp [eltwiseModule] at h
  | cons x xs =>
    simp only [eltwiseModule, Except.ok.injEq] at h
    subst h
    refine ⟨x.getD j 0, xs.map fun x => x.getD j 0, rfl, ?_⟩
    apply foldl_zipWith_get
    · have := hj x (by simp)
      simp [List.getD_eq_getElem?_getD, List.getElem?_eq_getElem this]
    · simp
    · intro k y hk
      have hy : y ∈ x :: xs := List.mem_cons_of_mem _ (List.mem_of_getElem? hk)
      have := hj y hy
      rw [List.getElem?_map, hk]
      simp [List.getD_eq_getElem?_getD, List.getElem?_eq_getElem this]

/-- What `forward` returns, given the prepared inputs. -/
theorem qop_forward_ok (op : QOp) (cfg : OpCfg) (ts : List QTensor) (y : QTensor) (h : op.forward cfg ts = .ok y) :
    ∃ ins r, cfg.prepareInputs 0 ts = .ok ins ∧ op.quantizedForward cfg ins = .ok r ∧
      y = ⟨r.2.map (cfg.outElem (op.requant cfg r.1)), some cfg.outMeta⟩ := by
  unfold QOp.forward at h
  split at h
  · cases h
  · cases h1 : cfg.prepareInputs 0 ts with
    | error e => rw [h1] at h; cases h
    | ok ins =>
      rw [h1, bind_ok_eq] at h
      cases h2 : op.quantizedForward cfg ins with
      | error e => rw [h2] at h; cases h
      | ok r => rw [h2] at h; cases h; exact ⟨ins, r, rfl, h2, rfl⟩

/-- Specification: the fake-quantized value of input `k` at position `j`, under parameters `qs`. -/
def fqAt (ts : List QTensor) (qs : List QMeta) (j : ℕ) : List ℚ :=
  List.zipWith (fun (t : QTensor) (q : QMeta) => fakeQuant (t.data.getD j 0) q.scale q.zp q.range) ts qs

/-- Prepared inputs as a `zipWith`. -/
theorem prepareInputs_eq (cfg : OpCfg) (ts : List QTensor) (ins : List (QMeta × List ℚ))
    (h : cfg.prepareInputs 0 ts = .ok ins) :
    ins = List.zipWith (fun (t : QTensor) (q : QMeta) => (q, quantInput q t.data)) ts (ins.map Prod.fst) := by
  have hl := prepareInputs_length cfg ts 0 ins h
  apply List.ext_getElem?
  intro k
  by_cases hk : k < ts.length
  · obtain ⟨q, _, hx⟩ := prepareInputs_get cfg ts 0 ins h k ts[k] (List.getElem?_eq_getElem hk)
    simp [List.getElem?_zipWith, hx, List.getElem?_eq_getElem hk]
  · rw [List.getElem?_eq_none (by omega), List.getElem?_eq_none (by simp; omega)]

theorem prod_zip_scale (j : ℕ) : ∀ (ts : List QTensor) (qs : List QMeta), ts.length = qs.length →
    (∀ t ∈ ts, j < t.data.length) → (∀ q ∈ qs, 0 < q.scale) →
    ((List.zipWith (fun (t : QTensor) (q : QMeta) => ((quantInput q t.data).map (· + q.zp)).getD j 0) ts qs)).prod
      = (qs.map (·.scale)).prod * (fqAt ts qs j).prod := by
  intro ts
  induction ts with
  | nil =>
    intro qs h _ _
    have : qs = [] := by simpa using h.symm
    subst this; simp [fqAt]
  | cons t ts ih =>
    intro qs h hj hp
    cases qs with
    | nil => simp at h
    | cons q qs =>
      have hq := hp q (by simp)
      have ht := hj t (by simp)
      have := ih qs (by simpa using h) (fun t' h' => hj t' (by simp [h'])) (fun q' h' => hp q' (by simp [h']))
      have e0 : fqAt (t :: ts) (q :: qs) j = fakeQuant (t.data.getD j 0) q.scale q.zp q.range :: fqAt ts qs j := rfl
      rw [e0]
      simp only [List.zipWith_cons_cons, List.prod_cons, List.map_cons, this]
      have e1 : ((quantInput q t.data).map (· + q.zp)).getD j 0
          = q.scale * fakeQuant (t.data.getD j 0) q.scale q.zp q.range := by
        unfold quantInput fakeQuant linearDequantize
        simp only [List.map_map, List.getD_eq_getElem?_getD, List.getElem?_map,
          List.getElem?_eq_getElem ht, Option.map_some, Option.getD_some, Function.comp]
        field_simp
      rw [e1]; ring

theorem zip_map_getD (f : QMeta → List ℚ → List ℚ) (j : ℕ) (ts : List QTensor) (qs : List QMeta) :
    ((List.zipWith (fun (t : QTensor) (q : QMeta) => (q, quantInput q t.data)) ts qs).map
        (fun i => f i.1 i.2)).map (fun x => x.getD j 0)
      = List.zipWith (fun (t : QTensor) (q : QMeta) => (f q (quantInput q t.data)).getD j 0) ts qs := by
  simp [List.map_zipWith]

theorem mult_acc (cfg : OpCfg) (ts : List QTensor) (y : QTensor)
    (h : QOp.mult.forward cfg ts = .ok y) :
    ∃ qs : List QMeta, qs.length = ts.length ∧
      (∀ (k : ℕ) (t : QTensor) (q : QMeta), ts[k]? = some t → qs[k]? = some q → cfg.metaSpec k t q) ∧
      ((∀ q ∈ qs, 0 < q.scale) → ∀ j, (∀ t ∈ ts, j < t.data.length) →
        let p := (fqAt ts qs j).prod
        let A := (qs.map (·.scale)).prod
        (cfg.accRange.1 : ℚ) ≤ A * p → A * p ≤ cfg.accRange.2 →
        0 < A ∧ y.data[j]? = some (cfg.outElem (requantMul cfg A) (A * p))) := by
  obtain ⟨ins, r, h1, h2, rfl⟩ := qop_forward_ok _ _ _ _ h
  refine ⟨ins.map Prod.fst, by simp [prepareInputs_length _ _ _ _ h1], ?_, ?_⟩
  · intro k t q hk hq
    obtain ⟨q', hs, hx⟩ := prepareInputs_get cfg ts 0 ins h1 k t hk
    rw [List.getElem?_map, hx] at hq
    simp at hq; subst hq
    simpa using hs
  · intro hp j hj p A hlo hhi
    have hA : 0 < A := by
      apply List.prod_pos
      intro a ha
      obtain ⟨q, hq, rfl⟩ := List.mem_map.1 ha
      exact hp q hq
    unfold QOp.quantizedForward multForward at h2
    cases h3 : eltwiseModule (· * ·) (ins.map fun i => i.2.map (· + i.1.zp)) with
    | error e => rw [h3] at h2; cases h2
    | ok acc =>
      rw [h3] at h2
      cases h2
      have hins := prepareInputs_eq cfg ts ins h1
      have hlen : ts.length = (ins.map Prod.fst).length := by simp [prepareInputs_length _ _ _ _ h1]
      obtain ⟨v, vs, e1, e2⟩ := eltwise_get _ _ _ h3 j (by
        intro x hx
        rw [List.mem_map] at hx
        obtain ⟨i, hi, rfl⟩ := hx
        rw [hins] at hi
        obtain ⟨k, hk, rfl⟩ := List.getElem_of_mem hi
        simp only [List.getElem_zipWith, List.length_map, quantInput]
        exact hj _ (List.getElem_mem _))
      have hval : vs.foldl (· * ·) v = A * p := by
        rw [foldl_mul_prod]
        have : v * vs.prod = (v :: vs).prod := by simp
        rw [this, ← e1, hins]
        rw [zip_map_getD (fun q l => l.map (· + q.zp))]
        exact prod_zip_scale j ts _ hlen hj hp
      refine ⟨hA, ?_⟩
      show ((acc.map cfg.clampAcc).map _)[j]? = _
      rw [List.getElem?_map, List.getElem?_map, e2]
      simp only [Option.map_some]
      congr 1
      have hs : (ins.map fun i => i.1.scale).foldl (· * ·) 1 = A := by
        rw [foldl_mul_prod, one_mul]; simp [A, List.map_map, Function.comp_def]
      have hc : cfg.clampAcc (vs.foldl (· * ·) v) = A * p := by
        unfold OpCfg.clampAcc clampQ
        rw [hval, max_eq_left hlo, min_eq_left hhi]
      rw [hc, ← hs]
      rfl

theorem matmul_acc (cfg : OpCfg) (q0 q1 : QMeta) (h0 : 0 < q0.scale)
    (h1 : 0 < q1.scale) (rows cols : List (List ℚ)) (i j : ℕ) (r c : List ℚ)
    (hr : rows[i]? = some r) (hc : cols[j]? = some c) :
    let p := dot (r.map fun v => fakeQuant v q0.scale q0.zp q0.range) (c.map fun v => fakeQuant v q1.scale q1.zp q1.range)
    (cfg.accRange.1 : ℚ) ≤ q0.scale * q1.scale * p → q0.scale * q1.scale * p ≤ cfg.accRange.2 →
    ∃ row, (matmulForward cfg q0 q1 rows cols)[i]? = some row ∧
      row[j]? = some (cfg.outElem (requantMul cfg (q0.scale * q1.scale)) (q0.scale * q1.scale * p)) := by
  intro p hlo hhi
  have hA : 0 < q0.scale * q1.scale := mul_pos h0 h1
  unfold matmulForward
  dsimp only
  rw [List.getElem?_map, hr]
  refine ⟨_, rfl, ?_⟩
  rw [List.getElem?_map, hc]
  simp only [Option.map_some]
  congr 1
  have hd : dot ((quantInput q0 r).map (· + q0.zp)) ((quantInput q1 c).map (· + q1.zp)) = q0.scale * q1.scale * p := by
    rw [dot_scale _ _ q0.zp q1.zp q0.scale q1.scale h0.ne' h1.ne']
    congr 1
    unfold quantInput
    simp only [List.map_map, Function.comp_def]
    rfl
  rw [hd]
  have hcl : cfg.clampAcc (q0.scale * q1.scale * p) = q0.scale * q1.scale * p := by
    unfold OpCfg.clampAcc clampQ
    rw [max_eq_left hlo, min_eq_left hhi]
  rw [hcl]

theorem relu_scale {A : ℚ} (hA : 0 < A) (b : Bool) (p : ℚ) :
    (if b then max (A * p) 0 else A * p) = A * (if b then max p 0 else p) := by
  split
  · rw [mul_max_of_nonneg _ _ hA.le, mul_zero]
  · rfl

/-- Re-quantization of an accumulator with the exact scale. -/
theorem outElem_exact (cfg : OpCfg) (happ : cfg.approxBits = none) {A : ℚ} (hA : 0 < A) (p : ℚ) :
    cfg.outElem (requantMul cfg A) (A * p) =
      fakeQuant (if cfg.clipHalf then max p 0 else p) cfg.outScale cfg.outZp cfg.actRange := by
  unfold OpCfg.outElem fakeQuant requantMul
  rw [happ]
  dsimp only
  rw [relu_scale hA]
  congr 1
  unfold linearQuantizeClamp linearQuantize
  congr 3
  field_simp

/-- Re-quantization with the scale approximated by an `m`-bit multiplier and a shift: the accumulator is
reduced by a relative error below `2^-(m-1)` first. -/
theorem outElem_approx (cfg : OpCfg) (m : ℕ) (hm : 2 ≤ m) (happ : cfg.approxBits = some m) (ho : 0 < cfg.outScale)
    {A : ℚ} (hA : 0 < A) (p : ℚ) :
    ∃ δ : ℚ, 0 ≤ δ ∧ δ < 1 / 2 ^ (m - 1) ∧ cfg.outElem (requantMul cfg A) (A * p) =
      fakeQuant ((1 - δ) * (if cfg.clipHalf then max p 0 else p)) cfg.outScale cfg.outZp cfg.actRange := by
  have hs : 0 < cfg.outScale / A := div_pos ho hA
  obtain ⟨-, -, -, h1, -, h2, -⟩ := C32_scale_approx (cfg.outScale / A) hs m hm false
  have h2 := (h2 rfl).1
  set a := approxScale (cfg.outScale / A) m false with ha
  refine ⟨1 - a / (cfg.outScale / A), ?_, ?_, ?_⟩
  · have : a / (cfg.outScale / A) ≤ 1 := (div_le_one hs).2 h1
    linarith
  · have : 1 - a / (cfg.outScale / A) = (cfg.outScale / A - a) / (cfg.outScale / A) := by field_simp
    rw [this, div_lt_iff₀ hs]
    calc _ < _ := h2
      _ = _ := by ring
  · unfold OpCfg.outElem fakeQuant requantMul
    rw [happ]
    dsimp only
    rw [relu_scale hA, ← ha]
    congr 1
    unfold linearQuantizeClamp linearQuantize
    congr 3
    rw [sub_sub_cancel]
    field_simp

/-- **C81** Element-wise product: for any number of inputs (with attached, overridden or fall-back
parameters) the value at every position is exactly the fake-quantization, with the output
parameters, of the product of the fake-quantized inputs (after the fused ReLU if any), unless the
accumulator saturates there. -/
theorem C81_mult_exact (cfg : OpCfg) (happ : cfg.approxBits = none) (ts : List QTensor) (y : QTensor)
    (h : QOp.mult.forward cfg ts = .ok y) :
    ∃ qs : List QMeta, qs.length = ts.length ∧
      (∀ (k : ℕ) (t : QTensor) (q : QMeta), ts[k]? = some t → qs[k]? = some q → cfg.metaSpec k t q) ∧
      ((∀ q ∈ qs, 0 < q.scale) → ∀ j, (∀ t ∈ ts, j < t.data.length) →
        let p := (fqAt ts qs j).prod
        let A := (qs.map (·.scale)).prod
        (cfg.accRange.1 : ℚ) ≤ A * p → A * p ≤ cfg.accRange.2 →
        y.data[j]? = some (fakeQuant (if cfg.clipHalf then max p 0 else p) cfg.outScale cfg.outZp cfg.actRange)) := by
  obtain ⟨qs, h1, h2, h3⟩ := mult_acc cfg ts y h
  refine ⟨qs, h1, h2, ?_⟩
  intro hp j hj p A hlo hhi
  obtain ⟨hA, h4⟩ := h3 hp j hj hlo hhi
  rw [h4, outElem_exact cfg happ hA]

/-- **C81** Element-wise product with the re-quantization scale approximated by an `m`-bit multiplier and a shift: as
`C81_mult_exact`, but the product is first reduced by a relative error below `2^-(m-1)`. -/
theorem C81_mult_approx (cfg : OpCfg) (m : ℕ) (hm : 2 ≤ m) (happ : cfg.approxBits = some m) (ho : 0 < cfg.outScale) (ts : List QTensor) (y : QTensor)
    (h : QOp.mult.forward cfg ts = .ok y) :
    ∃ qs : List QMeta, qs.length = ts.length ∧
      (∀ (k : ℕ) (t : QTensor) (q : QMeta), ts[k]? = some t → qs[k]? = some q → cfg.metaSpec k t q) ∧
      ((∀ q ∈ qs, 0 < q.scale) → ∀ j, (∀ t ∈ ts, j < t.data.length) →
        let p := (fqAt ts qs j).prod
        let A := (qs.map (·.scale)).prod
        (cfg.accRange.1 : ℚ) ≤ A * p → A * p ≤ cfg.accRange.2 →
        ∃ δ, 0 ≤ δ ∧ δ < 1 / 2 ^ (m - 1) ∧ y.data[j]? = some (fakeQuant ((1 - δ) * (if cfg.clipHalf then max p 0 else p)) cfg.outScale cfg.outZp cfg.actRange)) := by
  obtain ⟨qs, h1, h2, h3⟩ := mult_acc cfg ts y h
  refine ⟨qs, h1, h2, ?_⟩
  intro hp j hj p A hlo hhi
  obtain ⟨hA, h4⟩ := h3 hp j hj hlo hhi
  obtain ⟨δ, d1, d2, d3⟩ := outElem_approx cfg m hm happ ho hA p
  exact ⟨δ, d1, d2, by rw [h4, d3]⟩

/-- **C81** Matrix product: entry `(i, j)` of the result is exactly the fake-quantization of the dot
product of the fake-quantized row and column, unless the accumulator saturates there. -/
theorem C81_matmul_exact (cfg : OpCfg) (happ : cfg.approxBits = none) (q0 q1 : QMeta) (h0 : 0 < q0.scale)
    (h1 : 0 < q1.scale) (rows cols : List (List ℚ)) (i j : ℕ) (r c : List ℚ)
    (hr : rows[i]? = some r) (hc : cols[j]? = some c) :
    let p := dot (r.map fun v => fakeQuant v q0.scale q0.zp q0.range) (c.map fun v => fakeQuant v q1.scale q1.zp q1.range)
    (cfg.accRange.1 : ℚ) ≤ q0.scale * q1.scale * p → q0.scale * q1.scale * p ≤ cfg.accRange.2 →
    ∃ row, (matmulForward cfg q0 q1 rows cols)[i]? = some row ∧
      row[j]? = some (fakeQuant (if cfg.clipHalf then max p 0 else p) cfg.outScale cfg.outZp cfg.actRange) := by
  intro p hlo hhi
  obtain ⟨row, hrow, h⟩ := matmul_acc cfg q0 q1 h0 h1 rows cols i j r c hr hc hlo hhi
  exact ⟨row, hrow, by rw [h, outElem_exact cfg happ (mul_pos h0 h1)]⟩

/-- A case with a 3-bit multiplier: the scale 2/3 becomes 5/8. -/
example : approxScale (2/3) 3 false = 5/8 ∧
    (matmulForward ⟨(-128, 127), (-1000, 1000), false, some 3, 2, 0, fun _ => false, true, fun _ => .error .key⟩
      ⟨1, 0, (-128, 127)⟩ ⟨3, 0, (-128, 127)⟩ [[4, 5]] [[6, 7]]) = [[111/2]] := by decide +kernel

/-- **C81** Matrix product with the approximated re-quantization scale. -/
theorem C81_matmul_approx (cfg : OpCfg) (m : ℕ) (hm : 2 ≤ m) (happ : cfg.approxBits = some m) (ho : 0 < cfg.outScale) (q0 q1 : QMeta) (h0 : 0 < q0.scale)
    (h1 : 0 < q1.scale) (rows cols : List (List ℚ)) (i j : ℕ) (r c : List ℚ)
    (hr : rows[i]? = some r) (hc : cols[j]? = some c) :
    let p := dot (r.map fun v => fakeQuant v q0.scale q0.zp q0.range) (c.map fun v => fakeQuant v q1.scale q1.zp q1.range)
    (cfg.accRange.1 : ℚ) ≤ q0.scale * q1.scale * p → q0.scale * q1.scale * p ≤ cfg.accRange.2 →
    ∃ row, (matmulForward cfg q0 q1 rows cols)[i]? = some row ∧
      ∃ δ, 0 ≤ δ ∧ δ < 1 / 2 ^ (m - 1) ∧
      row[j]? = some (fakeQuant ((1 - δ) * (if cfg.clipHalf then max p 0 else p)) cfg.outScale cfg.outZp cfg.actRange) := by
  intro p hlo hhi
  obtain ⟨row, hrow, h⟩ := matmul_acc cfg q0 q1 h0 h1 rows cols i j r c hr hc hlo hhi
  obtain ⟨δ, d1, d2, d3⟩ := outElem_approx cfg m hm happ ho (mul_pos h0 h1) p
  exact ⟨row, hrow, δ, d1, d2, by rw [h, d3]⟩

/-! ## Addition and concatenation: re-quantized inputs -/

theorem clamp_lip (x y lo hi : ℚ) : |clampQ x lo hi - clampQ y lo hi| ≤ |x - y| := by
  unfold clampQ
  exact (abs_min_sub_min_le_max _ _ _ _).trans (by
    simp only [sub_self, abs_zero]
    refine max_le ?_ (abs_nonneg _)
    exact (abs_max_sub_max_le_max _ _ _ _).trans (by simp))

/-- The re-scaled input value: an integer within one half of `outScale` times the fake-quantized
value, unless it saturates the accumulator. -/
theorem reQuant_elem (cfg : OpCfg) (q : QMeta) (x : ℚ) (hq : 0 < q.scale)
    (hacc : cfg.accRange.1 ≤ cfg.accRange.2)
    (h1 : (cfg.accRange.1 : ℚ) ≤ cfg.outScale * fakeQuant x q.scale q.zp q.range)
    (h2 : cfg.outScale * fakeQuant x q.scale q.zp q.range ≤ cfg.accRange.2) :
    ∃ n : ℤ, linearQuantizeClamp (linearQuantizeClamp x q.scale q.zp q.range.1 q.range.2 + q.zp)
        (cfg.outScale / q.scale) 0 cfg.accRange.1 cfg.accRange.2 = n ∧
      |(n : ℚ) - cfg.outScale * fakeQuant x q.scale q.zp q.range| ≤ 1/2 := by
  set w := cfg.outScale * fakeQuant x q.scale q.zp q.range with hw
  have e : cfg.outScale / q.scale * (linearQuantizeClamp x q.scale q.zp q.range.1 q.range.2 + q.zp) - 0 = w := by
    rw [hw]
    unfold fakeQuant linearDequantize
    field_simp; ring
  unfold linearQuantizeClamp linearQuantize
  unfold linearQuantizeClamp linearQuantize at e
  rw [e]
  have := round_clamp_err w cfg.accRange.1 cfg.accRange.2 hacc (by linarith) (by linarith)
  rw [clampQ_int] at this ⊢
  exact ⟨_, rfl, this⟩

theorem sum_err : ∀ (l : List (ℚ × ℚ)), (∀ p ∈ l, |p.1 - p.2| ≤ 1/2) →
    |(l.map Prod.fst).sum - (l.map Prod.snd).sum| ≤ l.length / 2 := by
  intro l
  induction l with
  | nil => intro _; simp
  | cons p l ih =>
    intro h
    have h1 := h p (by simp)
    have h2 := ih (fun x hx => h x (by simp [hx]))
    simp only [List.map_cons, List.sum_cons, List.length_cons]
    push_cast
    rw [abs_le] at *
    constructor <;> linarith [h1.1, h1.2, h2.1, h2.2]

theorem sum_ints : ∀ (l : List ℚ), (∀ x ∈ l, ∃ n : ℤ, x = n) → ∃ n : ℤ, l.sum = n := by
  intro l
  induction l with
  | nil => intro _; exact ⟨0, by simp⟩
  | cons x l ih =>
    intro h
    obtain ⟨a, ha⟩ := h x (by simp)
    obtain ⟨b, hb⟩ := ih (fun y hy => h y (by simp [hy]))
    exact ⟨a + b, by simp [ha, hb]⟩

/-- The tail of `forward` for an integer accumulator at the output scale and an integer zero-point:
the saturated accumulator, de-quantized. -/
theorem outElem_one (cfg : OpCfg) (n z : ℤ) (hz : cfg.outZp = z) (hs : cfg.outScale ≠ 0) :
    cfg.outScale * cfg.outElem 1 n
      = clampQ (if cfg.clipHalf then max (n : ℚ) 0 else n) (cfg.actRange.1 + z) (cfg.actRange.2 + z) := by
  have hm : (if cfg.clipHalf then max (n : ℚ) 0 else n) = ((if cfg.clipHalf then max n 0 else n : ℤ) : ℚ) := by
    split <;> simp
  unfold OpCfg.outElem linearDequantize linearQuantizeClamp linearQuantize
  dsimp only
  rw [hm, hz]
  set k : ℤ := if cfg.clipHalf then max n 0 else n
  rw [show (1 : ℚ) * (k : ℚ) - (z : ℚ) = ((k - z : ℤ) : ℚ) by push_cast; ring, round_int]
  rw [mul_div_cancel₀ _ hs]
  unfold clampQ
  rw [← min_add_add_right, ← max_add_add_right]
  push_cast
  ring_nf

/-- Real value the output can represent closest to `v`: saturation to the output range. -/
def saturate (cfg : OpCfg) (v : ℚ) : ℚ :=
  clampQ v ((cfg.actRange.1 + cfg.outZp) / cfg.outScale) ((cfg.actRange.2 + cfg.outZp) / cfg.outScale)

theorem clampQ_scale (s v lo hi : ℚ) (hs : 0 < s) : clampQ (s * v) (s * lo) (s * hi) = s * clampQ v lo hi := by
  unfold clampQ
  rw [← mul_max_of_nonneg _ _ hs.le, ← mul_min_of_nonneg _ _ hs.le]

/-- From an integer accumulator within `e` of `outScale * v` to the output error. -/
theorem outElem_err (cfg : OpCfg) (n z : ℤ) (hz : cfg.outZp = z) (hs : 0 < cfg.outScale) (v e : ℚ)
    (h : |(n : ℚ) - cfg.outScale * v| ≤ e) :
    |cfg.outElem 1 n - saturate cfg (if cfg.clipHalf then max v 0 else v)| ≤ e / cfg.outScale := by
  have h1 := outElem_one cfg n z hz hs.ne'
  have h2 : cfg.outScale * saturate cfg (if cfg.clipHalf then max v 0 else v)
      = clampQ (if cfg.clipHalf then max (cfg.outScale * v) 0 else cfg.outScale * v)
        (cfg.actRange.1 + z) (cfg.actRange.2 + z) := by
    unfold saturate
    rw [← clampQ_scale _ _ _ _ hs]
    have : cfg.outScale * (if cfg.clipHalf then max v 0 else v)
        = (if cfg.clipHalf then max (cfg.outScale * v) 0 else cfg.outScale * v) := by
      split
      · rw [mul_max_of_nonneg _ _ hs.le, mul_zero]
      · rfl
    rw [this, mul_div_cancel₀ _ hs.ne', mul_div_cancel₀ _ hs.ne', hz]
  have h3 : |cfg.outScale * cfg.outElem 1 n - cfg.outScale * saturate cfg (if cfg.clipHalf then max v 0 else v)| ≤ e := by
    rw [h1, h2]
    refine (clamp_lip _ _ _ _).trans ?_
    split
    · exact (abs_max_sub_max_le_max _ _ _ _).trans (by simp [h, (abs_nonneg _).trans h])
    · exact h
  rw [← mul_sub, abs_mul, abs_of_pos hs] at h3
  rw [le_div_iff₀ hs]; linarith

/-- **C81** Element-wise sum of `k` inputs: at every position the output differs from the sum of
the fake-quantized inputs (after the fused ReLU if any, saturated to the output range) by at most
`k/2` output steps, unless an accumulator saturates. -/
theorem C81_add_error (cfg : OpCfg) (hs : 0 < cfg.outScale) (z : ℤ) (hz : cfg.outZp = z)
    (hacc : cfg.accRange.1 ≤ cfg.accRange.2)
    (ts : List QTensor) (y : QTensor) (h : QOp.add.forward cfg ts = .ok y) :
    ∃ qs : List QMeta, qs.length = ts.length ∧
      (∀ (k : ℕ) (t : QTensor) (q : QMeta), ts[k]? = some t → qs[k]? = some q → cfg.metaSpec k t q) ∧
      ((∀ q ∈ qs, 0 < q.scale) → ∀ j, (∀ t ∈ ts, j < t.data.length) →
        let v := (fqAt ts qs j).sum
        (∀ x ∈ fqAt ts qs j, (cfg.accRange.1 : ℚ) ≤ cfg.outScale * x ∧ cfg.outScale * x ≤ cfg.accRange.2) →
        (cfg.accRange.1 : ℚ) + ts.length / 2 ≤ cfg.outScale * v →
        cfg.outScale * v ≤ cfg.accRange.2 - ts.length / 2 →
        ∃ o, y.data[j]? = some o ∧
          |o - saturate cfg (if cfg.clipHalf then max v 0 else v)| ≤ ts.length / 2 / cfg.outScale) := by
  obtain ⟨ins, r, h1, h2, rfl⟩ := qop_forward_ok _ _ _ _ h
  have hlen : ts.length = (ins.map Prod.fst).length := by simp [prepareInputs_length _ _ _ _ h1]
  refine ⟨ins.map Prod.fst, hlen.symm, ?_, ?_⟩
  · intro k t q hk hq
    obtain ⟨q', hs', hx⟩ := prepareInputs_get cfg ts 0 ins h1 k t hk
    rw [List.getElem?_map, hx] at hq
    simp at hq; subst hq
    simpa using hs'
  · intro hp j hj v hsat hlo hhi
    unfold QOp.quantizedForward addForward at h2
    cases h3 : eltwiseModule (· + ·) (ins.map (reQuantInput cfg)) with
    | error e => rw [h3] at h2; cases h2
    | ok acc =>
      rw [h3] at h2
      cases h2
      have hins := prepareInputs_eq cfg ts ins h1
      obtain ⟨v0, vs, e1, e2⟩ := eltwise_get _ _ _ h3 j (by
        intro x hx
        rw [List.mem_map] at hx
        obtain ⟨i, hi, rfl⟩ := hx
        rw [hins] at hi
        obtain ⟨k, hk, rfl⟩ := List.getElem_of_mem hi
        simp only [List.getElem_zipWith, List.length_map, quantInput, reQuantInput]
        exact hj _ (List.getElem_mem _))
      -- pairs (requantized, real * scale)
      set qs := ins.map Prod.fst with hqs
      have hvs : v0 :: vs = List.zipWith (fun (t : QTensor) (q : QMeta) =>
          (reQuantInput cfg (q, quantInput q t.data)).getD j 0) ts qs := by
        rw [← e1, hins]
        exact zip_map_getD (fun q l => reQuantInput cfg (q, l)) j ts qs
      have hpair : ∀ (k : ℕ) (a b : ℚ), (v0 :: vs)[k]? = some a → (fqAt ts qs j)[k]? = some b →
          ∃ n : ℤ, a = n ∧ |a - cfg.outScale * b| ≤ 1/2 := by
        intro k a b ha hb
        rw [hvs, List.getElem?_zipWith_eq_some] at ha
        unfold fqAt at hb
        rw [List.getElem?_zipWith_eq_some] at hb
        obtain ⟨t, q, ht, hq, rfl⟩ := ha
        obtain ⟨t', q', ht', hq', rfl⟩ := hb
        rw [ht] at ht'; rw [hq] at hq'
        cases ht'; cases hq'
        have hjt := hj t (List.mem_of_getElem? ht)
        have hmem : fakeQuant (t.data.getD j 0) q.scale q.zp q.range ∈ fqAt ts qs j := by
          unfold fqAt
          apply List.mem_of_getElem? (i := k)
          rw [List.getElem?_zipWith_eq_some]
          exact ⟨t, q, ht, hq, rfl⟩
        obtain ⟨n, hn, hne⟩ := reQuant_elem cfg q (t.data.getD j 0) (hp q (List.mem_of_getElem? hq)) hacc
          (hsat _ hmem).1 (hsat _ hmem).2
        have ea : (reQuantInput cfg (q, quantInput q t.data)).getD j 0 = n := by
          rw [← hn]
          unfold reQuantInput quantInput
          simp only [List.map_map, List.getD_eq_getElem?_getD, List.getElem?_map,
            List.getElem?_eq_getElem hjt, Option.map_some, Option.getD_some, Function.comp]
        exact ⟨n, ea, by rw [ea]; exact hne⟩
      have hl1 : (v0 :: vs).length = ts.length := by rw [hvs]; simp; omega
      have hl2 : (fqAt ts qs j).length = ts.length := by unfold fqAt; simp; omega
      have hsum : |(v0 :: vs).sum - cfg.outScale * v| ≤ ts.length / 2 := by
        have := sum_err (List.zip (v0 :: vs) ((fqAt ts qs j).map (cfg.outScale * ·))) (by
          intro p hp'
          obtain ⟨k, hk⟩ := List.getElem?_of_mem hp'
          rw [List.getElem?_zip_eq_some] at hk
          obtain ⟨ha, hb⟩ := hk
          rw [List.getElem?_map] at hb
          cases hc : (fqAt ts qs j)[k]? with
          | none => rw [hc] at hb; simp at hb
          | some b =>
            rw [hc] at hb
            simp at hb
            obtain ⟨n, _, hn⟩ := hpair k _ b ha hc
            rw [← hb]; exact hn)
        rw [List.map_fst_zip (by rw [List.length_map, hl1, hl2]), List.map_snd_zip (by rw [List.length_map, hl1, hl2])] at this
        rw [List.sum_map_mul_left] at this
        simp only [List.map_id'] at this
        refine this.trans (le_of_eq ?_)
        rw [List.length_zip, hl1, List.length_map, hl2, min_self]
      obtain ⟨n, hn⟩ := sum_ints (v0 :: vs) (by
        intro a ha
        obtain ⟨k, hk⟩ := List.getElem?_of_mem ha
        have hk' : k < (fqAt ts qs j).length := by
          rw [hl2, ← hl1]
          by_contra hc
          rw [List.getElem?_eq_none (by omega)] at hk
          cases hk
        obtain ⟨m, hm, _⟩ := hpair k a _ hk (List.getElem?_eq_getElem hk')
        exact ⟨m, hm⟩)
      have hfold : vs.foldl (· + ·) v0 = n := by
        rw [foldl_add_sum, ← hn]; simp
      rw [hn] at hsum
      have hcl : cfg.clampAcc n = n := by
        have := abs_le.1 hsum
        unfold OpCfg.clampAcc clampQ
        rw [max_eq_left (by linarith [this.1]), min_eq_left (by linarith [this.2])]
      refine ⟨cfg.outElem 1 n, ?_, outElem_err cfg n z hz hs v _ hsum⟩
      show ((acc.map cfg.clampAcc).map _)[j]? = _
      rw [List.getElem?_map, List.getElem?_map, e2, hfold]
      simp [hcl, QOp.requant]

/-- **C81** Concatenation: the output consists of the inputs one after the other; the element from
position `j` of input `k` differs from its fake-quantized value (saturated to the output range) by
at most half an output step. -/
theorem C81_concat_error (cfg : OpCfg) (hs : 0 < cfg.outScale) (z : ℤ) (hz : cfg.outZp = z)
    (hacc : cfg.accRange.1 ≤ cfg.accRange.2)
    (ts : List QTensor) (y : QTensor) (h : QOp.concat.forward cfg ts = .ok y) :
    y.data.length = (ts.map fun t => t.data.length).sum ∧
    ∀ (k : ℕ) (t : QTensor), ts[k]? = some t → ∃ q, cfg.metaSpec k t q ∧ (0 < q.scale → ∀ j, j < t.data.length →
      let v := fakeQuant (t.data.getD j 0) q.scale q.zp q.range
      (cfg.accRange.1 : ℚ) ≤ cfg.outScale * v → cfg.outScale * v ≤ cfg.accRange.2 →
      ∃ o, y.data[((ts.take k).map fun t => t.data.length).sum + j]? = some o ∧
        |o - saturate cfg (if cfg.clipHalf then max v 0 else v)| ≤ 1 / 2 / cfg.outScale) := by
  obtain ⟨ins, r, h1, h2, rfl⟩ := qop_forward_ok _ _ _ _ h
  unfold QOp.quantizedForward concatForward at h2
  cases h2
  have hins := prepareInputs_eq cfg ts ins h1
  have hll := prepareInputs_length _ _ _ _ h1
  have hlens : (ins.map (reQuantInput cfg)).map List.length = ts.map fun t => t.data.length := by
    apply List.ext_getElem?
    intro k
    by_cases hk : k < ts.length
    · obtain ⟨q, _, hx⟩ := prepareInputs_get cfg ts 0 ins h1 k ts[k] (List.getElem?_eq_getElem hk)
      simp [List.getElem?_map, hx, List.getElem?_eq_getElem hk, reQuantInput, quantInput]
    · rw [List.getElem?_eq_none (by simp; omega), List.getElem?_eq_none (by simp; omega)]
  constructor
  · show ((concatModule (ins.map (reQuantInput cfg))).map _).length = _
    unfold concatModule
    rw [List.length_map, List.length_flatten, hlens]
  · intro k t hk
    obtain ⟨q, hq, hx⟩ := prepareInputs_get cfg ts 0 ins h1 k t hk
    refine ⟨q, by simpa using hq, ?_⟩
    intro hqs j hj v hlo hhi
    obtain ⟨n, hn, hne⟩ := reQuant_elem cfg q (t.data.getD j 0) hqs hacc hlo hhi
    refine ⟨cfg.outElem 1 n, ?_, outElem_err cfg n z hz hs v _ hne⟩
    show ((concatModule (ins.map (reQuantInput cfg))).map _)[_]? = _
    rw [List.getElem?_map]
    unfold concatModule
    have hflat : ∀ (L : List (List ℚ)) (k : ℕ) (l : List ℚ), L[k]? = some l → ∀ j, j < l.length →
        L.flatten[((L.map List.length).take k).sum + j]? = l[j]? := by
      intro L
      induction L with
      | nil => intro k l h; simp at h
      | cons a L ih =>
        intro k l hl j hj
        cases k with
        | zero =>
          simp at hl; subst hl
          simp [List.getElem?_append_left hj]
        | succ k =>
          simp at hl
          have := ih k l hl j hj
          simp only [List.map_cons, List.take_succ_cons, List.sum_cons, List.flatten_cons]
          rw [List.getElem?_append_right (by omega), ← this]
          congr 1; omega
    have hkk : (ins.map (reQuantInput cfg))[k]? = some (reQuantInput cfg (q, quantInput q t.data)) := by
      rw [List.getElem?_map, hx]; rfl
    have hj' : j < (reQuantInput cfg (q, quantInput q t.data)).length := by
      simpa [reQuantInput, quantInput] using hj
    have := hflat _ k _ hkk j hj'
    rw [hlens, ← List.map_take] at this
    rw [this]
    have : (reQuantInput cfg (q, quantInput q t.data))[j]? = some (n : ℚ) := by
      rw [← hn]
      unfold reQuantInput quantInput
      simp [List.getElem?_map, List.getElem?_eq_getElem hj, List.getD_eq_getElem?_getD]
    rw [this]
    rfl

/-- **C81** Integers survive the trip through floats: a consumer that re-quantizes the output of a
quantized operation with the attached metadata gets back the very integers that were de-quantized,
so a chain of quantized operations is an integer-only computation. -/
theorem C81_integers_survive (cfg : OpCfg) (hs : 0 < cfg.outScale) (hr : cfg.actRange.1 ≤ cfg.actRange.2)
    (requant a : ℚ) :
    ∃ n : ℤ, cfg.actRange.1 ≤ n ∧ n ≤ cfg.actRange.2 ∧
      cfg.outElem requant a = linearDequantize n cfg.outScale cfg.outZp ∧
      quantInput cfg.outMeta [cfg.outElem requant a] = [(n : ℚ)] := by
  obtain ⟨n, hn, h1, h2⟩ := (C27_integer_in_range requant cfg.outZp cfg.actRange.1 cfg.actRange.2 hr).1
    (if cfg.clipHalf then max a 0 else a)
  refine ⟨n, h1, h2, ?_, ?_⟩
  · unfold OpCfg.outElem; dsimp only; rw [hn]
  · have : cfg.outElem requant a = linearDequantize n cfg.outScale cfg.outZp := by
      unfold OpCfg.outElem; dsimp only; rw [hn]
    rw [this]
    unfold quantInput OpCfg.outMeta linearQuantizeClamp linearQuantize linearDequantize
    simp only [List.map_cons, List.map_nil]
    rw [show cfg.outScale * (((n : ℚ) + cfg.outZp) / cfg.outScale) - cfg.outZp = ((n : ℤ) : ℚ) by field_simp; ring,
      round_int, clampQ_int, max_eq_left h1, min_eq_left h2]

/-- The output always carries the metadata of the output parameters and all outputs lie on the
output grid, within its range. -/
theorem C81_output_meta (op : QOp) (cfg : OpCfg) (hr : cfg.actRange.1 ≤ cfg.actRange.2) (ts : List QTensor) (y : QTensor)
    (h : op.forward cfg ts = .ok y) :
    y.md = some ⟨cfg.outScale, cfg.outZp, cfg.actRange⟩ ∧
    ∀ v ∈ y.data, ∃ n : ℤ, cfg.actRange.1 ≤ n ∧ n ≤ cfg.actRange.2 ∧ v = (n + cfg.outZp) / cfg.outScale := by
  obtain ⟨ins, r, _, _, rfl⟩ := qop_forward_ok _ _ _ _ h
  refine ⟨rfl, ?_⟩
  intro v hv
  simp only [List.mem_map] at hv
  obtain ⟨a, _, rfl⟩ := hv
  obtain ⟨n, hn, h1, h2⟩ := (C27_integer_in_range (op.requant cfg r.1) cfg.outZp
    cfg.actRange.1 cfg.actRange.2 hr).1 (if cfg.clipHalf then max a 0 else a)
  refine ⟨n, h1, h2, ?_⟩
  unfold OpCfg.outElem; dsimp only; rw [hn]; rfl

/-! ### Non-vacuity -/

def exOp : OpCfg := ⟨(0, 255), (-2147483648, 2147483647), false, none, 10, 0, fun _ => false, false, fun _ => .error .key⟩
def exIn1 : QTensor := ⟨[1, 2/3], some ⟨5, 0, (0, 15)⟩⟩
def exIn2 : QTensor := ⟨[3/4, 1/3], some ⟨3, -2, (0, 15)⟩⟩

example : QOp.mult.forward exOp [exIn1, exIn2] = .ok ⟨[7/10, 1/5], some ⟨10, 0, (0, 255)⟩⟩ ∧
    fqAt [exIn1, exIn2] [⟨5, 0, (0, 15)⟩, ⟨3, -2, (0, 15)⟩] 1 = [3/5, 1/3] ∧
    QOp.add.forward exOp [exIn1, exIn2] = .ok ⟨[17/10, 9/10], some ⟨10, 0, (0, 255)⟩⟩ ∧
    QOp.concat.forward exOp [exIn1, exIn2] = .ok ⟨[1, 3/5, 7/10, 3/10], some ⟨10, 0, (0, 255)⟩⟩ ∧
    QOp.add.forward exOp [exIn1, ⟨[3], none⟩] = .error .runtime := by decide +kernel

/-- Addition is *not* the fake-quantization of the sum: each operand is rounded to the output grid
first. -/
theorem C81_add_not_exact : ∃ (cfg : OpCfg) (ts : List QTensor) (y : QTensor) (qs : List QMeta),
    QOp.add.forward cfg ts = .ok y ∧ ts.map (·.md) = qs.map some ∧
    y.data ≠ [fakeQuant (fqAt ts qs 0).sum cfg.outScale cfg.outZp cfg.actRange] :=
  ⟨{ exOp with outScale := 1 }, [⟨[2/5], some ⟨5, 0, (0, 15)⟩⟩, ⟨[2/5], some ⟨5, 0, (0, 15)⟩⟩], ⟨[0], some ⟨1, 0, (0, 255)⟩⟩,
    [⟨5, 0, (0, 15)⟩, ⟨5, 0, (0, 15)⟩], by decide +kernel⟩

end Verif
