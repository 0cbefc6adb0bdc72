import Verif.Model.SharedInput
import Mathlib.Data.List.Basic
/-!
# C116: layers that share an input tensor
-/
namespace Verif

/-- The reader writes `quant_metadata` on the tensor. -/
def InReader.attaches (r : InReader) : Bool := r.prep ≠ .fake false

theorem readAll_cons_ok {r : InReader} {rs : List InReader} {t t' : QTensor} {outs : List (List ℚ)}
    (h : readAll (r :: rs) t = .ok (t', outs)) :
    ∃ t1 o os, r.read t = .ok (t1, o) ∧ readAll rs t1 = .ok (t', os) ∧ outs = o :: os := by
  simp only [readAll] at h
  cases h1 : r.read t with
  | error e => rw [h1] at h; cases h
  | ok a =>
    rw [h1] at h
    change (readAll rs a.1 >>= fun b => pure (b.1, a.2 :: b.2)) = _ at h
    cases h2 : readAll rs a.1 with
    | error e => rw [h2] at h; cases h
    | ok b =>
      rw [h2] at h
      cases h
      exact ⟨a.1, a.2, b.2, rfl, h2, rfl⟩

/-- Reading a tensor that already carries metadata. -/
theorem read_marked (r : InReader) (t : QTensor) (q : QMeta) (hq : t.md = some q) :
    r.read t = (if r.attaches ∧ r.cfg.overridden r.idx then .error .runtime
      else .ok (t, if r.prep = .integer then quantInput q t.data else t.data)) := by
  obtain ⟨data, md⟩ := t
  simp only at hq
  subst hq
  obtain ⟨cfg, prep, idx⟩ := r
  cases prep with
  | integer =>
    simp only [InReader.read, OpCfg.inputMeta, InReader.attaches]
    by_cases ho : cfg.overridden idx = true
    · simp only [ho]; rfl
    · simp only [ho]; simp
  | fake b =>
    cases b with
    | false => simp [InReader.read, InReader.attaches]
    | true =>
      simp only [InReader.read, OpCfg.inputMeta, InReader.attaches]
      by_cases ho : cfg.overridden idx = true
      · simp only [ho]; rfl
      · simp only [ho]; simp

/-- **C116** (tensors produced by a quantized layer): if the tensor carries the metadata of the
layer that produced it, every reader gets what it would get as the only reader, in whatever order
and number they read, and the tensor is unchanged. -/
theorem C116_produced_tensor (t : QTensor) (q : QMeta) (hq : t.md = some q) (rs : List InReader) (t' : QTensor)
    (outs : List (List ℚ)) (h : readAll rs t = .ok (t', outs)) :
    t' = t ∧ rs.map (fun r => r.read t) = outs.map (fun o => .ok (t, o)) := by
  induction rs generalizing t' outs with
  | nil => cases h; exact ⟨rfl, rfl⟩
  | cons r rs ih =>
    obtain ⟨t1, o, os, h1, h2, rfl⟩ := readAll_cons_ok h
    have hm := read_marked r t q hq
    rw [h1] at hm
    split at hm
    · cases hm
    · cases hm
      obtain ⟨h3, h4⟩ := ih t' os h2
      exact ⟨h3, by simp only [List.map_cons, h4, h1]⟩

/-- **C116** (one reader, or readers that do not quantize their inputs): readers that leave the
tensor alone see the original data and do not influence the next reader. -/
theorem C116_non_attaching (t : QTensor) (pre : List InReader) (hpre : ∀ r ∈ pre, r.attaches = false) (r : InReader) :
    readAll (pre ++ [r]) t = (r.read t).map fun a => (a.1, pre.map (fun _ => t.data) ++ [a.2]) := by
  induction pre with
  | nil =>
    simp only [List.nil_append, readAll]
    cases r.read t <;> rfl
  | cons p pre ih =>
    have hp := hpre p (by simp)
    have : p.read t = .ok (t, t.data) := by
      obtain ⟨cfg, prep, idx⟩ := p
      simp only [InReader.attaches, ne_eq, decide_not, Bool.not_eq_false', decide_eq_true_eq] at hp
      subst hp; rfl
    simp only [List.cons_append, readAll, this]
    change (readAll (pre ++ [r]) t >>= fun b => pure (b.1, t.data :: b.2)) = _
    rw [ih (fun r hr => hpre r (List.mem_cons_of_mem _ hr))]
    cases r.read t <;> rfl

/-- What the first attaching reader of a fresh tensor uses: its own parameters. -/
theorem read_fresh (r : InReader) (t t' : QTensor) (o : List ℚ) (hf : t.md = none) (ha : r.attaches = true)
    (h : r.read t = .ok (t', o)) :
    ∃ q, r.cfg.fallback r.idx = .ok q ∧ t' = { t with md := some q } ∧
      o = if r.prep = .integer then quantInput q t.data
        else (quantInput q t.data).map fun v => linearDequantize v q.scale q.zp := by
  obtain ⟨data, md⟩ := t
  simp only at hf
  subst hf
  obtain ⟨cfg, prep, idx⟩ := r
  cases prep with
  | integer =>
    simp only [InReader.read, OpCfg.inputMeta] at h
    split at h
    · cases h
    · cases hq : cfg.fallback idx with
      | error e => simp only [hq] at h; cases h
      | ok q => simp only [hq] at h; cases h; exact ⟨q, rfl, rfl, by simp⟩
  | fake b =>
    cases b with
    | false => simp [InReader.attaches] at ha
    | true =>
      simp only [InReader.read, OpCfg.inputMeta] at h
      split at h
      · cases h
      · cases hq : cfg.fallback idx with
        | error e => simp only [hq] at h; cases h
        | ok q => simp only [hq] at h; cases h; exact ⟨q, rfl, rfl, by simp⟩

/-- **C116** (exactly what happens to a fresh tensor read by several layers): the first layer that
quantizes it uses its own parameters `q`; every later integer layer uses `q`, not its own; every
later fake-quantizing layer gets the float data unquantized; every later layer with explicit
settings for that input fails. -/
theorem C116_violated_always (t : QTensor) (hf : t.md = none) (r : InReader) (ha : r.attaches = true)
    (t1 : QTensor) (o : List ℚ) (h1 : r.read t = .ok (t1, o)) (s : InReader) :
    ∃ q, r.cfg.fallback r.idx = .ok q ∧
      (s.attaches = true → s.cfg.overridden s.idx = true → readAll [r, s] t = .error .runtime) ∧
      (s.prep = .integer → s.cfg.overridden s.idx = false → readAll [r, s] t = .ok (t1, [o, quantInput q t.data])) ∧
      (s.prep = .fake true → s.cfg.overridden s.idx = false → readAll [r, s] t = .ok (t1, [o, t.data])) := by
  obtain ⟨q, hq, ht1, ho⟩ := read_fresh r t t1 o hf ha h1
  have hmd : t1.md = some q := by rw [ht1]
  have hd : t1.data = t.data := by rw [ht1]
  have hs := read_marked s t1 q hmd
  have key : readAll [r, s] t = (s.read t1).map fun a => (a.1, [o, a.2]) := by
    simp only [readAll, h1]
    change (s.read t1 >>= fun a => (pure (a.1, [a.2]) : Except Err _)) >>= (fun b => pure (b.1, o :: b.2)) = _
    cases s.read t1 <;> rfl
  refine ⟨q, hq, ?_, ?_, ?_⟩
  · intro h2 h3
    rw [key, hs, if_pos ⟨h2, h3⟩]; rfl
  · intro h2 h3
    rw [key, hs, if_neg (by simp [h3]), if_pos h2, hd]; rfl
  · intro h2 h3
    rw [key, hs, if_neg (by simp [h3]), if_neg (by simp [h2]), hd]; rfl

/-- **C116** (when sharing is harmless): integer layers without explicit settings for the shared
input whose own fallback parameters are all the same get what they would get alone. -/
theorem C116_same_parameters_partial (t : QTensor) (hf : t.md = none) (q : QMeta) (rs : List InReader)
    (hrs : ∀ r ∈ rs, r.prep = .integer ∧ r.cfg.overridden r.idx = false ∧ r.cfg.autoFallback = true ∧
      r.cfg.fallback r.idx = .ok q) :
    ∃ t', readAll rs t = .ok (t', rs.map fun _ => quantInput q t.data) ∧
      ∀ r ∈ rs, r.read t = .ok ({ t with md := some q }, quantInput q t.data) := by
  have hfresh : ∀ r ∈ rs, r.read t = .ok ({ t with md := some q }, quantInput q t.data) := by
    intro r hr
    obtain ⟨h1, h2, h3, h4⟩ := hrs r hr
    simp only [InReader.read, h1, OpCfg.inputMeta, hf, h2, h3, h4]
    rfl
  have hmarked : ∀ (l : List InReader), (∀ r ∈ l, r ∈ rs) →
      readAll l { t with md := some q } = .ok ({ t with md := some q }, l.map fun _ => quantInput q t.data) := by
    intro l
    induction l with
    | nil => intro _; rfl
    | cons r l ih =>
      intro hl
      obtain ⟨h1, h2, h3, h4⟩ := hrs r (hl r (by simp))
      have := read_marked r { t with md := some q } q rfl
      rw [if_neg (by simp [h2]), if_pos h1] at this
      simp only [readAll, this]
      change (readAll l { t with md := some q } >>= fun b => pure (b.1, quantInput q t.data :: b.2)) = _
      rw [ih (fun r hr => hl r (List.mem_cons_of_mem _ hr))]
      rfl
  refine (?_ : ∃ t', readAll rs t = .ok (t', rs.map fun _ => quantInput q t.data)) |>.imp fun _ h => ⟨h, hfresh⟩
  cases rs with
  | nil => exact ⟨t, rfl⟩
  | cons r rs =>
    refine ⟨{ t with md := some q }, ?_⟩
    simp only [readAll, hfresh r (by simp)]
    change (readAll rs { t with md := some q } >>= fun b => pure (b.1, quantInput q t.data :: b.2)) = _
    rw [hmarked rs (fun r hr => List.mem_cons_of_mem _ hr)]
    rfl

/-- Two layers with different statistics share a fresh tensor: the second one's result depends on
the first having read it, in all three ways. -/
def exReader (scale : ℚ) (ov : Bool) (p : Prep) : InReader :=
  ⟨⟨(-128, 127), (-2^31, 2^31 - 1), false, none, 1, 0, fun _ => ov, true, fun _ => .ok ⟨scale, 0, (-128, 127)⟩⟩, p, 0⟩

example : (exReader 10 false .integer).read ⟨[1], none⟩ = .ok (⟨[1], some ⟨10, 0, (-128, 127)⟩⟩, [10]) ∧
    (exReader 100 false .integer).read ⟨[1], none⟩ = .ok (⟨[1], some ⟨100, 0, (-128, 127)⟩⟩, [100]) ∧
    readAll [exReader 10 false .integer, exReader 100 false .integer] ⟨[1], none⟩ =
      .ok (⟨[1], some ⟨10, 0, (-128, 127)⟩⟩, [[10], [10]]) ∧
    readAll [exReader 10 false .integer, exReader 100 true .integer] ⟨[1], none⟩ = .error .runtime ∧
    readAll [exReader 10 false (.fake true), exReader 10 false (.fake true)] ⟨[33/100], none⟩ =
      .ok (⟨[33/100], some ⟨10, 0, (-128, 127)⟩⟩, [[3/10], [33/100]]) := by decide +kernel

/-- **C116** is violated: the same layer on the same tensor gives different results depending on
who read the tensor before. -/
theorem C116_violated_order : ∃ (r s : InReader) (t : QTensor) (os : List (List ℚ)) (t1 t2 : QTensor) (o : List ℚ),
    s.read t = .ok (t1, o) ∧ readAll [r, s] t = .ok (t2, os) ∧ os[1]? ≠ some o :=
  ⟨exReader 10 false (.fake true), exReader 10 false (.fake true), ⟨[33/100], none⟩, [[3/10], [33/100]],
    ⟨[33/100], some ⟨10, 0, (-128, 127)⟩⟩, ⟨[33/100], some ⟨10, 0, (-128, 127)⟩⟩, [3/10], by decide +kernel⟩

end Verif
