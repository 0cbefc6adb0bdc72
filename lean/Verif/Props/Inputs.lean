import Verif.Model.Inputs
/-!
# C151: input shapes and dummy inputs.  C152: moving nested values.  C153: range checks of arguments.
-/
namespace Verif

/-- Specification: a shape is a tuple of non-negative integers, or a tuple of shapes. -/
inductive IsShape : ShapeObj → Prop where
  | leaf (dims : List ℕ) : IsShape (.tup (dims.map fun d : ℕ => ShapeObj.int d))
  | node (l : List ShapeObj) (h : ∀ x ∈ l, IsShape x) : IsShape (.tup l)

/-- Specification: `t` has the structure of `s`: a tensor of the given dimensions, on the given device, for every innermost
tuple of integers. -/
inductive HasShape (dev : Option String) : ShapeObj → DummyTree → Prop where
  | leaf (dims : List ℕ) : HasShape dev (.tup (dims.map fun d : ℕ => ShapeObj.int d)) (.tensor (dims.map fun d : ℕ => (d : Int)) dev)
  | node (l : List ShapeObj) (ts : List DummyTree) (hne : l ≠ []) (h : List.Forall₂ (HasShape dev) l ts) : HasShape dev (.tup l) (.tup ts)

theorem ints_of_all : ∀ l : List ShapeObj, l.all ShapeObj.isInt = true → l.any ShapeObj.negative = false →
    ∃ dims : List ℕ, l = dims.map fun d : ℕ => ShapeObj.int d := by
  intro l
  induction l with
  | nil => intro _ _; exact ⟨[], rfl⟩
  | cons x l ih =>
    intro h1 h2
    rw [List.all_cons, Bool.and_eq_true] at h1
    rw [List.any_cons, Bool.or_eq_false_iff] at h2
    obtain ⟨ds, hd⟩ := ih h1.2 h2.2
    cases x with
    | int n =>
      have : 0 ≤ n := by have := h2.1; simp only [ShapeObj.negative, decide_eq_false_iff_not] at this; omega
      exact ⟨n.toNat :: ds, by rw [hd, List.map_cons, Int.toNat_of_nonneg this]⟩
    | tup _ => cases h1.1
    | other => cases h1.1

theorem all_of_ints (dims : List ℕ) : (dims.map fun d : ℕ => ShapeObj.int d).all ShapeObj.isInt = true ∧
    (dims.map fun d : ℕ => ShapeObj.int d).any ShapeObj.negative = false := by
  induction dims with
  | nil => exact ⟨rfl, rfl⟩
  | cons d ds ih =>
    refine ⟨by rw [List.map_cons, List.all_cons, ih.1]; rfl, ?_⟩
    rw [List.map_cons, List.any_cons, ih.2, Bool.or_false]
    show decide ((d : Int) < 0) = false
    rw [decide_eq_false_iff_not]; omega

theorem dims_ints (dims : List ℕ) : ShapeObj.dims (dims.map fun d : ℕ => ShapeObj.int d) = dims.map fun d : ℕ => (d : Int) := by
  unfold ShapeObj.dims; rw [List.map_map]; rfl

theorem IsShape.isTup {s : ShapeObj} (h : IsShape s) : s.isTup = true := by cases h <;> rfl

/-- One step of `val_recurse` on a tuple. -/
theorem valShape_tup (l : List ShapeObj) : valShape (.tup l) = if l.all ShapeObj.isInt then
      if l.any ShapeObj.negative then .error .value else .ok (.tup l)
    else if l.all ShapeObj.isTup then (valShapes l).map .tup
    else .error .type := by rw [valShape]

theorem valShapes_cons (x : ShapeObj) (l : List ShapeObj) : valShapes (x :: l) = match valShape x with
    | .error e => .error e
    | .ok y => (valShapes l).map (y :: ·) := by rw [valShapes]; cases valShape x <;> rfl

mutual
theorem valShape_sound : ∀ (s s' : ShapeObj), valShape s = .ok s' → IsShape s ∧ s' = s
  | .tup l, s', h => by
    rw [valShape_tup] at h
    by_cases h1 : l.all ShapeObj.isInt = true
    · rw [if_pos h1] at h
      by_cases h2 : l.any ShapeObj.negative = true
      · rw [if_pos h2] at h; cases h
      · rw [if_neg h2] at h
        injection h with h
        obtain ⟨ds, hd⟩ := ints_of_all l h1 (by simpa using h2)
        exact ⟨by rw [hd]; exact .leaf ds, h.symm⟩
    · rw [if_neg h1] at h
      by_cases h2 : l.all ShapeObj.isTup = true
      · rw [if_pos h2] at h
        cases hl : valShapes l with
        | error e => rw [hl] at h; cases h
        | ok l' =>
          rw [hl] at h
          have hh := valShapes_sound l l' hl
          injection h with h
          exact ⟨.node l hh.1, by rw [← h, hh.2]⟩
      · rw [if_neg h2] at h; cases h
  | .int n, s', h => by rw [valShape] at h; cases h; intro l hl; cases hl
  | .other, s', h => by rw [valShape] at h; cases h; intro l hl; cases hl
theorem valShapes_sound : ∀ (l l' : List ShapeObj), valShapes l = .ok l' → (∀ x ∈ l, IsShape x) ∧ l' = l
  | [], l', h => by rw [valShapes] at h; injection h with h; exact ⟨by simp, h.symm⟩
  | x :: l, l', h => by
    rw [valShapes_cons] at h
    cases hx : valShape x with
    | error e => rw [hx] at h; cases h
    | ok y =>
      rw [hx] at h
      have hs := valShape_sound x y hx
      cases hl : valShapes l with
      | error e => rw [hl] at h; cases h
      | ok m =>
        rw [hl] at h
        have hm := valShapes_sound l m hl
        injection h with h
        refine ⟨fun z hz => ?_, by rw [← h, hs.2, hm.2]⟩
        rcases List.mem_cons.1 hz with rfl | hz
        · exact hs.1
        · exact hm.1 z hz
end

theorem valShapes_complete : ∀ (l : List ShapeObj), (∀ x ∈ l, valShape x = .ok x) → valShapes l = .ok l := by
  intro l
  induction l with
  | nil => intro _; rw [valShapes]
  | cons x l ih =>
    intro h
    rw [valShapes_cons, h x (by simp), ih (fun y hy => h y (by simp [hy]))]
    rfl

theorem valShape_complete {s : ShapeObj} (h : IsShape s) : valShape s = .ok s := by
  induction h with
  | leaf dims =>
    obtain ⟨h1, h2⟩ := all_of_ints dims
    rw [valShape_tup, if_pos h1, h2]; rfl
  | node l h ih =>
    rw [valShape_tup]
    cases l with
    | nil => rfl
    | cons x l =>
      have hx := (h x (by simp)).isTup
      have : (x :: l).all ShapeObj.isInt ≠ true := by
        cases x with
        | tup _ => rw [List.all_cons]; exact fun hh => by cases hh
        | int _ => cases hx
        | other => cases hx
      rw [if_neg this, if_pos (List.all_eq_true.2 fun y hy => (h y hy).isTup), valShapes_complete _ ih]
      rfl

mutual
theorem valShape_err : ∀ (s : ShapeObj) (e : Err), valShape s = .error e → e = .value ∨ e = .type
  | .tup l, e, h => by
    rw [valShape_tup] at h
    by_cases h1 : l.all ShapeObj.isInt = true
    · rw [if_pos h1] at h
      by_cases h2 : l.any ShapeObj.negative = true
      · rw [if_pos h2] at h; injection h with h; exact Or.inl h.symm
      · rw [if_neg h2] at h; cases h
    · rw [if_neg h1] at h
      by_cases h2 : l.all ShapeObj.isTup = true
      · rw [if_pos h2] at h
        cases hl : valShapes l with
        | error e' => rw [hl] at h; injection h with h; rw [← h]; exact valShapes_err l e' hl
        | ok l' => rw [hl] at h; cases h
      · rw [if_neg h2] at h; injection h with h; exact Or.inr h.symm
  | .int n, e, h => by rw [valShape] at h; injection h with h; exact Or.inr h.symm; intro l hl; cases hl
  | .other, e, h => by rw [valShape] at h; injection h with h; exact Or.inr h.symm; intro l hl; cases hl
theorem valShapes_err : ∀ (l : List ShapeObj) (e : Err), valShapes l = .error e → e = .value ∨ e = .type
  | [], e, h => by rw [valShapes] at h; cases h
  | x :: l, e, h => by
    rw [valShapes_cons] at h
    cases hx : valShape x with
    | error e' => rw [hx] at h; injection h with h; rw [← h]; exact valShape_err x e' hx
    | ok y =>
      rw [hx] at h
      cases hl : valShapes l with
      | error e' => rw [hl] at h; injection h with h; rw [← h]; exact valShapes_err l e' hl
      | ok m => rw [hl] at h; cases h
end

/-- **C151** (validation) Without a dataset, exactly the shapes are accepted, and returned as they are: tuples of non-negative
integers and tuples of shapes, nested to any depth.  Anything else is refused with `ValueError` or `TypeError`. -/
theorem C151_validation (s : ShapeObj) :
    (IsShape s ↔ validateInputShape none (some s) = .ok s) ∧
    (¬ IsShape s → validateInputShape none (some s) = .error .value ∨ validateInputShape none (some s) = .error .type) := by
  have hv : validateInputShape none (some s) = valShape s := by
    cases s with
    | tup l => rfl
    | int n => rw [valShape]; rfl; intro l hl; cases hl
    | other => rw [valShape]; rfl; intro l hl; cases hl
  rw [hv]
  refine ⟨⟨valShape_complete, fun h => (valShape_sound s s h).1⟩, fun hn => ?_⟩
  cases h : valShape s with
  | ok s' => exact absurd (valShape_sound s s' h).1 hn
  | error e =>
    rcases valShape_err s e h with rfl | rfl
    · exact Or.inl rfl
    · exact Or.inr rfl

theorem createDummies_forall (dev : Option String) (l : List ShapeObj) (h : ∀ x ∈ l, HasShape dev x (createDummy dev x)) :
    List.Forall₂ (HasShape dev) l (createDummies dev l) := by
  induction l with
  | nil => rw [createDummies]; exact .nil
  | cons x l ih => rw [createDummies]; exact .cons (h x (by simp)) (ih fun y hy => h y (by simp [hy]))

/-- **C151** (dummy inputs) For every shape, a dummy input is made, and it has exactly the structure of the shape: one tensor, on
the requested device, of the dimensions of every innermost tuple, nested as the shape is. -/
theorem C151_structure (s : ShapeObj) (h : IsShape s) (dev : Option String) :
    ∃ t, getDummyInput none dev (some s) = .ok t ∧ HasShape dev s t := by
  refine ⟨createDummy dev s, ?_, ?_⟩
  · unfold getDummyInput; rw [((C151_validation s).1).1 h]; rfl
  · induction h with
    | leaf dims =>
      obtain ⟨h1, -⟩ := all_of_ints dims
      rw [createDummy, if_pos h1, dims_ints]
      exact .leaf dims
    | node l h ih =>
      cases l with
      | nil => rw [createDummy]; exact .leaf []
      | cons x l =>
        have hx := (h x (by simp)).isTup
        have : (x :: l).all ShapeObj.isInt ≠ true := by
          cases x with
          | tup _ => rw [List.all_cons]; exact fun hh => by cases hh
          | int _ => cases hx
          | other => cases hx
        rw [createDummy, if_neg this]
        exact .node _ _ (by simp) (createDummies_forall dev _ ih)

/-- **C151** (datasets) A named dataset takes precedence over a shape; the three known ones give their shape, another name is
refused; with neither a dataset nor a shape, `ValueError`. -/
theorem C151_datasets (dev : Option String) (shape : Option ShapeObj) (ds : String) (hne : ds ≠ "") :
    (ds = "imagenet" → getDummyInput (some ds) dev shape = .ok (.tensor [1, 3, 224, 224] dev)) ∧
    (ds = "cifar10" → getDummyInput (some ds) dev shape = .ok (.tensor [1, 3, 32, 32] dev)) ∧
    (ds = "mnist" → getDummyInput (some ds) dev shape = .ok (.tensor [1, 1, 28, 28] dev)) ∧
    (ds ∉ ["imagenet", "cifar10", "mnist"] → getDummyInput (some ds) dev shape = .error .value) ∧
    getDummyInput none dev none = .error .value := by
  refine ⟨?_, ?_, ?_, fun h => ?_, rfl⟩
  · rintro rfl; rfl
  · rintro rfl; rfl
  · rintro rfl; rfl
  · simp only [List.mem_cons, List.not_mem_nil, or_false, not_or] at h
    have : validateInputShape (some ds) shape = .error .value := by
      simp [validateInputShape, hne, datasetShape, h.1, h.2.1, h.2.2]
    unfold getDummyInput; rw [this]; rfl

/-- **C151** (the attribute) The shape set on a model is one that gives dummy inputs, and setting it again, with whatever
arguments, never changes it nor fails. -/
theorem C151_attribute (ds : Option String) (shape : Option ShapeObj) (r : Option ShapeObj)
    (h : setInputShape none ds shape = .ok r) :
    ∃ s, r = some s ∧ IsShape s ∧ ∀ calls : List (Option String × Option ShapeObj),
      calls.foldlM (fun cur c => setInputShape cur c.1 c.2) r = .ok r := by
  have hv : ∃ s, validateInputShape ds shape = .ok s ∧ r = some s := by
    unfold setInputShape at h
    simp only at h
    cases hv : validateInputShape ds shape with
    | error e => rw [hv] at h; cases h
    | ok s => rw [hv] at h; injection h with h; exact ⟨s, rfl, h.symm⟩
  obtain ⟨s, h1, rfl⟩ := hv
  refine ⟨s, rfl, ?_, ?_⟩
  · unfold validateInputShape at h1
    by_cases hd : ds.getD "" ≠ ""
    · rw [if_pos hd] at h1
      unfold datasetShape at h1
      split at h1
      · injection h1 with h1; rw [← h1]; exact IsShape.leaf [1, 3, 224, 224]
      · split at h1
        · injection h1 with h1; rw [← h1]; exact IsShape.leaf [1, 3, 32, 32]
        · split at h1
          · injection h1 with h1; rw [← h1]; exact IsShape.leaf [1, 1, 28, 28]
          · cases h1
    · rw [if_neg hd] at h1
      cases shape with
      | none => cases h1
      | some x =>
        cases x with
        | tup l =>
          have := valShape_sound (.tup l) s h1
          rw [this.2]; exact this.1
        | int n => cases h1
        | other => cases h1
  · intro calls
    induction calls with
    | nil => rfl
    | cons c calls ih => rw [List.foldlM_cons]; exact ih

example : IsShape (.tup [.tup [.int 2, .int 3], .tup [.tup [.int 4], .tup []]]) :=
  .node _ (by
    intro x hx
    rcases List.mem_cons.1 hx with rfl | hx
    · exact IsShape.leaf [2, 3]
    · rw [List.mem_singleton.1 hx]
      refine .node _ (fun y hy => ?_)
      rcases List.mem_cons.1 hy with rfl | hy
      · exact IsShape.leaf [4]
      · rw [List.mem_singleton.1 hy]; exact IsShape.leaf [])

/-! ## C152 -/

/-- Specification: `v'` is `v` with every tensor moved to the device; objects that are neither tensor, tuple nor list are kept. -/
inductive Moved (dev : String) : ValTree → ValTree → Prop where
  | tensor (i : ℕ) (d : String) : Moved dev (.tensor i d) (.tensor i dev)
  | tup (l l' : List ValTree) (h : List.Forall₂ (Moved dev) l l') : Moved dev (.tup l) (.tup l')
  | list (l l' : List ValTree) (h : List.Forall₂ (Moved dev) l l') : Moved dev (.list l) (.list l')
  | obj (c : String) (l : List ValTree) : Moved dev (.obj c l) (.obj c l)

/-- Specification: no named tuple among the tuples and lists. -/
inductive NoNamed : ValTree → Prop where
  | tensor (i : ℕ) (d : String) : NoNamed (.tensor i d)
  | tup (l : List ValTree) (h : ∀ x ∈ l, NoNamed x) : NoNamed (.tup l)
  | list (l : List ValTree) (h : ∀ x ∈ l, NoNamed x) : NoNamed (.list l)
  | obj (c : String) (l : List ValTree) : NoNamed (.obj c l)

theorem moveAll_ok (dev : String) (l : List ValTree) (h : ∀ x ∈ l, ∃ y, moveTo dev x = .ok y ∧ Moved dev x y) :
    ∃ l', moveAll dev l = .ok l' ∧ List.Forall₂ (Moved dev) l l' := by
  induction l with
  | nil => exact ⟨[], by rw [moveAll], .nil⟩
  | cons x l ih =>
    obtain ⟨y, h1, h2⟩ := h x (by simp)
    obtain ⟨l', h3, h4⟩ := ih (fun z hz => h z (by simp [hz]))
    exact ⟨y :: l', by rw [moveAll, h1, h3]; rfl, .cons h2 h4⟩

/-- **C152** (partial) Every nesting of tuples and lists is rebuilt with every tensor in it on the device, the same order and the same
kinds of containers.  Missing: named tuples (`C152_violated_named`) and dictionaries (`C152_violated_dict`). -/
theorem C152_moved_partial (dev : String) (v : ValTree) (h : NoNamed v) : ∃ v', moveTo dev v = .ok v' ∧ Moved dev v v' := by
  induction h with
  | tensor i d => exact ⟨_, by rw [moveTo], .tensor i d⟩
  | tup l h ih =>
    obtain ⟨l', h1, h2⟩ := moveAll_ok dev l ih
    exact ⟨.tup l', by rw [moveTo, h1]; rfl, .tup l l' h2⟩
  | list l h ih =>
    obtain ⟨l', h1, h2⟩ := moveAll_ok dev l ih
    exact ⟨.list l', by rw [moveTo, h1]; rfl, .list l l' h2⟩
  | obj c l => exact ⟨_, by rw [moveTo], .obj c l⟩

example : NoNamed (.tup [.tensor 0 "cpu", .list [.tensor 1 "cpu", .obj "int" []]]) :=
  .tup _ (by
    intro x hx
    rcases List.mem_cons.1 hx with rfl | hx
    · exact .tensor _ _
    · rw [List.mem_singleton.1 hx]
      refine .list _ (fun y hy => ?_)
      rcases List.mem_cons.1 hy with rfl | hy
      · exact .tensor _ _
      · rw [List.mem_singleton.1 hy]; exact .obj _ _)

/-- C152 is violated: a named tuple of two or more fields (such as the training outputs of GoogLeNet and Inception) cannot be moved,
and one of a single field loses its content. -/
theorem C152_violated_named (dev c : String) (x y : ValTree) (l : List ValTree) :
    moveTo dev (.named c (x :: y :: l)) = .error .type ∧ moveTo dev (.named c [x]) = .ok (.named c [.obj "generator" []]) := by
  constructor <;> simp [moveTo]

/-- C152 is violated: tensors in a dictionary stay where they are. -/
theorem C152_violated_dict (dev : String) (l : List ValTree) : moveTo dev (.tup [.obj "dict" l]) = .ok (.tup [.obj "dict" l]) := by
  simp [moveTo, moveAll, Except.map]

/-! ## Range checks -/

/-- **C153** A range checker can be made exactly for a non-empty open range; it accepts exactly the strings that
denote a number in the range (bounds included unless excluded) and returns that number; NaN, infinities and other strings are
refused. -/
theorem C153_range (lo hi : ℚ) (excMin excMax : Bool) (parse : String → Option FloatArg) :
    (lo < hi ↔ ∃ f, floatRange lo hi excMin excMax parse = .ok f) ∧
    ∀ f, floatRange lo hi excMin excMax parse = .ok f → ∀ s v, f s = .ok v ↔
      ∃ x : ℚ, parse s = some (.num x) ∧ v = .num x ∧ (lo < x ∨ (x = lo ∧ excMin = false)) ∧ (x < hi ∨ (x = hi ∧ excMax = false)) := by
  unfold floatRange
  constructor
  · by_cases h : lo ≥ hi
    · simp [h]
    · simp [h]; exact lt_of_not_ge h
  · intro f hf s v
    by_cases h : lo ≥ hi
    · rw [if_pos h] at hf; cases hf
    · rw [if_neg h] at hf
      injection hf with hf
      subst hf
      simp only
      cases hp : parse s with
      | none => simp
      | some w =>
        simp only
        cases w with
        | nan => simp [FloatArg.above]
        | posInf => simp [FloatArg.below]
        | negInf => simp [FloatArg.above]
        | num x =>
          have ha : FloatArg.above (.num x) lo excMin = true ↔ (lo < x ∨ (x = lo ∧ excMin = false)) := by
            cases excMin
            · simp only [FloatArg.above, Bool.false_eq_true, if_false, decide_eq_true_eq, and_true, ge_iff_le]
              rw [le_iff_lt_or_eq]
              exact or_congr Iff.rfl eq_comm
            · simp [FloatArg.above]
          have hb : FloatArg.below (.num x) hi excMax = true ↔ (x < hi ∨ (x = hi ∧ excMax = false)) := by
            cases excMax
            · simp only [FloatArg.below, Bool.false_eq_true, if_false, decide_eq_true_eq, and_true]
              exact le_iff_lt_or_eq
            · simp [FloatArg.below]
          by_cases hc : (FloatArg.above (.num x) lo excMin && FloatArg.below (.num x) hi excMax) = true
          · rw [if_pos hc]
            rw [Bool.and_eq_true, ha, hb] at hc
            constructor
            · intro hh; injection hh with hh; exact ⟨x, rfl, hh.symm, hc.1, hc.2⟩
            · rintro ⟨y, hy, rfl, -⟩; injection hy with hy; rw [hy]
          · rw [if_neg hc]
            rw [Bool.and_eq_true, ha, hb] at hc
            constructor
            · intro hh; cases hh
            · rintro ⟨y, hy, -, h1, h2⟩
              injection hy with hy; injection hy with hy; subst hy
              exact absurd ⟨h1, h2⟩ hc

end Verif
