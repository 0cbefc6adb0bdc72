import Verif.Model.Directives
import Verif.Lemmas.Fold
import Mathlib.Data.List.Nodup
/-!
# C155 (freezing and dropout), C156 (module names)
-/
namespace Verif

/-- Specification: `s` is the module reached from `t` through the attribute names `path`. -/
inductive AtPath : MT → Name → MT → Prop where
  | here (t : MT) : AtPath t [] t
  | step {t c s : MT} {n : String} {p : Name} (h : (n, c) ∈ t.children) (hr : AtPath c p s) : AtPath t (n :: p) s

/-- Specification: `s` is `t` or one of the modules in it. -/
def SubMod (t s : MT) : Prop := ∃ p, AtPath t p s

theorem SubMod.refl (t : MT) : SubMod t t := ⟨[], .here t⟩

theorem SubMod.child {t c s : MT} {n : String} (h : (n, c) ∈ t.children) (hs : SubMod c s) : SubMod t s := by
  obtain ⟨p, hp⟩ := hs
  exact ⟨n :: p, .step h hp⟩

theorem subMod_cases {i : ℕ} {ty : String} {cs : List (String × MT)} {s : MT} (h : SubMod (.mk i ty cs) s) :
    s = .mk i ty cs ∨ ∃ n c, (n, c) ∈ cs ∧ SubMod c s := by
  obtain ⟨p, hp⟩ := h
  cases hp with
  | here => exact Or.inl rfl
  | step hm hr => exact Or.inr ⟨_, _, hm, _, hr⟩

theorem SubMod.trans {t s u : MT} (h : SubMod t s) (h' : SubMod s u) : SubMod t u := by
  obtain ⟨p, hp⟩ := h
  induction hp with
  | here => exact h'
  | step hm _ ih => exact .child hm (ih h')

/-- Specification: dropout layers contain no other modules (true of the torch classes). -/
def DropLeaves (t : MT) : Prop := ∀ s, SubMod t s → s.ty ∈ dropTypes → s.children = []

/-! ## C155 -/

mutual
theorem adjust_spec (q : ℚ) (prob : ℕ → ℚ) :
    (t : MT) → DropLeaves t →
      (∀ j, (∃ s, SubMod t s ∧ s.ty ∈ dropTypes ∧ s.id = j) → adjustDropout q prob t j = q) ∧
      (∀ j, (¬ ∃ s, SubMod t s ∧ s.ty ∈ dropTypes ∧ s.id = j) → adjustDropout q prob t j = prob j)
  | .mk i ty cs, hl => by
    rw [adjustDropout]
    by_cases hty : ty ∈ dropTypes
    · rw [if_pos hty]
      have hcs : cs = [] := hl (.mk i ty cs) (.refl _) hty
      subst hcs
      constructor
      · rintro j ⟨s, hs, _, rfl⟩
        rcases subMod_cases hs with rfl | ⟨n, c, hm, _⟩
        · simp [MT.id]
        · simp at hm
      · intro j hj
        have : j ≠ i := fun h => hj ⟨_, .refl _, hty, by simp [MT.id, h]⟩
        simp [this]
    · rw [if_neg hty]
      obtain ⟨h1, h2⟩ := adjustC_spec q prob cs (fun n c hm s hs => hl s (.child hm hs))
      constructor
      · rintro j ⟨s, hs, hst, hj⟩
        refine h1 j ?_
        rcases subMod_cases hs with rfl | ⟨n, c, hm, hs'⟩
        · exact absurd hst hty
        · exact ⟨n, c, hm, s, hs', hst, hj⟩
      · intro j hj
        refine h2 j ?_
        rintro ⟨n, c, hm, s, hs, hst, hsj⟩
        exact hj ⟨s, .child hm hs, hst, hsj⟩
theorem adjustC_spec (q : ℚ) (prob : ℕ → ℚ) :
    (cs : List (String × MT)) → (∀ (n : String) (c : MT), (n, c) ∈ cs → DropLeaves c) →
      (∀ j, (∃ (n : String) (c : MT), (n, c) ∈ cs ∧ ∃ s, SubMod c s ∧ s.ty ∈ dropTypes ∧ s.id = j) →
        adjustDropouts q prob cs j = q) ∧
      (∀ j, (¬ ∃ (n : String) (c : MT), (n, c) ∈ cs ∧ ∃ s, SubMod c s ∧ s.ty ∈ dropTypes ∧ s.id = j) →
        adjustDropouts q prob cs j = prob j)
  | [], _ => by simp [adjustDropouts]
  | (m, t) :: cs, hl => by
    rw [adjustDropouts]
    obtain ⟨a1, a2⟩ := adjust_spec q prob t (hl m t (by simp))
    obtain ⟨b1, b2⟩ := adjustC_spec q (adjustDropout q prob t) cs (fun n c h => hl n c (by simp [h]))
    constructor
    · rintro j ⟨n, c, hm, s, hs, hst, hj⟩
      by_cases hr : ∃ (n : String) (c : MT), (n, c) ∈ cs ∧ ∃ s, SubMod c s ∧ s.ty ∈ dropTypes ∧ s.id = j
      · exact b1 j hr
      · rw [b2 j hr]
        rcases List.mem_cons.1 hm with h | h
        · cases h; exact a1 j ⟨s, hs, hst, hj⟩
        · exact absurd ⟨n, c, h, s, hs, hst, hj⟩ hr
    · intro j hj
      rw [b2 j (fun ⟨n, c, hm, h⟩ => hj ⟨n, c, by simp [hm], h⟩)]
      exact a2 j (fun h => hj ⟨m, t, by simp, h⟩)
end

/-- **C155**: `adjust_dropout(model, q)` sets the drop probability of every `Dropout`, `Dropout2d`, `Dropout3d` and `AlphaDropout`
anywhere in the model, however deep and however often shared, to `q`. -/
theorem C155_dropout_set_partial (q : ℚ) (prob : ℕ → ℚ) (t s : MT) (hl : DropLeaves t) (hs : SubMod t s)
    (hty : s.ty ∈ ["Dropout", "Dropout2d", "Dropout3d", "AlphaDropout"]) : adjustDropout q prob t s.id = q :=
  (adjust_spec q prob t hl).1 _ ⟨s, hs, hty, rfl⟩

/-- **C155**: … and changes nothing else: an object keeps its attribute unless it is such a layer of this model. -/
theorem C155_dropout_only (q : ℚ) (prob : ℕ → ℚ) (t : MT) (j : ℕ) (hl : DropLeaves t)
    (hj : ∀ s, SubMod t s → s.id = j → s.ty ∉ ["Dropout", "Dropout2d", "Dropout3d", "AlphaDropout"]) :
    adjustDropout q prob t j = prob j :=
  (adjust_spec q prob t hl).2 j (fun ⟨s, hs, hty, hsj⟩ => hj s hs hsj hty)

/-- A model with a shared dropout layer. -/
def dropNet : MT :=
  .mk 0 "Net" [("features", .mk 1 "Sequential" [("0", .mk 2 "Conv2d" []), ("1", .mk 3 "Dropout2d" [])]),
    ("drop", .mk 4 "Dropout" []), ("alpha", .mk 5 "FeatureAlphaDropout" []), ("again", .mk 4 "Dropout" [])]

example : (adjustDropout (1/4) (fun _ => 1/2) dropNet 3, adjustDropout (1/4) (fun _ => 1/2) dropNet 4,
    adjustDropout (1/4) (fun _ => 1/2) dropNet 2) = (1/4, 1/4, 1/2) := by decide +kernel

theorem dropNet_subs {s : MT} (h : SubMod dropNet s) : s = dropNet ∨
    s = .mk 1 "Sequential" [("0", .mk 2 "Conv2d" []), ("1", .mk 3 "Dropout2d" [])] ∨ s = .mk 2 "Conv2d" [] ∨
    s = .mk 3 "Dropout2d" [] ∨ s = .mk 4 "Dropout" [] ∨ s = .mk 5 "FeatureAlphaDropout" [] := by
  have leaf : ∀ i ty, SubMod (.mk i ty []) s → s = .mk i ty [] := by
    intro i ty h
    rcases subMod_cases h with h | ⟨n, c, hm, _⟩
    · exact h
    · simp at hm
  rcases subMod_cases h with h | ⟨n, c, hm, hc⟩
  · exact Or.inl h
  simp only [List.mem_cons, Prod.mk.injEq, List.not_mem_nil, or_false] at hm
  rcases hm with ⟨_, rfl⟩ | ⟨_, rfl⟩ | ⟨_, rfl⟩ | ⟨_, rfl⟩
  · rcases subMod_cases hc with h | ⟨n, c, hm, hc⟩
    · simp [h]
    simp only [List.mem_cons, Prod.mk.injEq, List.not_mem_nil, or_false] at hm
    rcases hm with ⟨_, rfl⟩ | ⟨_, rfl⟩ <;> simp [leaf _ _ hc]
  all_goals simp [leaf _ _ hc]

example : DropLeaves dropNet := by
  intro s hs hty
  rcases dropNet_subs hs with rfl | rfl | rfl | rfl | rfl | rfl <;>
    simp [MT.ty, MT.children, dropTypes, dropNet] at hty ⊢

/-- **C155, violated**: other dropout layers keep their probability: torch's `FeatureAlphaDropout`, and subclasses. -/
theorem C155_violated_other_dropouts (q : ℚ) (prob : ℕ → ℚ) : adjustDropout q prob dropNet 5 = prob 5 := by
  simp [dropNet, adjustDropout, adjustDropouts, dropTypes]

mutual
theorem mem_modelParams (own : ℕ → List ℕ) (p : ℕ) : (t : MT) → p ∈ modelParams own t ↔ ∃ s, SubMod t s ∧ p ∈ own s.id
  | .mk i ty cs => by
    rw [modelParams, List.mem_append, mem_modelParamsC own p cs]
    constructor
    · rintro (h | ⟨n, c, hm, s, hs, hp⟩)
      · exact ⟨_, .refl _, h⟩
      · exact ⟨s, .child hm hs, hp⟩
    · rintro ⟨s, hs, hp⟩
      rcases subMod_cases hs with rfl | ⟨n, c, hm, hs'⟩
      · exact Or.inl hp
      · exact Or.inr ⟨n, c, hm, s, hs', hp⟩
theorem mem_modelParamsC (own : ℕ → List ℕ) (p : ℕ) : (cs : List (String × MT)) →
    (p ∈ modelParamsC own cs ↔ ∃ (n : String) (c : MT), (n, c) ∈ cs ∧ ∃ s, SubMod c s ∧ p ∈ own s.id)
  | [] => by simp [modelParamsC]
  | (m, t) :: cs => by
    rw [modelParamsC, List.mem_append, mem_modelParams own p t, mem_modelParamsC own p cs]
    constructor
    · rintro (h | ⟨n, c, hm, h⟩)
      · exact ⟨m, t, by simp, h⟩
      · exact ⟨n, c, by simp [hm], h⟩
    · rintro ⟨n, c, hm, h⟩
      rcases List.mem_cons.1 hm with he | he
      · cases he; exact Or.inl h
      · exact Or.inr ⟨n, c, he, h⟩
end

theorem freeze_fold (b : Bool) (l : List ℕ) (req : ℕ → Bool) (p : ℕ) :
    l.foldl (fun r p => fun x => if x = p then b else r x) req p = if p ∈ l then b else req p := by
  induction l generalizing req with
  | nil => simp
  | cons x l ih =>
    rw [List.foldl_cons, ih]
    by_cases h : p ∈ l
    · simp [h]
    · by_cases hx : p = x <;> simp [h, hx]

/-- **C155**: `freeze_all` freezes (or defrosts) every parameter of every module of the model, and no parameter of another model. -/
theorem C155_freeze_all (own : ℕ → List ℕ) (t : MT) (freeze : Bool) (req : ℕ → Bool) (p : ℕ) :
    ((∃ s, SubMod t s ∧ p ∈ own s.id) → freezeAll own t freeze req p = !freeze) ∧
    ((¬ ∃ s, SubMod t s ∧ p ∈ own s.id) → freezeAll own t freeze req p = req p) := by
  have h := freeze_fold (!freeze) (modelParams own t) req p
  rw [← mem_modelParams own p t]
  constructor <;> intro hp <;> rw [freezeAll, h]
  · rw [if_pos hp]
  · rw [if_neg hp]

/-- **C155**: freezing and defrosting again makes every parameter trainable – also those that were not before. -/
theorem C155_defrost (own : ℕ → List ℕ) (t : MT) (req : ℕ → Bool) (p : ℕ) (hp : ∃ s, SubMod t s ∧ p ∈ own s.id) :
    freezeAll own t false (freezeAll own t true req) p = true :=
  (C155_freeze_all own t false _ p).1 hp

example : freezeAll (fun i => [10 * i, 10 * i + 1]) dropNet true (fun _ => true) 21 = false := by decide +kernel
example : ∃ s, SubMod dropNet s ∧ 21 ∈ (fun i => [10 * i, 10 * i + 1]) s.id :=
  ⟨.mk 2 "Conv2d" [], ⟨["features", "0"],
    .step (c := .mk 1 "Sequential" [("0", .mk 2 "Conv2d" []), ("1", .mk 3 "Dropout2d" [])]) (by simp [dropNet, MT.children])
      (.step (by simp [MT.children]) (.here _))⟩, by decide⟩

/-- **C155, violated**: `freeze_training` raises `NameError` for every model that has a parameter. -/
theorem C155_violated_freeze_training (own : ℕ → List ℕ) (t : MT) (which : List String) (freeze : Bool) (req : ℕ → Bool)
    (hp : ∃ s p, SubMod t s ∧ p ∈ own s.id) : freezeTraining own t which freeze req = .error .name := by
  obtain ⟨s, p, hs, hp⟩ := hp
  have hm : p ∈ modelParams own t := (mem_modelParams own p t).2 ⟨s, hs, hp⟩
  rw [freezeTraining]
  cases hl : modelParams own t with
  | nil => rw [hl] at hm; simp at hm
  | cons a l => rfl

/-- One training step on a frozen parameter. -/
theorem trainStep_frozen (h : SGDParams) (req : ℕ → Bool) (s : TrainSt) (g : ℕ → ℚ) (p : ℕ) (hr : req p = false) :
    (s.trainStep h req g).grad p = (s.grad p).map (fun _ => 0) := by
  simp [TrainSt.trainStep, TrainSt.step, TrainSt.backward, TrainSt.zeroGrad, hr]

/-- **C155**: a parameter frozen before its first gradient was computed keeps its value through any number of training steps,
whatever the optimizer settings and gradients. -/
theorem C155_frozen_partial (h : SGDParams) (req : ℕ → Bool) (s : TrainSt) (gs : List (ℕ → ℚ)) (p : ℕ)
    (hr : req p = false) (hg : s.grad p = none) : (gs.foldl (TrainSt.trainStep h req) s).w p = s.w p := by
  induction gs generalizing s with
  | nil => rfl
  | cons g gs ih =>
    rw [List.foldl_cons, ih]
    · simp [TrainSt.trainStep, TrainSt.step, TrainSt.backward, TrainSt.zeroGrad, hr, hg]
    · rw [trainStep_frozen h req s g p hr, hg]; rfl

/-- **C155**: without momentum and weight decay a frozen parameter keeps its value also if it was trained before. -/
theorem C155_frozen_plain_sgd_partial (h : SGDParams) (req : ℕ → Bool) (s : TrainSt) (gs : List (ℕ → ℚ)) (p : ℕ)
    (hr : req p = false) (hm : h.momentum = 0) (hd : h.decay = 0) :
    (gs.foldl (TrainSt.trainStep h req) s).w p = s.w p := by
  induction gs generalizing s with
  | nil => rfl
  | cons g gs ih =>
    rw [List.foldl_cons, ih]
    cases hg : s.grad p <;>
      simp [TrainSt.trainStep, TrainSt.step, TrainSt.backward, TrainSt.zeroGrad, hr, hg, hm, hd]

/-- **C155**: a parameter that is not frozen takes the SGD step. -/
theorem C155_not_frozen (h : SGDParams) (req : ℕ → Bool) (s : TrainSt) (g : ℕ → ℚ) (p : ℕ) (hr : req p = true)
    (hm : h.momentum = 0) : (s.trainStep h req g).w p = s.w p - h.lr * (g p + h.decay * s.w p) := by
  cases hg : s.grad p <;>
    simp [TrainSt.trainStep, TrainSt.step, TrainSt.backward, TrainSt.zeroGrad, hr, hg, hm]

/-- A state after training: parameter 0 has a gradient and a momentum buffer. -/
def trainedSt : TrainSt := ⟨fun _ => 1, fun _ => some 1, fun _ => some 1⟩

/-- **C155, violated**: a parameter that was trained before it is frozen keeps being changed: by weight decay, … -/
theorem C155_violated_decay (req : ℕ → Bool) (g : ℕ → ℚ) (hr : req 0 = false) :
    (trainedSt.trainStep ⟨1/10, 0, 1/10⟩ req g).w 0 ≠ trainedSt.w 0 := by
  simp [TrainSt.trainStep, TrainSt.step, TrainSt.backward, TrainSt.zeroGrad, hr, trainedSt]

/-- **C155, violated**: … and by momentum. -/
theorem C155_violated_momentum (req : ℕ → Bool) (g : ℕ → ℚ) (hr : req 0 = false) :
    (trainedSt.trainStep ⟨1/10, 9/10, 0⟩ req g).w 0 ≠ trainedSt.w 0 := by
  simp [TrainSt.trainStep, TrainSt.step, TrainSt.backward, TrainSt.zeroGrad, hr, trainedSt, SGDParams.newBuf]

/-! ## C156 -/

/-- Specification: an object has one set of children, wherever it is reached. -/
def Coherent (t : MT) : Prop := ∀ s s', SubMod t s → SubMod t s' → s.id = s'.id → s = s'

/-- Specification: the attributes of an object have different names. -/
def DistinctNames (t : MT) : Prop := ∀ s, SubMod t s → (s.children.map Prod.fst).Nodup

mutual
/-- Number of modules, with repetitions. -/
def MT.sz : MT → ℕ
  | .mk _ _ cs => szC cs + 1
def szC : List (String × MT) → ℕ
  | [] => 0
  | (_, t) :: cs => MT.sz t + szC cs
end

theorem sz_mem {n : String} {c : MT} {cs : List (String × MT)} (h : (n, c) ∈ cs) : c.sz ≤ szC cs := by
  induction cs with
  | nil => simp at h
  | cons x cs ih =>
    obtain ⟨m, t⟩ := x
    rw [szC]
    rcases List.mem_cons.1 h with h | h
    · cases h; omega
    · have := ih h; omega

theorem sz_sub {t s : MT} (h : SubMod t s) : s = t ∨ s.sz < t.sz := by
  obtain ⟨p, hp⟩ := h
  induction hp with
  | here => exact Or.inl rfl
  | @step t c s n p hm hr ih =>
    right
    have h1 : c.sz < t.sz := by
      cases t with
      | mk i ty cs => have := sz_mem (show (n, c) ∈ cs from hm); rw [MT.sz]; omega
    rcases ih with rfl | h
    · exact h1
    · omega

mutual
/-- What `named_modules` adds: pairs of an object and a path to it. -/
theorem named_sound (pre : Name) : (t : MT) → (acc : List (ℕ × Name)) →
    (∃ l, namedPairs acc pre t = acc ++ l ∧ ∀ x ∈ l, ∃ p s, AtPath t p s ∧ x = (s.id, pre ++ p)) ∧
    ((acc.map Prod.fst).Nodup → ((namedPairs acc pre t).map Prod.fst).Nodup)
  | .mk i ty cs, acc => by
    rw [namedPairs]
    by_cases h : i ∈ acc.map Prod.fst
    · rw [if_pos h]; exact ⟨⟨[], by simp, by simp⟩, id⟩
    · rw [if_neg h]
      obtain ⟨⟨l, hl, hx⟩, hn⟩ := namedC_sound pre cs (acc ++ [(i, pre)])
      refine ⟨⟨(i, pre) :: l, by rw [hl]; simp, ?_⟩, ?_⟩
      · intro x hxm
        rcases List.mem_cons.1 hxm with rfl | hxm
        · exact ⟨[], _, .here _, by simp [MT.id]⟩
        · obtain ⟨n, c, hm, p, s, hp, rfl⟩ := hx x hxm
          exact ⟨n :: p, s, .step hm hp, by simp⟩
      · intro ha
        apply hn
        rw [List.map_append, List.nodup_append]
        refine ⟨ha, by simp, ?_⟩
        intro a ha' b hb hab
        simp at hb
        subst hb; subst hab
        exact h ha'
theorem namedC_sound (pre : Name) : (cs : List (String × MT)) → (acc : List (ℕ × Name)) →
    (∃ l, namedPairsC acc pre cs = acc ++ l ∧ ∀ x ∈ l, ∃ (n : String) (c : MT), (n, c) ∈ cs ∧
      ∃ p s, AtPath c p s ∧ x = (s.id, pre ++ n :: p)) ∧
    ((acc.map Prod.fst).Nodup → ((namedPairsC acc pre cs).map Prod.fst).Nodup)
  | [], acc => by rw [namedPairsC]; exact ⟨⟨[], by simp, by simp⟩, id⟩
  | (n, t) :: cs, acc => by
    rw [namedPairsC]
    obtain ⟨⟨l1, h1, hx1⟩, hn1⟩ := named_sound (pre ++ [n]) t acc
    obtain ⟨⟨l2, h2, hx2⟩, hn2⟩ := namedC_sound pre cs (namedPairs acc (pre ++ [n]) t)
    refine ⟨⟨l1 ++ l2, by rw [h2, h1, List.append_assoc], ?_⟩, fun h => hn2 (hn1 h)⟩
    intro x hx
    rcases List.mem_append.1 hx with hx | hx
    · obtain ⟨p, s, hp, rfl⟩ := hx1 x hx
      exact ⟨n, t, by simp, p, s, hp, by simp⟩
    · obtain ⟨m, c, hm, p, s, hp, rfl⟩ := hx2 x hx
      exact ⟨m, c, by simp [hm], p, s, hp, rfl⟩
end

/-- Every listed object whose tree has size at most `n` is listed with everything in it. -/
def ClosedTo (r : MT) (ids : List ℕ) (n : ℕ) : Prop :=
  ∀ s, SubMod r s → s.id ∈ ids → s.sz ≤ n → ∀ u, SubMod s u → u.id ∈ ids

theorem ids_mono {acc l : List (ℕ × Name)} {j : ℕ} (h : j ∈ acc.map Prod.fst) : j ∈ (acc ++ l).map Prod.fst := by
  rw [List.map_append]; exact List.mem_append_left _ h

mutual
theorem named_complete (r : MT) (hc : Coherent r) (pre : Name) (n : ℕ) : (t : MT) → (acc : List (ℕ × Name)) → SubMod r t →
    t.sz ≤ n → ClosedTo r (acc.map Prod.fst) n →
    ClosedTo r ((namedPairs acc pre t).map Prod.fst) n ∧ ∀ u, SubMod t u → u.id ∈ (namedPairs acc pre t).map Prod.fst
  | .mk i ty cs, acc, ht, hn, ha => by
    obtain ⟨⟨l, hl, hx⟩, -⟩ := named_sound pre (.mk i ty cs) acc
    by_cases h : i ∈ acc.map Prod.fst
    · have he : namedPairs acc pre (.mk i ty cs) = acc := by rw [namedPairs, if_pos h]
      rw [he]
      exact ⟨ha, fun u hu => ha _ ht h hn u hu⟩
    · have he : namedPairs acc pre (.mk i ty cs) = namedPairsC (acc ++ [(i, pre)]) pre cs := by rw [namedPairs, if_neg h]
      have hsz : MT.sz (.mk i ty cs) = szC cs + 1 := by rw [MT.sz]
      have ha' : ClosedTo r ((acc ++ [(i, pre)]).map Prod.fst) (szC cs) := by
        intro s hs hsi hss u hu
        rw [List.map_append, List.mem_append] at hsi
        rcases hsi with hsi | hsi
        · exact ids_mono (ha s hs hsi (by omega) u hu)
        · exfalso
          have hs1 : s.id = i := by simpa using hsi
          have : s = .mk i ty cs := hc s _ hs ht (by rw [hs1]; rfl)
          rw [this, hsz] at hss
          omega
      obtain ⟨c1, c2⟩ := namedC_complete r hc pre (szC cs) cs (acc ++ [(i, pre)])
        (fun m c hm => ht.trans (.child hm (.refl c))) (Nat.le_refl _) ha'
      have hall : ∀ u, SubMod (.mk i ty cs) u → u.id ∈ (namedPairs acc pre (.mk i ty cs)).map Prod.fst := by
        intro u hu
        rw [he]
        rcases subMod_cases hu with rfl | ⟨m, c, hm, hu'⟩
        · obtain ⟨⟨l', hl', -⟩, -⟩ := namedC_sound pre cs (acc ++ [(i, pre)])
          rw [hl']
          exact ids_mono (by simp [MT.id])
        · exact c2 m c hm u hu'
      refine ⟨?_, hall⟩
      intro s hs hsi hss u hu
      have hsi' := hsi
      rw [hl, List.map_append, List.mem_append] at hsi
      rcases hsi with hsi | hsi
      · rw [hl]; exact ids_mono (ha s hs hsi hss u hu)
      · obtain ⟨x, hxm, hxi⟩ := List.mem_map.1 hsi
        obtain ⟨p, s', hp, rfl⟩ := hx x hxm
        have : s = s' := hc s s' hs (ht.trans ⟨p, hp⟩) hxi.symm
        subst this
        rcases sz_sub (⟨p, hp⟩ : SubMod _ s) with rfl | hlt
        · exact hall u hu
        · rw [he] at hsi' ⊢
          exact c1 s hs hsi' (by rw [hsz] at hlt; omega) u hu
theorem namedC_complete (r : MT) (hc : Coherent r) (pre : Name) (n : ℕ) : (cs : List (String × MT)) →
    (acc : List (ℕ × Name)) → (∀ (m : String) (c : MT), (m, c) ∈ cs → SubMod r c) → szC cs ≤ n →
    ClosedTo r (acc.map Prod.fst) n →
    ClosedTo r ((namedPairsC acc pre cs).map Prod.fst) n ∧
      ∀ (m : String) (c : MT), (m, c) ∈ cs → ∀ u, SubMod c u → u.id ∈ (namedPairsC acc pre cs).map Prod.fst
  | [], acc, _, _, ha => by rw [namedPairsC]; exact ⟨ha, by simp⟩
  | (k, t) :: cs, acc, hr, hn, ha => by
    rw [namedPairsC]
    rw [szC] at hn
    obtain ⟨a1, a2⟩ := named_complete r hc (pre ++ [k]) n t acc (hr k t (by simp)) (by omega) ha
    obtain ⟨b1, b2⟩ := namedC_complete r hc pre n cs (namedPairs acc (pre ++ [k]) t)
      (fun m c h => hr m c (by simp [h])) (by omega) a1
    refine ⟨b1, ?_⟩
    intro m c hm u hu
    rcases List.mem_cons.1 hm with h | h
    · cases h
      obtain ⟨⟨l, hl, -⟩, -⟩ := namedC_sound pre cs (namedPairs acc (pre ++ [k]) t)
      rw [hl]
      exact ids_mono (a2 u hu)
    · exact b2 m c h u hu
end

theorem assign_fold (l : List (ℕ × Name)) (dn : ℕ → Option Name) (hl : (l.map Prod.fst).Nodup) (i : ℕ) (nm : Name)
    (h : (i, nm) ∈ l) : l.foldl (fun d p => fun j => if j = p.1 then some p.2 else d j) dn i = some nm := by
  have keep : ∀ (l : List (ℕ × Name)) (d : ℕ → Option Name), i ∉ l.map Prod.fst →
      l.foldl (fun d p => fun j => if j = p.1 then some p.2 else d j) d i = d i := by
    intro l
    induction l with
    | nil => intro d _; rfl
    | cons x l ih =>
      intro d hi
      simp only [List.map_cons, List.mem_cons, not_or] at hi
      rw [List.foldl_cons, ih _ hi.2]
      simp [hi.1]
  induction l generalizing dn with
  | nil => simp at h
  | cons x l ih =>
    rw [List.map_cons, List.nodup_cons] at hl
    rw [List.foldl_cons]
    rcases List.mem_cons.1 h with h | h
    · subst h; rw [keep l _ hl.1]; simp
    · exact ih _ hl.2 h

theorem assigned_mem (t : MT) (dn : ℕ → Option Name) (i : ℕ) (nm : Name) (h : (i, nm) ∈ namedPairs [] [] t) :
    assignNames t dn i = some nm :=
  assign_fold _ dn ((named_sound [] t []).2 (by simp)) i nm h

/-- **C156**: after `assign_layer_fq_names` every module of the model has a name, and that name leads to it. -/
theorem C156_named (t s : MT) (dn : ℕ → Option Name) (hc : Coherent t) (hs : SubMod t s) :
    ∃ nm, assignNames t dn s.id = some nm ∧ AtPath t nm s := by
  have h := (named_complete t hc [] t.sz t [] (.refl t) (Nat.le_refl _) (by intro s _ h; simp at h)).2 s hs
  obtain ⟨x, hx, hxi⟩ := List.mem_map.1 h
  obtain ⟨⟨l, hl, hxs⟩, -⟩ := named_sound [] t []
  have hx' := hx
  rw [hl, List.nil_append] at hx
  obtain ⟨p, s', hp, rfl⟩ := hxs x hx
  have : s' = s := hc s' s ⟨p, hp⟩ hs hxi
  subst this
  exact ⟨p, assigned_mem t dn _ _ (by simpa using hx'), hp⟩

/-- **C156**: modules of other models keep their names. -/
theorem C156_other_models (t : MT) (dn : ℕ → Option Name) (j : ℕ) (hj : ∀ s, SubMod t s → s.id ≠ j) :
    assignNames t dn j = dn j := by
  have keep : ∀ (l : List (ℕ × Name)) (d : ℕ → Option Name), j ∉ l.map Prod.fst →
      l.foldl (fun d p => fun j => if j = p.1 then some p.2 else d j) d j = d j := by
    intro l
    induction l with
    | nil => intro d _; rfl
    | cons x l ih =>
      intro d hi
      simp only [List.map_cons, List.mem_cons, not_or] at hi
      rw [List.foldl_cons, ih _ hi.2]
      simp [hi.1]
  refine keep _ _ ?_
  intro hm
  obtain ⟨x, hx, hxi⟩ := List.mem_map.1 hm
  obtain ⟨⟨l, hl, hxs⟩, -⟩ := named_sound [] t []
  rw [hl, List.nil_append] at hx
  obtain ⟨p, s', hp, rfl⟩ := hxs x hx
  exact hj s' ⟨p, hp⟩ hxi

/-- **C156**: what `find_module_by_fq_name` returns is the module at that name. -/
theorem C156_find_sound (t : MT) (dn : ℕ → Option Name) (nm : Name) (i : ℕ)
    (h : findByName t (assignNames t dn) nm = some i) : ∃ s, AtPath t nm s ∧ s.id = i := by
  have h1 := List.mem_of_find?_eq_some h
  have h2 := List.find?_some h
  obtain ⟨⟨j, nm'⟩, hx, rfl⟩ := List.mem_map.1 h1
  rw [decide_eq_true_eq, assigned_mem t dn j nm' hx] at h2
  cases h2
  obtain ⟨⟨l, hl, hxs⟩, -⟩ := named_sound [] t []
  rw [hl, List.nil_append] at hx
  obtain ⟨p, s', hp, he⟩ := hxs _ hx
  simp at he
  exact ⟨s', by rw [he.2]; exact hp, he.1.symm⟩

theorem atPath_unique {t s s' : MT} {p : Name} (hd : DistinctNames t) (h : AtPath t p s) (h' : AtPath t p s') : s = s' := by
  induction h with
  | here => cases h'; rfl
  | @step t c s n p hm hr ih =>
    cases h' with
    | @step _ c' _ _ _ hm' hr' =>
      have hn := hd t (.refl t)
      have : c = c' := by
        have h1 := List.inj_on_of_nodup_map hn hm hm' rfl
        exact congrArg Prod.snd h1
      subst this
      exact ih (fun u hu => hd u (.child hm hu)) hr'

/-- **C156**: every module is found under the name it was given. -/
theorem C156_find_named (t s : MT) (dn : ℕ → Option Name) (hc : Coherent t) (hd : DistinctNames t) (hs : SubMod t s) :
    ∃ nm, assignNames t dn s.id = some nm ∧ findByName t (assignNames t dn) nm = some s.id := by
  obtain ⟨nm, hnm, hp⟩ := C156_named t s dn hc hs
  refine ⟨nm, hnm, ?_⟩
  have hmem := (named_complete t hc [] t.sz t [] (.refl t) (Nat.le_refl _) (by intro s _ h; simp at h)).2 s hs
  cases hf : findByName t (assignNames t dn) nm with
  | none =>
    rw [findByName, List.find?_eq_none] at hf
    exact absurd (by simp [hnm]) (hf s.id hmem)
  | some i =>
    obtain ⟨s', hp', rfl⟩ := C156_find_sound t dn nm i hf
    rw [atPath_unique hd hp hp']

/-- **C156**: a module that is reachable in one way only is found under its path. -/
theorem C156_find_path_partial (t s : MT) (dn : ℕ → Option Name) (nm : Name) (hc : Coherent t) (hd : DistinctNames t)
    (hp : AtPath t nm s) (hu : ∀ nm' , AtPath t nm' s → nm' = nm) :
    findByName t (assignNames t dn) nm = some s.id := by
  obtain ⟨nm', h1, h2⟩ := C156_find_named t s dn hc hd ⟨nm, hp⟩
  obtain ⟨nm'', h3, h4⟩ := C156_named t s dn hc ⟨nm, hp⟩
  rw [h1] at h3
  cases h3
  rw [hu nm' h4] at h2
  exact h2

/-- **C156**: a name that leads nowhere gives `None`. -/
theorem C156_find_none (t : MT) (dn : ℕ → Option Name) (nm : Name) (h : ¬ ∃ s, AtPath t nm s) :
    findByName t (assignNames t dn) nm = none := by
  cases hf : findByName t (assignNames t dn) nm with
  | none => rfl
  | some i =>
    obtain ⟨s, hs, -⟩ := C156_find_sound t dn nm i hf
    exact absurd ⟨s, hs⟩ h

example : (findByName dropNet (assignNames dropNet (fun _ => some ["old"])) ["features", "1"],
    findByName dropNet (assignNames dropNet (fun _ => none)) ["drop"]) = (some 3, some 4) := by decide +kernel

example : Coherent dropNet ∧ DistinctNames dropNet := by
  constructor
  · intro s s' hs hs' h
    rcases dropNet_subs hs with rfl | rfl | rfl | rfl | rfl | rfl <;>
      rcases dropNet_subs hs' with rfl | rfl | rfl | rfl | rfl | rfl <;> simp [MT.id, dropNet] at h ⊢
  · intro s hs
    rcases dropNet_subs hs with rfl | rfl | rfl | rfl | rfl | rfl <;> simp [MT.children, dropNet]

/-- **C156, violated**: a module used under two names is not found under the second one, although that is a valid name of it. -/
theorem C156_violated_second_name : AtPath dropNet ["again"] (.mk 4 "Dropout" []) ∧
    findByName dropNet (assignNames dropNet (fun _ => none)) ["again"] = none :=
  ⟨.step (by show ("again", _) ∈ _; simp [dropNet, MT.children]) (.here _), by decide +kernel⟩

end Verif
