import Verif.Lemmas.Thinning
/-! Lemmas about the construction of thinning recipes. -/
namespace Verif

/-- Directives of a parameter / new attribute value / selection of a statistic in a recipe. -/
def Recipe.dirs (r : Recipe) (p : PName) : List Directive := (r.parameters.get? p).getD []
def Recipe.attrOf (r : Recipe) (l : String) (a : Attr) : Option ℕ := (r.modules.get? l).bind fun md => md.nums.get? a
def Recipe.runOf (r : Recipe) (l : String) (a : RAttr) : Option (List ℕ) := (r.modules.get? l).bind fun md => md.runs.get? a

theorem mem_dirs_appendParam (r : Recipe) (p q : PName) (d e : Directive) :
    e ∈ (r.appendParam p d).dirs q ↔ e ∈ r.dirs q ∨ (q = p ∧ e = d) := by
  unfold Recipe.appendParam Recipe.dirs
  by_cases c : d ∈ (r.parameters.get? p).getD []
  · rw [if_pos c]
    constructor
    · exact Or.inl
    · rintro (h | ⟨rfl, rfl⟩)
      · exact h
      · exact c
  · rw [if_neg c]
    simp only
    rw [Dict.get?_set]
    by_cases c2 : p = q
    · subst c2; simp
    · have c3 : ¬ q = p := fun e => c2 e.symm
      simp [c2, c3]

theorem attrOf_appendParam (r : Recipe) (p : PName) (d : Directive) (l : String) (a : Attr) :
    (r.appendParam p d).attrOf l a = r.attrOf l a := by
  unfold Recipe.appendParam Recipe.attrOf
  by_cases c : d ∈ (r.parameters.get? p).getD []
  · rw [if_pos c]
  · rw [if_neg c]

theorem runOf_appendParam (r : Recipe) (p : PName) (d : Directive) (l : String) (a : RAttr) :
    (r.appendParam p d).runOf l a = r.runOf l a := by
  unfold Recipe.appendParam Recipe.runOf
  by_cases c : d ∈ (r.parameters.get? p).getD []
  · rw [if_pos c]
  · rw [if_neg c]

theorem dirs_appendModule (r : Recipe) (l : String) (a : Attr) (v : ℕ) (p : PName) :
    (r.appendModule l a v).dirs p = r.dirs p := rfl

theorem attrOf_appendModule (r : Recipe) (l l' : String) (a a' : Attr) (v : ℕ) :
    (r.appendModule l a v).attrOf l' a' = if l = l' ∧ a = a' then some v else r.attrOf l' a' := by
  unfold Recipe.appendModule Recipe.attrOf
  simp only
  rw [Dict.get?_set]
  by_cases c : l = l'
  · subst c
    simp only [if_true, Option.bind_some, true_and]
    rw [Dict.get?_set]
    by_cases c2 : a = a'
    · simp [c2]
    · simp only [c2, if_false]
      cases r.modules.get? l <;> simp
  · simp [c]

theorem runOf_appendModule (r : Recipe) (l l' : String) (a : Attr) (v : ℕ) (b : RAttr) :
    (r.appendModule l a v).runOf l' b = r.runOf l' b := by
  unfold Recipe.appendModule Recipe.runOf
  simp only
  rw [Dict.get?_set]
  by_cases c : l = l'
  · subst c
    simp only [if_true, Option.bind_some]
    cases r.modules.get? l <;> simp
  · simp [c]

theorem getE_ok {α β : Type} [DecidableEq α] {d : Dict α β} {k : α} {v : β} (h : d.getE k = .ok v) : d.get? k = some v := by
  unfold Dict.getE at h
  cases e : d.get? k with
  | none => rw [e] at h; cases h
  | some w => rw [e] at h; cases h; rfl

theorem appendBN_ok {m : TModel} {r r' : Recipe} {bn : String} {n : ℕ} {idx : List ℕ} (h : r.appendBN m bn n idx = .ok r') :
    (∃ lay, m.layers.get? bn = some lay ∧ lay.kind = .bn) ∧
    (∀ l a, r'.attrOf l a = if l = bn ∧ a = .numFeatures then some n else r.attrOf l a) ∧
    (∀ l a, r'.runOf l a = if l = bn then some idx else r.runOf l a) ∧
    (∀ p, r'.dirs p = if p.1 = bn then [.two 0 idx] else r.dirs p) := by
  unfold Recipe.appendBN at h
  obtain ⟨lay, hl, h⟩ := ok_bind h
  by_cases c : lay.kind ≠ .bn
  · rw [if_pos c] at h; cases h
  · rw [if_neg c] at h
    cases h
    refine ⟨⟨lay, getE_ok hl, by simpa using c⟩, ?_, ?_, ?_⟩
    · intro l a
      unfold Recipe.attrOf
      simp only
      rw [Dict.get?_set]
      by_cases c1 : bn = l
      · subst c1
        simp only [if_true, Option.bind_some, true_and]
        rw [Dict.get?_set]
        by_cases c2 : a = .numFeatures
        · subst c2; simp
        · have : ¬ Attr.numFeatures = a := fun e => c2 e.symm
          simp only [this, c2, if_false]
          cases r.modules.get? bn <;> simp
      · have : ¬ l = bn := fun e => c1 e.symm
        simp [c1, this]
    · intro l a
      unfold Recipe.runOf
      simp only
      rw [Dict.get?_set]
      by_cases c1 : bn = l
      · subst c1
        simp only [if_true, Option.bind_some]
        rw [Dict.get?_set, Dict.get?_set]
        cases a <;> simp
      · have : ¬ l = bn := fun e => c1 e.symm
        simp [c1, this]
    · intro p
      obtain ⟨l, k⟩ := p
      unfold Recipe.dirs
      simp only
      rw [Dict.get?_set, Dict.get?_set]
      by_cases c1 : l = bn
      · subst c1; cases k <;> simp
      · have : ∀ k', ¬ (bn, k') = (l, k) := fun k' e => c1 (by cases e; rfl)
        simp [this, c1]

/-! ## Recipes stay dictionaries -/

theorem isDict_empty : emptyRecipe.IsDict := ⟨Dict.nodup_nil, Dict.nodup_nil, by simp [emptyRecipe], by simp [emptyRecipe]⟩

theorem isDict_appendParam {r : Recipe} (h : r.IsDict) (p : PName) (d : Directive) : (r.appendParam p d).IsDict := by
  unfold Recipe.appendParam
  by_cases c : d ∈ (r.parameters.get? p).getD []
  · rw [if_pos c]; exact h
  · rw [if_neg c]
    exact ⟨h.modules, Dict.nodup_set h.parameters _ _, h.nums, h.runs⟩

theorem mem_set {α β : Type} [DecidableEq α] {d : Dict α β} {k : α} {v : β} {kv : α × β} (h : kv ∈ d.set k v) :
    kv = (k, v) ∨ kv ∈ d := by
  induction d with
  | nil => simp [Dict.set] at h; exact Or.inl h
  | cons a d ih =>
    obtain ⟨a1, a2⟩ := a
    by_cases c : a1 = k
    · simp only [Dict.set, c, if_true, List.mem_cons] at h
      rcases h with h | h
      · exact Or.inl h
      · exact Or.inr (by simp [h])
    · simp only [Dict.set, c, if_false, List.mem_cons] at h
      rcases h with h | h
      · exact Or.inr (by simp [h])
      · rcases ih h with h | h
        · exact Or.inl h
        · exact Or.inr (by simp [h])

theorem getD_nodup {r : Recipe} (h : r.IsDict) (l : String) :
    ((r.modules.get? l).getD ⟨[], []⟩).nums.Nodup ∧ ((r.modules.get? l).getD ⟨[], []⟩).runs.Nodup := by
  cases e : r.modules.get? l with
  | none => exact ⟨Dict.nodup_nil, Dict.nodup_nil⟩
  | some md =>
    have := Dict.mem_of_get? e
    exact ⟨h.nums _ this, h.runs _ this⟩

theorem isDict_appendModule {r : Recipe} (h : r.IsDict) (l : String) (a : Attr) (v : ℕ) : (r.appendModule l a v).IsDict := by
  obtain ⟨h1, h2⟩ := getD_nodup h l
  unfold Recipe.appendModule
  refine ⟨Dict.nodup_set h.modules _ _, h.parameters, ?_, ?_⟩
  · intro kv hkv
    rcases mem_set hkv with rfl | hkv
    · exact Dict.nodup_set h1 _ _
    · exact h.nums kv hkv
  · intro kv hkv
    rcases mem_set hkv with rfl | hkv
    · exact h2
    · exact h.runs kv hkv

theorem isDict_appendBN {m : TModel} {r r' : Recipe} {bn : String} {n : ℕ} {idx : List ℕ} (h : r.IsDict)
    (he : r.appendBN m bn n idx = .ok r') : r'.IsDict := by
  obtain ⟨h1, h2⟩ := getD_nodup h bn
  unfold Recipe.appendBN at he
  obtain ⟨lay, hl, he⟩ := ok_bind he
  split at he
  · cases he
  · cases he
    refine ⟨Dict.nodup_set h.modules _ _, Dict.nodup_set (Dict.nodup_set h.parameters _ _) _ _, ?_, ?_⟩
    · intro kv hkv
      rcases mem_set hkv with rfl | hkv
      · exact Dict.nodup_set h1 _ _
      · exact h.nums kv hkv
    · intro kv hkv
      rcases mem_set hkv with rfl | hkv
      · exact Dict.nodup_set (Dict.nodup_set h2 _ _) _ _
      · exact h.runs kv hkv

/-! ## Effect of executing a recipe, in terms of `dirs`, `attrOf`, `runOf` -/

theorem exec_layer {opt : OptKind} {upd : Bool} {m m' : TModel} {r : Recipe} (hd : r.IsDict)
    (h : execRecipe opt upd m r = .ok m') {l : String} {lay' : TLayer} (hl : m'.layers.get? l = some lay') :
    ∃ lay, m.layers.get? l = some lay ∧ lay'.kind = lay.kind ∧
      (∀ a, lay'.attrs.get? a = (r.attrOf l a).or (lay.attrs.get? a)) ∧
      (∀ a idx, r.runOf l a = some idx → ∃ t t' n, lay.running.get? a = some t ∧ t.shape[0]? = some n ∧
        lay'.running.get? a = some t' ∧ t'.shape = t.shape.set 0 idx.length) ∧
      (∀ a, r.runOf l a = none → lay'.running.get? a = lay.running.get? a) := by
  obtain ⟨_, _, h3, h4, _, _⟩ := execRecipe_effect hd h
  cases e : r.modules.get? l with
  | none =>
    have := h4 l ((Dict.get?_eq_none_iff _ _).1 e)
    rw [hl] at this
    refine ⟨lay', this.symm, rfl, ?_, ?_, ?_⟩
    · intro a; simp [Recipe.attrOf, e]
    · intro a idx ha; simp [Recipe.runOf, e] at ha
    · intro a _; rfl
  | some md =>
    have hmem := Dict.mem_of_get? e
    obtain ⟨lay, lay2, e1, e2, e3⟩ := h3 _ hmem
    simp only at e1 e2 e3
    rw [hl] at e3; cases e3
    obtain ⟨f1, f2, f3, f4⟩ := modEffect_ok (hd.nums _ hmem) (hd.runs _ hmem) e2
    refine ⟨lay, e1, f1, ?_, ?_, ?_⟩
    · intro a; rw [f2 a]; simp [Recipe.attrOf, e]
    · intro a idx ha
      have ha' : md.runs.get? a = some idx := by simpa [Recipe.runOf, e] using ha
      exact f3 _ (Dict.mem_of_get? ha')
    · intro a ha
      apply f4
      apply (Dict.get?_eq_none_iff _ _).1
      simpa [Recipe.runOf, e] using ha

theorem exec_param {opt : OptKind} {upd : Bool} {m m' : TModel} {r : Recipe} (hd : r.IsDict)
    (h : execRecipe opt upd m r = .ok m') (k : PName) :
    (m.params.get? k = none ∧ m'.params.get? k = none ∧ r.dirs k = []) ∨
    ∃ p p', m.params.get? k = some p ∧ m'.params.get? k = some p' ∧ (r.dirs k).foldlM (execDirective opt upd) p = .ok p' := by
  obtain ⟨_, _, _, _, h5, h6⟩ := execRecipe_effect hd h
  cases e : r.parameters.get? k with
  | none =>
    have := h6 k ((Dict.get?_eq_none_iff _ _).1 e)
    have hdirs : r.dirs k = [] := by simp [Recipe.dirs, e]
    cases e2 : m.params.get? k with
    | none => exact Or.inl ⟨rfl, by rw [this, e2], hdirs⟩
    | some p => exact Or.inr ⟨p, p, rfl, by rw [this, e2], by rw [hdirs]; rfl⟩
  | some ds =>
    obtain ⟨p, p', e1, e2, e3⟩ := h5 _ (Dict.mem_of_get? e)
    exact Or.inr ⟨p, p', e1, e3, by simpa [Recipe.dirs, e] using e2⟩

/-! ## Shapes after a list of directives -/

def Directive.dim : Directive → ℕ
  | .two d _ => d
  | .four d _ _ _ => d

theorem fold_two_shape {opt : OptKind} {upd : Bool} {ds : List Directive} {p p' : TParam}
    (h2 : ∀ d ∈ ds, ∃ k idx, d = .two k idx)
    (hs : ∀ d ∈ ds, ∀ d' ∈ ds, d.dim = d'.dim → d = d')
    (h : ds.foldlM (execDirective opt upd) p = .ok p') :
    p'.data.shape.length = p.data.shape.length ∧
    (∀ k idx, .two k idx ∈ ds → p'.data.shape[k]? = some idx.length) ∧
    (∀ k, (∀ idx, .two k idx ∉ ds) → p'.data.shape[k]? = p.data.shape[k]?) := by
  refine ⟨?_, ?_, ?_⟩
  · refine foldlM_preserves (P := fun q => q.data.shape.length = p.data.shape.length) ?_ rfl h
    intro s a s' ha hP hf
    obtain ⟨k, idx, rfl⟩ := h2 a ha
    rw [(exec_two_shape hf).2.1, List.length_set, hP]
  · intro k idx hm
    refine (fold_thin h2 ?_ h k idx hm).1
    intro k a b ha hb
    have := hs _ ha _ hb rfl
    cases this; rfl
  · intro k hk
    refine foldlM_preserves (P := fun q => q.data.shape[k]? = p.data.shape[k]?) ?_ rfl h
    intro s a s' ha hP hf
    obtain ⟨k', idx, rfl⟩ := h2 a ha
    have : k' ≠ k := by rintro rfl; exact hk idx ha
    rw [(exec_two_shape hf).2.1, List.getElem?_set_ne this, hP]

end Verif
