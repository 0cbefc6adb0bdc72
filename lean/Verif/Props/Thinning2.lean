import Verif.Lemmas.Recipe
import Verif.Props.Thinning
/-!
# C43: thinning keeps layers, weights, statistics and masks consistent
-/
namespace Verif

/-! ## Specification -/

/-- A convolution without groups: declared sizes are the sizes of its weights and bias. -/
def ConvOK (m : TModel) (l : String) (lay : TLayer) : Prop :=
  ∃ o i kh kw w, lay.attrs.get? .outChannels = some o ∧ lay.attrs.get? .inChannels = some i ∧
    m.params.get? (l, .weight) = some w ∧ w.data.shape = [o, i, kh, kw] ∧
    ∀ b, m.params.get? (l, .bias) = some b → b.data.shape = [o]

/-- A fully-connected layer. -/
def LinearOK (m : TModel) (l : String) (lay : TLayer) : Prop :=
  ∃ o i w, lay.attrs.get? .outFeatures = some o ∧ lay.attrs.get? .inFeatures = some i ∧
    m.params.get? (l, .weight) = some w ∧ w.data.shape = [o, i] ∧
    ∀ b, m.params.get? (l, .bias) = some b → b.data.shape = [o]

/-- A batch-norm layer: `num_features`, scale, shift, running mean and variance. -/
def BNOK (m : TModel) (l : String) (lay : TLayer) : Prop :=
  ∃ n w b rm rv, lay.attrs.get? .numFeatures = some n ∧
    m.params.get? (l, .weight) = some w ∧ w.data.shape = [n] ∧ m.params.get? (l, .bias) = some b ∧ b.data.shape = [n] ∧
    lay.running.get? .runningMean = some rm ∧ rm.shape = [n] ∧ lay.running.get? .runningVar = some rv ∧ rv.shape = [n]

/-- Every layer declares the sizes of its tensors. -/
def Consistent (m : TModel) : Prop := ∀ l lay, m.layers.get? l = some lay →
  (lay.kind = .conv → ConvOK m l lay) ∧ (lay.kind = .linear → LinearOK m l lay) ∧ (lay.kind = .bn → BNOK m l lay)

/-- No grouped convolutions. -/
def NoGroups (m : TModel) : Prop := ∀ l lay, m.layers.get? l = some lay → lay.kind = .conv → lay.attrs.get? .groups = some 1

/-- No tensor is thinned along the same dimension for two different sets of removed filters (two
pruned convolutions that merge into the same layer must be pruned identically). -/
def Recipe.Single (r : Recipe) : Prop := ∀ p, ∀ d ∈ r.dirs p, ∀ d' ∈ r.dirs p, d.dim = d'.dim → d = d'

/-! ## Invariants of the recipes -/

structure RIConv (m : TModel) (r : Recipe) (l : String) : Prop where
  out : ∀ n, r.attrOf l .outChannels = some n → ∃ idx : List ℕ, idx.length = n ∧ .two 0 idx ∈ r.dirs (l, .weight) ∧
    (m.params.has (l, .bias) = true → .two 0 idx ∈ r.dirs (l, .bias))
  w0 : ∀ idx, .two 0 idx ∈ r.dirs (l, .weight) → r.attrOf l .outChannels ≠ none
  bias : ∀ d ∈ r.dirs (l, .bias), ∃ idx, d = .two 0 idx ∧ .two 0 idx ∈ r.dirs (l, .weight)
  inn : ∀ n, r.attrOf l .inChannels = some n → ∃ idx : List ℕ, idx.length = n ∧ .two 1 idx ∈ r.dirs (l, .weight)
  w1 : ∀ idx, .two 1 idx ∈ r.dirs (l, .weight) → r.attrOf l .inChannels ≠ none
  two : ∀ d ∈ r.dirs (l, .weight), ∃ k idx, d = .two k idx ∧ k ≤ 1
  gr : r.attrOf l .groups = none

structure RILinear (r : Recipe) (l : String) (lay : TLayer) : Prop where
  inn : ∀ n, r.attrOf l .inFeatures = some n → ∃ o idx v4, lay.attrs.get? .outFeatures = some o ∧
    .four 1 idx v4 [o, n] ∈ r.dirs (l, .weight)
  w : ∀ d ∈ r.dirs (l, .weight), (∃ idx v4 v2, d = .four 1 idx v4 v2) ∧ r.attrOf l .inFeatures ≠ none
  b : r.dirs (l, .bias) = []
  out : r.attrOf l .outFeatures = none

structure RIBN (r : Recipe) (l : String) : Prop where
  some : ∀ n, r.attrOf l .numFeatures = some n → ∃ idx : List ℕ, idx.length = n ∧ r.dirs (l, .weight) = [.two 0 idx] ∧
    r.dirs (l, .bias) = [.two 0 idx] ∧ r.runOf l .runningMean = Option.some idx ∧ r.runOf l .runningVar = Option.some idx
  none : r.attrOf l .numFeatures = none → r.dirs (l, .weight) = [] ∧ r.dirs (l, .bias) = [] ∧
    r.runOf l .runningMean = Option.none ∧ r.runOf l .runningVar = Option.none

structure RI (m : TModel) (r : Recipe) : Prop where
  dict : r.IsDict
  conv : ∀ l lay, m.layers.get? l = some lay → lay.kind = .conv → RIConv m r l
  linear : ∀ l lay, m.layers.get? l = some lay → lay.kind = .linear → RILinear r l lay
  bn : ∀ l lay, m.layers.get? l = some lay → lay.kind = .bn → RIBN r l

theorem RI.empty (m : TModel) : RI m emptyRecipe := by
  have h1 : ∀ p, emptyRecipe.dirs p = [] := fun p => rfl
  have h2 : ∀ l a, emptyRecipe.attrOf l a = none := fun l a => rfl
  have h3 : ∀ l a, emptyRecipe.runOf l a = none := fun l a => rfl
  refine ⟨isDict_empty, ?_, ?_, ?_⟩ <;> intro l lay _ _
  · constructor <;> simp [h1, h2]
  · constructor <;> simp [h1, h2]
  · constructor <;> simp [h1, h2, h3]

/-- Changes that do not touch a layer keep its part of the invariant. -/
theorem RIConv.frame {m : TModel} {r r' : Recipe} {l : String} (h : RIConv m r l)
    (ha : ∀ a, r'.attrOf l a = r.attrOf l a) (hd : ∀ k d, d ∈ r'.dirs (l, k) ↔ d ∈ r.dirs (l, k)) : RIConv m r' l := by
  refine ⟨?_, ?_, ?_, ?_, ?_, ?_, ?_⟩
  · intro n hn; rw [ha] at hn
    obtain ⟨idx, e1, e2, e3⟩ := h.out n hn
    exact ⟨idx, e1, (hd _ _).2 e2, fun hb => (hd _ _).2 (e3 hb)⟩
  · intro idx hi; rw [ha]; exact h.w0 idx ((hd _ _).1 hi)
  · intro d hb
    obtain ⟨idx, e1, e2⟩ := h.bias d ((hd _ _).1 hb)
    exact ⟨idx, e1, (hd _ _).2 e2⟩
  · intro n hn; rw [ha] at hn
    obtain ⟨idx, e1, e2⟩ := h.inn n hn
    exact ⟨idx, e1, (hd _ _).2 e2⟩
  · intro idx hi; rw [ha]; exact h.w1 idx ((hd _ _).1 hi)
  · intro d hb; exact h.two d ((hd _ _).1 hb)
  · rw [ha]; exact h.gr

theorem RILinear.frame {r r' : Recipe} {l : String} {lay : TLayer} (h : RILinear r l lay)
    (ha : ∀ a, r'.attrOf l a = r.attrOf l a) (hd : ∀ k d, d ∈ r'.dirs (l, k) ↔ d ∈ r.dirs (l, k)) : RILinear r' l lay := by
  refine ⟨?_, ?_, ?_, ?_⟩
  · intro n hn; rw [ha] at hn
    obtain ⟨o, idx, v4, e1, e2⟩ := h.inn n hn
    exact ⟨o, idx, v4, e1, (hd _ _).2 e2⟩
  · intro d hb; rw [ha]; exact h.w d ((hd _ _).1 hb)
  · apply List.eq_nil_iff_forall_not_mem.2
    intro d hb
    have := (hd _ _).1 hb
    rw [h.b] at this; simp at this
  · rw [ha]; exact h.out

theorem RIBN.frame {r r' : Recipe} {l : String} (h : RIBN r l) (ha : ∀ a, r'.attrOf l a = r.attrOf l a)
    (hr : ∀ a, r'.runOf l a = r.runOf l a) (hd : ∀ k, r'.dirs (l, k) = r.dirs (l, k)) : RIBN r' l := by
  refine ⟨?_, ?_⟩
  · intro n hn; rw [ha] at hn; rw [hd, hd, hr, hr]; exact h.some n hn
  · intro hn; rw [ha] at hn; rw [hd, hd, hr, hr]; exact h.none hn

theorem dirs_appendParam_ne (r : Recipe) {p q : PName} (d : Directive) (h : q ≠ p) : (r.appendParam p d).dirs q = r.dirs q := by
  unfold Recipe.appendParam Recipe.dirs
  by_cases c : d ∈ (r.parameters.get? p).getD []
  · rw [if_pos c]
  · rw [if_neg c]
    simp only
    rw [Dict.get?_set_ne _ _ (fun e => h e.symm)]

theorem has_eq {α β : Type} [DecidableEq α] {d : Dict α β} {k : α} : d.has k = true ↔ ∃ v, d.get? k = some v := by
  unfold Dict.has; exact Option.isSome_iff_exists

/-- Thinning the outputs of a convolution (start of `handle_layer`). -/
theorem RI.outputs {m : TModel} {r : Recipe} (h : RI m r) {l : String} {lay : TLayer} (hl : m.layers.get? l = some lay)
    (hk : lay.kind = .conv) (idx : List ℕ) :
    let r1 := (r.appendModule l .outChannels idx.length).appendParam (l, .weight) (.two 0 idx)
    RI m (if m.params.has (l, .bias) then r1.appendParam (l, .bias) (.two 0 idx) else r1) := by
  intro r1
  generalize hr' : (if m.params.has (l, .bias) then r1.appendParam (l, .bias) (.two 0 idx) else r1) = r'
  have hdict : r'.IsDict := by
    have h1 : r1.IsDict := isDict_appendParam (isDict_appendModule h.dict _ _ _) _ _
    subst hr'; split
    · exact isDict_appendParam h1 _ _
    · exact h1
  have hattr : ∀ l' a, r'.attrOf l' a = if l = l' ∧ Attr.outChannels = a then some idx.length else r.attrOf l' a := by
    intro l' a
    have h1 : r1.attrOf l' a = _ := (attrOf_appendParam _ _ _ _ _).trans (attrOf_appendModule r l l' _ a _)
    subst hr'; split
    · rw [attrOf_appendParam, h1]
    · exact h1
  have hrun : ∀ l' a, r'.runOf l' a = r.runOf l' a := by
    intro l' a
    have h1 : r1.runOf l' a = r.runOf l' a := (runOf_appendParam _ _ _ _ _).trans (runOf_appendModule r l l' _ _ a)
    subst hr'; split
    · rw [runOf_appendParam, h1]
    · exact h1
  have hw : ∀ l' d, d ∈ r'.dirs (l', .weight) ↔ d ∈ r.dirs (l', .weight) ∨ (l' = l ∧ d = .two 0 idx) := by
    intro l' d
    have h1 : d ∈ r1.dirs (l', .weight) ↔ d ∈ r.dirs (l', .weight) ∨ (l' = l ∧ d = .two 0 idx) := by
      rw [mem_dirs_appendParam, dirs_appendModule]; simp
    subst hr'; split
    · rw [mem_dirs_appendParam, h1]; simp
    · exact h1
  have hb : ∀ l' d, d ∈ r'.dirs (l', .bias) ↔ d ∈ r.dirs (l', .bias) ∨ (l' = l ∧ d = .two 0 idx ∧ m.params.has (l, .bias) = true) := by
    intro l' d
    have h1 : d ∈ r1.dirs (l', .bias) ↔ d ∈ r.dirs (l', .bias) := by
      rw [mem_dirs_appendParam, dirs_appendModule]; simp
    subst hr'; split
    · rename_i c; rw [mem_dirs_appendParam, h1]; simp [c]
    · rename_i c; rw [h1]; simp [c]
  have hne : ∀ l' : String, l' ≠ l → ∀ k, r'.dirs (l', k) = r.dirs (l', k) := by
    intro l' e k
    have h1 : r1.dirs (l', k) = r.dirs (l', k) := by
      show ((r.appendModule l .outChannels idx.length).appendParam (l, .weight) (.two 0 idx)).dirs (l', k) = _
      rw [dirs_appendParam_ne _ _ (fun e' => e (by cases e'; rfl)), dirs_appendModule]
    subst hr'; split
    · rw [dirs_appendParam_ne _ _ (fun e' => e (by cases e'; rfl)), h1]
    · exact h1
  refine ⟨hdict, ?_, ?_, ?_⟩
  · intro l' lay' hl' hk'
    have hc := h.conv l' lay' hl' hk'
    by_cases e : l' = l
    · subst e
      refine ⟨?_, ?_, ?_, ?_, ?_, ?_, ?_⟩
      · intro n hn
        rw [hattr] at hn; simp at hn
        exact ⟨idx, hn, (hw _ _).2 (Or.inr ⟨rfl, rfl⟩), fun hbias => (hb _ _).2 (Or.inr ⟨rfl, rfl, hbias⟩)⟩
      · intro idx' _; rw [hattr]; simp
      · intro d hd
        rcases (hb _ _).1 hd with hd | ⟨_, rfl, _⟩
        · obtain ⟨i', e1, e2⟩ := hc.bias d hd
          exact ⟨i', e1, (hw _ _).2 (Or.inl e2)⟩
        · exact ⟨idx, rfl, (hw _ _).2 (Or.inr ⟨rfl, rfl⟩)⟩
      · intro n hn
        rw [hattr] at hn; simp at hn
        obtain ⟨i', e1, e2⟩ := hc.inn n hn
        exact ⟨i', e1, (hw _ _).2 (Or.inl e2)⟩
      · intro i' hi'
        rcases (hw _ _).1 hi' with hd | ⟨_, e⟩
        · rw [hattr]; simp; exact hc.w1 i' hd
        · cases e
      · intro d hd
        rcases (hw _ _).1 hd with hd | ⟨_, rfl⟩
        · exact hc.two d hd
        · exact ⟨0, idx, rfl, by omega⟩
      · rw [hattr]; simpa using hc.gr
    · refine hc.frame (fun a => ?_) (fun k d => by rw [hne l' e k])
      rw [hattr, if_neg]; rintro ⟨rfl, _⟩; exact e rfl
  · intro l' lay' hl' hk'
    have e : l' ≠ l := by rintro rfl; rw [hl] at hl'; cases hl'; rw [hk] at hk'; cases hk'
    refine (h.linear l' lay' hl' hk').frame (fun a => ?_) (fun k d => by rw [hne l' e k])
    rw [hattr, if_neg]; rintro ⟨rfl, _⟩; exact e rfl
  · intro l' lay' hl' hk'
    have e : l' ≠ l := by rintro rfl; rw [hl] at hl'; cases hl'; rw [hk] at hk'; cases hk'
    refine (h.bn l' lay' hl' hk').frame (fun a => ?_) (hrun l') (hne l' e)
    rw [hattr, if_neg]; rintro ⟨rfl, _⟩; exact e rfl

/-- Thinning the inputs of a convolution successor. -/
theorem RI.inputs {m : TModel} {r : Recipe} (h : RI m r) {l : String} {lay : TLayer} (hl : m.layers.get? l = some lay)
    (hk : lay.kind = .conv) (idx : List ℕ) :
    RI m ((r.appendModule l .inChannels idx.length).appendParam (l, .weight) (.two 1 idx)) := by
  generalize hr' : (r.appendModule l .inChannels idx.length).appendParam (l, .weight) (.two 1 idx) = r'
  have hdict : r'.IsDict := by subst hr'; exact isDict_appendParam (isDict_appendModule h.dict _ _ _) _ _
  have hattr : ∀ l' a, r'.attrOf l' a = if l = l' ∧ Attr.inChannels = a then some idx.length else r.attrOf l' a := by
    intro l' a; subst hr'; exact (attrOf_appendParam _ _ _ _ _).trans (attrOf_appendModule r l l' _ a _)
  have hrun : ∀ l' a, r'.runOf l' a = r.runOf l' a := by
    intro l' a; subst hr'; exact (runOf_appendParam _ _ _ _ _).trans (runOf_appendModule r l l' _ _ a)
  have hw : ∀ l' d, d ∈ r'.dirs (l', .weight) ↔ d ∈ r.dirs (l', .weight) ∨ (l' = l ∧ d = .two 1 idx) := by
    intro l' d; subst hr'; rw [mem_dirs_appendParam, dirs_appendModule]; simp
  have hb : ∀ l', r'.dirs (l', .bias) = r.dirs (l', .bias) := by
    intro l'; subst hr'; rw [dirs_appendParam_ne _ _ (by intro e; cases e), dirs_appendModule]
  have hne : ∀ l' : String, l' ≠ l → ∀ k, r'.dirs (l', k) = r.dirs (l', k) := by
    intro l' e k; subst hr'
    rw [dirs_appendParam_ne _ _ (fun e' => e (by cases e'; rfl)), dirs_appendModule]
  refine ⟨hdict, ?_, ?_, ?_⟩
  · intro l' lay' hl' hk'
    have hc := h.conv l' lay' hl' hk'
    by_cases e : l' = l
    · subst e
      refine ⟨?_, ?_, ?_, ?_, ?_, ?_, ?_⟩
      · intro n hn
        rw [hattr] at hn; simp at hn
        obtain ⟨i', e1, e2, e3⟩ := hc.out n hn
        exact ⟨i', e1, (hw _ _).2 (Or.inl e2), fun hbias => by rw [hb]; exact e3 hbias⟩
      · intro i' hi'
        rcases (hw _ _).1 hi' with hd | ⟨_, e⟩
        · rw [hattr]; simp; exact hc.w0 i' hd
        · cases e
      · intro d hd
        rw [hb] at hd
        obtain ⟨i', e1, e2⟩ := hc.bias d hd
        exact ⟨i', e1, (hw _ _).2 (Or.inl e2)⟩
      · intro n hn
        rw [hattr] at hn; simp at hn
        exact ⟨idx, hn, (hw _ _).2 (Or.inr ⟨rfl, rfl⟩)⟩
      · intro idx' _; rw [hattr]; simp
      · intro d hd
        rcases (hw _ _).1 hd with hd | ⟨_, rfl⟩
        · exact hc.two d hd
        · exact ⟨1, idx, rfl, by omega⟩
      · rw [hattr]; simpa using hc.gr
    · refine hc.frame (fun a => ?_) (fun k d => by rw [hne l' e k])
      rw [hattr, if_neg]; rintro ⟨rfl, _⟩; exact e rfl
  · intro l' lay' hl' hk'
    have e : l' ≠ l := by rintro rfl; rw [hl] at hl'; cases hl'; rw [hk] at hk'; cases hk'
    refine (h.linear l' lay' hl' hk').frame (fun a => ?_) (fun k d => by rw [hne l' e k])
    rw [hattr, if_neg]; rintro ⟨rfl, _⟩; exact e rfl
  · intro l' lay' hl' hk'
    have e : l' ≠ l := by rintro rfl; rw [hl] at hl'; cases hl'; rw [hk] at hk'; cases hk'
    refine (h.bn l' lay' hl' hk').frame (fun a => ?_) (hrun l') (hne l' e)
    rw [hattr, if_neg]; rintro ⟨rfl, _⟩; exact e rfl

theorem attr_ok {l : TLayer} {a : Attr} {v : ℕ} (h : l.attr a = .ok v) : l.attrs.get? a = some v := by
  unfold TLayer.attr at h
  cases e : l.attrs.get? a with
  | none => rw [e] at h; cases h
  | some w => rw [e] at h; cases h; rfl

/-- Thinning the inputs of a fully-connected successor. -/
theorem RI.linearSucc {m : TModel} {r r' : Recipe} (h : RI m r) {root l : String} {lay : TLayer} {nnz : ℕ} {idx : List ℕ}
    (hl : m.layers.get? l = some lay) (hk : lay.kind = .linear)
    (he : handleLinearSucc m root nnz idx r l = .ok r') : RI m r' := by
  unfold handleLinearSucc at he
  obtain ⟨ls, h1, k1⟩ := ok_bind he
  clear he
  obtain rfl : lay = ls := by
    have := getE_ok h1; rw [hl] at this; exact Option.some.inj this
  obtain ⟨lr, h2, k2⟩ := ok_bind k1
  obtain ⟨inF, h3, k3⟩ := ok_bind k2
  obtain ⟨outF, h4, k4⟩ := ok_bind k3
  obtain ⟨outC, h5, he⟩ := ok_bind k4
  clear k1 k2 k3 k4
  by_cases c : outC = 0
  · simp [c] at he
  simp only [c, if_false] at he
  have hr' : (r.appendModule l .inFeatures (inF / outC * nnz)).appendParam (l, .weight)
      (.four 1 idx [outF, outC, Nat.sqrt (inF / outC), Nat.sqrt (inF / outC)] [outF, inF / outC * nnz]) = r' := by
    cases he; rfl
  clear he
  generalize inF / outC * nnz = n at hr'
  generalize [outF, outC, Nat.sqrt (inF / outC), Nat.sqrt (inF / outC)] = v4 at hr'
  have hdict : r'.IsDict := by subst hr'; exact isDict_appendParam (isDict_appendModule h.dict _ _ _) _ _
  have hattr : ∀ l' a, r'.attrOf l' a = if l = l' ∧ Attr.inFeatures = a then some n else r.attrOf l' a := by
    intro l' a; subst hr'; exact (attrOf_appendParam _ _ _ _ _).trans (attrOf_appendModule r l l' _ a _)
  have hrun : ∀ l' a, r'.runOf l' a = r.runOf l' a := by
    intro l' a; subst hr'; exact (runOf_appendParam _ _ _ _ _).trans (runOf_appendModule r l l' _ _ a)
  have hw : ∀ l' d, d ∈ r'.dirs (l', .weight) ↔ d ∈ r.dirs (l', .weight) ∨ (l' = l ∧ d = .four 1 idx v4 [outF, n]) := by
    intro l' d; subst hr'; rw [mem_dirs_appendParam, dirs_appendModule]; simp
  have hb : ∀ l', r'.dirs (l', .bias) = r.dirs (l', .bias) := by
    intro l'; subst hr'; rw [dirs_appendParam_ne _ _ (by intro e; cases e), dirs_appendModule]
  have hne : ∀ l' : String, l' ≠ l → ∀ k, r'.dirs (l', k) = r.dirs (l', k) := by
    intro l' e k; subst hr'
    rw [dirs_appendParam_ne _ _ (fun e' => e (by cases e'; rfl)), dirs_appendModule]
  refine ⟨hdict, ?_, ?_, ?_⟩
  · intro l' lay' hl' hk'
    have e : l' ≠ l := by rintro rfl; rw [hl] at hl'; cases hl'; rw [hk] at hk'; cases hk'
    refine (h.conv l' lay' hl' hk').frame (fun a => ?_) (fun k d => by rw [hne l' e k])
    rw [hattr, if_neg]; rintro ⟨rfl, _⟩; exact e rfl
  · intro l' lay' hl' hk'
    have hc := h.linear l' lay' hl' hk'
    by_cases e : l' = l
    · subst e
      rw [hl] at hl'; cases hl'
      refine ⟨?_, ?_, ?_, ?_⟩
      · intro n' hn
        rw [hattr] at hn; simp at hn; subst hn
        exact ⟨outF, idx, v4, attr_ok h4, (hw _ _).2 (Or.inr ⟨rfl, rfl⟩)⟩
      · intro d hd
        refine ⟨?_, by rw [hattr]; simp⟩
        rcases (hw _ _).1 hd with hd | ⟨_, rfl⟩
        · exact (hc.w d hd).1
        · exact ⟨idx, v4, _, rfl⟩
      · rw [hb]; exact hc.b
      · rw [hattr]; simpa using hc.out
    · refine hc.frame (fun a => ?_) (fun k d => by rw [hne l' e k])
      rw [hattr, if_neg]; rintro ⟨rfl, _⟩; exact e rfl
  · intro l' lay' hl' hk'
    have e : l' ≠ l := by rintro rfl; rw [hl] at hl'; cases hl'; rw [hk] at hk'; cases hk'
    refine (h.bn l' lay' hl' hk').frame (fun a => ?_) (hrun l') (hne l' e)
    rw [hattr, if_neg]; rintro ⟨rfl, _⟩; exact e rfl

theorem RI.appendBN {m : TModel} {r r' : Recipe} (h : RI m r) {bn : String} {idx : List ℕ}
    (he : r.appendBN m bn idx.length idx = .ok r') : RI m r' := by
  have hdict := isDict_appendBN h.dict he
  obtain ⟨⟨lay, hl, hk⟩, hattr, hrun, hdirs⟩ := appendBN_ok he
  refine ⟨hdict, ?_, ?_, ?_⟩
  · intro l' lay' hl' hk'
    have e : l' ≠ bn := by rintro rfl; rw [hl] at hl'; cases hl'; rw [hk] at hk'; cases hk'
    refine (h.conv l' lay' hl' hk').frame (fun a => ?_) (fun k d => by rw [hdirs, if_neg e])
    rw [hattr, if_neg]; rintro ⟨rfl, _⟩; exact e rfl
  · intro l' lay' hl' hk'
    have e : l' ≠ bn := by rintro rfl; rw [hl] at hl'; cases hl'; rw [hk] at hk'; cases hk'
    refine (h.linear l' lay' hl' hk').frame (fun a => ?_) (fun k d => by rw [hdirs, if_neg e])
    rw [hattr, if_neg]; rintro ⟨rfl, _⟩; exact e rfl
  · intro l' lay' hl' hk'
    by_cases e : l' = bn
    · subst e
      refine ⟨?_, ?_⟩
      · intro n hn
        rw [hattr] at hn; simp at hn
        exact ⟨idx, hn, by rw [hdirs, if_pos rfl], by rw [hdirs, if_pos rfl], by rw [hrun, if_pos rfl], by rw [hrun, if_pos rfl]⟩
      · intro hn; rw [hattr] at hn; simp at hn
    · refine (h.bn l' lay' hl' hk').frame (fun a => ?_) (fun a => by rw [hrun, if_neg e]) (fun k => by rw [hdirs, if_neg e])
      rw [hattr, if_neg]; rintro ⟨rfl, _⟩; exact e rfl

theorem RI.succ {m : TModel} (hg : NoGroups m) {root : String} {idx : List ℕ}
    {rec : Recipe → String → Except Err Recipe} {r r' : Recipe} {s : String} (h : RI m r)
    (he : handleSuccF m root idx.length idx rec r s = .ok r') : RI m r' := by
  unfold handleSuccF at he
  obtain ⟨ls, h1, he⟩ := ok_bind he
  have hl := getE_ok h1
  cases hk : ls.kind with
  | conv =>
    simp only [hk] at he
    obtain ⟨gr, h2, he⟩ := ok_bind he
    obtain ⟨inC, _, he⟩ := ok_bind he
    have := attr_ok h2; rw [hg s ls hl hk] at this; cases this
    cases he
    exact h.inputs hl hk idx
  | linear =>
    simp only [hk] at he
    exact h.linearSucc hl hk he
  | bn =>
    simp only [hk] at he
    cases he; exact h

theorem RI.layer {g : TGraph} {m : TModel} (hg : NoGroups m) {root : String} {idx : List ℕ} {fuel : ℕ}
    {r r' : Recipe} {l : String} (h : RI m r) (he : handleLayerF g m root idx.length idx fuel r l = .ok r') : RI m r' := by
  cases fuel with
  | zero => cases he
  | succ fuel =>
    unfold handleLayerF at he
    obtain ⟨lay, h1, he⟩ := ok_bind he
    have hl := getE_ok h1
    by_cases c : lay.kind ≠ .conv
    · rw [if_pos c] at he; cases he
    · rw [if_neg c] at he
      obtain ⟨r2, h2, he⟩ := ok_bind he
      have h3 := h.outputs hl (by simpa using c) idx
      have h4 : RI m r2 := foldlM_preserves (P := RI m) (fun s a s' _ hs hf => RI.succ hg hs hf) h3 h2
      split at he
      · cases he; exact h4
      · exact h4.appendBN he
      · cases he

theorem RI.create {g : TGraph} {m : TModel} (hg : NoGroups m) {r : Recipe} (he : createFilters g m = .ok r) : RI m r := by
  unfold createFilters at he
  refine foldlM_preserves (P := RI m) ?_ (RI.empty m) he
  intro s a s' _ hs hf
  unfold stepF at hf
  simp only at hf
  split at hf
  · cases hf; exact hs
  · split at hf
    · cases hf
    · split at hf
      · cases hf; exact hs
      · exact RI.layer hg hs hf

/-! ## The theorem -/

theorem four_list {l : List ℕ} {a b c d : ℕ} (hl : l.length = 4) (h0 : l[0]? = some a) (h1 : l[1]? = some b)
    (h2 : l[2]? = some c) (h3 : l[3]? = some d) : l = [a, b, c, d] := by
  match l, hl with
  | [w, x, y, z], _ => simp at h0 h1 h2 h3; simp [h0, h1, h2, h3]

theorem one_list {l : List ℕ} {a : ℕ} (hl : l.length = 1) (h0 : l[0]? = some a) : l = [a] := by
  match l, hl with
  | [w], _ => simp at h0; simp [h0]

theorem single_sub {r : Recipe} (hs : r.Single) (p : PName) : ∀ d ∈ r.dirs p, ∀ d' ∈ r.dirs p, d.dim = d'.dim → d = d' := hs p

theorem execDirs_shape1 {opt : OptKind} {upd : Bool} {p p' : TParam} {idx : List ℕ} {n : ℕ} (hp : p.data.shape = [n])
    (h : [Directive.two 0 idx].foldlM (execDirective opt upd) p = .ok p') : p'.data.shape = [idx.length] := by
  obtain ⟨h1, h2, _⟩ := fold_two_shape (by simp) (by simp) h
  exact one_list (by rw [h1, hp]; rfl) (h2 0 idx (by simp))

/-- Executing a recipe that meets the invariant keeps the model consistent. -/
theorem consistent_of_RI {m m' : TModel} {r : Recipe} {opt : OptKind} {upd : Bool}
    (hg : NoGroups m) (hc : Consistent m) (hRI : RI m r) (hs : r.Single)
    (he : execRecipe opt upd m r = .ok m') : Consistent m' ∧ NoGroups m' := by
  have hd := hRI.dict
  refine ⟨?_, ?_⟩
  · intro l lay' hl'
    obtain ⟨lay, hl, hk, ha, hrun, hrun0⟩ := exec_layer hd he hl'
    obtain ⟨c1, c2, c3⟩ := hc l lay hl
    refine ⟨?_, ?_, ?_⟩
    · -- convolutions
      intro hk'
      rw [hk] at hk'
      have ri := hRI.conv l lay hl hk'
      obtain ⟨o, i, kh, kw, w, ho, hi, hw, hsh, hb⟩ := c1 hk'
      rcases exec_param hd he (l, .weight) with ⟨e, _⟩ | ⟨p, p', e1, e2, e3⟩
      · rw [hw] at e; cases e
      rw [hw] at e1; cases e1
      have two : ∀ d ∈ r.dirs (l, .weight), ∃ k idx, d = .two k idx := fun d hd => by
        obtain ⟨k, idx, e, _⟩ := ri.two d hd; exact ⟨k, idx, e⟩
      obtain ⟨s1, s2, s3⟩ := fold_two_shape two (hs _) e3
      have hn : ∀ k, 2 ≤ k → p'.data.shape[k]? = w.data.shape[k]? := by
        intro k hk2
        apply s3
        intro idx hm
        obtain ⟨k', idx', e, hle⟩ := ri.two _ hm
        cases e; omega
      have hlen : p'.data.shape.length = 4 := by rw [s1, hsh]; rfl
      -- sizes along the two first dimensions
      have h0 : ∃ o', lay'.attrs.get? .outChannels = some o' ∧ p'.data.shape[0]? = some o' ∧
          ∀ b', m'.params.get? (l, .bias) = some b' → b'.data.shape = [o'] := by
        rw [ha]
        cases hao : r.attrOf l .outChannels with
        | some n =>
          obtain ⟨idx, f1, f2, f3⟩ := ri.out n hao
          refine ⟨n, rfl, by rw [s2 0 idx f2, f1], ?_⟩
          intro b' hb'
          rcases exec_param hd he (l, .bias) with ⟨_, e, _⟩ | ⟨q, q', q1, q2, q3⟩
          · rw [e] at hb'; cases hb'
          rw [q2] at hb'; cases hb'
          have hbm := f3 (has_eq.2 ⟨q, q1⟩)
          obtain ⟨t1, t2, _⟩ := fold_two_shape (fun d hd => by
            obtain ⟨idx, e, _⟩ := ri.bias d hd; exact ⟨0, idx, e⟩) (hs _) q3
          exact one_list (by rw [t1, hb q q1]; rfl) (by rw [t2 0 idx hbm, f1])
        | none =>
          have hno : ∀ idx, .two 0 idx ∉ r.dirs (l, .weight) := fun idx hm => ri.w0 idx hm hao
          refine ⟨o, by simpa using ho, by rw [s3 0 hno, hsh]; rfl, ?_⟩
          intro b' hb'
          rcases exec_param hd he (l, .bias) with ⟨_, e, _⟩ | ⟨q, q', q1, q2, q3⟩
          · rw [e] at hb'; cases hb'
          rw [q2] at hb'; cases hb'
          have hnil : r.dirs (l, .bias) = [] := by
            apply List.eq_nil_iff_forall_not_mem.2
            intro d hdm
            obtain ⟨idx, _, e⟩ := ri.bias d hdm
            exact hno idx e
          rw [hnil] at q3
          simp [pure, Except.pure] at q3
          rw [← q3]; exact hb q q1
      have h1 : ∃ i', lay'.attrs.get? .inChannels = some i' ∧ p'.data.shape[1]? = some i' := by
        rw [ha]
        cases hai : r.attrOf l .inChannels with
        | some n =>
          obtain ⟨idx, f1, f2⟩ := ri.inn n hai
          exact ⟨n, rfl, by rw [s2 1 idx f2, f1]⟩
        | none =>
          exact ⟨i, by simpa using hi, by rw [s3 1 (fun idx hm => ri.w1 idx hm hai), hsh]; rfl⟩
      obtain ⟨o', ho', hsz0, hbias⟩ := h0
      obtain ⟨i', hi', hsz1⟩ := h1
      refine ⟨o', i', kh, kw, p', ho', hi', e2, ?_, hbias⟩
      exact four_list hlen hsz0 hsz1 (by rw [hn 2 (by omega), hsh]; rfl) (by rw [hn 3 (by omega), hsh]; rfl)
    · -- fully-connected layers
      intro hk'
      rw [hk] at hk'
      have ri := hRI.linear l lay hl hk'
      obtain ⟨o, i, w, ho, hi, hw, hsh, hb⟩ := c2 hk'
      rcases exec_param hd he (l, .weight) with ⟨e, _⟩ | ⟨p, p', e1, e2, e3⟩
      · rw [hw] at e; cases e
      rw [hw] at e1; cases e1
      have hout : lay'.attrs.get? .outFeatures = some o := by rw [ha, ri.out]; simpa using ho
      have hbias : ∀ b', m'.params.get? (l, .bias) = some b' → b'.data.shape = [o] := by
        intro b' hb'
        rcases exec_param hd he (l, .bias) with ⟨_, e, _⟩ | ⟨q, q', q1, q2, q3⟩
        · rw [e] at hb'; cases hb'
        rw [q2] at hb'; cases hb'
        rw [ri.b] at q3
        simp [pure, Except.pure] at q3
        rw [← q3]; exact hb q q1
      cases hai : r.attrOf l .inFeatures with
      | none =>
        have hnil : r.dirs (l, .weight) = [] := by
          apply List.eq_nil_iff_forall_not_mem.2
          intro d hdm; exact (ri.w d hdm).2 hai
        rw [hnil] at e3
        simp [pure, Except.pure] at e3
        subst e3
        exact ⟨o, i, w, hout, by rw [ha, hai]; simpa using hi, e2, hsh, hbias⟩
      | some n =>
        obtain ⟨o', idx, v4, f1, f2⟩ := ri.inn n hai
        rw [ho] at f1; cases f1
        -- all directives of this tensor are this one
        have hall : ∀ d ∈ r.dirs (l, .weight), d = .four 1 idx v4 [o, n] := by
          intro d hdm
          obtain ⟨⟨i2, v, v', e⟩, _⟩ := ri.w d hdm
          exact hs _ d hdm _ f2 (by rw [e]; rfl)
        have key : ∀ (ds : List Directive) (q : TParam), ds ≠ [] → (∀ d ∈ ds, d = .four 1 idx v4 [o, n]) →
            ds.foldlM (execDirective opt upd) q = .ok p' → p'.data.shape = [o, n] := by
          intro ds
          induction ds with
          | nil => intro q h; exact absurd rfl h
          | cons d ds ih =>
            intro q _ hds hq
            rw [List.foldlM_cons] at hq
            obtain ⟨q1, hq1, hq2⟩ := ok_bind hq
            cases ds with
            | nil =>
              simp [pure, Except.pure] at hq2; subst hq2
              rw [hds d (by simp)] at hq1
              obtain ⟨q3, hq3, hq4⟩ := exec_four_split hq1
              rw [(maskThin_ok hq4).1, (fourThin_ok hq3).2.1]
            | cons d' ds => exact ih q1 (by simp) (fun d hd => hds d (by simp [hd])) hq2
        have hsh' := key _ w (by intro e; rw [e] at f2; simp at f2) hall e3
        exact ⟨o, n, p', hout, by rw [ha, hai]; rfl, e2, hsh', hbias⟩
    · -- batch-norm layers
      intro hk'
      rw [hk] at hk'
      have ri := hRI.bn l lay hl hk'
      obtain ⟨n, w, b, rm, rv, hn, hw, hws, hb, hbs, hrm, hrms, hrv, hrvs⟩ := c3 hk'
      rcases exec_param hd he (l, .weight) with ⟨e, _⟩ | ⟨p, p', e1, e2, e3⟩
      · rw [hw] at e; cases e
      rw [hw] at e1; cases e1
      rcases exec_param hd he (l, .bias) with ⟨e, _⟩ | ⟨q, q', f1, f2, f3⟩
      · rw [hb] at e; cases e
      rw [hb] at f1; cases f1
      cases han : r.attrOf l .numFeatures with
      | none =>
        obtain ⟨d1, d2, d3, d4⟩ := ri.none han
        rw [d1] at e3; rw [d2] at f3
        simp [pure, Except.pure] at e3 f3
        subst e3; subst f3
        exact ⟨n, w, b, rm, rv, by rw [ha, han]; simpa using hn, e2, hws, f2, hbs,
          by rw [hrun0 _ d3]; exact hrm, hrms, by rw [hrun0 _ d4]; exact hrv, hrvs⟩
      | some k =>
        obtain ⟨idx, i1, i2, i3, i4, i5⟩ := ri.some k han
        rw [i2] at e3; rw [i3] at f3
        obtain ⟨t, t', nn, t1, t2, t3, t4⟩ := hrun _ _ i4
        obtain ⟨u, u', nu, u1, u2, u3, u4⟩ := hrun _ _ i5
        rw [hrm] at t1; cases t1
        rw [hrv] at u1; cases u1
        refine ⟨k, p', q', t', u', by rw [ha, han]; rfl, e2, by rw [execDirs_shape1 hws e3, i1], f2,
          by rw [execDirs_shape1 hbs f3, i1], t3, ?_, u3, ?_⟩
        · rw [t4, hrms, i1]; rfl
        · rw [u4, hrvs, i1]; rfl
  · intro l lay' hl' hk'
    obtain ⟨lay, hl, hk, ha, _⟩ := exec_layer hd he hl'
    rw [hk] at hk'
    rw [ha, (hRI.conv l lay hl hk').gr]
    simpa using hg l lay hl hk'

/-- **C43** (partial) For every network without grouped convolutions, every graph, optimizer and mask
dictionary: if `remove_filters` succeeds, and no tensor is thinned twice along the same dimension for
different filters, every layer still declares the sizes of its tensors: output and input channels of
convolutions (and biases), input features of fully-connected layers, features and statistics of
batch-norms.  Missing: grouped convolutions (violated, see below). -/
theorem C43_filters_consistent_partial (g : TGraph) (m m' : TModel) (r : Recipe) (opt : OptKind) (upd : Bool)
    (hg : NoGroups m) (hc : Consistent m) (hr : createFilters g m = .ok r) (hs : r.Single)
    (he : execRecipe opt upd m r = .ok m') : Consistent m' ∧ NoGroups m' := by
  exact consistent_of_RI hg hc (RI.create hg hr) hs he

/-- Masks and gradients keep the shape of their parameter, for every recipe without 4-tuple
directives for that parameter; so do momentum buffers if a gradient exists. -/
theorem C43_masks_partial (m m' : TModel) (r : Recipe) (opt : OptKind) (hd : r.IsDict)
    (he : execRecipe opt true m r = .ok m') (k : PName)
    (h2 : ∀ d ∈ r.dirs k, ∃ dim idx, d = .two dim idx)
    (p p' : TParam) (hp : m.params.get? k = some p) (hp' : m'.params.get? k = some p')
    (hg : ∀ gr, p.grad = some gr → gr.shape = p.data.shape)
    (hm : ∀ mk, p.mask = some mk → mk.shape = p.data.shape) :
    (∀ gr, p'.grad = some gr → gr.shape = p'.data.shape) ∧ (∀ mk, p'.mask = some mk → mk.shape = p'.data.shape) ∧
    (opt = .sgd → p.grad ≠ none → (∀ b, p.mom = some b → b.shape = p.data.shape) → ∀ b, p'.mom = some b → b.shape = p'.data.shape) := by
  rcases exec_param hd he k with ⟨e, _⟩ | ⟨q, q', e1, e2, e3⟩
  · rw [hp] at e; cases e
  rw [hp] at e1; cases e1
  rw [hp'] at e2; cases e2
  have main := foldlM_preserves (P := fun q : TParam =>
      (∀ gr, q.grad = some gr → gr.shape = q.data.shape) ∧ (∀ mk, q.mask = some mk → mk.shape = q.data.shape) ∧
      (opt = .sgd → p.grad ≠ none → (∀ b, p.mom = some b → b.shape = p.data.shape) →
        q.grad ≠ none ∧ ∀ b, q.mom = some b → b.shape = q.data.shape)) ?_ ⟨hg, hm, fun _ h1 h2 => ⟨h1, h2⟩⟩ e3
  · exact ⟨main.1, main.2.1, fun a b c => (main.2.2 a b c).2⟩
  · intro s a s' ha ⟨i1, i2, i3⟩ hf
    obtain ⟨dim, idx, rfl⟩ := h2 a ha
    obtain ⟨⟨n, j0, _⟩, j1, _, j3, _, _, j6⟩ := exec_two_shape hf
    refine ⟨?_, ?_, ?_⟩
    · intro gr hgr
      obtain ⟨g0, n, k1, _, k3⟩ := j3 gr hgr
      rw [k3, j1, i1 g0 k1]
    · intro mk hmk
      obtain ⟨k0, n, k1, _, k3⟩ := j6 rfl mk hmk
      rw [k3, j1, i2 k0 k1]
    · intro ho hg0 hb0
      obtain ⟨l1, l2⟩ := i3 ho hg0 hb0
      obtain ⟨p1, p2, t1, t2, t3⟩ := exec_two_split hf
      obtain ⟨n', a1, a2, a3, a4, a5, a6, _, _⟩ := dataThin_ok t1
      obtain ⟨b1, b2, b3⟩ := gradThin_ok t2
      obtain ⟨c1, c2, c3, _⟩ := maskThin_ok t3
      rcases b3 with ⟨e, _⟩ | ⟨gr, g', n2, d1, d2, d3, d4, d5, d6⟩
      · rw [a4] at e; exact absurd e l1
      · refine ⟨by rw [c2, d2]; simp, ?_⟩
        intro b hb
        rw [c3] at hb
        by_cases hn : n2 = idx.length
        · rw [d5 hn, a5] at hb
          have hgs : gr.shape = s.data.shape := i1 gr (by rw [← a4, d1])
          rw [l2 b hb, j1, set_same]
          rw [← hgs, d3, hn]
        · rcases d6 hn ho with ⟨_, f2⟩ | ⟨b0, b', f1, f2, f3⟩
          · rw [f2] at hb; cases hb
          · rw [f2] at hb; cases hb
            rw [a5] at f1
            rw [f3, j1, l2 b0 f1]

instance (m : TModel) : Decidable (NoGroups m) :=
  decidable_of_iff (∀ kv ∈ m.layers, ∀ lay, m.layers.get? kv.1 = some lay → lay.kind = .conv → lay.attrs.get? .groups = some 1)
    ⟨fun h l lay hl hk => h (l, lay) (Dict.mem_of_get? hl) lay hl hk, fun h kv _ lay hl hk => h kv.1 lay hl hk⟩

/-- The hypotheses of the theorems are met by the example network. -/
example : NoGroups exConvs ∧ Consistent exConvs ∧ exRecipe.Single ∧ exRecipe.IsDict ∧
    createFilters exGraph exConvs = .ok exRecipe ∧ execRecipe .sgd true exConvs exRecipe = .ok exThinned := by
  refine ⟨?_, ?_, ?_, ?_, by decide +kernel, by decide +kernel⟩
  · decide +kernel
  · intro l lay hl
    have hmem := Dict.mem_of_get? hl
    simp only [exConvs, List.mem_cons, Prod.mk.injEq, List.not_mem_nil, or_false] at hmem
    rcases hmem with ⟨rfl, rfl⟩ | ⟨rfl, rfl⟩ | ⟨rfl, rfl⟩
    · refine ⟨fun _ => ⟨3, 1, 1, 1, _, rfl, rfl, rfl, rfl, ?_⟩, by simp, by simp⟩
      intro b hb
      have : exConvs.params.get? ("c1", .bias) = some ⟨⟨[3], [1, 0, 2]⟩, none, none, none⟩ := by decide +kernel
      rw [this] at hb; cases hb; rfl
    · exact ⟨by simp, by simp, fun _ => ⟨3, _, _, _, _, rfl, rfl, rfl, rfl, rfl, rfl, rfl, rfl, rfl⟩⟩
    · refine ⟨fun _ => ⟨2, 3, 1, 1, _, rfl, rfl, rfl, rfl, ?_⟩, by simp, by simp⟩
      intro b hb
      have : exConvs.params.get? ("c2", .bias) = none := by decide +kernel
      rw [this] at hb; cases hb
  · intro p d hd d' hd' _
    have : ∀ kv ∈ exRecipe.parameters, kv.2.length = 1 := by decide +kernel
    have hlen : (exRecipe.dirs p).length ≤ 1 := by
      unfold Recipe.dirs
      cases e : exRecipe.parameters.get? p with
      | none => simp
      | some ds => simpa using (this _ (Dict.mem_of_get? e)).le
    match h : exRecipe.dirs p, hlen with
    | [], _ => rw [h] at hd; simp at hd
    | [x], _ => rw [h] at hd hd'; simp at hd hd'; rw [hd, hd']
  · exact (RI.create (g := exGraph) (m := exConvs) (by decide +kernel) (by decide +kernel)).dict

/-! ## Connected layers stay compatible -/

/-- Every layer fed by convolution `a` expects what `a` produces. -/
structure EdgesOK (g : TGraph) (m : TModel) : Prop where
  conv : ∀ a b la lb, m.layers.get? a = some la → la.kind = .conv → b ∈ g.succs a → m.layers.get? b = some lb →
    lb.kind = .conv → lb.attrs.get? .inChannels = la.attrs.get? .outChannels
  linear : ∀ a b la lb, m.layers.get? a = some la → la.kind = .conv → b ∈ g.succs a → m.layers.get? b = some lb →
    lb.kind = .linear → ∃ fm o, la.attrs.get? .outChannels = some o ∧ lb.attrs.get? .inFeatures = some (fm * o)
  bn : ∀ a b la lb, m.layers.get? a = some la → la.kind = .conv → b ∈ g.succBN a → m.layers.get? b = some lb →
    lb.attrs.get? .numFeatures = la.attrs.get? .outChannels

/-- `a` is a convolution of the model. -/
def IsConvOf (m : TModel) (a : String) : Prop := ∃ la, m.layers.get? a = some la ∧ la.kind = .conv

/-- No layer is fed by two convolutions, or normalizes the output of two. -/
def NoMerge (g : TGraph) (m : TModel) : Prop :=
  (∀ a a' b, IsConvOf m a → IsConvOf m a' → b ∈ g.succs a → b ∈ g.succs a' → a = a') ∧
  (∀ a a' b, IsConvOf m a → IsConvOf m a' → b ∈ g.succBN a → b ∈ g.succBN a' → a = a')

/-- New input features of a fully-connected successor. -/
def newInF (la lb : TLayer) (n : ℕ) : Option ℕ :=
  (lb.attrs.get? .inFeatures).bind fun i => (la.attrs.get? .outChannels).map fun o => i / o * n

/-- Effect of handling the successors on the attributes of the recipe. -/
theorem succs_attr {m : TModel} (hg : NoGroups m) {root : String} {lr : TLayer} (hr : m.layers.get? root = some lr)
    {idx : List ℕ} {rec : Recipe → String → Except Err Recipe} {ss : List String} {r r' : Recipe}
    (he : ss.foldlM (handleSuccF m root idx.length idx rec) r = .ok r') :
    ∀ l lay, m.layers.get? l = some lay →
      (∀ a, a ≠ .inChannels → a ≠ .inFeatures → r'.attrOf l a = r.attrOf l a) ∧
      (r'.attrOf l .inChannels = if l ∈ ss ∧ lay.kind = .conv then some idx.length else r.attrOf l .inChannels) ∧
      (r'.attrOf l .inFeatures = if l ∈ ss ∧ lay.kind = .linear then newInF lr lay idx.length else r.attrOf l .inFeatures) := by
  induction ss generalizing r with
  | nil => simp [pure, Except.pure] at he; subst he; simp
  | cons s ss ih =>
    rw [List.foldlM_cons] at he
    obtain ⟨r1, h1, h2⟩ := ok_bind he
    intro l lay hl
    obtain ⟨i1, i2, i3⟩ := ih h2 l lay hl
    unfold handleSuccF at h1
    obtain ⟨ls, hs, h1⟩ := ok_bind h1
    have hs := getE_ok hs
    have step : (∀ a, a ≠ .inChannels → a ≠ .inFeatures → r1.attrOf l a = r.attrOf l a) ∧
        (r1.attrOf l .inChannels = if l = s ∧ lay.kind = .conv then some idx.length else r.attrOf l .inChannels) ∧
        (r1.attrOf l .inFeatures = if l = s ∧ lay.kind = .linear then newInF lr lay idx.length else r.attrOf l .inFeatures) := by
      cases hk : ls.kind with
      | conv =>
        simp only [hk] at h1
        obtain ⟨gr, hgr, h1⟩ := ok_bind h1
        obtain ⟨inC, _, h1⟩ := ok_bind h1
        have := attr_ok hgr; rw [hg s ls hs hk] at this; cases this
        simp only [if_true] at h1
        cases h1
        simp only [attrOf_appendParam, attrOf_appendModule]
        refine ⟨?_, ?_, ?_⟩
        · intro a ha hb; rw [if_neg]; rintro ⟨_, rfl⟩; exact ha rfl
        · by_cases c : l = s
          · subst c; rw [hs] at hl; cases hl; simp [hk]
          · have : ¬ s = l := fun e => c e.symm
            simp [c, this]
        · by_cases c : l = s
          · subst c; rw [hs] at hl; cases hl; simp [hk]
          · simp [c]
      | linear =>
        simp only [hk] at h1
        unfold handleLinearSucc at h1
        obtain ⟨ls', q1, k1⟩ := ok_bind h1
        obtain rfl : ls = ls' := by
          have := getE_ok q1; rw [hs] at this; exact Option.some.inj this
        obtain ⟨lr', q2, k2⟩ := ok_bind k1
        obtain rfl : lr = lr' := by
          have := getE_ok q2; rw [hr] at this; exact Option.some.inj this
        obtain ⟨inF, q3, k3⟩ := ok_bind k2
        obtain ⟨outF, q4, k4⟩ := ok_bind k3
        obtain ⟨outC, q5, k5⟩ := ok_bind k4
        clear h1 k1 k2 k3 k4
        by_cases c0 : outC = 0
        · simp [c0] at k5
        simp only [c0, if_false] at k5
        cases k5
        simp only [attrOf_appendParam, attrOf_appendModule]
        refine ⟨?_, ?_, ?_⟩
        · intro a ha hb; rw [if_neg]; rintro ⟨_, rfl⟩; exact hb rfl
        · by_cases c : l = s
          · subst c; rw [hs] at hl; cases hl; simp [hk]
          · simp [c]
        · by_cases c : l = s
          · subst c; rw [hs] at hl; cases hl
            simp [hk, newInF, attr_ok q3, attr_ok q5]
          · have : ¬ s = l := fun e => c e.symm
            simp [c, this]
      | bn =>
        simp only [hk] at h1
        cases h1
        refine ⟨fun _ _ _ => rfl, ?_, ?_⟩ <;>
        · by_cases c : l = s
          · subst c; rw [hs] at hl; cases hl; simp [hk]
          · simp [c]
    obtain ⟨s1, s2, s3⟩ := step
    refine ⟨fun a ha hb => (i1 a ha hb).trans (s1 a ha hb), ?_, ?_⟩
    · rw [i2, s2]
      by_cases c1 : l ∈ ss <;> by_cases c2 : l = s <;> by_cases c3 : lay.kind = .conv <;> simp [c1, c2, c3]
    · rw [i3, s3]
      by_cases c1 : l ∈ ss <;> by_cases c2 : l = s <;> by_cases c3 : lay.kind = .linear <;> simp [c1, c2, c3]

/-- Effect of `handle_layer` on the attributes of the recipe. -/
theorem layer_attr {g : TGraph} {m : TModel} (hg : NoGroups m) {idx : List ℕ} {fuel : ℕ} {r r' : Recipe} {x : String}
    (he : handleLayerF g m x idx.length idx fuel r x = .ok r') :
    ∃ lx, m.layers.get? x = some lx ∧ lx.kind = .conv ∧ ∀ l lay, m.layers.get? l = some lay →
      (r'.attrOf l .outChannels = if l = x then some idx.length else r.attrOf l .outChannels) ∧
      (r'.attrOf l .inChannels = if l ∈ g.succs x ∧ lay.kind = .conv then some idx.length else r.attrOf l .inChannels) ∧
      (r'.attrOf l .inFeatures = if l ∈ g.succs x ∧ lay.kind = .linear then newInF lx lay idx.length else r.attrOf l .inFeatures) ∧
      (r'.attrOf l .numFeatures = if l ∈ g.succBN x then some idx.length else r.attrOf l .numFeatures) := by
  cases fuel with
  | zero => cases he
  | succ fuel =>
    unfold handleLayerF at he
    obtain ⟨lx, h1, he⟩ := ok_bind he
    have hl := getE_ok h1
    by_cases c : lx.kind ≠ .conv
    · rw [if_pos c] at he; cases he
    · rw [if_neg c] at he
      obtain ⟨r2, h2, he⟩ := ok_bind he
      refine ⟨lx, hl, by simpa using c, ?_⟩
      intro l lay hlay
      obtain ⟨a1, a2, a3⟩ := succs_attr hg hl h2 l lay hlay
      have hpre : ∀ a, (if m.params.has (x, .bias) then
            ((r.appendModule x .outChannels idx.length).appendParam (x, .weight) (.two 0 idx)).appendParam (x, .bias) (.two 0 idx)
          else ((r.appendModule x .outChannels idx.length).appendParam (x, .weight) (.two 0 idx))).attrOf l a =
          if x = l ∧ Attr.outChannels = a then some idx.length else r.attrOf l a := by
        intro a; split <;> simp only [attrOf_appendParam, attrOf_appendModule]
      rw [hpre] at a2 a3
      have a1' := a1 .outChannels (by simp) (by simp)
      have a1'' := a1 .numFeatures (by simp) (by simp)
      rw [hpre] at a1' a1''
      have hx : (x = l) ↔ (l = x) := ⟨Eq.symm, Eq.symm⟩
      simp only [and_true, hx, reduceCtorEq, and_false, if_false] at a1' a1'' a2 a3
      split at he
      · rename_i hb
        cases he
        exact ⟨a1', a2, a3, by rw [a1'', hb]; simp⟩
      · rename_i bn hb
        obtain ⟨⟨lbn, b0, b0k⟩, b1, _, _⟩ := appendBN_ok he
        refine ⟨by rw [b1]; simp [a1'], by rw [b1]; simp [a2], by rw [b1]; simp [a3], ?_⟩
        rw [b1, hb]
        simp [a1'']
      · cases he

/-- The recipe's attributes keep connected layers compatible. -/
structure REdges (g : TGraph) (m : TModel) (r : Recipe) : Prop where
  conv : ∀ a b la lb, m.layers.get? a = some la → la.kind = .conv → b ∈ g.succs a → m.layers.get? b = some lb →
    lb.kind = .conv → r.attrOf b .inChannels = r.attrOf a .outChannels
  linear : ∀ a b la lb, m.layers.get? a = some la → la.kind = .conv → b ∈ g.succs a → m.layers.get? b = some lb →
    lb.kind = .linear → r.attrOf b .inFeatures = (r.attrOf a .outChannels).bind fun n => newInF la lb n
  bn : ∀ a b la lb, m.layers.get? a = some la → la.kind = .conv → b ∈ g.succBN a → m.layers.get? b = some lb →
    r.attrOf b .numFeatures = r.attrOf a .outChannels

theorem REdges.create {g : TGraph} {m : TModel} (hg : NoGroups m) (hm : NoMerge g m) {r : Recipe}
    (he : createFilters g m = .ok r) : REdges g m r := by
  unfold createFilters at he
  refine foldlM_preserves (P := REdges g m) ?_ ⟨fun _ _ _ _ _ _ _ _ _ => rfl, fun _ _ _ _ _ _ _ _ _ => rfl, fun _ _ _ _ _ _ _ _ => rfl⟩ he
  intro s a s' _ hs hf
  unfold stepF at hf
  simp only at hf
  split at hf
  · cases hf; exact hs
  · split at hf
    · cases hf
    · split at hf
      · cases hf; exact hs
      · obtain ⟨lx, hx, hxk, H⟩ := layer_attr hg hf
        refine ⟨?_, ?_, ?_⟩
        · intro u v lu lv hu huk huv hv hvk
          rw [(H v lv hv).2.1, (H u lu hu).1]
          by_cases c : u = a.1.1
          · subst c; simp [huv, hvk]
          · have : ¬ v ∈ g.succs a.1.1 := fun e => c (hm.1 _ _ _ ⟨lu, hu, huk⟩ ⟨lx, hx, hxk⟩ huv e)
            simp [c, this]; exact hs.conv u v lu lv hu huk huv hv hvk
        · intro u v lu lv hu huk huv hv hvk
          rw [(H v lv hv).2.2.1, (H u lu hu).1]
          by_cases c : u = a.1.1
          · subst c
            rw [hx] at hu; cases hu
            simp [huv, hvk]
          · have : ¬ v ∈ g.succs a.1.1 := fun e => c (hm.1 _ _ _ ⟨lu, hu, huk⟩ ⟨lx, hx, hxk⟩ huv e)
            simp [c, this]; exact hs.linear u v lu lv hu huk huv hv hvk
        · intro u v lu lv hu huk huv hv
          rw [(H v lv hv).2.2.2, (H u lu hu).1]
          by_cases c : u = a.1.1
          · subst c; simp [huv]
          · have : ¬ v ∈ g.succBN a.1.1 := fun e => c (hm.2 _ _ _ ⟨lu, hu, huk⟩ ⟨lx, hx, hxk⟩ huv e)
            simp [c, this]; exact hs.bn u v lu lv hu huk huv hv

/-- **C43** (partial) For every network without grouped convolutions in which no layer is fed by two
convolutions: after `remove_filters` every convolution, fully-connected layer and batch-norm fed by a
convolution expects exactly the channels it produces (fully-connected layers: as many inputs per
channel as before).  Missing: merging branches, where the caller must prune both identically. -/
theorem C43_filters_edges_partial (g : TGraph) (m m' : TModel) (r : Recipe) (opt : OptKind) (upd : Bool)
    (hg : NoGroups m) (hm : NoMerge g m) (ho : EdgesOK g m) (hpos : ∀ l lay, m.layers.get? l = some lay → lay.attrs.get? .outChannels ≠ some 0)
    (hr : createFilters g m = .ok r) (he : execRecipe opt upd m r = .ok m') : EdgesOK g m' := by
  have hd := (RI.create hg hr).dict
  have hR := REdges.create hg hm hr
  refine ⟨?_, ?_, ?_⟩
  · intro a b la' lb' ha hak hab hb hbk
    obtain ⟨la, ea, ka, fa, _⟩ := exec_layer hd he ha
    obtain ⟨lb, eb, kb, fb, _⟩ := exec_layer hd he hb
    rw [ka] at hak; rw [kb] at hbk
    rw [fa, fb, hR.conv a b la lb ea hak hab eb hbk, ho.conv a b la lb ea hak hab eb hbk]
  · intro a b la' lb' ha hak hab hb hbk
    obtain ⟨la, ea, ka, fa, _⟩ := exec_layer hd he ha
    obtain ⟨lb, eb, kb, fb, _⟩ := exec_layer hd he hb
    rw [ka] at hak; rw [kb] at hbk
    obtain ⟨fm, o, h1, h2⟩ := ho.linear a b la lb ea hak hab eb hbk
    have hrb := hR.linear a b la lb ea hak hab eb hbk
    cases hn : r.attrOf a .outChannels with
    | none =>
      rw [hn] at hrb
      refine ⟨fm, o, by rw [fa, hn]; simpa using h1, by rw [fb, hrb]; simpa using h2⟩
    | some n =>
      rw [hn] at hrb
      have hpos' : 0 < o := by
        rcases Nat.eq_zero_or_pos o with e | e
        · exact absurd (by rw [h1, e]) (hpos a la ea)
        · exact e
      have e : newInF la lb n = some (fm * n) := by
        simp [newInF, h1, h2, Nat.mul_div_cancel _ hpos']
      refine ⟨fm, n, by rw [fa, hn]; rfl, ?_⟩
      rw [fb, hrb]
      simp [e]
  · intro a b la' lb' ha hak hab hb
    obtain ⟨la, ea, ka, fa, _⟩ := exec_layer hd he ha
    obtain ⟨lb, eb, kb, fb, _⟩ := exec_layer hd he hb
    rw [ka] at hak
    rw [fa, fb, hR.bn a b la lb ea hak hab eb, ho.bn a b la lb ea hak hab eb]

example : NoMerge exGraph exConvs ∧ (exConvs.layers.get? "c2").bind (fun l => l.attrs.get? .inChannels) = some 3 ∧
    (exThinned.layers.get? "c2").bind (fun l => l.attrs.get? .inChannels) = some 2 ∧
    (exThinned.layers.get? "c1").bind (fun l => l.attrs.get? .outChannels) = some 2 := by
  refine ⟨⟨?_, ?_⟩, by decide +kernel, by decide +kernel, by decide +kernel⟩
  · intro a a' b _ _ h1 h2
    simp only [exGraph] at h1 h2
    split at h1 <;> split at h2 <;> simp_all
  · intro a a' b _ _ h1 h2
    simp only [exGraph] at h1 h2
    split at h1 <;> split at h2 <;> simp_all

/-! ## What goes wrong -/

/-- **C43** is violated for masks, gradients' momentum of a fully-connected layer following a
convolution with feature maps larger than 1×1: the mask keeps `nnz` columns instead of
`nnz · height · width`, and the momentum buffer is cut in the same way and then padded with
uninitialised memory. -/
theorem C43_violated_fc_mask : ∃ (g : TGraph) (m : TModel) (r : Recipe), createFilters g m = .ok r ∧
    (m.params.get? ("fc", .weight)).map (fun p => p.mask.map (·.shape)) = some (some [1, 8]) ∧
    (execRecipe .sgd true m r).toOption.bind (fun m' => m'.params.get? ("fc", .weight)) =
      some ⟨⟨[1, 4], [5, 6, 7, 8]⟩, some ⟨[1, 4], [5, 6, 7, 8]⟩, some ⟨[1, 4], [2, 0, 0, 0]⟩, some ⟨[1, 1], [1]⟩⟩ :=
  ⟨exFCGraph, exFC, exFCRecipe, by decide +kernel⟩

/-- A depthwise convolution (`groups = in_channels`) with a zero filter of its own. -/
def exDW : TModel :=
  ⟨[("dw", ⟨.conv, [(.inChannels, 2), (.outChannels, 2), (.groups, 2)], []⟩)],
   [(("dw", .weight), ⟨⟨[2, 1, 1, 1], [0, 7]⟩, none, none, none⟩)]⟩

/-- **C43** is violated for a depthwise convolution with zero filters: the weights lose a filter but
`groups` and `in_channels` keep their values (the layer can no longer be evaluated: 1 filter in 2 groups). -/
theorem C43_violated_depthwise : ∃ (g : TGraph) (m : TModel) (r : Recipe), createFilters g m = .ok r ∧
    (execRecipe .none false m r).toOption =
      some ⟨[("dw", ⟨.conv, [(.inChannels, 2), (.outChannels, 1), (.groups, 2)], []⟩)],
        [(("dw", .weight), ⟨⟨[1, 1, 1, 1], [7]⟩, none, none, none⟩)]⟩ :=
  ⟨⟨fun _ => [], fun _ => [], fun _ => [], fun _ => []⟩, exDW,
    ⟨[("dw", ⟨[(.outChannels, 1)], []⟩)], [(("dw", .weight), [.two 0 [1]])]⟩, by decide +kernel⟩

/-- **C43** is violated for momentum buffers when thinning happens before the first backward pass
(for example in the first mini-batch after resuming): weights are thinned, momentum is not. -/
theorem C43_violated_momentum_without_gradient : ∃ (m m' : TModel) (r : Recipe) (p p' : TParam) (b b' : ST),
    execRecipe .sgd true m r = .ok m' ∧ m.params.get? ("c1", .weight) = some p ∧ p.mom = some b ∧ b.shape = p.data.shape ∧
    m'.params.get? ("c1", .weight) = some p' ∧ p'.mom = some b' ∧ b'.shape ≠ p'.data.shape :=
  ⟨⟨[], [(("c1", .weight), ⟨⟨[3, 1, 1, 1], [5, 0, 7]⟩, none, some ⟨[3, 1, 1, 1], [4, 5, 6]⟩, none⟩)]⟩,
   ⟨[], [(("c1", .weight), ⟨⟨[2, 1, 1, 1], [5, 7]⟩, none, some ⟨[3, 1, 1, 1], [4, 5, 6]⟩, none⟩)]⟩,
   ⟨[], [(("c1", .weight), [.two 0 [0, 2]])]⟩, _, _, _, _, by decide +kernel, rfl, rfl, rfl, rfl, rfl, by decide +kernel⟩

/-- A fully-connected layer with a zero input column. -/
def exLin : TModel :=
  ⟨[("fc", ⟨.linear, [(.inFeatures, 2), (.outFeatures, 1)], []⟩)], [(("fc", .weight), ⟨⟨[1, 2], [0, 7]⟩, none, none, none⟩)]⟩

/-- **C43** is violated by `remove_channels` for fully-connected layers: the code sets `in_channels`,
an attribute they do not have, and leaves `in_features` at its old value. -/
theorem C43_violated_channels_linear : ∃ (g : TGraph) (m : TModel) (r : Recipe), createChannels g m = .ok r ∧
    (execRecipe .none false m r).toOption =
      some ⟨[("fc", ⟨.linear, [(.inFeatures, 2), (.outFeatures, 1), (.inChannels, 1)], []⟩)],
        [(("fc", .weight), ⟨⟨[1, 1], [7]⟩, none, none, none⟩)]⟩ :=
  ⟨⟨fun _ => [], fun _ => [], fun _ => [], fun _ => []⟩, exLin,
    ⟨[("fc", ⟨[(.inChannels, 1)], []⟩)], [(("fc", .weight), [.two 1 [1]])]⟩, by decide +kernel⟩

end Verif
