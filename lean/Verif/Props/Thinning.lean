import Verif.Lemmas.Thinning
/-!
# C42, C69: executing and replaying thinning recipes
-/
namespace Verif

/-! ## C42: executing a recipe twice -/

/-- **C42** (partial) For every recipe without fully-connected successors (no 4-tuple directives)
whose directives for the same dimension of the same parameter keep the same number of entries, every
model, optimizer and set of masks: a second execution – with any optimizer, with or without
updating the masks – changes nothing.  Missing: recipes with 4-tuple directives, for which it is
false (next theorem). -/
theorem C42_twice_partial (opt opt' : OptKind) (upd upd' : Bool) (hu : upd' = true → upd = true)
    (m m' : TModel) (r : Recipe) (hd : r.IsDict)
    (h2 : ∀ kv ∈ r.parameters, ∀ d ∈ kv.2, ∃ k idx, d = .two k idx)
    (hs : ∀ kv ∈ r.parameters, ∀ k idx idx', .two k idx ∈ kv.2 → .two k idx' ∈ kv.2 → idx.length = idx'.length)
    (h : execRecipe opt upd m r = .ok m') :
    execRecipe opt' upd' m' r = .ok m' := by
  obtain ⟨hne, _⟩ := execRecipe_ok h
  obtain ⟨_, _, h3, _, h5, _⟩ := execRecipe_effect hd h
  have e1 : r.modules.foldlM execModule m' = .ok m' := by
    apply execModules_fix
    intro kv hkv
    obtain ⟨l, l', _, e2, e3⟩ := h3 kv hkv
    exact ⟨l', e3, modEffect_idem (hd.nums kv hkv) (hd.runs kv hkv) e2⟩
  have e2 : r.parameters.foldlM (execParam opt' upd') m' = .ok m' := by
    apply execParams_fix
    intro kv hkv
    obtain ⟨p, p', _, e2, e3⟩ := h5 kv hkv
    refine ⟨p', e3, fold_fix opt' (h2 kv hkv) ?_⟩
    intro k idx hm
    obtain ⟨t1, t2, t3⟩ := fold_thin (h2 kv hkv) (hs kv hkv) e2 k idx hm
    exact ⟨t1, t2, fun u => t3 (hu u)⟩
  unfold execRecipe
  show (r.modules.foldlM execModule m' >>= _) = _
  rw [e1]
  show (if r.parameters = [] then _ else _) = _
  rw [if_neg hne]
  exact e2

/-- A two-convolution model with a batch-norm and its recipe, used in the examples: filter 1 of 3 removed. -/
def exConvs : TModel :=
  ⟨[("c1", ⟨.conv, [(.inChannels, 1), (.outChannels, 3), (.groups, 1)], []⟩),
    ("b1", ⟨.bn, [(.numFeatures, 3)], [(.runningMean, ⟨[3], [1, 2, 3]⟩), (.runningVar, ⟨[3], [4, 5, 6]⟩)]⟩),
    ("c2", ⟨.conv, [(.inChannels, 3), (.outChannels, 2), (.groups, 1)], []⟩)],
   [(("c1", .weight), ⟨⟨[3, 1, 1, 1], [5, 0, 7]⟩, some ⟨[3, 1, 1, 1], [1, 2, 3]⟩, some ⟨[3, 1, 1, 1], [4, 5, 6]⟩, some ⟨[3, 1, 1, 1], [1, 0, 1]⟩⟩),
    (("c1", .bias), ⟨⟨[3], [1, 0, 2]⟩, none, none, none⟩),
    (("b1", .weight), ⟨⟨[3], [1, 1, 1]⟩, none, none, none⟩),
    (("b1", .bias), ⟨⟨[3], [0, 0, 0]⟩, none, none, none⟩),
    (("c2", .weight), ⟨⟨[2, 3, 1, 1], [1, 2, 3, 4, 5, 6]⟩, none, none, some ⟨[2, 3, 1, 1], [1, 1, 1, 1, 1, 1]⟩⟩)]⟩

def exGraph : TGraph :=
  ⟨fun l => if l = "c1" then ["c2"] else [], fun l => if l = "c1" then ["b1"] else [],
   fun l => if l = "c2" then ["c1"] else [], fun l => if l = "c2" then ["b1"] else []⟩

def exRecipe : Recipe :=
  ⟨[("c1", ⟨[(.outChannels, 2)], []⟩), ("c2", ⟨[(.inChannels, 2)], []⟩),
    ("b1", ⟨[(.numFeatures, 2)], [(.runningMean, [0, 2]), (.runningVar, [0, 2])]⟩)],
   [(("c1", .weight), [.two 0 [0, 2]]), (("c1", .bias), [.two 0 [0, 2]]), (("c2", .weight), [.two 1 [0, 2]]),
    (("b1", .weight), [.two 0 [0, 2]]), (("b1", .bias), [.two 0 [0, 2]])]⟩

def exThinned : TModel :=
  ⟨[("c1", ⟨.conv, [(.inChannels, 1), (.outChannels, 2), (.groups, 1)], []⟩),
    ("b1", ⟨.bn, [(.numFeatures, 2)], [(.runningMean, ⟨[2], [1, 3]⟩), (.runningVar, ⟨[2], [4, 6]⟩)]⟩),
    ("c2", ⟨.conv, [(.inChannels, 2), (.outChannels, 2), (.groups, 1)], []⟩)],
   [(("c1", .weight), ⟨⟨[2, 1, 1, 1], [5, 7]⟩, some ⟨[2, 1, 1, 1], [1, 3]⟩, some ⟨[2, 1, 1, 1], [4, 6]⟩, some ⟨[2, 1, 1, 1], [1, 1]⟩⟩),
    (("c1", .bias), ⟨⟨[2], [1, 2]⟩, none, none, none⟩),
    (("b1", .weight), ⟨⟨[2], [1, 1]⟩, none, none, none⟩),
    (("b1", .bias), ⟨⟨[2], [0, 0]⟩, none, none, none⟩),
    (("c2", .weight), ⟨⟨[2, 2, 1, 1], [1, 3, 4, 6]⟩, none, none, some ⟨[2, 2, 1, 1], [1, 1, 1, 1]⟩⟩)]⟩

example : createFilters exGraph exConvs = .ok exRecipe := by decide +kernel
example : execRecipe .sgd true exConvs exRecipe = .ok exThinned := by decide +kernel
example : execRecipe .none false exThinned exRecipe = .ok exThinned := by decide +kernel

/-- Model with a fully-connected successor (feature maps of 2×2). -/
def exFC : TModel :=
  ⟨[("c1", ⟨.conv, [(.inChannels, 1), (.outChannels, 2), (.groups, 1)], []⟩),
    ("fc", ⟨.linear, [(.inFeatures, 8), (.outFeatures, 1)], []⟩)],
   [(("c1", .weight), ⟨⟨[2, 1, 1, 1], [0, 7]⟩, none, none, none⟩),
    (("fc", .weight), ⟨⟨[1, 8], [1, 2, 3, 4, 5, 6, 7, 8]⟩, some ⟨[1, 8], [1, 2, 3, 4, 5, 6, 7, 8]⟩,
      some ⟨[1, 8], [1, 2, 3, 4, 5, 6, 7, 8]⟩, some ⟨[1, 8], [1, 1, 1, 1, 0, 0, 0, 0]⟩⟩)]⟩

def exFCGraph : TGraph := ⟨fun l => if l = "c1" then ["fc"] else [], fun _ => [], fun _ => [], fun _ => []⟩

/-- What `createFilters` returns for it. -/
def exFCRecipe : Recipe :=
  ⟨[("c1", ⟨[(.outChannels, 1)], []⟩), ("fc", ⟨[(.inFeatures, 4)], []⟩)],
   [(("c1", .weight), [.two 0 [1]]), (("fc", .weight), [.four 1 [1] [1, 2, 2, 2] [1, 4]])]⟩

/-- **C42** is violated by recipes for a convolution followed by a fully-connected layer: the first
execution succeeds, the second raises `RuntimeError` (the weights are viewed with the old number of
channels before it is checked whether they are already thin). -/
theorem C42_violated_fully_connected : ∃ (g : TGraph) (m : TModel) (r : Recipe),
    createFilters g m = .ok r ∧ (execRecipe .none false m r).isOk = true ∧
    (execRecipe .none false m r >>= fun m' => execRecipe .none false m' r) = .error .runtime :=
  ⟨exFCGraph, exFC, exFCRecipe, by decide +kernel⟩

/-- **C42** is violated for a list of recipes: loading a checkpoint with two recipes for the same
convolution into the already thinned model raises `AssertionError`. -/
theorem C42_violated_two_recipes : ∃ (m : TModel) (r1 r2 : Recipe),
    (execRecipes m [r1, r2]).isOk = true ∧
    (execRecipes m [r1, r2] >>= fun m' => execRecipes m' [r1, r2]) = .error .assertion :=
  ⟨exConvs, exRecipe,
   ⟨[("c1", ⟨[(.outChannels, 1)], []⟩), ("c2", ⟨[(.inChannels, 1)], []⟩)],
    [(("c1", .weight), [.two 0 [0]]), (("c1", .bias), [.two 0 [0]]), (("c2", .weight), [.two 1 [0]])]⟩,
   by decide +kernel⟩

/-! ## C69: replaying the stored recipes on a fresh model -/

/-- Two dictionaries with the same keys in the same order and related values. -/
def DRel {α β γ : Type} (R : β → γ → Prop) (d : Dict α β) (e : Dict α γ) : Prop :=
  List.Forall₂ (fun kv kv' => kv.1 = kv'.1 ∧ R kv.2 kv'.2) d e

/-- Same architecture: the same modules with the same attributes and statistics of the same shape,
and the same parameters with the same shapes. -/
structure SameShape (m m0 : TModel) : Prop where
  layers : DRel (fun l l0 : TLayer => l.kind = l0.kind ∧ l.attrs = l0.attrs ∧
    DRel (fun t t0 : ST => t.shape = t0.shape) l.running l0.running) m.layers m0.layers
  params : DRel (fun p p0 : TParam => p.data.shape = p0.data.shape) m.params m0.params

/-- No gradient has been computed yet. -/
def Fresh (m : TModel) : Prop := ∀ k p, m.params.get? k = some p → p.grad = none

/-- Training with thinning: anything may happen to the values between two thinning steps; every
thinning step goes through `apply_and_save_recipe`.  The second and fourth component are the recipes
stored with the model. -/
inductive TrainRun : TModel × List Recipe → TModel × List Recipe → Prop
  | refl (s) : TrainRun s s
  | train {s m rs} (m2) : TrainRun s (m, rs) → SameShape m m2 → TrainRun s (m2, rs)
  | thin {s m rs s'} (opt upd r) : TrainRun s (m, rs) → applyAndSave opt upd m rs r = .ok s' → TrainRun s s'

theorem DRel.get {α β γ : Type} [DecidableEq α] {R : β → γ → Prop} {d : Dict α β} {e : Dict α γ} (h : DRel R d e) (k : α) :
    (d.get? k = none ∧ e.get? k = none) ∨ ∃ v w, d.get? k = some v ∧ e.get? k = some w ∧ R v w := by
  induction h with
  | nil => exact Or.inl ⟨rfl, rfl⟩
  | @cons a b l1 l2 hab _ ih =>
    obtain ⟨k1, v⟩ := a
    obtain ⟨k2, w⟩ := b
    obtain ⟨e1, e2⟩ := hab
    simp only at e1 e2
    subst e1
    by_cases c : k1 = k
    · exact Or.inr ⟨v, w, by simp [Dict.get?, c], by simp [Dict.get?, c], e2⟩
    · simpa [Dict.get?, c] using ih

theorem DRel.set {α β γ : Type} [DecidableEq α] {R : β → γ → Prop} {d : Dict α β} {e : Dict α γ} (h : DRel R d e) (k : α)
    {v : β} {w : γ} (hv : R v w) : DRel R (d.set k v) (e.set k w) := by
  induction h with
  | nil => exact List.Forall₂.cons ⟨rfl, hv⟩ .nil
  | @cons a b l1 l2 hab ht ih =>
    obtain ⟨k1, v'⟩ := a
    obtain ⟨k2, w'⟩ := b
    obtain ⟨e1, e2⟩ := hab
    simp only at e1 e2
    subst e1
    by_cases c : k1 = k
    · simp only [Dict.set, c, if_true]; exact List.Forall₂.cons ⟨rfl, hv⟩ ht
    · simp only [Dict.set, c, if_false]; exact List.Forall₂.cons ⟨rfl, e2⟩ ih

/-- Simulation of monadic loops. -/
theorem foldlM_sim {ε σ τ α : Type} {f : σ → α → Except ε σ} {f0 : τ → α → Except ε τ} {R : σ → τ → Prop}
    (hstep : ∀ s t a s', R s t → f s a = .ok s' → ∃ t', f0 t a = .ok t' ∧ R s' t')
    {l : List α} {s s' : σ} {t : τ} (hR : R s t) (h : l.foldlM f s = .ok s') :
    ∃ t', l.foldlM f0 t = .ok t' ∧ R s' t' := by
  induction l generalizing s t with
  | nil => simp [pure, Except.pure] at h; subst h; exact ⟨t, rfl, hR⟩
  | cons a l ih =>
    rw [List.foldlM_cons] at h
    obtain ⟨s1, h1, h2⟩ := ok_bind h
    obtain ⟨t1, e1, hR1⟩ := hstep s t a s1 hR h1
    obtain ⟨t', e2, hR2⟩ := ih hR1 h2
    refine ⟨t', ?_, hR2⟩
    rw [List.foldlM_cons, e1]; exact e2

/-- Parameters related for the replay: same shape, no gradient on the fresh side. -/
def RParam (p p0 : TParam) : Prop := p.data.shape = p0.data.shape ∧ p0.grad = none

theorem indexSelect_sim {t t' t0 : ST} {d : ℕ} {idx : List ℕ} (hs : t.shape = t0.shape)
    (h : t.indexSelect d idx = .ok t') : ∃ t0', t0.indexSelect d idx = .ok t0' ∧ t'.shape = t0'.shape := by
  unfold ST.indexSelect at *
  rw [← hs]
  cases hn : t.shape[d]? with
  | none => rw [hn] at h; cases h
  | some n =>
    rw [hn] at h
    simp only at h ⊢
    by_cases c : (idx.all (· < n)) = true
    · rw [if_pos c] at h ⊢
      cases h
      exact ⟨_, rfl, rfl⟩
    · rw [if_neg c] at h; cases h

theorem exec_two_sim {opt : OptKind} {upd : Bool} {p p' p0 : TParam} {d : ℕ} {idx : List ℕ} (hR : RParam p p0)
    (h : execDirective opt upd p (.two d idx) = .ok p') :
    ∃ p0', execDirective .none false p0 (.two d idx) = .ok p0' ∧ RParam p' p0' := by
  obtain ⟨p1, p2, h1, h2, h3⟩ := exec_two_split h
  have hshape := (exec_two_shape h).2.1
  obtain ⟨n, a1, a2, a3, _, _, _, a7, a8⟩ := dataThin_ok h1
  have key : ∃ q, dataThin p0 d idx = .ok q ∧ q.data.shape = p0.data.shape.set d idx.length ∧ q.grad = none := by
    have hs0 : p0.data.size d = .ok n := size_of (by rw [← hR.1]; exact a1)
    unfold dataThin
    by_cases c : n ≠ idx.length
    · obtain ⟨t0', e1, e2⟩ := indexSelect_sim hR.1 (a7 c)
      refine ⟨{ p0 with data := t0' }, ?_, ?_, hR.2⟩
      · show (p0.data.size d >>= _) = _
        rw [hs0]
        show (if n ≠ idx.length then _ else _) = _
        rw [if_pos c, if_neg (by omega)]
        show (p0.data.indexSelect d idx >>= _) = _
        rw [e1]; rfl
      · show t0'.shape = _
        rw [← e2, a3, hR.1]
    · have hc : n = idx.length := by simpa using c
      refine ⟨p0, ?_, ?_, hR.2⟩
      · show (p0.data.size d >>= _) = _
        rw [hs0]
        show (if n ≠ idx.length then _ else _) = _
        rw [if_neg c]; rfl
      · rw [set_same]; rw [← hR.1, a1, hc]
  obtain ⟨q, e1, e2, e3⟩ := key
  refine ⟨q, ?_, ?_, e3⟩
  · unfold execDirective
    show (dataThin p0 d idx >>= _) = _
    rw [e1]
    show (gradThin .none q d idx >>= _) = _
    have : gradThin .none q d idx = .ok q := by unfold gradThin; rw [e3]
    rw [this]
    rfl
  · rw [hshape, e2, hR.1]

theorem view_ok {t t' : ST} {s : List ℕ} (h : t.view s = .ok t') : s.prod = t.shape.prod ∧ t' = ⟨s, t.data⟩ := by
  unfold ST.view at h
  split at h
  · rename_i c; cases h; exact ⟨c, rfl⟩
  · cases h

/-- Shape effect of the 4-tuple branch, and its preconditions on the shape of the weights. -/
theorem fourThin_ok {opt : OptKind} {p p' : TParam} {d : ℕ} {idx v4 v2 : List ℕ} (h : fourThin opt p d idx v4 v2 = .ok p') :
    v4.prod = p.data.shape.prod ∧ p'.data.shape = v2 ∧ p'.mask = p.mask ∧ (p.grad = none → p'.grad = none) ∧
    ∃ n, p.data.shape[d]? = some n ∧
      (n ≠ idx.length → ∃ sel, ST.indexSelect ⟨v4, p.data.data⟩ d idx = .ok sel ∧ v2.prod = sel.shape.prod ∧ p'.data = ⟨v2, sel.data⟩) ∧
      (n = idx.length → v2.prod = p.data.shape.prod ∧ p'.data = ⟨v2, p.data.data⟩) := by
  unfold fourThin at h
  obtain ⟨sel, h1, h⟩ := ok_bind h
  obtain ⟨hv, rfl⟩ := view_ok h1
  obtain ⟨n, hn, h⟩ := ok_bind h
  obtain ⟨q, hq, h⟩ := ok_bind h
  obtain ⟨dd, hd, h⟩ := ok_bind h
  obtain ⟨hw, rfl⟩ := view_ok hd
  cases h
  by_cases c : n ≠ idx.length
  · rw [if_pos c] at hq
    obtain ⟨s', hs', hq⟩ := ok_bind hq
    have key : q.data = s' ∧ q.mask = p.mask ∧ (p.grad = none → q.grad = none) := by
      cases hg : p.grad with
      | none =>
        simp only [hg] at hq
        cases hq; exact ⟨rfl, rfl, fun _ => rfl⟩
      | some gr =>
        simp only [hg] at hq
        obtain ⟨gv, _, hq⟩ := ok_bind hq
        obtain ⟨gn, _, hq⟩ := ok_bind hq
        by_cases c2 : gn ≠ idx.length
        · rw [if_pos c2] at hq
          obtain ⟨g', _, hq⟩ := ok_bind hq
          obtain ⟨e1, e2, e3, _⟩ := optThin_ok hq
          exact ⟨e1, e3, by simp⟩
        · rw [if_neg c2] at hq
          cases hq; exact ⟨rfl, rfl, by simp⟩
    obtain ⟨k1, k2, k3⟩ := key
    refine ⟨hv, rfl, k2, fun hg => by simp [k3 hg], n, size_ok hn, fun _ => ⟨s', hs', by rw [hw, k1], by simp [k1]⟩, fun e => absurd e c⟩
  · rw [if_neg c] at hq
    cases hq
    exact ⟨hv, rfl, rfl, fun hg => by simp [hg], n, size_ok hn, fun e => absurd e c, fun _ => ⟨hw, rfl⟩⟩

theorem exec_four_split {opt : OptKind} {upd : Bool} {p p' : TParam} {d : ℕ} {idx v4 v2 : List ℕ}
    (h : execDirective opt upd p (.four d idx v4 v2) = .ok p') :
    ∃ p1, fourThin opt p d idx v4 v2 = .ok p1 ∧ maskThin upd p1 d idx = .ok p' := by
  unfold execDirective at h
  obtain ⟨p1, h1, h⟩ := ok_bind h
  exact ⟨p1, h1, h⟩

theorem exec_four_sim {opt : OptKind} {upd : Bool} {p p' p0 : TParam} {d : ℕ} {idx v4 v2 : List ℕ} (hR : RParam p p0)
    (h : execDirective opt upd p (.four d idx v4 v2) = .ok p') :
    ∃ p0', execDirective .none false p0 (.four d idx v4 v2) = .ok p0' ∧ RParam p' p0' := by
  obtain ⟨p1, h1, h2⟩ := exec_four_split h
  obtain ⟨a1, a2, _, _, n, a5, a6, a7⟩ := fourThin_ok h1
  have hsh : p'.data.shape = v2 := by rw [(maskThin_ok h2).1, a2]
  have hview : p0.data.view v4 = .ok ⟨v4, p0.data.data⟩ := by unfold ST.view; rw [← hR.1, if_pos a1]
  have hsize : p0.data.size d = .ok n := size_of (by rw [← hR.1]; exact a5)
  have key : ∃ q, fourThin .none p0 d idx v4 v2 = .ok q ∧ q.data.shape = v2 ∧ q.grad = none := by
    unfold fourThin
    rw [hview]
    simp only [bind, Except.bind]
    rw [hsize]
    simp only
    by_cases c : n ≠ idx.length
    · obtain ⟨sel, e1, e2, _⟩ := a6 c
      obtain ⟨sel0, f1, f2⟩ := indexSelect_sim (t := ⟨v4, p.data.data⟩) (t0 := ⟨v4, p0.data.data⟩) rfl e1
      rw [if_pos c, f1]
      simp only [hR.2, pure, Except.pure]
      have : sel0.view v2 = .ok ⟨v2, sel0.data⟩ := by unfold ST.view; rw [if_pos (by rw [e2, f2])]
      rw [this]
      exact ⟨_, rfl, rfl, by simp⟩
    · have hc : n = idx.length := by simpa using c
      rw [if_neg c]
      simp only
      have : p0.data.view v2 = .ok ⟨v2, p0.data.data⟩ := by
        unfold ST.view; rw [← hR.1, if_pos (a7 hc).1]
      rw [this]
      exact ⟨_, rfl, rfl, by simp [hR.2]⟩
  obtain ⟨q, e1, e2, e3⟩ := key
  refine ⟨q, ?_, by rw [hsh, e2], e3⟩
  unfold execDirective
  show (fourThin .none p0 d idx v4 v2 >>= _) = _
  rw [e1]; rfl

/-- Models related for the replay. -/
structure RModel (m m0 : TModel) : Prop where
  layers : DRel (fun l l0 : TLayer => l.kind = l0.kind ∧ l.attrs = l0.attrs ∧
    DRel (fun t t0 : ST => t.shape = t0.shape) l.running l0.running) m.layers m0.layers
  params : DRel RParam m.params m0.params

theorem execModule_sim {m m' m0 : TModel} {kv : String × ModDirs} (hR : RModel m m0) (h : execModule m kv = .ok m') :
    ∃ m0', execModule m0 kv = .ok m0' ∧ RModel m' m0' := by
  unfold execModule at h
  obtain ⟨l, hl, h⟩ := ok_bind h
  obtain ⟨l', hl', h⟩ := ok_bind h
  cases h
  have hg : m.layers.get? kv.1 = some l := by
    unfold Dict.getE at hl
    cases e : m.layers.get? kv.1 with
    | none => rw [e] at hl; cases hl
    | some v => rw [e] at hl; cases hl; rfl
  rcases hR.layers.get kv.1 with ⟨e, _⟩ | ⟨v, w, e1, e2, e3⟩
  · rw [e] at hg; cases hg
  · rw [hg] at e1; cases e1
    have hsim : ∃ w', kv.2.runs.foldlM execRunning
        { w with attrs := kv.2.nums.foldl (fun a (av : Attr × ℕ) => a.set av.1 av.2) w.attrs } = .ok w' ∧
        (l'.kind = w'.kind ∧ l'.attrs = w'.attrs ∧ DRel (fun t t0 : ST => t.shape = t0.shape) l'.running w'.running) := by
      refine foldlM_sim (R := fun (l l0 : TLayer) => l.kind = l0.kind ∧ l.attrs = l0.attrs ∧
        DRel (fun t t0 : ST => t.shape = t0.shape) l.running l0.running) ?_ ?_ hl'
      · rintro s t a s' ⟨r1, r2, r3⟩ hs
        unfold execRunning at hs ⊢
        rcases r3.get a.1 with ⟨e, _⟩ | ⟨x, y, x1, x2, x3⟩
        · rw [e] at hs; cases hs
        · rw [x1] at hs; rw [x2]
          obtain ⟨n, hn, hs⟩ := ok_bind hs
          have hn0 : y.size 0 = .ok n := size_of (by rw [← x3]; exact size_ok hn)
          simp only [bind, Except.bind]
          rw [hn0]
          simp only
          by_cases c : n ≠ a.2.length
          · rw [if_pos c] at hs ⊢
            obtain ⟨x', hx', hs⟩ := ok_bind hs
            cases hs
            obtain ⟨y', hy', hxy⟩ := indexSelect_sim x3 hx'
            rw [hy']
            exact ⟨_, rfl, r1, r2, r3.set a.1 hxy⟩
          · rw [if_neg c] at hs ⊢
            cases hs
            exact ⟨_, rfl, r1, r2, r3⟩
      · exact ⟨e3.1, by rw [e3.2.1], e3.2.2⟩
    obtain ⟨w', hw', hrel⟩ := hsim
    refine ⟨{ m0 with layers := m0.layers.set kv.1 w' }, ?_, ⟨hR.layers.set kv.1 hrel, hR.params⟩⟩
    unfold execModule
    have e : m0.layers.getE kv.1 = .ok w := by unfold Dict.getE; rw [e2]
    show (m0.layers.getE kv.1 >>= _) = _
    rw [e]
    show (kv.2.runs.foldlM execRunning _ >>= _) = _
    rw [hw']; rfl

theorem execParam_sim {opt : OptKind} {upd : Bool} {m m' m0 : TModel} {kv : PName × List Directive} (hR : RModel m m0)
    (h : execParam opt upd m kv = .ok m') : ∃ m0', execParam .none false m0 kv = .ok m0' ∧ RModel m' m0' := by
  unfold execParam at h ⊢
  rcases hR.params.get kv.1 with ⟨e, _⟩ | ⟨v, w, e1, e2, e3⟩
  · rw [e] at h; cases h
  · rw [e1] at h; rw [e2]
    obtain ⟨p', hp', h⟩ := ok_bind h
    cases h
    obtain ⟨w', hw', hr⟩ := foldlM_sim (f0 := execDirective .none false) (R := RParam) (by
      intro s t a s' hst hs
      cases a with
      | two d idx => exact exec_two_sim hst hs
      | four d idx v4 v2 => exact exec_four_sim hst hs) e3 hp'
    refine ⟨{ m0 with params := m0.params.set kv.1 w' }, ?_, ⟨hR.layers, hR.params.set kv.1 hr⟩⟩
    simp only [bind, Except.bind]
    rw [hw']; rfl

theorem execRecipe_sim {opt : OptKind} {upd : Bool} {m m' m0 : TModel} {r : Recipe} (hR : RModel m m0)
    (h : execRecipe opt upd m r = .ok m') : ∃ m0', execRecipe .none false m0 r = .ok m0' ∧ RModel m' m0' := by
  obtain ⟨hne, m1, h1, h2⟩ := execRecipe_ok h
  obtain ⟨n1, e1, r1⟩ := foldlM_sim (f0 := execModule) (R := RModel) (fun s t a s' hst hs => execModule_sim hst hs) hR h1
  obtain ⟨n2, e2, r2⟩ := foldlM_sim (f0 := execParam .none false) (R := RModel) (fun s t a s' hst hs => execParam_sim hst hs) r1 h2
  refine ⟨n2, ?_, r2⟩
  unfold execRecipe
  show (r.modules.foldlM execModule m0 >>= _) = _
  rw [e1]
  show (if r.parameters = [] then _ else _) = _
  rw [if_neg hne]
  exact e2

theorem DRel.trans' {α β γ δ : Type} {R : β → γ → Prop} {S : β → δ → Prop} {T : δ → γ → Prop}
    (h : ∀ a b c, S a b → R a c → T b c) {d : Dict α β} {e : Dict α γ} {f : Dict α δ} (h1 : DRel S d f) (h2 : DRel R d e) :
    DRel T f e := by
  unfold DRel at *
  induction h1 generalizing e with
  | nil => cases h2; exact .nil
  | @cons a b l1 l2 hab _ ih =>
    cases h2 with
    | cons hac ht => exact .cons ⟨hab.1.symm.trans hac.1, h _ _ _ hab.2 hac.2⟩ (ih ht)

theorem RModel.of_sameShape {m m2 m0 : TModel} (h : SameShape m m2) (hR : RModel m m0) : RModel m2 m0 := by
  refine ⟨?_, ?_⟩
  · refine DRel.trans' ?_ h.layers hR.layers
    rintro a b c ⟨s1, s2, s3⟩ ⟨r1, r2, r3⟩
    refine ⟨s1.symm.trans r1, s2.symm.trans r2, ?_⟩
    exact DRel.trans' (fun a b c h1 h2 => h1.symm.trans h2) s3 r3
  · exact DRel.trans' (fun a b c h1 h2 => ⟨h1.symm.trans h2.1, h2.2⟩) h.params hR.params

theorem DRel.imp_mem {α β γ : Type} {R S : β → γ → Prop} {d : Dict α β} {e : Dict α γ} (h : DRel R d e)
    (hi : ∀ kv ∈ e, ∀ v, R v kv.2 → S v kv.2) : DRel S d e := by
  unfold DRel at *
  induction h with
  | nil => exact .nil
  | @cons a b l1 l2 hab _ ih =>
    exact .cons ⟨hab.1, hi b (by simp) a.2 hab.2⟩ (ih fun kv hkv => hi kv (by simp [hkv]))

/-- **C69** For every training history with any number of thinning steps, any training in between,
and any optimizer: executing the recipes stored with the final model, in order, on a freshly built
model of the original architecture succeeds and gives exactly the architecture of the final model
(attributes, shapes of parameters and of statistics) – so its checkpoint can be loaded. -/
theorem C69_replay (m m' m0 : TModel) (rs : List Recipe)
    (hrun : TrainRun (m, []) (m', rs)) (hs : SameShape m m0) (hf : ∀ kv ∈ m0.params, kv.2.grad = none) :
    ∃ m0', execRecipes m0 rs = .ok m0' ∧ SameShape m' m0' := by
  have main : ∀ s s' : TModel × List Recipe, TrainRun s s' → s = (m, []) →
      ∃ m0', execRecipes m0 s'.2 = .ok m0' ∧ RModel s'.1 m0' := by
    intro s s' hr
    induction hr with
    | refl =>
      rintro rfl
      refine ⟨m0, rfl, hs.layers, ?_⟩
      exact hs.params.imp_mem fun kv hkv v hv => ⟨hv, hf kv hkv⟩
    | @train m1 rs1 m2 _ hsame ih =>
      intro e
      obtain ⟨m0', e1, e2⟩ := ih e
      exact ⟨m0', e1, RModel.of_sameShape hsame e2⟩
    | @thin m1 rs1 s' opt upd r _ happ ih =>
      intro e
      obtain ⟨m0', e1, e2⟩ := ih e
      unfold applyAndSave at happ
      split at happ
      · cases happ; exact ⟨m0', e1, e2⟩
      · obtain ⟨m2, hm2, happ⟩ := ok_bind happ
        cases happ
        obtain ⟨m3, h3, r3⟩ := execRecipe_sim e2 hm2
        refine ⟨m3, ?_, r3⟩
        unfold execRecipes at e1 ⊢
        rw [List.foldlM_append]
        simp only [bind, Except.bind]
        simp only at e1
        rw [e1]
        simp [h3, bind, Except.bind, pure, Except.pure]
  obtain ⟨m0', h1, h2⟩ := main _ _ hrun rfl
  exact ⟨m0', h1, h2.layers, h2.params.imp_mem fun kv _ v hv => hv.1⟩

theorem DRel.refl {α β : Type} {R : β → β → Prop} (hR : ∀ b, R b b) (d : Dict α β) : DRel R d d := by
  unfold DRel
  induction d with
  | nil => exact .nil
  | cons a l ih => exact .cons ⟨rfl, hR _⟩ ih

/-- The hypotheses are met by a run with one thinning step of the example model. -/
example : ∃ rs, TrainRun (exConvs, []) (exThinned, rs) ∧ rs = [exRecipe] :=
  ⟨[exRecipe], .thin .sgd true exRecipe (.refl _) (by decide +kernel), rfl⟩
example : ∃ m0, SameShape exConvs m0 ∧ (∀ kv ∈ m0.params, kv.2.grad = none) ∧ (execRecipes m0 [exRecipe]).isOk = true :=
  ⟨{ exConvs with params := exConvs.params.map fun kv => (kv.1, { kv.2 with grad := none }) },
   ⟨DRel.refl (fun _ => ⟨rfl, rfl, DRel.refl (R := fun t t0 : ST => t.shape = t0.shape) (fun _ => rfl) _⟩) _,
    by unfold DRel exConvs; simp⟩, by decide +kernel, by decide +kernel⟩

end Verif
