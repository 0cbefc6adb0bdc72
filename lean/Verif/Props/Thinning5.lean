import Verif.Lemmas.Pick
/-!
# C41 for whole networks

A network is built from its input by convolutions, batch-norms, operations on each feature map (activation,
pooling), and channel-wise binary operations (residual additions); it may end in a fully-connected layer.
It is evaluated with the weights, biases and statistics found in the model under the layers' names, so
that the thinned model is evaluated by the same definition.
-/
namespace Verif

/-! ## Specification -/

/-- A network; `P` are the positions of a feature map. -/
inductive NExpr (P : Type) where
  | input
  /-- convolution: layer name and, for every output position, the input positions its kernel sees -/
  | conv (name : String) (win : P → List (Option P)) (e : NExpr P)
  /-- batch normalization -/
  | bn (name : String) (e : NExpr P)
  /-- the same operation on every feature map -/
  | map (f : (P → ℚ) → (P → ℚ)) (e : NExpr P)
  /-- the same operation on corresponding feature maps -/
  | zip (f : (P → ℚ) → (P → ℚ) → (P → ℚ)) (a b : NExpr P)

/-- A parameter's values. -/
def pdata (m : TModel) (k : PName) : Option ST := (m.params.get? k).map (·.data)
/-- A running statistic. -/
def rdata (m : TModel) (l : String) (a : RAttr) : Option ST := (m.layers.get? l).bind fun lay => lay.running.get? a
/-- Entry of a vector. -/
def vec (t : Option ST) (c : ℕ) : ℚ := ((t.map (·.data)).getD []).getD c 0
/-- The weights of a layer. -/
def wdata (m : TModel) (l : String) : ST := (pdata m (l, .weight)).getD ⟨[], []⟩

/-- The feature maps a network computes from input maps `x`; `bnf γ β μ σ v` is the normalization of a
value. -/
def NExpr.eval {P : Type} (m : TModel) (bnf : ℚ → ℚ → ℚ → ℚ → ℚ → ℚ) (x : List (P → ℚ)) : NExpr P → List (P → ℚ)
  | .input => x
  | .conv l win e =>
    (List.range ((wdata m l).shape.headD 0)).map fun o p =>
      layerOut (wdata m l) (pdata m (l, .bias)) ((e.eval m bnf x).flatMap fun f => (win p).map fun q => q.elim 0 f) o
  | .bn l e =>
    (List.range (e.eval m bnf x).length).map fun c p =>
      bnf (vec (pdata m (l, .weight)) c) (vec (pdata m (l, .bias)) c) (vec (rdata m l .runningMean) c)
        (vec (rdata m l .runningVar) c) ((e.eval m bnf x).getD c (fun _ => 0) p)
  | .map f e => (e.eval m bnf x).map f
  | .zip f a b => List.zipWith f (a.eval m bnf x) (b.eval m bnf x)

/-- A fully-connected layer. -/
def linEval (m : TModel) (l : String) (y : List ℚ) : List ℚ :=
  (List.range ((wdata m l).shape.headD 0)).map fun o => layerOut (wdata m l) (pdata m (l, .bias)) y o

/-- The feature maps flattened, channel by channel, over the positions `grid`. -/
def flatten {P : Type} (grid : List P) (xs : List (P → ℚ)) : List ℚ :=
  xs.flatMap fun f => grid.map f

/-- A classifier head: a fully-connected layer `l` on the flattened feature maps, then further
fully-connected layers, each after some function (an activation) of the previous result. -/
def headEval {P : Type} (m : TModel) (l : String) (rest : List (String × (List ℚ → List ℚ))) (grid : List P)
    (xs : List (P → ℚ)) : List ℚ :=
  rest.foldl (fun y lf => linEval m lf.1 (lf.2 y)) (linEval m l (flatten grid xs))

/-- The convolutions whose outputs reach the end of the network without passing another convolution. -/
def NExpr.sources {P : Type} : NExpr P → List String
  | .input => []
  | .conv l _ _ => [l]
  | .bn _ e => e.sources
  | .map _ e => e.sources
  | .zip _ a b => a.sources ++ b.sources

/-- The channels that survive: those of the filters with a non-zero weight. -/
def NExpr.kept {P : Type} (m : TModel) (x : List (P → ℚ)) : NExpr P → List ℕ
  | .input => List.range x.length
  | .conv l _ _ => nonzeroRows (wdata m l)
  | .bn _ e => e.kept m x
  | .map _ e => e.kept m x
  | .zip _ a _ => a.kept m x

/-- Tensor shapes fit the network. -/
def NExpr.WellFormed {P : Type} (m : TModel) (bnf : ℚ → ℚ → ℚ → ℚ → ℚ → ℚ) (x : List (P → ℚ)) : NExpr P → Prop
  | .input => True
  | .conv l win e => e.WellFormed m bnf x ∧ ∃ lay w O kh kw, m.layers.get? l = some lay ∧ lay.kind = .conv ∧
      m.params.get? (l, .weight) = some w ∧ w.data.shape = [O, (e.eval m bnf x).length, kh, kw] ∧ w.data.WF ∧
      (∀ b, m.params.get? (l, .bias) = some b → b.data.shape = [O] ∧ b.data.WF) ∧ ∀ p, (win p).length = kh * kw
  | .bn l e => e.WellFormed m bnf x ∧ ∃ lay, m.layers.get? l = some lay ∧ lay.kind = .bn ∧
      (∀ k, ∃ t, m.params.get? (l, k) = some t ∧ t.data.shape = [(e.eval m bnf x).length] ∧ t.data.WF) ∧
      ∀ a, ∃ t, lay.running.get? a = some t ∧ t.shape = [(e.eval m bnf x).length] ∧ t.WF
  | .map _ e => e.WellFormed m bnf x
  | .zip _ a b => a.WellFormed m bnf x ∧ b.WellFormed m bnf x ∧ (a.eval m bnf x).length = (b.eval m bnf x).length

/-- Merged branches were pruned identically. -/
def NExpr.Agree {P : Type} (m : TModel) (x : List (P → ℚ)) : NExpr P → Prop
  | .input => True
  | .conv _ _ e => e.Agree m x
  | .bn _ e => e.Agree m x
  | .map _ e => e.Agree m x
  | .zip _ a b => a.Agree m x ∧ b.Agree m x ∧ a.kept m x = b.kept m x

/-- Removed channels carry nothing where a convolution reads them. -/
def NExpr.Dead {P : Type} (m : TModel) (bnf : ℚ → ℚ → ℚ → ℚ → ℚ → ℚ) (x : List (P → ℚ)) : NExpr P → Prop
  | .input => True
  | .conv _ _ e => e.Dead m bnf x ∧ ∀ c < (e.eval m bnf x).length, c ∉ e.kept m x →
      ∀ p, (e.eval m bnf x).getD c (fun _ => 0) p = 0
  | .bn _ e => e.Dead m bnf x
  | .map _ e => e.Dead m bnf x
  | .zip _ a b => a.Dead m bnf x ∧ b.Dead m bnf x

/-- A condition on each operation that makes removed channels carry nothing: the bias of a zero filter is
zero, and what follows maps zero to zero. -/
def NExpr.Quiet {P : Type} (m : TModel) (bnf : ℚ → ℚ → ℚ → ℚ → ℚ → ℚ) (x : List (P → ℚ)) : NExpr P → Prop
  | .input => True
  | .conv l _ e => e.Quiet m bnf x ∧ ∀ c, c ∉ nonzeroRows (wdata m l) → ((pdata m (l, .bias)).bind fun t => t.data[c]?).getD 0 = 0
  | .bn l e => e.Quiet m bnf x ∧ ∀ c, c ∉ e.kept m x →
      bnf (vec (pdata m (l, .weight)) c) (vec (pdata m (l, .bias)) c) (vec (rdata m l .runningMean) c) (vec (rdata m l .runningVar) c) 0 = 0
  | .map f e => e.Quiet m bnf x ∧ ∀ p, f (fun _ => 0) p = 0
  | .zip f a b => a.Quiet m bnf x ∧ b.Quiet m bnf x ∧ ∀ p, f (fun _ => 0) (fun _ => 0) p = 0

/-- The removed channels of the network's result carry nothing. -/
def NExpr.SilentEnd {P : Type} (m : TModel) (bnf : ℚ → ℚ → ℚ → ℚ → ℚ → ℚ) (x : List (P → ℚ)) (e : NExpr P) : Prop :=
  ∀ c < (e.eval m bnf x).length, c ∉ e.kept m x → ∀ p, (e.eval m bnf x).getD c (fun _ => 0) p = 0

/-- The graph's answers are those of the network. -/
def NExpr.Matches {P : Type} (g : TGraph) (m : TModel) : NExpr P → Prop
  | .input => True
  | .conv l _ e => e.Matches g m ∧ ∀ a, IsConvOf m a → (l ∈ g.succs a ↔ a ∈ e.sources)
  | .bn l e => e.Matches g m ∧ ∀ a, IsConvOf m a → (l ∈ g.succBN a ↔ a ∈ e.sources)
  | .map _ e => e.Matches g m
  | .zip _ a b => a.Matches g m ∧ b.Matches g m

/-- The fully-connected layer `l` fits the network `e` in front of it: square feature maps, weights and
attributes in accordance, and the convolutions in front of it know their number of filters. -/
def FCWellFormed {P : Type} (m : TModel) (bnf : ℚ → ℚ → ℚ → ℚ → ℚ → ℚ) (x : List (P → ℚ)) (e : NExpr P) (l : String)
    (grid : List P) : Prop :=
  ∃ lay w O side, m.layers.get? l = some lay ∧ lay.kind = .linear ∧ m.params.get? (l, .weight) = some w ∧
    w.data.shape = [O, (e.eval m bnf x).length * (side * side)] ∧ w.data.WF ∧ 0 < O ∧ 0 < side ∧
    grid.length = side * side ∧ lay.attrs.get? .outFeatures = some O ∧
    lay.attrs.get? .inFeatures = some ((e.eval m bnf x).length * (side * side)) ∧
    ∀ a ∈ e.sources, ∀ la, m.layers.get? a = some la → la.attrs.get? .outChannels = some (e.eval m bnf x).length

/-- A fully-connected layer none of whose input comes from a convolution directly. -/
def Inner (g : TGraph) (m : TModel) (l : String) : Prop :=
  (∃ lay, m.layers.get? l = some lay ∧ lay.kind = .linear) ∧ ∀ a, IsConvOf m a → l ∉ g.succs a

/-! ## Proof -/

section
variable {P : Type} {m : TModel} {bnf : ℚ → ℚ → ℚ → ℚ → ℚ → ℚ} {x : List (P → ℚ)}

theorem wdata_of {l : String} {w : TParam} (h : m.params.get? (l, .weight) = some w) : wdata m l = w.data := by
  simp [wdata, pdata, h]

theorem kept_filter (e : NExpr P) (hw : e.WellFormed m bnf x) (ha : e.Agree m x) :
    ∃ q, e.kept m x = (List.range (e.eval m bnf x).length).filter q := by
  induction e with
  | input => exact ⟨fun _ => true, by simp [NExpr.kept, NExpr.eval]⟩
  | conv l win e ih =>
    refine ⟨fun i => ((((wdata m l).rows[i]?.getD []).map fun x => |x|).sum) ≠ 0, ?_⟩
    simp only [NExpr.kept, NExpr.eval, List.length_map, List.length_range]
    rfl
  | bn l e ih => simpa [NExpr.kept, NExpr.eval] using ih hw.1 ha
  | map f e ih => simpa [NExpr.kept, NExpr.eval] using ih hw ha
  | zip f a b iha ihb =>
    have := iha hw.1 ha.1
    simpa [NExpr.kept, NExpr.eval, hw.2.2] using this

theorem kept_lt (e : NExpr P) (hw : e.WellFormed m bnf x) (ha : e.Agree m x) :
    ∀ c ∈ e.kept m x, c < (e.eval m bnf x).length := by
  obtain ⟨q, hq⟩ := kept_filter (bnf := bnf) e hw ha
  intro c hc
  rw [hq] at hc
  exact List.mem_range.1 (List.mem_filter.1 hc).1

theorem filter_full {n : ℕ} {q : ℕ → Bool} (h : ¬ ((List.range n).filter q).length < n) :
    (List.range n).filter q = List.range n :=
  List.filter_sublist.eq_of_length_le (by simpa using h)

/-- The surviving channels are those of any source, and all of them if there is none. -/
theorem kept_sources (e : NExpr P) (ha : e.Agree m x) :
    (∀ a ∈ e.sources, e.kept m x = nonzeroRows (wdata m a)) ∧
    (e.sources = [] → e.kept m x = List.range (e.eval m bnf x).length ∨ ¬ e.WellFormed m bnf x) := by
  induction e with
  | input => exact ⟨by simp [NExpr.sources], fun _ => Or.inl rfl⟩
  | conv l win e ih => exact ⟨by simp [NExpr.sources, NExpr.kept], by simp [NExpr.sources]⟩
  | bn l e ih =>
    obtain ⟨h1, h2⟩ := ih ha
    refine ⟨h1, fun hs => ?_⟩
    rcases h2 hs with h | h
    · exact Or.inl (by simpa [NExpr.kept, NExpr.eval] using h)
    · exact Or.inr fun hw => h hw.1
  | map f e ih =>
    obtain ⟨h1, h2⟩ := ih ha
    refine ⟨h1, fun hs => ?_⟩
    rcases h2 hs with h | h
    · exact Or.inl (by simpa [NExpr.kept, NExpr.eval] using h)
    · exact Or.inr h
  | zip f a b iha ihb =>
    obtain ⟨h1, h2⟩ := iha ha.1
    obtain ⟨h3, h4⟩ := ihb ha.2.1
    refine ⟨?_, fun hs => ?_⟩
    · intro c hc
      rcases List.mem_append.1 hc with hc | hc
      · exact h1 c hc
      · show a.kept m x = _
        rw [ha.2.2]; exact h3 c hc
    · have : a.sources = [] := (List.append_eq_nil_iff.1 hs).1
      rcases h2 this with h | h
      · by_cases hw : (NExpr.zip f a b).WellFormed m bnf x
        · exact Or.inl (by simpa [NExpr.kept, NExpr.eval, hw.2.2] using h)
        · exact Or.inr hw
      · exact Or.inr fun hw => h hw.1

/-- Sources have a weights tensor with as many filters as the network has channels. -/
theorem sources_wf (e : NExpr P) (hw : e.WellFormed m bnf x) : ∀ a ∈ e.sources,
    ∃ w lay, m.params.get? (a, .weight) = some w ∧ m.layers.get? a = some lay ∧ lay.kind = .conv ∧
      w.data.shape.length = 4 ∧ w.data.shape.headD 0 = (e.eval m bnf x).length := by
  induction e with
  | input => simp [NExpr.sources]
  | conv l win e ih =>
    obtain ⟨_, lay, w, O, kh, kw, h1, h2, h3, h4, _⟩ := hw
    intro a hc
    simp [NExpr.sources] at hc
    subst hc
    refine ⟨w, lay, h3, h1, h2, by rw [h4]; rfl, ?_⟩
    simp [NExpr.eval, wdata_of h3]
  | bn l e ih =>
    intro a hc
    have := ih hw.1 a hc
    simpa [NExpr.eval] using this
  | map f e ih =>
    intro a hc
    have := ih hw a hc
    simpa [NExpr.eval] using this
  | zip f a b iha ihb =>
    intro c hc
    have hl := hw.2.2
    rcases List.mem_append.1 hc with hc | hc
    · have := iha hw.1 c hc
      simpa [NExpr.eval, hl] using this
    · have := ihb hw.2.1 c hc
      simpa [NExpr.eval, hl] using this

theorem thinned_wdata (hn : m.params.Nodup) {a : String} {idx : List ℕ} (h : Thinned m a idx) :
    idx = nonzeroRows (wdata m a) ∧ idx.length < (wdata m a).shape.headD 0 := by
  obtain ⟨p, h1, _, h3, h4, _⟩ := h
  rw [wdata_of (Dict.get?_of_mem hn h1)]
  exact ⟨h3, h4⟩

theorem getD_map_sel {i : List ℕ} {xs : List (P → ℚ)} {j : ℕ} (hj : j < i.length) :
    (i.map fun c => xs.getD c (fun _ => 0)).getD j (fun _ => 0) = xs.getD (i.getD j 0) (fun _ => 0) := by
  rw [List.getD_eq_getElem?_getD, List.getElem?_map, List.getElem?_eq_getElem hj]
  simp [List.getD_eq_getElem?_getD, List.getElem?_eq_getElem hj]

theorem getD_map_q {i : List ℕ} {t : Tensor} {j : ℕ} (hj : j < i.length) :
    (i.map fun c => t.getD c 0).getD j 0 = t.getD (i.getD j 0) 0 := by
  rw [List.getD_eq_getElem?_getD, List.getElem?_map, List.getElem?_eq_getElem hj]
  simp [List.getD_eq_getElem?_getD, List.getElem?_eq_getElem hj]

/-- The bias term of a thinned layer. -/
theorem bias_sel {opt : OptKind} {upd : Bool} {m' : TModel} {r : Recipe} (hd : r.IsDict) (he : execRecipe opt upd m r = .ok m')
    {l : String} {O : ℕ} {i0 : List ℕ} (hlt : ∀ i ∈ i0, i < O)
    (hb : ∀ b, m.params.get? (l, .bias) = some b → b.data.shape = [O] ∧ b.data.WF)
    (hds : ∀ d ∈ r.dirs (l, .bias), d = .two 0 i0 ∧ i0.length < O)
    (h0 : m.params.has (l, .bias) = true → .two 0 i0 ∈ r.dirs (l, .bias) ∨ i0 = List.range O) {j : ℕ} (hj : j < i0.length) :
    (((pdata m' (l, .bias)).bind fun t => t.data[j]?).getD 0) = ((pdata m (l, .bias)).bind fun t => t.data[i0.getD j 0]?).getD 0 := by
  rcases exec_param hd he (l, .bias) with ⟨e1, e2, _⟩ | ⟨p, p', e1, e2, e3⟩
  · simp [pdata, e1, e2]
  · obtain ⟨s1, s2⟩ := hb p e1
    have hdat := fold_pick1 s1 s2 hds (h0 (has_eq.2 ⟨p, e1⟩)) e3
    have hl : p.data.data.length = O := by rw [s2, s1]; simp
    have hlt' : i0.getD j 0 < p.data.data.length := by rw [hl]; exact hlt _ (getD_mem hj)
    have hlt2 : i0[j] < List.length p.data.data := by
      rw [List.getD_eq_getElem?_getD, List.getElem?_eq_getElem hj] at hlt'; exact hlt'
    simp only [pdata, e1, e2, Option.map_some, Option.bind_some, hdat, List.getElem?_map, List.getElem?_eq_getElem hj,
      List.getD_eq_getElem?_getD, Option.getD_some, List.getElem?_eq_getElem hlt2]

/-- Scale, shift and statistics of a thinned batch-norm. -/
theorem bn_sel {opt : OptKind} {upd : Bool} {m' : TModel} {r : Recipe} (hd : r.IsDict) (he : execRecipe opt upd m r = .ok m')
    {l : String} {lay : TLayer} {n : ℕ} {i0 : List ℕ} (w1 : m.layers.get? l = some lay)
    (w3 : ∀ k, ∃ t, m.params.get? (l, k) = some t ∧ t.data.shape = [n] ∧ t.data.WF)
    (w4 : ∀ a, ∃ t, lay.running.get? a = some t ∧ t.shape = [n] ∧ t.WF)
    (key : (i0 = List.range n ∧ (∀ k, r.dirs (l, k) = []) ∧ ∀ a, r.runOf l a = none) ∨
        (i0.length < n ∧ (∀ k, r.dirs (l, k) = [.two 0 i0]) ∧ ∀ a, r.runOf l a = some i0)) :
    (∀ k, ∀ j < i0.length, vec (pdata m' (l, k)) j = vec (pdata m (l, k)) (i0.getD j 0)) ∧
    ∀ a, ∀ j < i0.length, vec (rdata m' l a) j = vec (rdata m l a) (i0.getD j 0) := by
  have hpar : ∀ k, ∀ j < i0.length, vec (pdata m' (l, k)) j = vec (pdata m (l, k)) (i0.getD j 0) := by
    intro k j hj
    obtain ⟨t, t1, t2, t3⟩ := w3 k
    rcases exec_param hd he (l, k) with ⟨e', _⟩ | ⟨p, p', e1, e2, e3⟩
    · rw [t1] at e'; cases e'
    rw [t1] at e1; cases e1
    have hdat : p'.data = ⟨[i0.length], i0.map fun i => t.data.data.getD i 0⟩ := by
      rcases key with ⟨k1, k2, _⟩ | ⟨k1, k2, _⟩
      · exact fold_pick1 t2 t3 (by rw [k2]; simp) (Or.inr k1) e3
      · exact fold_pick1 t2 t3 (by rw [k2]; simp [k1]) (Or.inl (by rw [k2]; simp)) e3
    simp only [vec, pdata, e2, t1, Option.map_some, Option.getD_some, hdat]
    exact getD_map_q hj
  have hrun : ∀ a, ∀ j < i0.length, vec (rdata m' l a) j = vec (rdata m l a) (i0.getD j 0) := by
    intro a j hj
    obtain ⟨t, t1, t2, t3⟩ := w4 a
    obtain ⟨lay', x1, _, x3, x4⟩ := exec_running hd he w1
    rcases key with ⟨k1, _, k2⟩ | ⟨k1, _, k2⟩
    · have := x3 a (k2 a)
      simp only [vec, rdata, x1, w1, Option.bind_some, this]
      have hjn : j < n := by rw [k1, List.length_range] at hj; exact hj
      rw [k1]
      congr 1
      rw [List.getD_eq_getElem?_getD, List.getElem?_range hjn]; rfl
    · obtain ⟨t', t'', y1, y2, y3⟩ := x4 a i0 (k2 a)
      rw [t1] at y1; cases y1
      rcases y3 with ⟨y3, _⟩ | y3
      · rw [t2] at y3; simp at y3; omega
      · have := sel1_data t2 t3 y3
        simp only [vec, rdata, x1, w1, Option.bind_some, t1, y2, Option.map_some, Option.getD_some, this]
        exact getD_map_q hj
  exact ⟨hpar, hrun⟩

/-- **Main lemma.** Every subnetwork computes, after thinning, the surviving ones of its feature maps. -/
theorem eval_thin {g : TGraph} {r : Recipe} {opt : OptKind} {upd : Bool} {m' : TModel}
    (hn : m.params.Nodup) (hR : RDirs g m m.params r) (hd : r.IsDict) (he : execRecipe opt upd m r = .ok m')
    (e : NExpr P) (hw : e.WellFormed m bnf x) (ha : e.Agree m x) (hz : e.Dead m bnf x) (hm : e.Matches g m) :
    e.eval m' bnf x = (e.kept m x).map fun c => (e.eval m bnf x).getD c (fun _ => 0) := by
  induction e with
  | input =>
    simp only [NExpr.eval, NExpr.kept]
    apply List.ext_getElem
    · simp
    · intro i h1 h2; simp [List.getD_eq_getElem?_getD, List.getElem?_eq_getElem h1]
  | map f e ih =>
    simp only [NExpr.eval, NExpr.kept]
    have hlt := kept_lt (bnf := bnf) e hw ha
    rw [ih hw ha hz hm, List.map_map]
    apply List.map_congr_left
    intro c hc
    simp [List.getD_eq_getElem?_getD, List.getElem?_eq_getElem (hlt c hc)]
  | zip f a b iha ihb =>
    simp only [NExpr.eval, NExpr.kept]
    have hla := kept_lt (bnf := bnf) a hw.1 ha.1
    rw [iha hw.1 ha.1 hz.1 hm.1, ihb hw.2.1 ha.2.1 hz.2 hm.2, ← ha.2.2, List.zipWith_map]
    rw [List.zipWith_self]
    apply List.map_congr_left
    intro c hc
    have h1 := hla c hc
    have h2 : c < (b.eval m bnf x).length := by rw [← hw.2.2]; exact h1
    simp [List.getD_eq_getElem?_getD, List.getElem?_eq_getElem h1, List.getElem?_eq_getElem h2, List.getElem?_zipWith]
  | conv l win e ih =>
    obtain ⟨hwe, lay, w, O, kh, kw, w1, w2, w3, w4, w5, w6, w7⟩ := hw
    obtain ⟨hze, hzc⟩ := hz
    obtain ⟨hme, hms⟩ := hm
    have IH := ih hwe ha hze hme
    have hwd := wdata_of w3
    set C := (e.eval m bnf x).length with hC
    set i0 := nonzeroRows w.data with hi0
    set i1 := e.kept m x with hi1
    have l0 : ∀ o ∈ i0, o < O := by
      intro o ho
      have := mem_nonzeroRows_lt ho
      rwa [w4] at this
    have l1 : ∀ c ∈ i1, c < C := kept_lt e hwe ha
    obtain ⟨q1, hq1⟩ := kept_filter (bnf := bnf) e hwe ha
    have hks := kept_sources (bnf := bnf) e ha
    have hfull0 : ¬ i0.length < O → i0 = List.range O := by
      intro h
      have h' : i0 = (List.range O).filter fun i => (((w.data.rows[i]?.getD []).map fun x => |x|).sum) ≠ 0 := by
        rw [hi0]; unfold nonzeroRows; rw [w4]; rfl
      rw [h'] at h ⊢
      exact filter_full h
    have hfull1 : ¬ i1.length < C → i1 = List.range C := by
      intro h
      rw [hi1, hq1] at h ⊢
      exact filter_full h
    -- directives of this layer
    have hds : ∀ d ∈ r.dirs (l, .weight), (d = .two 0 i0 ∧ i0.length < O) ∨ (d = .two 1 i1 ∧ i1.length < C) := by
      intro d hdm
      obtain ⟨a, idx, ht, h | h⟩ := hR.conv_sound l lay w1 w2 d hdm
      · obtain ⟨rfl, rfl⟩ := h
        obtain ⟨t1, t2⟩ := thinned_wdata hn ht
        rw [hwd, ← hi0] at t1
        rw [hwd, w4] at t2
        subst t1
        exact Or.inl ⟨rfl, t2⟩
      · obtain ⟨hs, rfl⟩ := h
        have hsrc := (hms a ht.conv).1 hs
        obtain ⟨t1, t2⟩ := thinned_wdata hn ht
        have hk := hks.1 a hsrc
        obtain ⟨wa, _, v1, _, _, v3, v4⟩ := sources_wf (bnf := bnf) e hwe a hsrc
        rw [wdata_of v1] at t2
        rw [v4] at t2
        have : idx = i1 := by rw [t1, hi1, hk]
        subst this
        exact Or.inr ⟨rfl, t2⟩
    have h0 : .two 0 i0 ∈ r.dirs (l, .weight) ∨ i0 = List.range O := by
      by_cases c : i0.length < O
      · obtain ⟨_, _, _, c1, _⟩ := hR.complete _ (Dict.mem_of_get? w3) (by rw [w4]; rfl) (by rw [w4]; exact c)
        exact Or.inl c1
      · exact Or.inr (hfull0 c)
    have h1 : .two 1 i1 ∈ r.dirs (l, .weight) ∨ i1 = List.range C := by
      by_cases c : i1.length < C
      · left
        cases hs : e.sources with
        | nil =>
          rcases hks.2 hs with h | h
          · rw [hi1, h, List.length_range] at c; omega
          · exact absurd hwe h
        | cons a as =>
          have hsrc : a ∈ e.sources := by rw [hs]; simp
          obtain ⟨wa, _, v1, _, _, v3, v4⟩ := sources_wf (bnf := bnf) e hwe a hsrc
          have hk := hks.1 a hsrc
          rw [wdata_of v1] at hk
          obtain ⟨_, b1, b2, _, _, c1⟩ := hR.complete _ (Dict.mem_of_get? v1) v3 (by rw [v4]; simpa [hi1, hk] using c)
          have := (c1 l lay w1).1 w2 ((hms a ⟨_, b1, b2⟩).2 hsrc)
          rw [hi1, hk]; exact this
      · exact Or.inr (hfull1 c)
    rcases exec_param hd he (l, .weight) with ⟨e', _⟩ | ⟨p, p', e1, e2, e3⟩
    · rw [w3] at e'; cases e'
    rw [w3] at e1; cases e1
    have hdat := fold_pick w4 w5 l0 l1 hds h0 h1 e3
    have hwd' : wdata m' l = ⟨[i0.length, i1.length, kh, kw], pick C (kh * kw) w.data.data i0 i1⟩ := by
      rw [wdata_of e2, hdat]
    have hbds : ∀ d ∈ r.dirs (l, .bias), d = .two 0 i0 ∧ i0.length < O := by
      intro d hdm
      obtain ⟨idx, ht, rfl⟩ := hR.bias_sound l lay w1 w2 d hdm
      obtain ⟨t1, t2⟩ := thinned_wdata hn ht
      rw [hwd, ← hi0] at t1
      rw [hwd, w4] at t2
      subst t1
      exact ⟨rfl, t2⟩
    have hb0 : m.params.has (l, .bias) = true → .two 0 i0 ∈ r.dirs (l, .bias) ∨ i0 = List.range O := by
      intro hb
      by_cases c : i0.length < O
      · obtain ⟨_, _, _, _, c1, _⟩ := hR.complete _ (Dict.mem_of_get? w3) (by rw [w4]; rfl) (by rw [w4]; exact c)
        exact Or.inl (c1 hb)
      · exact Or.inr (hfull0 c)
    have hl : w.data.data.length = O * (C * (kh * kw)) := by rw [w5, w4]; simp
    simp only [NExpr.eval, NExpr.kept]
    rw [hwd', IH]
    show (List.range i0.length).map _ = (nonzeroRows (wdata m l)).map _
    rw [hwd, ← hi0]
    conv_rhs => rw [list_eq_range_map i0, List.map_map]
    apply List.map_congr_left
    intro j hj
    have hj : j < i0.length := List.mem_range.1 hj
    have hjO := l0 _ (getD_mem hj)
    have hO : w.data.shape.headD 0 = O := by rw [w4]; rfl
    simp only [Function.comp]
    rw [List.getD_eq_getElem?_getD (l := List.map _ _), List.getElem?_map, hO, List.getElem?_range hjO]
    simp only [Option.map_some, Option.getD_some]
    funext p
    unfold layerOut
    have ht : ([i0.length, i1.length, kh, kw] : List ℕ).tail.prod = i1.length * (kh * kw) := by simp
    have ht2 : w.data.shape.tail.prod = C * (kh * kw) := by rw [w4]; simp
    simp only [ht, ht2]
    rw [chunk_pick hl l0 l1 hj, bias_sel hd he l0 w6 hbds hb0 hj]
    congr 1
    exact row_dot hl hjO (q := q1) (by rw [hi1, hq1]) rfl hzc (w7 p)
  | bn l e ih =>
    obtain ⟨hwe, lay, w1, w2, w3, w4⟩ := hw
    obtain ⟨hme, hms⟩ := hm
    have IH := ih hwe ha hz hme
    set n := (e.eval m bnf x).length with hC
    set i0 := e.kept m x with hi0
    have l0 : ∀ c ∈ i0, c < n := kept_lt e hwe ha
    obtain ⟨q1, hq1⟩ := kept_filter (bnf := bnf) e hwe ha
    have hks := kept_sources (bnf := bnf) e ha
    have hfull : ¬ i0.length < n → i0 = List.range n := by
      intro h; rw [hi0, hq1] at h ⊢; exact filter_full h
    -- what the recipe says about this layer
    have key : (i0 = List.range n ∧ (∀ k, r.dirs (l, k) = []) ∧ ∀ a, r.runOf l a = none) ∨
        (i0.length < n ∧ (∀ k, r.dirs (l, k) = [.two 0 i0]) ∧ ∀ a, r.runOf l a = some i0) := by
      rcases hR.bn_sound l lay w1 w2 with ⟨h1, h2⟩ | ⟨a, idx, ht, hs, h1, h2⟩
      · left
        refine ⟨?_, h1, h2⟩
        by_cases c : i0.length < n
        · cases hs : e.sources with
          | nil =>
            rcases hks.2 hs with h | h
            · exact h
            · exact absurd hwe h
          | cons a as =>
            have hsrc : a ∈ e.sources := by rw [hs]; simp
            obtain ⟨wa, _, v1, _, _, v3, v4⟩ := sources_wf (bnf := bnf) e hwe a hsrc
            have hk := hks.1 a hsrc
            rw [wdata_of v1] at hk
            obtain ⟨_, b1, b2, _, _, c1⟩ := hR.complete _ (Dict.mem_of_get? v1) v3 (by rw [v4]; simpa [hi0, hk] using c)
            exact absurd (h1 .weight) ((c1 l lay w1).2.2 w2 ((hms a ⟨_, b1, b2⟩).2 hsrc) .weight)
        · exact hfull c
      · right
        have hsrc := (hms a ht.conv).1 hs
        obtain ⟨t1, t2⟩ := thinned_wdata hn ht
        have hk := hks.1 a hsrc
        obtain ⟨wa, _, v1, _, _, v3, v4⟩ := sources_wf (bnf := bnf) e hwe a hsrc
        rw [wdata_of v1] at t2
        rw [v4] at t2
        have : idx = i0 := by rw [t1, hi0, hk]
        subst this
        exact ⟨t2, h1, h2⟩
    obtain ⟨hpar, hrun⟩ := bn_sel hd he w1 w3 w4 key
    simp only [NExpr.eval, NExpr.kept]
    rw [IH, List.length_map]
    conv_rhs => rw [← hi0, list_eq_range_map i0, List.map_map]
    apply List.map_congr_left
    intro j hj
    have hj : j < i0.length := List.mem_range.1 hj
    have hjn := l0 _ (getD_mem hj)
    simp only [Function.comp]
    rw [List.getD_eq_getElem?_getD (l := List.map _ (List.range _)), List.getElem?_map, List.getElem?_range hjn]
    simp only [Option.map_some, Option.getD_some]
    funext p
    rw [hpar _ j hj, hpar _ j hj, hrun _ j hj, hrun _ j hj, getD_map_sel hj]

theorem getD_map_of_lt {n c : ℕ} (h : c < n) (f : ℕ → P → ℚ) : ((List.range n).map f).getD c (fun _ => 0) = f c := by
  rw [List.getD_eq_getElem?_getD, List.getElem?_map, List.getElem?_range h]; rfl

theorem quiet_silent (e : NExpr P) (hw : e.WellFormed m bnf x) (ha : e.Agree m x) (hq : e.Quiet m bnf x) :
    e.Dead m bnf x ∧ e.SilentEnd m bnf x := by
  induction e with
  | input =>
    refine ⟨trivial, fun c hc hk => ?_⟩
    exact absurd (List.mem_range.2 (by simpa [NExpr.eval] using hc)) hk
  | conv l win e ih =>
    obtain ⟨h1, h2⟩ := ih hw.1 ha hq.1
    refine ⟨⟨h1, h2⟩, fun c hc hk p => ?_⟩
    have hc' : c < (wdata m l).shape.headD 0 := by simpa [NExpr.eval] using hc
    simp only [NExpr.eval]
    rw [getD_map_of_lt hc']
    unfold layerOut
    rw [dotK_zero_left (zero_row hc' hk), hq.2 c hk, add_zero]
  | bn l e ih =>
    obtain ⟨h1, h2⟩ := ih hw.1 ha hq.1
    refine ⟨h1, fun c hc hk p => ?_⟩
    have hc' : c < (e.eval m bnf x).length := by simpa [NExpr.eval] using hc
    simp only [NExpr.eval]
    rw [getD_map_of_lt hc', h2 c hc' hk p]
    exact hq.2 c hk
  | map f e ih =>
    obtain ⟨h1, h2⟩ := ih hw ha hq.1
    refine ⟨h1, fun c hc hk p => ?_⟩
    have hc' : c < (e.eval m bnf x).length := by simpa [NExpr.eval] using hc
    have h3 := h2 c hc' hk
    simp only [NExpr.eval]
    rw [List.getD_eq_getElem?_getD, List.getElem?_map, List.getElem?_eq_getElem hc']
    rw [List.getD_eq_getElem?_getD, List.getElem?_eq_getElem hc'] at h3
    have : (e.eval m bnf x)[c] = fun _ => 0 := funext h3
    simp [this, hq.2 p]
  | zip f a b iha ihb =>
    obtain ⟨h1, h2⟩ := iha hw.1 ha.1 hq.1
    obtain ⟨h3, h4⟩ := ihb hw.2.1 ha.2.1 hq.2.1
    refine ⟨⟨h1, h3⟩, fun c hc hk p => ?_⟩
    have hca : c < (a.eval m bnf x).length := by
      have := hc; simp only [NExpr.eval, List.length_zipWith] at this; omega
    have hcb : c < (b.eval m bnf x).length := by rw [← hw.2.2]; exact hca
    have e1 := h2 c hca hk
    have e2 := h4 c hcb (by rw [← ha.2.2]; exact hk)
    rw [List.getD_eq_getElem?_getD, List.getElem?_eq_getElem hca] at e1
    rw [List.getD_eq_getElem?_getD, List.getElem?_eq_getElem hcb] at e2
    have f1 : (a.eval m bnf x)[c] = fun _ => 0 := funext e1
    have f2 : (b.eval m bnf x)[c] = fun _ => 0 := funext e2
    simp only [NExpr.eval]
    rw [List.getD_eq_getElem?_getD, List.getElem?_zipWith, List.getElem?_eq_getElem hca, List.getElem?_eq_getElem hcb]
    simp [f1, f2, hq.2.2 p]

/-- An empty recipe removes nothing: all channels survive. -/
theorem kept_of_empty {g : TGraph} (hR : RDirs g m m.params emptyRecipe) (e : NExpr P) (hw : e.WellFormed m bnf x)
    (ha : e.Agree m x) : e.kept m x = List.range (e.eval m bnf x).length := by
  have hks := kept_sources (bnf := bnf) e ha
  cases hs : e.sources with
  | nil =>
    rcases hks.2 hs with h | h
    · exact h
    · exact absurd hw h
  | cons a as =>
    have hsrc : a ∈ e.sources := by rw [hs]; simp
    obtain ⟨w, _, v1, _, _, v3, v4⟩ := sources_wf (bnf := bnf) e hw a hsrc
    have hk := hks.1 a hsrc
    rw [wdata_of v1] at hk
    obtain ⟨q, hq⟩ := kept_filter (bnf := bnf) e hw ha
    by_cases c : (nonzeroRows w.data).length < (e.eval m bnf x).length
    · obtain ⟨_, _, _, c1, _⟩ := hR.complete _ (Dict.mem_of_get? v1) v3 (by rw [v4]; exact c)
      simp [Recipe.dirs, emptyRecipe] at c1
    · rw [← hk, hq] at c
      rw [hq]
      exact filter_full c

/-- What `remove_filters` does, when it does anything. -/
theorem remove_split {g : TGraph} {opt : OptKind} {upd : Bool} {m' : TModel} {saved saved' : List Recipe} (hg : NoGroups m)
    (h4 : ∀ kv ∈ m.params, kv.2.data.shape.length = 4 → kv.1.2 = .weight)
    (h : removeFilters g opt upd m saved = .ok (m', saved')) :
    (m' = m ∧ RDirs g m m.params emptyRecipe) ∨
    ∃ r : Recipe, RDirs g m m.params r ∧ r.IsDict ∧ execRecipe opt upd m r = .ok m' := by
  unfold removeFilters at h
  obtain ⟨r, hr, h⟩ := ok_bind h
  have hR := RDirs.create hg h4 hr
  unfold applyAndSave at h
  by_cases c : r.modules = [] ∧ r.parameters = []
  · rw [if_pos c] at h
    cases h
    have : r = emptyRecipe := by cases r; simp at c; simp [emptyRecipe, c]
    subst this
    exact Or.inl ⟨rfl, hR⟩
  · rw [if_neg c] at h
    obtain ⟨m1, hm1, h⟩ := ok_bind h
    cases h
    exact Or.inr ⟨r, hR, (RI.create hg hr).dict, hm1⟩

/-- A 2-D weights tensor after the directives of a fully-connected layer. -/
theorem fold_four {opt : OptKind} {upd : Bool} {ds : List Directive} {p p' : TParam} {O C side : ℕ} {i1 : List ℕ}
    (hs : p.data.shape = [O, C * (side * side)]) (hO : 0 < O) (hside : 0 < side) (hlt : i1.length < C)
    (hds : ∀ d ∈ ds, d = .four 1 i1 [O, C, side, side] [O, side * side * i1.length]) (hne : ds ≠ [])
    (h : ds.foldlM (execDirective opt upd) p = .ok p') :
    p'.data = ⟨[O, side * side * i1.length], selFlat O C (side * side) i1 p.data.data⟩ := by
  have hk : 0 < side * side := Nat.mul_pos hside hside
  match ds, hne with
  | d :: ds, _ =>
    rw [List.foldlM_cons] at h
    obtain ⟨p1, e1, h⟩ := ok_bind h
    rw [hds d (by simp)] at e1
    obtain ⟨q, hq, hq2⟩ := exec_four_split e1
    obtain ⟨_, _, _, _, n, f5, f6, _⟩ := fourThin_ok hq
    rw [hs] at f5; simp at f5; subst f5
    have hne' : C * (side * side) ≠ i1.length := by
      have : C ≤ C * (side * side) := Nat.le_mul_of_pos_right _ hk
      omega
    obtain ⟨s, g1, _, g3⟩ := f6 hne'
    obtain ⟨n2, j1, _, j3, j4⟩ := indexSelect_ok g1
    simp at j1; subst j1
    have hdata : p1.data = ⟨[O, side * side * i1.length], selFlat O C (side * side) i1 p.data.data⟩ := by
      rw [(maskThin_ok hq2).1, g3, j4]; simp
    cases ds with
    | nil => simp [pure, Except.pure] at h; rw [← h]; exact hdata
    | cons d' ds =>
      rw [List.foldlM_cons] at h
      obtain ⟨p2, e2, _⟩ := ok_bind h
      rw [hds d' (by simp)] at e2
      obtain ⟨q', hq', _⟩ := exec_four_split e2
      obtain ⟨f1, _⟩ := fourThin_ok hq'
      rw [hdata] at f1
      simp at f1
      exfalso
      have h1 := Nat.mul_lt_mul_of_pos_right hlt hk
      rcases f1 with f1 | f1
      · rw [f1, mul_comm (side * side)] at h1
        exact lt_irrefl _ h1
      · omega

/-- The feature maps after `remove_filters`. -/
theorem remove_eval {g : TGraph} {opt : OptKind} {upd : Bool} {m' : TModel} {saved saved' : List Recipe}
    (hn : m.params.Nodup) (hg : NoGroups m) (h4 : ∀ kv ∈ m.params, kv.2.data.shape.length = 4 → kv.1.2 = .weight)
    (h : removeFilters g opt upd m saved = .ok (m', saved'))
    (e : NExpr P) (hw : e.WellFormed m bnf x) (ha : e.Agree m x) (hz : e.Dead m bnf x) (hm : e.Matches g m) :
    e.eval m' bnf x = (e.kept m x).map fun c => (e.eval m bnf x).getD c (fun _ => 0) := by
  rcases remove_split hg h4 h with ⟨rfl, hR⟩ | ⟨r, hR, hd, hm1⟩
  · rw [kept_of_empty (bnf := bnf) hR e hw ha]
    apply List.ext_getElem
    · simp
    · intro i h1 h2; simp [List.getD_eq_getElem?_getD, List.getElem?_eq_getElem h1]
  · exact eval_thin hn hR hd hm1 e hw ha hz hm

/-- Layers without directives are unchanged. -/
theorem unchanged_of_no_dirs {r : Recipe} {opt : OptKind} {upd : Bool} {m' : TModel} (hd : r.IsDict)
    (he : execRecipe opt upd m r = .ok m') {k : PName} (h : r.dirs k = []) : pdata m' k = pdata m k := by
  rcases exec_param hd he k with ⟨e1, e2, _⟩ | ⟨p, p', e1, e2, e3⟩
  · simp [pdata, e1, e2]
  · rw [h] at e3
    simp [pure, Except.pure] at e3
    simp [pdata, e1, e2, e3]

/-- The first fully-connected layer after `remove_filters`. -/
theorem fc_thin {g : TGraph} {r : Recipe} {opt : OptKind} {upd : Bool} {m' : TModel}
    (hn : m.params.Nodup) (hR : RDirs g m m.params r) (hd : r.IsDict) (he : execRecipe opt upd m r = .ok m')
    (e : NExpr P) (hw : e.WellFormed m bnf x) (ha : e.Agree m x) (hz : e.Dead m bnf x) (hs : e.SilentEnd m bnf x)
    (hm : e.Matches g m) {l : String} {grid : List P} (hf : FCWellFormed m bnf x e l grid) (hl : ∀ a, IsConvOf m a → (l ∈ g.succs a ↔ a ∈ e.sources)) :
    linEval m' l (flatten grid (e.eval m' bnf x)) = linEval m l (flatten grid (e.eval m bnf x)) := by
  rw [eval_thin hn hR hd he e hw ha hz hm]
  obtain ⟨lay, w, O, side, w1, w2, w3, w4, w5, w6, w7, w8, w9, w10, w11⟩ := hf
  set C := (e.eval m bnf x).length with hC
  set i1 := e.kept m x with hi1
  have l1 : ∀ c ∈ i1, c < C := kept_lt e hw ha
  obtain ⟨q1, hq1⟩ := kept_filter (bnf := bnf) e hw ha
  have hks := kept_sources (bnf := bnf) e ha
  have hwd := wdata_of w3
  obtain ⟨hb, hsound⟩ := hR.fc_sound l lay w1 w2
  have hbias : pdata m' (l, .bias) = pdata m (l, .bias) := unchanged_of_no_dirs hd he hb
  have hfc : ∀ a la idx d, a ∈ e.sources → m.layers.get? a = some la → fcDirective la lay idx d →
      d = .four 1 idx [O, C, side, side] [O, side * side * idx.length] := by
    intro a la idx d hsrc hla ⟨inF, outF, outC, c1, c2, c3, c4, c5⟩
    rw [w10] at c1; cases c1
    rw [w9] at c2; cases c2
    rw [w11 a hsrc la hla] at c3; cases c3
    rw [Nat.mul_div_cancel_left _ (Nat.pos_of_ne_zero c4), Nat.sqrt_eq] at c5
    exact c5
  have hds : ∀ d ∈ r.dirs (l, .weight), d = .four 1 i1 [O, C, side, side] [O, side * side * i1.length] ∧ i1.length < C := by
    intro d hdm
    obtain ⟨a, la, idx, ht, hs, hla, _, hfd⟩ := hsound d hdm
    have hsrc := (hl a ht.conv).1 hs
    obtain ⟨t1, t2⟩ := thinned_wdata hn ht
    have hk := hks.1 a hsrc
    obtain ⟨wa, _, v1, _, _, v3, v4⟩ := sources_wf (bnf := bnf) e hw a hsrc
    rw [wdata_of v1] at t2
    rw [v4] at t2
    have : idx = i1 := by rw [t1, hi1, hk]
    subst this
    exact ⟨hfc a la _ d hsrc hla hfd, t2⟩
  rcases exec_param hd he (l, .weight) with ⟨e', _⟩ | ⟨p, p', e1, e2, e3⟩
  · rw [w3] at e'; cases e'
  rw [w3] at e1; cases e1
  have hwl : w.data.data.length = O * (C * (side * side)) := by rw [w5, w4]; simp
  by_cases c : i1.length < C
  · have hne : r.dirs (l, .weight) ≠ [] := by
      cases hs : e.sources with
      | nil =>
        rcases hks.2 hs with h | h
        · rw [hi1, h, List.length_range] at c; omega
        · exact absurd hw h
      | cons a as =>
        have hsrc : a ∈ e.sources := by rw [hs]; simp
        obtain ⟨wa, _, v1, _, _, v3, v4⟩ := sources_wf (bnf := bnf) e hw a hsrc
        have hk := hks.1 a hsrc
        rw [wdata_of v1] at hk
        obtain ⟨la, b1, b2, _, _, c1⟩ := hR.complete _ (Dict.mem_of_get? v1) v3 (by rw [v4]; simpa [hi1, hk] using c)
        have := (c1 l lay w1).2.1 w2 ((hl a ⟨_, b1, b2⟩).2 hsrc) _ ⟨_, _, _, w10, w9, w11 a hsrc la b1, by omega, rfl⟩
        exact List.ne_nil_of_mem this
    have hdat := fold_four w4 w6 w7 c (fun d hdm => (hds d hdm).1) hne e3
    have hwd' : wdata m' l = ⟨[O, side * side * i1.length], selFlat O C (side * side) i1 w.data.data⟩ := by
      rw [wdata_of e2, hdat]
    unfold linEval
    rw [hwd', hwd, hbias]
    have hO : w.data.shape.headD 0 = O := by rw [w4]; rfl
    rw [hO]
    show (List.range O).map _ = _
    apply List.map_congr_left
    intro o ho
    have ho : o < O := List.mem_range.1 ho
    unfold layerOut
    have ht : ([O, side * side * i1.length] : List ℕ).tail.prod = i1.length * (side * side) := by simp [mul_comm]
    have ht2 : w.data.shape.tail.prod = C * (side * side) := by rw [w4]; simp
    simp only [ht, ht2]
    congr 1
    rw [selFlat_row hwl ho l1]
    have hfl : ∀ xs : List (P → ℚ), flatten grid xs = xs.flatMap fun f => (grid.map some).map fun p => p.elim 0 f := by
      intro xs; unfold flatten
      apply List.flatMap_congr
      intro f _; simp [Function.comp_def]
    rw [hfl, hfl]
    exact row_dot hwl ho (q := q1) hq1 rfl hs (by simp [w8])
  · have hnil : r.dirs (l, .weight) = [] := by
      apply List.eq_nil_iff_forall_not_mem.2
      intro d hdm
      exact c (hds d hdm).2
    have hw' : wdata m' l = wdata m l := by
      unfold wdata; rw [unchanged_of_no_dirs hd he hnil]
    have hfull : i1 = List.range C := by
      have c' := c
      rw [hi1, hq1] at c'
      exact hq1.trans (filter_full c')
    have hx : (i1.map fun c => (e.eval m bnf x).getD c (fun _ => 0)) = e.eval m bnf x := by
      rw [hfull]
      apply List.ext_getElem
      · simp [hC]
      · intro i h1 h2; simp [List.getD_eq_getElem?_getD, List.getElem?_eq_getElem h2]
    rw [hx]
    unfold linEval
    rw [hw', hbias]

end

/-! ## The theorems -/

/-- **C41** `remove_filters` preserves the function of the network, for every network built of
convolutions, batch-norms, per-map and channel-wise operations, of any depth: if it succeeds, no filter of
the convolutions that produce the result was zero, branches merged channel-wise have the same zero filters, and
removed channels carry nothing (the bias of a zero filter is zero and what follows maps zero to zero),
the thinned model computes the same feature maps from every input. -/
theorem C41_network {P : Type} (g : TGraph) (opt : OptKind) (upd : Bool) (m m' : TModel) (saved saved' : List Recipe)
    (bnf : ℚ → ℚ → ℚ → ℚ → ℚ → ℚ) (e : NExpr P) (x : List (P → ℚ))
    (hn : m.params.Nodup) (hg : NoGroups m) (h4 : ∀ kv ∈ m.params, kv.2.data.shape.length = 4 → kv.1.2 = .weight)
    (hw : e.WellFormed m bnf x) (ha : e.Agree m x) (hq : e.Quiet m bnf x) (hm : e.Matches g m)
    (hlast : ∀ a ∈ e.sources, nonzeroRows (wdata m a) = List.range (e.eval m bnf x).length)
    (h : removeFilters g opt upd m saved = .ok (m', saved')) :
    e.eval m' bnf x = e.eval m bnf x := by
  rw [remove_eval hn hg h4 h e hw ha (quiet_silent e hw ha hq).1 hm]
  have hk : e.kept m x = List.range (e.eval m bnf x).length := by
    have hks := kept_sources (bnf := bnf) e ha
    cases hs : e.sources with
    | nil =>
      rcases hks.2 hs with h | h
      · exact h
      · exact absurd hw h
    | cons a as =>
      have hsrc : a ∈ e.sources := by rw [hs]; simp
      rw [hks.1 a hsrc]; exact hlast a hsrc
  rw [hk]
  apply List.ext_getElem
  · simp
  · intro i h1 h2; simp [List.getD_eq_getElem?_getD, List.getElem?_eq_getElem h2]

/-- **C41** with a classifier head: `remove_filters` preserves the logits – the first fully-connected
layer reads the flattened feature maps (its columns are removed through the 4-D view), the others are
not touched – and here the filters in front of the head may be zero as well. -/
theorem C41_network_fc {P : Type} (g : TGraph) (opt : OptKind) (upd : Bool) (m m' : TModel) (saved saved' : List Recipe)
    (bnf : ℚ → ℚ → ℚ → ℚ → ℚ → ℚ) (e : NExpr P) (x : List (P → ℚ)) (l : String) (rest : List (String × (List ℚ → List ℚ)))
    (grid : List P)
    (hn : m.params.Nodup) (hg : NoGroups m) (h4 : ∀ kv ∈ m.params, kv.2.data.shape.length = 4 → kv.1.2 = .weight)
    (hw : e.WellFormed m bnf x) (ha : e.Agree m x) (hq : e.Quiet m bnf x) (hm : e.Matches g m)
    (hf : FCWellFormed m bnf x e l grid) (hl : ∀ a, IsConvOf m a → (l ∈ g.succs a ↔ a ∈ e.sources)) (hr : ∀ lf ∈ rest, Inner g m lf.1)
    (h : removeFilters g opt upd m saved = .ok (m', saved')) :
    headEval m' l rest grid (e.eval m' bnf x) = headEval m l rest grid (e.eval m bnf x) := by
  obtain ⟨q1, q2⟩ := quiet_silent e hw ha hq
  rcases remove_split hg h4 h with ⟨rfl, hR⟩ | ⟨r, hR, hd, he⟩
  · rfl
  · unfold headEval
    rw [fc_thin hn hR hd he e hw ha q1 q2 hm hf hl]
    generalize linEval m l (flatten grid (e.eval m bnf x)) = y
    clear hf hl
    induction rest generalizing y with
    | nil => rfl
    | cons lf rest ih =>
      obtain ⟨⟨lay, a1, a2⟩, a3⟩ := hr lf (by simp)
      obtain ⟨b1, b2⟩ := hR.fc_sound lf.1 lay a1 a2
      have b3 : r.dirs (lf.1, .weight) = [] := by
        apply List.eq_nil_iff_forall_not_mem.2
        intro d hdm
        obtain ⟨a, _, _, ht, hs, _⟩ := b2 d hdm
        exact a3 a ht.conv hs
      have c1 := unchanged_of_no_dirs hd he b1
      have c2 := unchanged_of_no_dirs hd he b3
      have : linEval m' lf.1 (lf.2 y) = linEval m lf.1 (lf.2 y) := by
        unfold linEval wdata
        rw [c1, c2]
      simp only [List.foldl_cons]
      rw [this]
      exact ih (fun lf hlf => hr lf (by simp [hlf])) _

/-! ## Instances: a residual block with batch-norm, a convolution and a classifier -/

private def pr (s : List ℕ) (d : Tensor) : TParam := ⟨⟨s, d⟩, none, none, none⟩
private def cl (i o : ℕ) : TLayer := ⟨.conv, [(.groups, 1), (.inChannels, i), (.outChannels, o)], []⟩

/-- `a` and `b` have a zero filter at the same index; `wc` are the weights of the last convolution. -/
def exRes (wc : Tensor) : TModel :=
  ⟨[("a", cl 1 3), ("n", ⟨.bn, [(.numFeatures, 3)], [(.runningMean, ⟨[3], [1, 0, 2]⟩), (.runningVar, ⟨[3], [1, 1, 1]⟩)]⟩),
    ("b", cl 1 3), ("c", cl 3 2), ("fc", ⟨.linear, [(.inFeatures, 2), (.outFeatures, 2)], []⟩),
    ("fc2", ⟨.linear, [(.inFeatures, 2), (.outFeatures, 1)], []⟩)],
   [(("a", .weight), pr [3, 1, 1, 1] [5, 0, 7]), (("n", .weight), pr [3] [1, 9, 2]), (("n", .bias), pr [3] [4, 0, 5]),
    (("b", .weight), pr [3, 1, 1, 1] [1, 0, 2]), (("b", .bias), pr [3] [8, 0, 6]), (("c", .weight), pr [2, 3, 1, 1] wc),
    (("fc", .weight), pr [2, 2] [1, 2, 3, 4]), (("fc", .bias), pr [2] [1, 1]), (("fc2", .weight), pr [1, 2] [1, 10])]⟩

def exResGraph : TGraph :=
  ⟨fun l => if l = "a" then ["c"] else if l = "b" then ["c"] else if l = "c" then ["fc"] else [],
   fun l => if l = "a" then ["n"] else [], fun _ => [], fun _ => []⟩

def exResNet : NExpr Unit :=
  .conv "c" (fun p => [some p]) (.zip (fun f g p => f p + g p)
    (.map (fun f p => max 0 (f p)) (.bn "n" (.conv "a" (fun p => [some p]) .input)))
    (.conv "b" (fun p => [some p]) .input))

def exNorm (γ β μ _σ v : ℚ) : ℚ := γ * (v - μ) + β

theorem exRes_wf (wc : Tensor) (hc : wc.length = 6) (x : List (Unit → ℚ)) (hx : x.length = 1) :
    exResNet.WellFormed (exRes wc) exNorm x := by
  refine ⟨⟨⟨⟨trivial, cl 1 3, pr [3, 1, 1, 1] [5, 0, 7], 3, 1, 1, by rfl, by rfl, by rfl, ?_, by rfl, ?_, fun _ => rfl⟩,
      _, by rfl, rfl, ?_, ?_⟩,
    ⟨trivial, cl 1 3, pr [3, 1, 1, 1] [1, 0, 2], 3, 1, 1, by rfl, by rfl, by rfl, ?_, by rfl, ?_, fun _ => rfl⟩, by rfl⟩,
    cl 3 2, pr [2, 3, 1, 1] wc, 2, 1, 1, by rfl, by rfl, by rfl, by rfl, ?_, ?_, fun _ => rfl⟩
  · simp [NExpr.eval, hx, pr]
  · intro b hb; cases (show none = some b from hb)
  · intro k
    cases k
    · exact ⟨pr [3] [1, 9, 2], by rfl, by rfl, by rfl⟩
    · exact ⟨pr [3] [4, 0, 5], by rfl, by rfl, by rfl⟩
  · intro a
    cases a
    · exact ⟨⟨[3], [1, 0, 2]⟩, by rfl, by rfl, by rfl⟩
    · exact ⟨⟨[3], [1, 1, 1]⟩, by rfl, by rfl, by rfl⟩
  · simp [NExpr.eval, hx, pr]
  · intro b hb
    have : some (pr [3] [8, 0, 6]) = some b := hb
    cases this
    exact ⟨rfl, rfl⟩
  · simp [ST.WF, pr, hc]
  · intro b hb; cases (show none = some b from hb)

theorem exRes_agree (wc : Tensor) (x : List (Unit → ℚ)) : exResNet.Agree (exRes wc) x := by
  refine ⟨trivial, trivial, ?_⟩
  show nonzeroRows ⟨[3, 1, 1, 1], [5, 0, 7]⟩ = nonzeroRows ⟨[3, 1, 1, 1], [1, 0, 2]⟩
  decide +kernel

theorem exRes_quiet (wc : Tensor) (x : List (Unit → ℚ)) : exResNet.Quiet (exRes wc) exNorm x := by
  refine ⟨⟨⟨⟨⟨trivial, fun c hc => by rfl⟩, fun c hc => ?_⟩, fun p => by simp⟩, ⟨trivial, fun c hc => ?_⟩, fun p => by simp⟩,
    fun c hc => by rfl⟩
  · have h : c ∉ nonzeroRows ⟨[3, 1, 1, 1], [5, 0, 7]⟩ := hc
    rw [show nonzeroRows ⟨[3, 1, 1, 1], [5, 0, 7]⟩ = [0, 2] by decide +kernel] at h
    show exNorm (([1, 9, 2] : Tensor).getD c 0) (([4, 0, 5] : Tensor).getD c 0) (([1, 0, 2] : Tensor).getD c 0) (([1, 1, 1] : Tensor).getD c 0) 0 = 0
    match c, h with
    | 0, h => simp at h
    | 1, _ => decide +kernel
    | 2, h => simp at h
    | c + 3, _ => simp [exNorm]
  · have h : c ∉ nonzeroRows ⟨[3, 1, 1, 1], [1, 0, 2]⟩ := hc
    rw [show nonzeroRows ⟨[3, 1, 1, 1], [1, 0, 2]⟩ = [0, 2] by decide +kernel] at h
    show (([8, 0, 6] : Tensor)[c]?).getD 0 = 0
    match c, h with
    | 0, h => simp at h
    | 1, _ => rfl
    | 2, h => simp at h
    | c + 3, _ => simp

theorem exRes_matches (m : TModel) : exResNet.Matches exResGraph m := by
  refine ⟨⟨⟨⟨trivial, fun a _ => ?_⟩, fun a _ => ?_⟩, ⟨trivial, fun a _ => ?_⟩⟩, fun a _ => ?_⟩ <;>
  · simp only [exResGraph, NExpr.sources]
    split_ifs <;> simp_all

/-- The residual network, with a last convolution without zero filters: the hypotheses of `C41_network` hold. -/
example : ∃ m' saved', removeFilters exResGraph .sgd true (exRes [1, 2, 3, 4, 5, 6]) [] = .ok (m', saved') ∧
    wdata m' "c" = ⟨[2, 2, 1, 1], [1, 3, 4, 6]⟩ ∧
    ∀ x : List (Unit → ℚ), x.length = 1 → exResNet.eval m' exNorm x = exResNet.eval (exRes [1, 2, 3, 4, 5, 6]) exNorm x := by
  have hd : (removeFilters exResGraph .sgd true (exRes [1, 2, 3, 4, 5, 6]) []).toOption.map (fun p => wdata p.1 "c") =
      some ⟨[2, 2, 1, 1], [1, 3, 4, 6]⟩ := by decide +kernel
  cases h : removeFilters exResGraph .sgd true (exRes [1, 2, 3, 4, 5, 6]) [] with
  | error e => rw [h] at hd; cases hd
  | ok ms =>
    rw [h] at hd
    refine ⟨ms.1, ms.2, rfl, by simpa [Except.toOption] using hd, fun x hx => ?_⟩
    refine C41_network exResGraph .sgd true _ _ _ _ exNorm exResNet x (by simp [exRes, Dict.Nodup]) ?_ (by decide +kernel)
      (exRes_wf _ rfl x hx) (exRes_agree _ x) (exRes_quiet _ x) (exRes_matches _) ?_ h
    · intro l lay hl
      have := Dict.mem_of_get? hl
      simp only [exRes, List.mem_cons, List.not_mem_nil, or_false, Prod.mk.injEq] at this
      rcases this with ⟨_, rfl⟩ | ⟨_, rfl⟩ | ⟨_, rfl⟩ | ⟨_, rfl⟩ | ⟨_, rfl⟩ | ⟨_, rfl⟩ <;> intro hk <;> first | rfl | cases hk
    · intro a ha
      have : a = "c" := by simpa [exResNet, NExpr.sources] using ha
      subst this
      show nonzeroRows ⟨[2, 3, 1, 1], [1, 2, 3, 4, 5, 6]⟩ = List.range 2
      decide +kernel

/-- The same network with a classifier, where the last convolution has a zero filter too: the
hypotheses of `C41_network_fc` hold. -/
example : ∃ m' saved', removeFilters exResGraph .sgd true (exRes [0, 0, 0, 4, 5, 6]) [] = .ok (m', saved') ∧
    wdata m' "fc" = ⟨[2, 1], [2, 4]⟩ ∧
    ∀ x : List (Unit → ℚ), x.length = 1 →
      headEval m' "fc" [("fc2", fun y => y.map (max 0))] [()] (exResNet.eval m' exNorm x) =
      headEval (exRes [0, 0, 0, 4, 5, 6]) "fc" [("fc2", fun y => y.map (max 0))] [()] (exResNet.eval (exRes [0, 0, 0, 4, 5, 6]) exNorm x) := by
  have hd : (removeFilters exResGraph .sgd true (exRes [0, 0, 0, 4, 5, 6]) []).toOption.map (fun p => wdata p.1 "fc") =
      some ⟨[2, 1], [2, 4]⟩ := by decide +kernel
  cases h : removeFilters exResGraph .sgd true (exRes [0, 0, 0, 4, 5, 6]) [] with
  | error e => rw [h] at hd; cases hd
  | ok ms =>
    rw [h] at hd
    refine ⟨ms.1, ms.2, rfl, by simpa [Except.toOption] using hd, fun x hx => ?_⟩
    refine C41_network_fc exResGraph .sgd true _ _ _ _ exNorm exResNet x "fc" _ [()] (by simp [exRes, Dict.Nodup]) ?_ (by decide +kernel)
      (exRes_wf _ rfl x hx) (exRes_agree _ x) (exRes_quiet _ x) (exRes_matches _) ?_ ?_ ?_ h
    · intro l lay hl
      have := Dict.mem_of_get? hl
      simp only [exRes, List.mem_cons, List.not_mem_nil, or_false, Prod.mk.injEq] at this
      rcases this with ⟨_, rfl⟩ | ⟨_, rfl⟩ | ⟨_, rfl⟩ | ⟨_, rfl⟩ | ⟨_, rfl⟩ | ⟨_, rfl⟩ <;> intro hk <;> first | rfl | cases hk
    · refine ⟨_, pr [2, 2] [1, 2, 3, 4], 2, 1, by rfl, by rfl, by rfl, by rfl, by rfl, by decide, by decide, by rfl, by rfl, by rfl, ?_⟩
      intro a ha la hla
      have : a = "c" := by simpa [exResNet, NExpr.sources] using ha
      subst this
      have : some (cl 3 2) = some la := hla
      cases this
      rfl
    · intro a _
      simp only [exResGraph, exResNet, NExpr.sources]
      split_ifs <;> simp_all
    · intro lf hlf
      simp only [List.mem_singleton] at hlf
      subst hlf
      refine ⟨⟨_, by rfl, rfl⟩, fun a _ => ?_⟩
      simp only [exResGraph]
      split_ifs <;> simp

/-- The condition on the last convolutions of `C41_network` is needed: zero filters of a layer nothing
reads are removed as well, and the network has fewer outputs. -/
theorem C41_violated_last_layer : ∃ (g : TGraph) (m m' : TModel) (saved' : List Recipe) (e : NExpr Unit) (x : List (Unit → ℚ)),
    removeFilters g .none false m [] = .ok (m', saved') ∧ e.WellFormed m exNorm x ∧ e.Agree m x ∧ e.Quiet m exNorm x ∧
    e.Matches g m ∧ (e.eval m exNorm x).length = 2 ∧ (e.eval m' exNorm x).length = 1 := by
  refine ⟨⟨fun _ => [], fun _ => [], fun _ => [], fun _ => []⟩, ⟨[("a", cl 1 2)], [(("a", .weight), pr [2, 1, 1, 1] [5, 0])]⟩,
    ⟨[("a", ⟨.conv, [(.groups, 1), (.inChannels, 1), (.outChannels, 1)], []⟩)], [(("a", .weight), pr [1, 1, 1, 1] [5])]⟩,
    [⟨[("a", ⟨[(.outChannels, 1)], []⟩)], [(("a", .weight), [.two 0 [0]])]⟩],
    .conv "a" (fun p => [some p]) .input, [fun _ => 1], by decide +kernel, ?_, trivial, ⟨trivial, fun c _ => rfl⟩,
    ⟨trivial, fun a _ => by simp [NExpr.sources]⟩, by rfl, by rfl⟩
  refine ⟨trivial, cl 1 2, pr [2, 1, 1, 1] [5, 0], 2, 1, 1, by rfl, by rfl, by rfl, by rfl, by rfl, ?_, fun _ => rfl⟩
  intro b hb
  cases (show none = some b from hb)

end Verif
