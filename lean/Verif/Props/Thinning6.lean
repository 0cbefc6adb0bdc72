import Verif.Lemmas.RecipeDirsC
import Verif.Props.Thinning5
/-!
# C99: removing zero channels preserves the function of the network

Networks and their evaluation are those of C41 (`Props/Thinning5.lean`).
-/
namespace Verif

/-! ## Specification -/

/-- The batch-norms between the end of the network and the last convolutions. -/
def NExpr.norms {P : Type} : NExpr P → List String
  | .input => []
  | .conv _ _ _ => []
  | .bn l e => l :: e.norms
  | .map _ e => e.norms
  | .zip _ a b => a.norms ++ b.norms

/-- The graph's answers are those of the network: a convolution is preceded by the convolutions and
batch-norms its input comes from. -/
def NExpr.MatchesBack {P : Type} (g : TGraph) : NExpr P → Prop
  | .input => True
  | .conv l _ e => e.MatchesBack g ∧ (∀ a, a ∈ g.preds l ↔ a ∈ e.sources) ∧ ∀ n, n ∈ g.predBN l ↔ n ∈ e.norms
  | .bn _ e => e.MatchesBack g
  | .map _ e => e.MatchesBack g
  | .zip _ a b => a.MatchesBack g ∧ b.MatchesBack g

/-- The channels `K` of the network's result are exactly those every reader uses: each convolution that
reads a layer has non-zero weights for exactly these channels.  All channels of the network's input are used. -/
def NExpr.Used {P : Type} (g : TGraph) (m : TModel) (x : List (P → ℚ)) : NExpr P → List ℕ → Prop
  | .input, K => K = List.range x.length
  | .conv l _ e, K => (∀ b, IsConvOf m b → l ∈ g.preds b → nonzeroChannels (wdata m b) = K) ∧ e.Used g m x (nonzeroChannels (wdata m l))
  | .bn l e, K => (∀ b, IsConvOf m b → l ∈ g.predBN b → nonzeroChannels (wdata m b) = K) ∧ e.Used g m x K
  | .map _ e, K => e.Used g m x K
  | .zip _ a b, K => a.Used g m x K ∧ b.Used g m x K

/-! ## Proof -/

/-- Blocks of channels outside `nonzeroChannels` are zero. -/
theorem zero_channel {t : ST} {O C k c o : ℕ} (hO : t.shape.headD 0 = O) (hC : t.shape.tail.headD 0 = C)
    (hk : (t.shape.drop 2).prod = k) (ho : o < O) (hc : c < C) (h : c ∉ nonzeroChannels t) :
    ∀ y ∈ chunk k (o * C + c) t.data, y = 0 := by
  unfold nonzeroChannels at h
  rw [List.mem_filter, hC] at h
  have h' : ((t.channel c).map fun x => |x|).sum = 0 := by
    by_contra hn
    exact h ⟨List.mem_range.2 hc, by simpa using hn⟩
  intro y hy
  refine abs_sum_zero h' y ?_
  unfold ST.channel selFlat
  rw [hO, hC, hk, List.mem_flatMap]
  exact ⟨o, List.mem_range.2 ho, by simpa [chunk] using hy⟩

/-- The dot product of a row with the feature maps it sees is unchanged when maps with zero weights are left out. -/
theorem row_dot_weights {P : Type} {O C k : ℕ} {w : Tensor} (hl : w.length = O * (C * k)) {o : ℕ} (ho : o < O)
    {i1 : List ℕ} {q : ℕ → Bool} (hi : i1 = (List.range C).filter q) {xs : List (P → ℚ)} (hx : xs.length = C)
    (hz : ∀ c < C, c ∉ i1 → ∀ y ∈ chunk k (o * C + c) w, y = 0) {win : List (Option P)} (hwin : win.length = k) :
    dotK (i1.flatMap fun c => chunk k (o * C + c) w)
      ((i1.map fun c => xs.getD c (fun _ => 0)).flatMap fun f => win.map fun p => p.elim 0 f) =
    dotK (chunk (C * k) o w) (xs.flatMap fun f => win.map fun p => p.elim 0 f) := by
  have hlt : ∀ c ∈ i1, c < C := by
    intro c hc; rw [hi] at hc; exact List.mem_range.1 (List.mem_filter.1 hc).1
  have hxs : (xs.flatMap fun f => win.map fun p => p.elim 0 f) =
      (List.range C).flatMap fun c => win.map fun p => p.elim 0 (xs.getD c (fun _ => 0)) := by
    have : xs = (List.range C).map fun c => xs.getD c (fun _ => 0) := by
      apply List.ext_getElem
      · simp [hx]
      · intro i h1 h2; simp [List.getD_eq_getElem?_getD, List.getElem?_eq_getElem h1]
    conv_lhs => rw [this]
    rw [List.flatMap_map]
  rw [hxs, chunk_split hl ho, List.flatMap_map,
    dotK_flatMap _ _ _ (fun c hc => by rw [block_length hl ho (hlt c hc), List.length_map, hwin]),
    dotK_flatMap _ _ _ (fun c hc => by rw [block_length hl ho (List.mem_range.1 hc), List.length_map, hwin])]
  conv_lhs => rw [hi]
  apply sum_filter_zero
  intro c hc hq
  apply dotK_zero_left
  refine hz c (List.mem_range.1 hc) ?_
  rw [hi, List.mem_filter]
  rintro ⟨_, h⟩
  rw [hq] at h; cases h

section
variable {P : Type} {m : TModel} {bnf : ℚ → ℚ → ℚ → ℚ → ℚ → ℚ} {x : List (P → ℚ)} {g : TGraph}

theorem thinnedC_wdata (hn : m.params.Nodup) {b : String} {idx : List ℕ} (h : ThinnedC m b idx) :
    idx = nonzeroChannels (wdata m b) ∧ idx.length < (wdata m b).shape.tail.headD 0 := by
  obtain ⟨p, _, h1, _, _, h3, h4⟩ := h
  rw [wdata_of (Dict.get?_of_mem hn h1)]
  exact ⟨h3, h4⟩

/-- Why the channels of `e` are cut down to `K`: nothing is cut, or a thinned convolution reads all of `e`. -/
def Reader (g : TGraph) (m : TModel) (n : ℕ) (e : NExpr P) (K : List ℕ) : Prop :=
  K = List.range n ∨ ∃ b, ThinnedC m b K ∧ (wdata m b).shape.tail.headD 0 = n ∧
    (∀ a ∈ e.sources, a ∈ g.preds b) ∧ ∀ l ∈ e.norms, l ∈ g.predBN b

theorem reader_filter (hn : m.params.Nodup) {n : ℕ} {e : NExpr P} {K : List ℕ} (h : Reader g m n e K) :
    ∃ q, K = (List.range n).filter q := by
  rcases h with rfl | ⟨b, h1, h2, _⟩
  · exact ⟨fun _ => true, by simp⟩
  · rw [(thinnedC_wdata hn h1).1, ← h2]
    exact ⟨_, rfl⟩

theorem reader_full (hn : m.params.Nodup) {n : ℕ} {e : NExpr P} {K : List ℕ} (h : Reader g m n e K) (hK : ¬ K.length < n) :
    K = List.range n := by
  obtain ⟨q, rfl⟩ := reader_filter hn h
  exact filter_full hK

theorem wdata_conv_shape {l : String} {w : TParam} {O C kh kw : ℕ} (w3 : m.params.get? (l, .weight) = some w)
    (w4 : w.data.shape = [O, C, kh, kw]) : (wdata m l).shape.tail.headD 0 = C ∧ (wdata m l).shape.headD 0 = O ∧
      ((wdata m l).shape.drop 2).prod = kh * kw := by
  rw [wdata_of w3, w4]; simp

theorem thinnedC_lt (hn : m.params.Nodup) (hc : Consistent m) {b : String} {idx : List ℕ} (h : ThinnedC m b idx) :
    ∃ lb i, m.layers.get? b = some lb ∧ lb.kind = .conv ∧ lb.attrs.get? .inChannels = some i ∧ idx.length < i := by
  obtain ⟨p, lb, h1, h2, h3, _, h4⟩ := h
  obtain ⟨o, i, kh, kw, w, _, c2, c3, c4, _⟩ := (hc b lb h2).1 h3
  rw [Dict.get?_of_mem hn h1] at c3; cases c3
  rw [c4] at h4
  exact ⟨lb, i, h2, h3, c2, h4⟩

/-- A convolution read by a thinned one loses filters. -/
theorem pred_lt (hn : m.params.Nodup) (hc : Consistent m) (ho : PredsOK g m) {b l : String} {idx : List ℕ} (h : ThinnedC m b idx)
    (hl : l ∈ g.preds b) {lay : TLayer} {w : TParam} {O : ℕ} {rest : List ℕ} (w1 : m.layers.get? l = some lay) (w2 : lay.kind = .conv)
    (w3 : m.params.get? (l, .weight) = some w) (w4 : w.data.shape = O :: rest) : idx.length < O := by
  obtain ⟨lb, i, h1, h2, h3, h4⟩ := thinnedC_lt hn hc h
  obtain ⟨o, _, _, _, w', c1, _, c3, c4, _⟩ := (hc l lay w1).1 w2
  rw [w3] at c3; cases c3
  rw [w4] at c4; cases c4
  have := ho.conv l b lay lb h1 h2 hl w1
  rw [c1, h3] at this; cases this
  exact h4

/-- A batch-norm in front of a thinned convolution loses channels. -/
theorem predBN_lt (hn : m.params.Nodup) (hc : Consistent m) (ho : PredsOK g m) {b l : String} {idx : List ℕ} (h : ThinnedC m b idx)
    (hl : l ∈ g.predBN b) {lay : TLayer} {w : TParam} {O : ℕ} (w1 : m.layers.get? l = some lay) (w2 : lay.kind = .bn)
    (w3 : m.params.get? (l, .weight) = some w) (w4 : w.data.shape = [O]) : idx.length < O := by
  obtain ⟨lb, i, h1, h2, h3, h4⟩ := thinnedC_lt hn hc h
  obtain ⟨o, w', _, _, _, c1, c3, c4, _⟩ := (hc l lay w1).2.2 w2
  rw [w3] at c3; cases c3
  rw [w4] at c4; cases c4
  have := ho.bn l b lay lb h1 h2 hl w1
  rw [c1, h3] at this; cases this
  exact h4

/-- **Main lemma.** Every subnetwork computes, after thinning, the used ones of its feature maps. -/
theorem eval_thinC {r : Recipe} {opt : OptKind} {upd : Bool} {m' : TModel}
    (hn : m.params.Nodup) (hc : Consistent m) (ho : PredsOK g m) (hR : RDirsC g m m.params r) (hd : r.IsDict)
    (he : execRecipe opt upd m r = .ok m') (e : NExpr P) (K : List ℕ) (hw : e.WellFormed m bnf x) (hu : e.Used g m x K) (hm : e.MatchesBack g)
    (hK : Reader g m (e.eval m bnf x).length e K) :
    e.eval m' bnf x = K.map fun c => (e.eval m bnf x).getD c (fun _ => 0) := by
  induction e generalizing K with
  | input =>
    simp only [NExpr.Used] at hu
    subst hu
    simp only [NExpr.eval]
    apply List.ext_getElem
    · simp
    · intro i h1 h2; simp [List.getD_eq_getElem?_getD, List.getElem?_eq_getElem h1]
  | map f e ih =>
    simp only [NExpr.eval, List.length_map] at hK ⊢
    obtain ⟨q, hq⟩ := reader_filter hn hK
    rw [ih K hw hu hm hK, List.map_map]
    apply List.map_congr_left
    intro c hc
    rw [hq] at hc
    have := List.mem_range.1 (List.mem_filter.1 hc).1
    simp [List.getD_eq_getElem?_getD, List.getElem?_eq_getElem this]
  | zip f a b iha ihb =>
    have hlen : ((NExpr.zip f a b).eval m bnf x).length = (a.eval m bnf x).length := by
      simp [NExpr.eval, hw.2.2]
    rw [hlen] at hK
    obtain ⟨q, hq⟩ := reader_filter hn hK
    have hKa : Reader g m (a.eval m bnf x).length a K := by
      rcases hK with h | ⟨c, c1, c2, c3, c4⟩
      · exact Or.inl h
      · exact Or.inr ⟨c, c1, c2, fun s hs => c3 s (List.mem_append_left _ hs), fun s hs => c4 s (List.mem_append_left _ hs)⟩
    have hKb : Reader g m (b.eval m bnf x).length b K := by
      rw [← hw.2.2]
      rcases hK with h | ⟨c, c1, c2, c3, c4⟩
      · exact Or.inl h
      · exact Or.inr ⟨c, c1, c2, fun s hs => c3 s (List.mem_append_right _ hs), fun s hs => c4 s (List.mem_append_right _ hs)⟩
    simp only [NExpr.eval]
    rw [iha K hw.1 hu.1 hm.1 hKa, ihb K hw.2.1 hu.2 hm.2 hKb, List.zipWith_map, List.zipWith_self]
    apply List.map_congr_left
    intro c hc
    rw [hq] at hc
    have h1 := List.mem_range.1 (List.mem_filter.1 hc).1
    have h2 : c < (b.eval m bnf x).length := by rw [← hw.2.2]; exact h1
    simp [List.getD_eq_getElem?_getD, List.getElem?_eq_getElem h1, List.getElem?_eq_getElem h2, List.getElem?_zipWith]
  | conv l win e ih =>
    obtain ⟨hwe, lay, w, O, kh, kw, w1, w2, w3, w4, w5, w6, w7⟩ := hw
    obtain ⟨hu1, hu2⟩ := hu
    obtain ⟨hme, hmp, hmb⟩ := hm
    have hwd := wdata_of w3
    obtain ⟨s1, s2, s3⟩ := wdata_conv_shape w3 w4
    have hlen : ((NExpr.conv l win e).eval m bnf x).length = O := by
      simp only [NExpr.eval, List.length_map, List.length_range]; exact s2
    rw [hlen] at hK
    set C := (e.eval m bnf x).length with hC
    set i1 := nonzeroChannels w.data with hi1
    rw [hwd] at hu2
    have hq1 : i1 = (List.range C).filter fun c => ((w.data.channel c).map fun x => |x|).sum ≠ 0 := by
      rw [hi1]; unfold nonzeroChannels; rw [w4]; rfl
    have l1 : ∀ c ∈ i1, c < C := by
      intro c hc; rw [hq1] at hc; exact List.mem_range.1 (List.mem_filter.1 hc).1
    obtain ⟨q0, hq0⟩ := reader_filter hn hK
    have l0 : ∀ o ∈ K, o < O := by
      intro c hc; rw [hq0] at hc; exact List.mem_range.1 (List.mem_filter.1 hc).1
    have hKe : Reader g m C e i1 := by
      by_cases c : i1.length < C
      · exact Or.inr ⟨l, ⟨w, lay, Dict.mem_of_get? w3, w1, w2, rfl, by rw [w4]; exact c⟩, s1,
          fun a ha => (hmp a).2 ha, fun n hn' => (hmb n).2 hn'⟩
      · left; rw [hq1] at c ⊢; exact filter_full c
    have IH := ih i1 hwe hu2 hme hKe
    have hds : ∀ d ∈ r.dirs (l, .weight), (d = .two 0 K ∧ K.length < O) ∨ (d = .two 1 i1 ∧ i1.length < C) := by
      intro d hdm
      obtain ⟨b, idx, ht, h | h⟩ := hR.weight_sound l lay w1 w2 d hdm
      · obtain ⟨rfl, rfl⟩ := h
        obtain ⟨t1, t2⟩ := thinnedC_wdata hn ht
        rw [hwd, ← hi1] at t1
        rw [s1] at t2
        subst t1
        exact Or.inr ⟨rfl, t2⟩
      · obtain ⟨hs, rfl⟩ := h
        obtain ⟨t1, t2⟩ := thinnedC_wdata hn ht
        have : idx = K := by rw [t1]; exact hu1 b ht.conv hs
        subst this
        exact Or.inl ⟨rfl, pred_lt hn hc ho ht hs w1 w2 w3 w4⟩
    have h0 : .two 0 K ∈ r.dirs (l, .weight) ∨ K = List.range O := by
      rcases hK with h | ⟨b, ⟨p, lb, b1, b2, b3, b4, b5⟩, c2, c3, _⟩
      · exact Or.inr h
      · left
        obtain ⟨_, q2, _⟩ := hR.complete _ b1 lb b2 b3 rfl (by rw [← b4]; exact b5)
        rw [b4]
        exact (q2 l (c3 l (by simp [NExpr.sources]))).2.1
    have h1 : .two 1 i1 ∈ r.dirs (l, .weight) ∨ i1 = List.range C := by
      by_cases c : i1.length < C
      · exact Or.inl (hR.complete _ (Dict.mem_of_get? w3) lay w1 w2 rfl (by rw [w4]; exact c)).1
      · right; rw [hq1] at c ⊢; exact filter_full c
    rcases exec_param hd he (l, .weight) with ⟨e', _⟩ | ⟨p, p', e1, e2, e3⟩
    · rw [w3] at e'; cases e'
    rw [w3] at e1; cases e1
    have hdat := fold_pick w4 w5 l0 l1 hds h0 h1 e3
    have hwd' : wdata m' l = ⟨[K.length, i1.length, kh, kw], pick C (kh * kw) w.data.data K i1⟩ := by
      rw [wdata_of e2, hdat]
    have hbds : ∀ d ∈ r.dirs (l, .bias), d = .two 0 K ∧ K.length < O := by
      intro d hdm
      obtain ⟨b, idx, ht, hs, rfl⟩ := hR.bias_sound l lay w1 w2 d hdm
      have : idx = K := by rw [(thinnedC_wdata hn ht).1]; exact hu1 b ht.conv hs
      subst this
      exact ⟨rfl, pred_lt hn hc ho ht hs w1 w2 w3 w4⟩
    have hb0 : m.params.has (l, .bias) = true → .two 0 K ∈ r.dirs (l, .bias) ∨ K = List.range O := by
      intro hb
      rcases hK with h | ⟨b, ⟨p, lb, b1, b2, b3, b4, b5⟩, c2, c3, _⟩
      · exact Or.inr h
      · left
        obtain ⟨_, q2, _⟩ := hR.complete _ b1 lb b2 b3 rfl (by rw [← b4]; exact b5)
        rw [b4]
        exact (q2 l (c3 l (by simp [NExpr.sources]))).2.2 hb
    have hl : w.data.data.length = O * (C * (kh * kw)) := by rw [w5, w4]; simp
    simp only [NExpr.eval]
    rw [hwd', IH]
    show (List.range K.length).map _ = K.map _
    conv_rhs => rw [list_eq_range_map K, List.map_map]
    apply List.map_congr_left
    intro j hj
    have hj : j < K.length := List.mem_range.1 hj
    have hjO := l0 _ (getD_mem hj)
    simp only [Function.comp]
    rw [s2, getD_map_of_lt hjO]
    funext p
    unfold layerOut
    have ht : ([K.length, i1.length, kh, kw] : List ℕ).tail.prod = i1.length * (kh * kw) := by simp
    have ht2 : (wdata m l).shape.tail.prod = C * (kh * kw) := by rw [hwd, w4]; simp
    simp only [ht, ht2]
    rw [chunk_pick hl l0 l1 hj, bias_sel hd he l0 w6 hbds hb0 hj, hwd]
    congr 1
    refine row_dot_weights hl hjO hq1 rfl ?_ (w7 p)
    intro c hcC hcn
    rw [hwd] at s1 s2 s3
    exact zero_channel s2 s1 s3 hjO hcC hcn
  | bn l e ih =>
    obtain ⟨hwe, lay, w1, w2, w3, w4⟩ := hw
    obtain ⟨hu1, hu2⟩ := hu
    have hlen : ((NExpr.bn l e).eval m bnf x).length = (e.eval m bnf x).length := by simp [NExpr.eval]
    rw [hlen] at hK
    set n := (e.eval m bnf x).length with hC
    have hKe : Reader g m n e K := by
      rcases hK with h | ⟨c, c1, c2, c3, c4⟩
      · exact Or.inl h
      · exact Or.inr ⟨c, c1, c2, c3, fun s hs => c4 s (List.mem_cons_of_mem _ hs)⟩
    have IH := ih K hwe hu2 hm hKe
    obtain ⟨q0, hq0⟩ := reader_filter hn hK
    have l0 : ∀ o ∈ K, o < n := by
      intro c hc; rw [hq0] at hc; exact List.mem_range.1 (List.mem_filter.1 hc).1
    have key : (K = List.range n ∧ (∀ k, r.dirs (l, k) = []) ∧ ∀ a, r.runOf l a = none) ∨
        (K.length < n ∧ (∀ k, r.dirs (l, k) = [.two 0 K]) ∧ ∀ a, r.runOf l a = some K) := by
      rcases hR.bn_sound l lay w1 w2 with ⟨h1, h2⟩ | ⟨b, idx, ht, hs, h1, h2⟩
      · left
        refine ⟨?_, h1, h2⟩
        rcases hK with h | ⟨b, ⟨p, lb, b1, b2, b3, b4, b5⟩, c2, _, c4⟩
        · exact h
        · obtain ⟨_, _, q3⟩ := hR.complete _ b1 lb b2 b3 rfl (by rw [← b4]; exact b5)
          exact absurd (h1 .weight) ((q3 l (c4 l (by simp [NExpr.norms]))).2 .weight)
      · right
        have : idx = K := by rw [(thinnedC_wdata hn ht).1]; exact hu1 b ht.conv hs
        subst this
        obtain ⟨t, t1, t2, _⟩ := w3 .weight
        exact ⟨predBN_lt hn hc ho ht hs w1 w2 t1 t2, h1, h2⟩
    obtain ⟨hpar, hrun⟩ := bn_sel hd he w1 w3 w4 key
    simp only [NExpr.eval]
    rw [IH, List.length_map]
    conv_rhs => rw [list_eq_range_map K, List.map_map]
    apply List.map_congr_left
    intro j hj
    have hj : j < K.length := List.mem_range.1 hj
    have hjn := l0 _ (getD_mem hj)
    simp only [Function.comp]
    rw [getD_map_of_lt hjn]
    funext p
    rw [hpar _ j hj, hpar _ j hj, hrun _ j hj, hrun _ j hj, getD_map_sel hj]
end


/-! ## The theorem -/

/-- **C99** `remove_channels` preserves the function of the network, for every network built of
convolutions, batch-norms, per-map and channel-wise operations, of any depth, and a classifier of fully-connected
layers: if it succeeds, and any two convolutions reading the same layer ignore the same
channels (none of the network's input and of its result are ignored), the
thinned model computes the same feature maps and the same logits from every input.  Nothing is
required of biases or activations: removed channels are the ones nobody reads. -/
theorem C99_network {P : Type} (g : TGraph) (opt : OptKind) (upd : Bool) (m m' : TModel) (saved saved' : List Recipe)
    (bnf : ℚ → ℚ → ℚ → ℚ → ℚ → ℚ) (e : NExpr P) (x : List (P → ℚ))
    (hg : NoGroups m) (hc : Consistent m) (hlin : LinearFull m) (hpl : ParamsOfLayers m) (hp : PredsConv g m) (ho : PredsOK g m)
    (hw : e.WellFormed m bnf x) (hu : e.Used g m x (List.range (e.eval m bnf x).length)) (hm : e.MatchesBack g)
    (h : removeChannels g opt upd m saved = .ok (m', saved')) :
    e.eval m' bnf x = e.eval m bnf x ∧
    ∀ (l : String) (rest : List (String × (List ℚ → List ℚ))) (grid : List P),
      (∀ l' ∈ l :: rest.map Prod.fst, ∃ lay, m.layers.get? l' = some lay ∧ lay.kind = .linear) →
      headEval m' l rest grid (e.eval m' bnf x) = headEval m l rest grid (e.eval m bnf x) := by
  unfold removeChannels at h
  obtain ⟨r, hr, h⟩ := ok_bind h
  have hR := RDirsC.create hg hc hlin hpl hp hr
  unfold applyAndSave at h
  by_cases c : r.modules = [] ∧ r.parameters = []
  · rw [if_pos c] at h
    cases h
    exact ⟨rfl, fun _ _ _ _ => rfl⟩
  · rw [if_neg c] at h
    obtain ⟨m1, hm1, h⟩ := ok_bind h
    cases h
    have hd := (RI.createC hg hc hlin hpl hp hr).dict
    have key : e.eval m' bnf x = e.eval m bnf x := by
      rw [eval_thinC hpl.1 hc ho hR hd hm1 e _ hw hu hm (Or.inl rfl)]
      apply List.ext_getElem
      · simp
      · intro i h1 h2; simp [List.getD_eq_getElem?_getD, List.getElem?_eq_getElem h2]
    have hl : ∀ l lay, m.layers.get? l = some lay → lay.kind = .linear → ∀ y, linEval m' l y = linEval m l y := by
      intro l lay h1 h2 y
      unfold linEval wdata
      rw [unchanged_of_no_dirs hd hm1 (hR.fc l lay h1 h2 .weight), unchanged_of_no_dirs hd hm1 (hR.fc l lay h1 h2 .bias)]
    refine ⟨key, fun l rest grid hls => ?_⟩
    rw [key]
    unfold headEval
    obtain ⟨lay, q1, q2⟩ := hls l (by simp)
    rw [hl l lay q1 q2]
    generalize linEval m l (flatten grid (e.eval m bnf x)) = y
    have hls' : ∀ lf ∈ rest, ∃ lay, m.layers.get? lf.1 = some lay ∧ lay.kind = .linear := by
      intro lf hlf; exact hls lf.1 (by simp; right; exact ⟨lf.2, hlf⟩)
    clear hls
    induction rest generalizing y with
    | nil => rfl
    | cons lf rest ih =>
      obtain ⟨lay, q1, q2⟩ := hls' lf (by simp)
      simp only [List.foldl_cons]
      rw [hl lf.1 lay q1 q2]
      exact ih _ (fun lf hlf => hls' lf (by simp [hlf]))

/-! ## An instance: a residual block whose last convolution ignores a channel -/

private def pr' (s : List ℕ) (d : Tensor) : TParam := ⟨⟨s, d⟩, none, none, none⟩
private def cl' (i o : ℕ) : TLayer := ⟨.conv, [(.groups, 1), (.inChannels, i), (.outChannels, o)], []⟩

/-- No filter is zero and all biases are non-zero; `c` ignores its middle input channel. -/
def exResC : TModel :=
  ⟨[("a", cl' 1 3), ("n", ⟨.bn, [(.numFeatures, 3)], [(.runningMean, ⟨[3], [1, 5, 2]⟩), (.runningVar, ⟨[3], [1, 1, 1]⟩)]⟩),
    ("b", cl' 1 3), ("k", ⟨.bn, [(.numFeatures, 3)], [(.runningMean, ⟨[3], [0, 5, 3]⟩), (.runningVar, ⟨[3], [1, 1, 1]⟩)]⟩),
    ("c", cl' 3 2), ("fc", ⟨.linear, [(.inFeatures, 2), (.outFeatures, 1)], []⟩)],
   [(("a", .weight), pr' [3, 1, 1, 1] [5, 6, 7]), (("n", .weight), pr' [3] [1, 9, 2]), (("n", .bias), pr' [3] [4, 3, 5]),
    (("b", .weight), pr' [3, 1, 1, 1] [1, 4, 2]), (("b", .bias), pr' [3] [8, 7, 6]),
    (("k", .weight), pr' [3] [2, 9, 1]), (("k", .bias), pr' [3] [1, 2, 1]),
    (("c", .weight), pr' [2, 3, 1, 1] [1, 0, 3, 4, 0, 6]), (("fc", .weight), pr' [1, 2] [1, 2])]⟩

def exResCGraph : TGraph :=
  ⟨fun _ => [], fun _ => [], fun l => if l = "c" then ["a", "b"] else if l = "fc" then ["c"] else [],
   fun l => if l = "c" then ["n", "k"] else []⟩

def exResCNet : NExpr Unit :=
  .conv "c" (fun p => [some p]) (.zip (fun f g p => f p + g p)
    (.map (fun f p => max 1 (f p)) (.bn "n" (.conv "a" (fun p => [some p]) .input)))
    (.bn "k" (.conv "b" (fun p => [some p]) .input)))

theorem exResC_wf (x : List (Unit → ℚ)) (hx : x.length = 1) : exResCNet.WellFormed exResC exNorm x := by
  refine ⟨⟨⟨⟨trivial, cl' 1 3, pr' [3, 1, 1, 1] [5, 6, 7], 3, 1, 1, by rfl, by rfl, by rfl, ?_, by rfl, ?_, fun _ => rfl⟩,
      _, by rfl, rfl, ?_, ?_⟩,
    ⟨⟨trivial, cl' 1 3, pr' [3, 1, 1, 1] [1, 4, 2], 3, 1, 1, by rfl, by rfl, by rfl, ?_, by rfl, ?_, fun _ => rfl⟩,
      _, by rfl, rfl, ?_, ?_⟩, by rfl⟩,
    cl' 3 2, pr' [2, 3, 1, 1] [1, 0, 3, 4, 0, 6], 2, 1, 1, by rfl, by rfl, by rfl, by rfl, by rfl, ?_, fun _ => rfl⟩
  · simp [NExpr.eval, hx, pr']
  · intro b hb; cases (show none = some b from hb)
  · intro k
    cases k
    · exact ⟨pr' [3] [1, 9, 2], by rfl, by rfl, by rfl⟩
    · exact ⟨pr' [3] [4, 3, 5], by rfl, by rfl, by rfl⟩
  · intro a
    cases a
    · exact ⟨⟨[3], [1, 5, 2]⟩, by rfl, by rfl, by rfl⟩
    · exact ⟨⟨[3], [1, 1, 1]⟩, by rfl, by rfl, by rfl⟩
  · simp [NExpr.eval, hx, pr']
  · intro b hb
    have : some (pr' [3] [8, 7, 6]) = some b := hb
    cases this
    exact ⟨rfl, rfl⟩
  · intro k
    cases k
    · exact ⟨pr' [3] [2, 9, 1], by rfl, by rfl, by rfl⟩
    · exact ⟨pr' [3] [1, 2, 1], by rfl, by rfl, by rfl⟩
  · intro a
    cases a
    · exact ⟨⟨[3], [0, 5, 3]⟩, by rfl, by rfl, by rfl⟩
    · exact ⟨⟨[3], [1, 1, 1]⟩, by rfl, by rfl, by rfl⟩
  · intro b hb; cases (show none = some b from hb)

theorem exResC_preds (l b : String) (h : l ∈ exResCGraph.preds b) : b = "c" ∧ (l = "a" ∨ l = "b") ∨ b = "fc" ∧ l = "c" := by
  simp only [exResCGraph] at h
  split_ifs at h <;> simp_all

theorem exResC_predBN (l b : String) (h : l ∈ exResCGraph.predBN b) : b = "c" ∧ (l = "n" ∨ l = "k") := by
  simp only [exResCGraph] at h
  split_ifs at h <;> simp_all

theorem exResC_used (x : List (Unit → ℚ)) (hx : x.length = 1) :
    exResCNet.Used exResCGraph exResC x (List.range (exResCNet.eval exResC exNorm x).length) := by
  have hcc : nonzeroChannels (wdata exResC "c") = [0, 2] := by decide +kernel
  have haa : nonzeroChannels (wdata exResC "a") = [0] := by decide +kernel
  have hbb : nonzeroChannels (wdata exResC "b") = [0] := by decide +kernel
  have hff : nonzeroChannels (wdata exResC "fc") = [0, 1] := by decide +kernel
  refine ⟨?_, ⟨⟨?_, ?_, ?_⟩, ?_, ?_, ?_⟩⟩
  · intro b _ hb
    rcases exResC_preds _ _ hb with ⟨rfl, h⟩ | ⟨rfl, h⟩
    · simp at h
    · rw [hff]; rfl
  · intro b _ hb
    obtain ⟨rfl, _⟩ := exResC_predBN _ _ hb
    rfl
  · intro b _ hb
    rcases exResC_preds _ _ hb with ⟨rfl, _⟩ | ⟨_, h⟩
    · rfl
    · simp at h
  · show nonzeroChannels (wdata exResC "a") = List.range x.length
    rw [haa, hx]; rfl
  · intro b _ hb
    obtain ⟨rfl, _⟩ := exResC_predBN _ _ hb
    rfl
  · intro b _ hb
    rcases exResC_preds _ _ hb with ⟨rfl, _⟩ | ⟨_, h⟩
    · rfl
    · simp at h
  · show nonzeroChannels (wdata exResC "b") = List.range x.length
    rw [hbb, hx]; rfl

theorem exResC_matches : exResCNet.MatchesBack exResCGraph := by
  refine ⟨⟨⟨trivial, fun a => ?_, fun a => ?_⟩, ⟨trivial, fun a => ?_, fun a => ?_⟩⟩, fun a => ?_, fun a => ?_⟩ <;>
    simp [exResCGraph, NExpr.sources, NExpr.norms]

/-- The hypotheses of `C99_network` hold for this network, and a channel is removed from five layers. -/
example : ∃ m' saved', removeChannels exResCGraph .sgd true exResC [] = .ok (m', saved') ∧
    wdata m' "c" = ⟨[2, 2, 1, 1], [1, 3, 4, 6]⟩ ∧ wdata m' "n" = ⟨[2], [1, 2]⟩ ∧ wdata m' "b" = ⟨[2, 1, 1, 1], [1, 2]⟩ ∧
    ∀ x : List (Unit → ℚ), x.length = 1 → exResCNet.eval m' exNorm x = exResCNet.eval exResC exNorm x ∧
      headEval m' "fc" [] [()] (exResCNet.eval m' exNorm x) = headEval exResC "fc" [] [()] (exResCNet.eval exResC exNorm x) := by
  have hd : (removeChannels exResCGraph .sgd true exResC []).toOption.map (fun p => (wdata p.1 "c", wdata p.1 "n", wdata p.1 "b")) =
      some (⟨[2, 2, 1, 1], [1, 3, 4, 6]⟩, ⟨[2], [1, 2]⟩, ⟨[2, 1, 1, 1], [1, 2]⟩) := by decide +kernel
  have lay : ∀ l ly, exResC.layers.get? l = some ly → (l, ly) ∈ exResC.layers := fun l ly h => Dict.mem_of_get? h
  cases h : removeChannels exResCGraph .sgd true exResC [] with
  | error e => rw [h] at hd; cases hd
  | ok ms =>
    rw [h] at hd
    simp only [Except.toOption, Option.map_some, Option.some.injEq, Prod.mk.injEq] at hd
    refine ⟨ms.1, ms.2, rfl, hd.1, hd.2.1, hd.2.2, fun x hx => ?_⟩
    have main := C99_network exResCGraph .sgd true exResC ms.1 [] ms.2 exNorm exResCNet x (by decide +kernel) ?_ ?_
      ⟨by decide +kernel, ?_⟩ ?_ ⟨?_, ?_⟩ (exResC_wf x hx) (exResC_used x hx) exResC_matches h
    · refine ⟨main.1, main.2 "fc" [] [()] ?_⟩
      intro l' hl'
      simp at hl'
      subst hl'
      exact ⟨_, by rfl, rfl⟩
    · intro l ly hl
      have hmem := lay l ly hl
      simp only [exResC, List.mem_cons, Prod.mk.injEq, List.not_mem_nil, or_false] at hmem
      rcases hmem with ⟨rfl, rfl⟩ | ⟨rfl, rfl⟩ | ⟨rfl, rfl⟩ | ⟨rfl, rfl⟩ | ⟨rfl, rfl⟩ | ⟨rfl, rfl⟩
      · refine ⟨fun _ => ⟨3, 1, 1, 1, _, rfl, rfl, rfl, rfl, fun b hb => ?_⟩, fun hk => (by cases hk), fun hk => (by cases hk)⟩
        cases (show none = some b from hb)
      · exact ⟨fun hk => (by cases hk), fun hk => (by cases hk), fun _ => ⟨3, _, _, _, _, rfl, rfl, rfl, rfl, rfl, rfl, rfl, rfl, rfl⟩⟩
      · refine ⟨fun _ => ⟨3, 1, 1, 1, _, rfl, rfl, rfl, rfl, fun b hb => ?_⟩, fun hk => (by cases hk), fun hk => (by cases hk)⟩
        have : some (pr' [3] [8, 7, 6]) = some b := hb
        cases this; rfl
      · exact ⟨fun hk => (by cases hk), fun hk => (by cases hk), fun _ => ⟨3, _, _, _, _, rfl, rfl, rfl, rfl, rfl, rfl, rfl, rfl, rfl⟩⟩
      · refine ⟨fun _ => ⟨2, 3, 1, 1, _, rfl, rfl, rfl, rfl, fun b hb => ?_⟩, fun hk => (by cases hk), fun hk => (by cases hk)⟩
        cases (show none = some b from hb)
      · refine ⟨fun hk => (by cases hk), fun _ => ⟨1, 2, _, rfl, rfl, rfl, rfl, fun b hb => ?_⟩, fun hk => (by cases hk)⟩
        cases (show none = some b from hb)
    · intro l ly p hl hk hp
      have : ∀ kv ∈ exResC.layers, kv.2.kind = .linear → kv.1 = "fc" := by decide +kernel
      have := this _ (lay l ly hl) hk
      simp only at this
      subst this
      have : some (pr' [1, 2] [1, 2]) = some p := hp
      cases this
      decide +kernel
    · intro l k p hp
      have : ∀ kv ∈ exResC.params, (exResC.layers.get? kv.1.1).isSome := by decide +kernel
      exact Option.isSome_iff_exists.1 (this _ (Dict.mem_of_get? hp))
    · intro b a la ha hl
      rcases exResC_preds _ _ ha with ⟨_, rfl | rfl⟩ | ⟨_, rfl⟩ <;>
      · have := lay _ _ hl
        simp [exResC] at this
        rw [this]; rfl
    · intro a b la lb hb hk ha hl
      rcases exResC_preds _ _ ha with ⟨rfl, rfl | rfl⟩ | ⟨rfl, rfl⟩
      · cases (show some (cl' 3 2) = some lb from hb)
        cases (show some (cl' 1 3) = some la from hl)
        rfl
      · cases (show some (cl' 3 2) = some lb from hb)
        cases (show some (cl' 1 3) = some la from hl)
        rfl
      · have := lay _ _ hb
        simp [exResC] at this
        rw [this] at hk; cases hk
    · intro a b la lb hb hk ha hl
      obtain ⟨rfl, rfl | rfl⟩ := exResC_predBN _ _ ha <;>
      · cases (show some (cl' 3 2) = some lb from hb)
        have := lay _ _ hl
        simp [exResC] at this
        rw [this]; rfl

end Verif
