import Verif.Props.Thinning2
/-!
# C43 for `remove_channels`
-/
namespace Verif

/-- No fully-connected layer has an all-zero input column (those are handled wrongly, see
`C43_violated_channels_linear`). -/
def LinearFull (m : TModel) : Prop := ∀ l lay p, m.layers.get? l = some lay → lay.kind = .linear →
  m.params.get? (l, .weight) = some p → ∀ c, c < p.data.shape.tail.headD 0 → c ∈ nonzeroChannels p.data

/-- The graph answers are about convolutions of the model. -/
def PredsConv (g : TGraph) (m : TModel) : Prop :=
  ∀ b a la, a ∈ g.preds b → m.layers.get? a = some la → la.kind = .conv

/-- Parameters belong to layers, and the parameter names are distinct. -/
def ParamsOfLayers (m : TModel) : Prop :=
  (m.params.map Prod.fst).Nodup ∧ ∀ l k p, m.params.get? (l, k) = some p → ∃ lay, m.layers.get? l = some lay

theorem RI.pred {m : TModel} (hg : NoGroups m) {idx : List ℕ} {rec : Recipe → PName → Except Err Recipe} {r r' : Recipe}
    {q : String} (h : RI m r) (hq : ∀ la, m.layers.get? q = some la → la.kind = .conv)
    (he : handlePredC m idx.length idx rec r q = .ok r') :
    RI m r' ∧ r' = addOutW m idx (r.appendModule q .outChannels idx.length) q := by
  unfold handlePredC at he
  simp only at he
  obtain ⟨lq, h1, he⟩ := ok_bind he
  obtain ⟨gr, h2, he⟩ := ok_bind he
  obtain ⟨inC, h3, he⟩ := ok_bind he
  have hl := getE_ok h1
  have := attr_ok h2
  rw [hg q lq hl (hq lq hl)] at this
  cases this
  simp only [if_true] at he
  cases he
  exact ⟨h.outputs hl (hq lq hl) idx, rfl⟩

/-- What `handle_layer` of the channels recipe is for a convolution without groups. -/
theorem layerC_split {g : TGraph} {m : TModel} (hg : NoGroups m) {idx : List ℕ} {fuel : ℕ} {r r' : Recipe} {l : String} {lay : TLayer}
    (hl : m.layers.get? l = some lay) (hk : lay.kind = .conv)
    (he : handleLayerC g m idx.length idx fuel r (l, .weight) = .ok r') :
    ∃ (rec : Recipe → PName → Except Err Recipe) (r1 : Recipe),
      (g.preds l).foldlM (handlePredC m idx.length idx rec)
        ((r.appendModule l .inChannels idx.length).appendParam (l, .weight) (.two 1 idx)) = .ok r1 ∧
      (g.predBN l).foldlM (fun r bn => r.appendBN m bn idx.length idx) r1 = .ok r' := by
  cases fuel with
  | zero => cases he
  | succ fuel =>
    unfold handleLayerC at he
    obtain ⟨lay', h1, he⟩ := ok_bind he
    obtain rfl : lay = lay' := by
      have := getE_ok h1; rw [hl] at this; exact Option.some.inj this
    rw [if_neg (by simp [hk])] at he
    simp only at he
    obtain ⟨dim, h2, he⟩ := ok_bind he
    rw [if_neg (by simp [hk])] at h2
    obtain ⟨gr, h3, h2⟩ := ok_bind h2
    have := attr_ok h3
    rw [hg l lay hl hk] at this
    cases this
    simp [pure, Except.pure] at h2
    subst h2
    obtain ⟨r1, h4, h5⟩ := ok_bind he
    exact ⟨_, r1, h4, h5⟩

theorem RI.layerC {g : TGraph} {m : TModel} (hg : NoGroups m) (hp : PredsConv g m) {idx : List ℕ} {fuel : ℕ} {r r' : Recipe}
    {l : String} {lay : TLayer} (h : RI m r) (hl : m.layers.get? l = some lay) (hk : lay.kind = .conv)
    (he : handleLayerC g m idx.length idx fuel r (l, .weight) = .ok r') : RI m r' := by
  obtain ⟨rec, r1, h1, h2⟩ := layerC_split hg hl hk he
  have a := h.inputs hl hk idx
  have b : RI m r1 := foldlM_preserves (P := RI m) (fun s q s' hq hs hf => (RI.pred hg hs (fun la => hp l q la hq) hf).1) a h1
  exact foldlM_preserves (P := RI m) (fun s q s' hq hs hf => hs.appendBN hf) b h2

/-- One step of the loop either does nothing or handles the weights of a convolution. -/
theorem stepC_cases {g : TGraph} {m : TModel} (hc : Consistent m) (hlin : LinearFull m) (hpl : ParamsOfLayers m)
    {r r' : Recipe} {kv : PName × TParam} (hm : kv ∈ m.params) (he : stepC g m r kv = .ok r') :
    r' = r ∨ ∃ l lay, kv.1 = (l, .weight) ∧ m.layers.get? l = some lay ∧ lay.kind = .conv ∧
      handleLayerC g m (nonzeroChannels kv.2.data).length (nonzeroChannels kv.2.data) (m.layers.length + 1) r (l, .weight) = .ok r' := by
  obtain ⟨⟨l, k⟩, p⟩ := kv
  have hget : m.params.get? (l, k) = some p := Dict.get?_of_mem hpl.1 hm
  obtain ⟨lay, hl⟩ := hpl.2 l k p hget
  obtain ⟨c1, c2, c3⟩ := hc l lay hl
  unfold stepC at he
  simp only at he
  split at he
  · cases he; exact .inl rfl
  · rename_i hdim
    split at he
    · cases he
    · split at he
      · cases he; exact .inl rfl
      · rename_i hlt
        right
        cases k with
        | bias =>
          exfalso
          apply hdim
          cases hk : lay.kind with
          | conv => obtain ⟨_, _, _, _, _, _, _, _, _, hb⟩ := c1 hk; rw [hb p hget]; simp
          | linear => obtain ⟨_, _, _, _, _, _, _, hb⟩ := c2 hk; rw [hb p hget]; simp
          | bn =>
            obtain ⟨_, _, b, _, _, _, _, _, hb, hbs, _⟩ := c3 hk
            rw [hget] at hb; cases hb; rw [hbs]; simp
        | weight =>
          cases hk : lay.kind with
          | conv => exact ⟨l, lay, rfl, hl, hk, he⟩
          | bn =>
            exfalso
            apply hdim
            obtain ⟨_, w, _, _, _, _, hw, hws, _⟩ := c3 hk
            rw [hget] at hw; cases hw; rw [hws]; simp
          | linear =>
            exfalso
            apply hlt
            have hfull := hlin l lay p hl hk hget
            have hsub : List.range (p.data.shape.tail.headD 0) ⊆ nonzeroChannels p.data := by
              intro c hcm; exact hfull c (List.mem_range.1 hcm)
            have := (List.subperm_of_subset List.nodup_range hsub).length_le
            simpa using this

theorem RI.createC {g : TGraph} {m : TModel} (hg : NoGroups m) (hc : Consistent m) (hlin : LinearFull m) (hpl : ParamsOfLayers m)
    (hp : PredsConv g m) {r : Recipe} (he : createChannels g m = .ok r) : RI m r := by
  unfold createChannels at he
  refine foldlM_preserves (P := RI m) ?_ (RI.empty m) he
  intro s a s' ha hs hf
  rcases stepC_cases hc hlin hpl ha hf with rfl | ⟨l, lay, e, hl, hk, h⟩
  · exact hs
  · exact RI.layerC hg hp hs hl hk h

/-- **C43** (partial) `remove_channels`, for every network without grouped convolutions whose fully-connected
layers have no zero input column: when it succeeds and no tensor is thinned twice along the same dimension for
different channels, every layer still declares the sizes of its tensors. -/
theorem C43_channels_consistent_partial (g : TGraph) (m m' : TModel) (r : Recipe) (opt : OptKind) (upd : Bool)
    (hg : NoGroups m) (hc : Consistent m) (hlin : LinearFull m) (hpl : ParamsOfLayers m) (hp : PredsConv g m)
    (hr : createChannels g m = .ok r) (hs : r.Single)
    (he : execRecipe opt upd m r = .ok m') : Consistent m' ∧ NoGroups m' :=
  consistent_of_RI hg hc (RI.createC hg hc hlin hpl hp hr) hs he

/-! ## Connected layers -/

/-- Every convolution `b` expects what the convolutions before it produce, and so do the batch-norms between them. -/
structure PredsOK (g : TGraph) (m : TModel) : Prop where
  conv : ∀ a b la lb, m.layers.get? b = some lb → lb.kind = .conv → a ∈ g.preds b → m.layers.get? a = some la →
    la.attrs.get? .outChannels = lb.attrs.get? .inChannels
  bn : ∀ a b la lb, m.layers.get? b = some lb → lb.kind = .conv → a ∈ g.predBN b → m.layers.get? a = some la →
    la.attrs.get? .numFeatures = lb.attrs.get? .inChannels

/-- No layer feeds two convolutions. -/
def NoFork (g : TGraph) (m : TModel) : Prop :=
  (∀ a b b', IsConvOf m b → IsConvOf m b' → a ∈ g.preds b → a ∈ g.preds b' → b = b') ∧
  (∀ a b b', IsConvOf m b → IsConvOf m b' → a ∈ g.predBN b → a ∈ g.predBN b' → b = b')

theorem addOutW_attr (m : TModel) (idx : List ℕ) (r : Recipe) (q l : String) (a : Attr) :
    (addOutW m idx r q).attrOf l a = r.attrOf l a := by
  unfold addOutW
  simp only
  split <;> simp only [attrOf_appendParam]

theorem preds_attr {m : TModel} (hg : NoGroups m) {idx : List ℕ} {rec : Recipe → PName → Except Err Recipe} {qs : List String}
    (hq : ∀ q ∈ qs, ∀ la, m.layers.get? q = some la → la.kind = .conv) {r r' : Recipe} (h : RI m r)
    (he : qs.foldlM (handlePredC m idx.length idx rec) r = .ok r') (l : String) (a : Attr) :
    r'.attrOf l a = if l ∈ qs ∧ a = .outChannels then some idx.length else r.attrOf l a := by
  induction qs generalizing r with
  | nil => simp [pure, Except.pure] at he; subst he; simp
  | cons q qs ih =>
    rw [List.foldlM_cons] at he
    obtain ⟨r1, h1, h2⟩ := ok_bind he
    obtain ⟨e1, e2⟩ := RI.pred hg h (hq q (by simp)) h1
    rw [ih (fun q hq' => hq q (by simp [hq'])) e1 h2, e2, addOutW_attr, attrOf_appendModule]
    by_cases c1 : l ∈ qs <;> by_cases c2 : q = l <;> by_cases c3 : a = .outChannels <;>
      simp [c1, c2, c3, eq_comm] <;> (try (intro h; exact absurd h.symm c2)) <;> simp_all [eq_comm]

theorem bns_attr {m : TModel} {idx : List ℕ} {qs : List String} {r r' : Recipe}
    (he : qs.foldlM (fun r bn => r.appendBN m bn idx.length idx) r = .ok r') (l : String) (a : Attr) :
    r'.attrOf l a = if l ∈ qs ∧ a = .numFeatures then some idx.length else r.attrOf l a := by
  induction qs generalizing r with
  | nil => simp [pure, Except.pure] at he; subst he; simp
  | cons q qs ih =>
    rw [List.foldlM_cons] at he
    obtain ⟨r1, h1, h2⟩ := ok_bind he
    obtain ⟨_, e2, _, _⟩ := appendBN_ok h1
    rw [ih h2, e2]
    by_cases c1 : l ∈ qs <;> by_cases c2 : l = q <;> by_cases c3 : a = .numFeatures <;> simp [c1, c2, c3]

/-- The recipe's attributes keep connected layers compatible. -/
structure RPreds (g : TGraph) (m : TModel) (r : Recipe) : Prop where
  ri : RI m r
  conv : ∀ a b lb, m.layers.get? b = some lb → lb.kind = .conv → a ∈ g.preds b →
    r.attrOf a .outChannels = r.attrOf b .inChannels
  bn : ∀ a b lb, m.layers.get? b = some lb → lb.kind = .conv → a ∈ g.predBN b →
    r.attrOf a .numFeatures = r.attrOf b .inChannels

theorem RPreds.create {g : TGraph} {m : TModel} (hg : NoGroups m) (hc : Consistent m) (hlin : LinearFull m) (hpl : ParamsOfLayers m)
    (hp : PredsConv g m) (hf : NoFork g m) {r : Recipe} (he : createChannels g m = .ok r) : RPreds g m r := by
  unfold createChannels at he
  refine foldlM_preserves (P := RPreds g m) ?_ ⟨RI.empty m, fun _ _ _ _ _ _ => rfl, fun _ _ _ _ _ _ => rfl⟩ he
  intro s kv s' hkv hs hstep
  rcases stepC_cases hc hlin hpl hkv hstep with rfl | ⟨l, lay, e, hl, hk, h⟩
  · exact hs
  refine ⟨RI.layerC hg hp hs.ri hl hk h, ?_, ?_⟩ <;>
  · intro a b lb hb hbk hab
    obtain ⟨rec, r1, h1, h2⟩ := layerC_split hg hl hk h
    have q1 := fun x y => preds_attr hg (fun q hq la => hp l q la hq) (hs.ri.inputs hl hk _) h1 x y
    have q2 := fun x y => bns_attr h2 x y
    rw [q2, q2, q1, q1]
    simp only [attrOf_appendParam, attrOf_appendModule, reduceCtorEq, and_false, and_true, if_false]
    by_cases c : l = b
    · subst c
      simp [hab]
    · rw [if_neg c, if_neg]
      · first | exact hs.conv a b lb hb hbk hab | exact hs.bn a b lb hb hbk hab
      · intro hx
        first | exact c (hf.1 a l b ⟨_, hl, hk⟩ ⟨_, hb, hbk⟩ hx hab) | exact c (hf.2 a l b ⟨_, hl, hk⟩ ⟨_, hb, hbk⟩ hx hab)

/-- **C43** (partial) `remove_channels`, for every such network in which no convolution feeds two others: every
convolution still expects the channels its predecessors produce, and the batch-norms in between as well.
Missing: convolutions feeding several layers (`C43_violated_channels_sibling`). -/
theorem C43_channels_edges_partial (g : TGraph) (m m' : TModel) (r : Recipe) (opt : OptKind) (upd : Bool)
    (hg : NoGroups m) (hc : Consistent m) (hlin : LinearFull m) (hpl : ParamsOfLayers m) (hp : PredsConv g m) (hf : NoFork g m)
    (ho : PredsOK g m) (hr : createChannels g m = .ok r) (he : execRecipe opt upd m r = .ok m') : PredsOK g m' := by
  have hR := RPreds.create hg hc hlin hpl hp hf hr
  have hd := hR.ri.dict
  refine ⟨?_, ?_⟩ <;>
  · intro a b la' lb' hb hbk hab ha
    obtain ⟨la, ea, ka, fa, _⟩ := exec_layer hd he ha
    obtain ⟨lb, eb, kb, fb, _⟩ := exec_layer hd he hb
    rw [kb] at hbk
    first
    | rw [fa, fb, hR.conv a b lb eb hbk hab, ho.conv a b la lb eb hbk hab ea]
    | rw [fa, fb, hR.bn a b lb eb hbk hab, ho.bn a b la lb eb hbk hab ea]

/-- The second convolution ignores its middle input channel. -/
def exChanNet : TModel :=
  ⟨[("c1", ⟨.conv, [(.inChannels, 1), (.outChannels, 3), (.groups, 1)], []⟩),
    ("b1", ⟨.bn, [(.numFeatures, 3)], [(.runningMean, ⟨[3], [1, 2, 3]⟩), (.runningVar, ⟨[3], [4, 5, 6]⟩)]⟩),
    ("c2", ⟨.conv, [(.inChannels, 3), (.outChannels, 2), (.groups, 1)], []⟩)],
   [(("c1", .weight), ⟨⟨[3, 1, 1, 1], [5, 9, 7]⟩, none, none, none⟩),
    (("c1", .bias), ⟨⟨[3], [1, 0, 2]⟩, none, none, none⟩),
    (("b1", .weight), ⟨⟨[3], [1, 1, 1]⟩, none, none, none⟩),
    (("b1", .bias), ⟨⟨[3], [0, 0, 0]⟩, none, none, none⟩),
    (("c2", .weight), ⟨⟨[2, 3, 1, 1], [1, 0, 3, 4, 0, 6]⟩, none, none, none⟩)]⟩

def exChanRecipe : Recipe :=
  ⟨[("c2", ⟨[(.inChannels, 2)], []⟩), ("c1", ⟨[(.outChannels, 2)], []⟩),
    ("b1", ⟨[(.numFeatures, 2)], [(.runningMean, [0, 2]), (.runningVar, [0, 2])]⟩)],
   [(("c2", .weight), [.two 1 [0, 2]]), (("c1", .weight), [.two 0 [0, 2]]), (("c1", .bias), [.two 0 [0, 2]]),
    (("b1", .weight), [.two 0 [0, 2]]), (("b1", .bias), [.two 0 [0, 2]])]⟩

/-- The hypotheses of both theorems are met by this network. -/
example : NoGroups exChanNet ∧ Consistent exChanNet ∧ LinearFull exChanNet ∧ ParamsOfLayers exChanNet ∧ PredsConv exGraph exChanNet ∧
    NoFork exGraph exChanNet ∧ PredsOK exGraph exChanNet ∧ createChannels exGraph exChanNet = .ok exChanRecipe ∧ exChanRecipe.Single ∧
    ((execRecipe .none true exChanNet exChanRecipe).toOption.bind fun m => (m.params.get? ("c2", .weight)).map (·.data)) =
      some ⟨[2, 2, 1, 1], [1, 3, 4, 6]⟩ := by
  have lay : ∀ l ly, exChanNet.layers.get? l = some ly → (l, ly) ∈ exChanNet.layers := fun l ly h => Dict.mem_of_get? h
  refine ⟨by decide +kernel, ?_, ?_, ⟨by decide +kernel, ?_⟩, ?_, ⟨?_, ?_⟩, ⟨?_, ?_⟩, by decide +kernel, ?_, by decide +kernel⟩
  · intro l ly hl
    have hmem := lay l ly hl
    simp only [exChanNet, List.mem_cons, Prod.mk.injEq, List.not_mem_nil, or_false] at hmem
    rcases hmem with ⟨rfl, rfl⟩ | ⟨rfl, rfl⟩ | ⟨rfl, rfl⟩
    · refine ⟨fun _ => ⟨3, 1, 1, 1, _, rfl, rfl, rfl, rfl, ?_⟩, by simp, by simp⟩
      intro b hb
      have : exChanNet.params.get? ("c1", .bias) = some ⟨⟨[3], [1, 0, 2]⟩, none, none, none⟩ := by decide +kernel
      rw [this] at hb; cases hb; rfl
    · exact ⟨by simp, by simp, fun _ => ⟨3, _, _, _, _, rfl, rfl, rfl, rfl, rfl, rfl, rfl, rfl, rfl⟩⟩
    · refine ⟨fun _ => ⟨2, 3, 1, 1, _, rfl, rfl, rfl, rfl, ?_⟩, by simp, by simp⟩
      intro b hb
      have : exChanNet.params.get? ("c2", .bias) = none := by decide +kernel
      rw [this] at hb; cases hb
  · intro l ly p hl hk
    have : ∀ kv ∈ exChanNet.layers, kv.2.kind ≠ .linear := by decide +kernel
    exact absurd hk (this _ (lay l ly hl))
  · intro l k p hp
    have : ∀ kv ∈ exChanNet.params, (exChanNet.layers.get? kv.1.1).isSome := by decide +kernel
    exact Option.isSome_iff_exists.1 (this _ (Dict.mem_of_get? hp))
  · intro b a la ha hl
    simp only [exGraph] at ha
    split at ha
    · simp at ha; subst ha
      have : exChanNet.layers.get? "c1" = some ⟨.conv, [(.inChannels, 1), (.outChannels, 3), (.groups, 1)], []⟩ := by decide +kernel
      rw [this] at hl; cases hl; rfl
    · simp at ha
  · intro a b b' _ _ h1 h2
    simp only [exGraph] at h1 h2
    split at h1 <;> split at h2 <;> simp_all
  · intro a b b' _ _ h1 h2
    simp only [exGraph] at h1 h2
    split at h1 <;> split at h2 <;> simp_all
  · intro a b la lb hb hk ha hl
    simp only [exGraph] at ha
    split at ha
    · rename_i e
      simp at ha; subst ha; subst e
      have e1 : exChanNet.layers.get? "c1" = some ⟨.conv, [(.inChannels, 1), (.outChannels, 3), (.groups, 1)], []⟩ := by decide +kernel
      have e2 : exChanNet.layers.get? "c2" = some ⟨.conv, [(.inChannels, 3), (.outChannels, 2), (.groups, 1)], []⟩ := by decide +kernel
      rw [e1] at hl; cases hl
      rw [e2] at hb; cases hb
      rfl
    · simp at ha
  · intro a b la lb hb hk ha hl
    simp only [exGraph] at ha
    split at ha
    · rename_i e
      simp at ha; subst ha; subst e
      have e1 : (exChanNet.layers.get? "b1").bind (fun l => l.attrs.get? .numFeatures) = some 3 := by decide +kernel
      have e2 : exChanNet.layers.get? "c2" = some ⟨.conv, [(.inChannels, 3), (.outChannels, 2), (.groups, 1)], []⟩ := by decide +kernel
      rw [hl] at e1
      rw [e2] at hb; cases hb
      exact e1
    · simp at ha
  · intro p d hd d' hd' _
    have : ∀ kv ∈ exChanRecipe.parameters, kv.2.length = 1 := by decide +kernel
    have hlen : (exChanRecipe.dirs p).length ≤ 1 := by
      unfold Recipe.dirs
      cases e : exChanRecipe.parameters.get? p with
      | none => simp
      | some ds => simpa using (this _ (Dict.mem_of_get? e)).le
    match h : exChanRecipe.dirs p, hlen with
    | [], _ => rw [h] at hd; simp at hd
    | [x], _ => rw [h] at hd hd'; simp at hd hd'; rw [hd, hd']

/-- Two convolutions read the output of the first; only one of them ignores a channel. -/
def exFork : TModel :=
  ⟨[("c1", ⟨.conv, [(.inChannels, 1), (.outChannels, 2), (.groups, 1)], []⟩),
    ("c2", ⟨.conv, [(.inChannels, 2), (.outChannels, 1), (.groups, 1)], []⟩),
    ("c3", ⟨.conv, [(.inChannels, 2), (.outChannels, 1), (.groups, 1)], []⟩)],
   [(("c1", .weight), ⟨⟨[2, 1, 1, 1], [5, 9]⟩, none, none, none⟩),
    (("c2", .weight), ⟨⟨[1, 2, 1, 1], [1, 0]⟩, none, none, none⟩),
    (("c3", .weight), ⟨⟨[1, 2, 1, 1], [1, 2]⟩, none, none, none⟩)]⟩

def exForkGraph : TGraph :=
  ⟨fun l => if l = "c1" then ["c2", "c3"] else [], fun _ => [],
   fun l => if l = "c2" ∨ l = "c3" then ["c1"] else [], fun _ => []⟩

/-- **C43** is violated by `remove_channels` when the preceding convolution feeds another layer as well: it loses
an output channel which the other layer still needs, and that layer still expects it. -/
theorem C43_violated_channels_sibling : ∃ (g : TGraph) (m m' : TModel) (r : Recipe), createChannels g m = .ok r ∧
    execRecipe .none false m r = .ok m' ∧ "c1" ∈ g.preds "c3" ∧
    (m.layers.get? "c1").bind (fun l => l.attrs.get? .outChannels) = (m.layers.get? "c3").bind (fun l => l.attrs.get? .inChannels) ∧
    (m'.layers.get? "c1").bind (fun l => l.attrs.get? .outChannels) = some 1 ∧
    (m'.layers.get? "c3").bind (fun l => l.attrs.get? .inChannels) = some 2 :=
  ⟨exForkGraph, exFork,
    ⟨[("c1", ⟨.conv, [(.inChannels, 1), (.outChannels, 1), (.groups, 1)], []⟩),
      ("c2", ⟨.conv, [(.inChannels, 1), (.outChannels, 1), (.groups, 1)], []⟩),
      ("c3", ⟨.conv, [(.inChannels, 2), (.outChannels, 1), (.groups, 1)], []⟩)],
     [(("c1", .weight), ⟨⟨[1, 1, 1, 1], [5]⟩, none, none, none⟩),
      (("c2", .weight), ⟨⟨[1, 1, 1, 1], [1]⟩, none, none, none⟩),
      (("c3", .weight), ⟨⟨[1, 2, 1, 1], [1, 2]⟩, none, none, none⟩)]⟩,
    ⟨[("c2", ⟨[(.inChannels, 1)], []⟩), ("c1", ⟨[(.outChannels, 1)], []⟩)],
     [(("c2", .weight), [.two 1 [0]]), (("c1", .weight), [.two 0 [0]])]⟩,
    by decide +kernel, by decide +kernel, by decide +kernel, by decide +kernel, by decide +kernel, by decide +kernel⟩

end Verif
