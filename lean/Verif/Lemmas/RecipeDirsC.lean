import Verif.Lemmas.RecipeDirs
import Verif.Props.Thinning4
/-! Exactly which directives a channels recipe contains. -/
namespace Verif

theorem predC_eq {m : TModel} (hg : NoGroups m) {idx : List ℕ} {rec : Recipe → PName → Except Err Recipe} {r r' : Recipe}
    {q : String} (hq : ∀ la, m.layers.get? q = some la → la.kind = .conv)
    (he : handlePredC m idx.length idx rec r q = .ok r') :
    r' = addOutW m idx (r.appendModule q .outChannels idx.length) q ∧ ∃ la, m.layers.get? q = some la ∧ la.kind = .conv := by
  unfold handlePredC at he
  simp only at he
  obtain ⟨lq, h1, he⟩ := ok_bind he
  obtain ⟨gr, h2, he⟩ := ok_bind he
  obtain ⟨inC, h3, he⟩ := ok_bind he
  have hl := getE_ok h1
  have := attr_ok h2
  rw [hg q lq hl (hq lq hl)] at this
  cases this
  simp only [if_true] at he
  cases he
  exact ⟨rfl, lq, hl, hq lq hl⟩

theorem addOutW_dirs (m : TModel) (idx : List ℕ) (r : Recipe) (q : String) :
    (∀ l d, d ∈ (addOutW m idx r q).dirs (l, .weight) ↔ d ∈ r.dirs (l, .weight) ∨ (l = q ∧ d = .two 0 idx)) ∧
    (∀ l d, d ∈ (addOutW m idx r q).dirs (l, .bias) ↔
      d ∈ r.dirs (l, .bias) ∨ (l = q ∧ m.params.has (l, .bias) = true ∧ d = .two 0 idx)) ∧
    (∀ l k, l ≠ q → (addOutW m idx r q).dirs (l, k) = r.dirs (l, k)) ∧
    ∀ l a, (addOutW m idx r q).runOf l a = r.runOf l a := by
  unfold addOutW
  simp only
  refine ⟨fun l d => ?_, fun l d => ?_, fun l k e => ?_, fun l a => ?_⟩
  · have h1 : d ∈ (r.appendParam (q, .weight) (.two 0 idx)).dirs (l, .weight) ↔ d ∈ r.dirs (l, .weight) ∨ (l = q ∧ d = .two 0 idx) := by
      rw [mem_dirs_appendParam]; simp
    split
    · rw [mem_dirs_appendParam, h1]; simp
    · exact h1
  · have h1 : d ∈ (r.appendParam (q, .weight) (.two 0 idx)).dirs (l, .bias) ↔ d ∈ r.dirs (l, .bias) := by
      rw [mem_dirs_appendParam]; simp
    split
    · rename_i c
      rw [mem_dirs_appendParam, h1]
      constructor
      · rintro (h | ⟨h, h'⟩)
        · exact Or.inl h
        · cases h; exact Or.inr ⟨rfl, c, h'⟩
      · rintro (h | ⟨h, _, h'⟩)
        · exact Or.inl h
        · subst h; exact Or.inr ⟨rfl, h'⟩
    · rename_i c
      rw [h1]
      constructor
      · exact Or.inl
      · rintro (h | ⟨h, h', _⟩)
        · exact h
        · subst h; exact absurd h' c
  · have h1 : (r.appendParam (q, .weight) (.two 0 idx)).dirs (l, k) = r.dirs (l, k) :=
      dirs_appendParam_ne _ _ (fun e' => e (by cases e'; rfl))
    split
    · rw [dirs_appendParam_ne _ _ (fun e' => e (by cases e'; rfl)), h1]
    · exact h1
  · split <;> simp only [runOf_appendParam]

theorem predsC_dirs {m : TModel} (hg : NoGroups m) {idx : List ℕ} {rec : Recipe → PName → Except Err Recipe} {qs : List String}
    (hq : ∀ q ∈ qs, ∀ la, m.layers.get? q = some la → la.kind = .conv) {r r' : Recipe}
    (he : qs.foldlM (handlePredC m idx.length idx rec) r = .ok r') :
    (∀ q ∈ qs, ∃ la, m.layers.get? q = some la ∧ la.kind = .conv) ∧
    (∀ l d, d ∈ r'.dirs (l, .weight) ↔ d ∈ r.dirs (l, .weight) ∨ (l ∈ qs ∧ d = .two 0 idx)) ∧
    (∀ l d, d ∈ r'.dirs (l, .bias) ↔ d ∈ r.dirs (l, .bias) ∨ (l ∈ qs ∧ m.params.has (l, .bias) = true ∧ d = .two 0 idx)) ∧
    (∀ l k, l ∉ qs → r'.dirs (l, k) = r.dirs (l, k)) ∧
    ∀ l a, r'.runOf l a = r.runOf l a := by
  induction qs generalizing r with
  | nil => simp [pure, Except.pure] at he; subst he; simp
  | cons q qs ih =>
    rw [List.foldlM_cons] at he
    obtain ⟨r1, h1, h2⟩ := ok_bind he
    obtain ⟨e1, e2⟩ := predC_eq hg (hq q (by simp)) h1
    obtain ⟨i0, i1, i2, i3, i4⟩ := ih (fun q hq' => hq q (by simp [hq'])) h2
    obtain ⟨a1, a2, a3, a4⟩ := addOutW_dirs m idx (r.appendModule q .outChannels idx.length) q
    rw [← e1] at a1 a2 a3 a4
    refine ⟨?_, fun l d => ?_, fun l d => ?_, fun l k hl => ?_, fun l a => ?_⟩
    · intro q' hq'
      rcases List.mem_cons.1 hq' with rfl | hq'
      · exact e2
      · exact i0 q' hq'
    · rw [i1, a1, dirs_appendModule, List.mem_cons]; tauto
    · rw [i2, a2, dirs_appendModule, List.mem_cons]; tauto
    · rw [i3 l k (fun h => hl (by simp [h])), a3 l k (fun h => hl (by simp [h])), dirs_appendModule]
    · rw [i4, a4, runOf_appendModule]

theorem bnsC_dirs {m : TModel} {idx : List ℕ} {qs : List String} {r r' : Recipe}
    (he : qs.foldlM (fun r bn => r.appendBN m bn idx.length idx) r = .ok r') :
    (∀ q ∈ qs, ∃ lq, m.layers.get? q = some lq ∧ lq.kind = .bn) ∧
    (∀ l k, r'.dirs (l, k) = if l ∈ qs then [.two 0 idx] else r.dirs (l, k)) ∧
    ∀ l a, r'.runOf l a = if l ∈ qs then some idx else r.runOf l a := by
  induction qs generalizing r with
  | nil => simp [pure, Except.pure] at he; subst he; simp
  | cons q qs ih =>
    rw [List.foldlM_cons] at he
    obtain ⟨r1, h1, h2⟩ := ok_bind he
    obtain ⟨b1, _, b4, b5⟩ := appendBN_ok h1
    obtain ⟨i1, i2, i3⟩ := ih h2
    refine ⟨?_, fun l k => ?_, fun l a => ?_⟩
    · intro q' hq'
      rcases List.mem_cons.1 hq' with rfl | hq'
      · exact b1
      · exact i1 q' hq'
    · rw [i2, b5]
      by_cases c1 : l ∈ qs <;> by_cases c2 : l = q <;> simp [c1, c2]
    · rw [i3, b4]
      by_cases c1 : l ∈ qs <;> by_cases c2 : l = q <;> simp [c1, c2]

/-- A convolution whose input channels are thinned: its non-zero channels. -/
def ThinnedC (m : TModel) (b : String) (idx : List ℕ) : Prop :=
  ∃ p lb, ((b, PK.weight), p) ∈ m.params ∧ m.layers.get? b = some lb ∧ lb.kind = .conv ∧
    idx = nonzeroChannels p.data ∧ idx.length < p.data.shape.tail.headD 0

theorem ThinnedC.conv {m : TModel} {b : String} {idx : List ℕ} (h : ThinnedC m b idx) : IsConvOf m b := by
  obtain ⟨_, lb, _, h1, h2, _⟩ := h
  exact ⟨lb, h1, h2⟩

/-- The directives of a channels recipe, for the parameters `ps` handled so far. -/
structure RDirsC (g : TGraph) (m : TModel) (ps : List (PName × TParam)) (r : Recipe) : Prop where
  weight_sound : ∀ l lay, m.layers.get? l = some lay → lay.kind = .conv → ∀ d ∈ r.dirs (l, .weight),
    ∃ b idx, ThinnedC m b idx ∧ ((b = l ∧ d = .two 1 idx) ∨ (l ∈ g.preds b ∧ d = .two 0 idx))
  bias_sound : ∀ l lay, m.layers.get? l = some lay → lay.kind = .conv → ∀ d ∈ r.dirs (l, .bias),
    ∃ b idx, ThinnedC m b idx ∧ l ∈ g.preds b ∧ d = .two 0 idx
  fc : ∀ l lay, m.layers.get? l = some lay → lay.kind = .linear → ∀ k, r.dirs (l, k) = []
  bn_sound : ∀ l lay, m.layers.get? l = some lay → lay.kind = .bn →
    ((∀ k, r.dirs (l, k) = []) ∧ ∀ a, r.runOf l a = none) ∨
    ∃ b idx, ThinnedC m b idx ∧ l ∈ g.predBN b ∧ (∀ k, r.dirs (l, k) = [.two 0 idx]) ∧ ∀ x, r.runOf l x = some idx
  complete : ∀ kv ∈ ps, ∀ lb, m.layers.get? kv.1.1 = some lb → lb.kind = .conv → kv.1.2 = .weight →
    (nonzeroChannels kv.2.data).length < kv.2.data.shape.tail.headD 0 →
    .two 1 (nonzeroChannels kv.2.data) ∈ r.dirs (kv.1.1, .weight) ∧
    (∀ a ∈ g.preds kv.1.1, (∃ la, m.layers.get? a = some la ∧ la.kind = .conv) ∧
      .two 0 (nonzeroChannels kv.2.data) ∈ r.dirs (a, .weight) ∧
      (m.params.has (a, .bias) = true → .two 0 (nonzeroChannels kv.2.data) ∈ r.dirs (a, .bias))) ∧
    ∀ n ∈ g.predBN kv.1.1, (∃ ln, m.layers.get? n = some ln ∧ ln.kind = .bn) ∧ ∀ k, r.dirs (n, k) ≠ []

/-- A step that does something handles the weights of a convolution. -/
theorem stepC_active {g : TGraph} {m : TModel} (hc : Consistent m) (hlin : LinearFull m) (hpl : ParamsOfLayers m)
    {r r' : Recipe} {kv : PName × TParam} (hm : kv ∈ m.params) (he : stepC g m r kv = .ok r')
    (hact : ¬ (kv.2.data.shape.length ≠ 2 ∧ kv.2.data.shape.length ≠ 4 ∨
        kv.2.data.shape.tail.headD 0 ≤ (nonzeroChannels kv.2.data).length)) :
    ∃ l lay, kv.1 = (l, .weight) ∧ m.layers.get? l = some lay ∧ lay.kind = .conv ∧
      handleLayerC g m (nonzeroChannels kv.2.data).length (nonzeroChannels kv.2.data) (m.layers.length + 1) r (l, .weight) = .ok r' := by
  obtain ⟨⟨l, k⟩, p⟩ := kv
  have hget : m.params.get? (l, k) = some p := Dict.get?_of_mem hpl.1 hm
  obtain ⟨lay, hl⟩ := hpl.2 l k p hget
  obtain ⟨c1, c2, c3⟩ := hc l lay hl
  have hdim : ¬ (p.data.shape.length ≠ 2 ∧ p.data.shape.length ≠ 4) := fun h => hact (Or.inl h)
  have hlt : ¬ p.data.shape.tail.headD 0 ≤ (nonzeroChannels p.data).length := fun h => hact (Or.inr h)
  unfold stepC at he
  simp only at he
  rw [if_neg hdim] at he
  split at he
  · cases he
  · cases k with
    | bias =>
      exfalso
      apply hdim
      cases hk : lay.kind with
      | conv => obtain ⟨_, _, _, _, _, _, _, _, _, hb⟩ := c1 hk; rw [hb p hget]; simp
      | linear => obtain ⟨_, _, _, _, _, _, _, hb⟩ := c2 hk; rw [hb p hget]; simp
      | bn =>
        obtain ⟨_, _, b, _, _, _, _, _, hb, hbs, _⟩ := c3 hk
        rw [hget] at hb; cases hb; rw [hbs]; simp
    | weight =>
      cases hk : lay.kind with
      | conv => exact ⟨l, lay, rfl, hl, hk, he⟩
      | bn =>
        exfalso
        apply hdim
        obtain ⟨_, w, _, _, _, _, hw, hws, _⟩ := c3 hk
        rw [hget] at hw; cases hw; rw [hws]; simp
      | linear =>
        exfalso
        apply hlt
        have hfull := hlin l lay p hl hk hget
        have hsub : List.range (p.data.shape.tail.headD 0) ⊆ nonzeroChannels p.data := by
          intro c hcm; exact hfull c (List.mem_range.1 hcm)
        have := (List.subperm_of_subset List.nodup_range hsub).length_le
        simpa using this

theorem RDirsC.fold {g : TGraph} {m : TModel} (hg : NoGroups m) (hc : Consistent m) (hlin : LinearFull m) (hpl : ParamsOfLayers m)
    (hp : PredsConv g m) {ps rest : List (PName × TParam)} (hsub : ∀ kv ∈ ps ++ rest, kv ∈ m.params) {r r' : Recipe}
    (h : RDirsC g m ps r) (he : rest.foldlM (stepC g m) r = .ok r') : RDirsC g m (ps ++ rest) r' := by
  induction rest generalizing ps r with
  | nil => simp [pure, Except.pure] at he; subst he; simpa using h
  | cons kv rest ih =>
    rw [List.foldlM_cons] at he
    obtain ⟨r1, h1, h2⟩ := ok_bind he
    have hmem : kv ∈ m.params := hsub kv (by simp)
    suffices hstep : RDirsC g m (ps ++ [kv]) r1 by
      have := ih (ps := ps ++ [kv]) (by simpa using hsub) hstep h2
      simpa using this
    by_cases hact : kv.2.data.shape.length ≠ 2 ∧ kv.2.data.shape.length ≠ 4 ∨
        kv.2.data.shape.tail.headD 0 ≤ (nonzeroChannels kv.2.data).length
    · -- nothing to do
      have hr : r1 = r := by
        unfold stepC at h1
        simp only at h1
        split at h1
        · cases h1; rfl
        · split at h1
          · cases h1
          · split at h1
            · cases h1; rfl
            · rename_i c1 _ c2
              rcases hact with h | h
              · exact absurd h c1
              · exact absurd h c2
      subst hr
      refine ⟨h.weight_sound, h.bias_sound, h.fc, h.bn_sound, ?_⟩
      intro kv' hkv' lb hl hk hw hlt
      rcases List.mem_append.1 hkv' with hkv' | hkv'
      · exact h.complete kv' hkv' lb hl hk hw hlt
      · simp at hkv'; subst hkv'
        exfalso
        rcases hact with ha | ha
        · obtain ⟨_, _, _, _, w, _, _, hw', hws, _⟩ := (hc _ lb hl).1 hk
          have hget : m.params.get? kv'.1 = some kv'.2 := Dict.get?_of_mem hpl.1 hmem
          rw [show kv'.1 = (kv'.1.1, PK.weight) by rw [← hw]] at hget
          rw [hget] at hw'
          cases hw'
          rw [hws] at ha
          simp at ha
        · omega
    · -- a convolution is thinned
      have hlt : (nonzeroChannels kv.2.data).length < kv.2.data.shape.tail.headD 0 := by
        by_contra c; exact hact (Or.inr (by omega))
      obtain ⟨b, lb, hb, hlb, hbk, hh⟩ := stepC_active hc hlin hpl hmem h1 hact
      obtain ⟨⟨b', k⟩, p⟩ := kv
      cases hb
      simp only at hlt hh ⊢
      generalize hidx : nonzeroChannels p.data = idx at hlt hh
      have hth : ThinnedC m b idx := ⟨p, lb, hmem, hlb, hbk, hidx.symm, hlt⟩
      obtain ⟨rec, r2, f1, f2⟩ := layerC_split hg hlb hbk hh
      obtain ⟨a0, a1, a2, a3, a4⟩ := predsC_dirs hg (fun q hq la => hp b q la hq) f1
      obtain ⟨b1, b2, b3⟩ := bnsC_dirs f2
      have notbn : ∀ l lay, m.layers.get? l = some lay → lay.kind ≠ .bn → l ∉ g.predBN b := by
        intro l lay hl hk hm
        obtain ⟨lq, q1, q2⟩ := b1 l hm
        rw [hl] at q1; cases q1; exact hk q2
      have notpred : ∀ l lay, m.layers.get? l = some lay → lay.kind ≠ .conv → l ∉ g.preds b ∧ l ≠ b := by
        intro l lay hl hk
        refine ⟨fun hm => hk (hp b l lay hm hl), ?_⟩
        rintro rfl
        rw [hlb] at hl; cases hl; exact hk hbk
      have hW : ∀ l lay, m.layers.get? l = some lay → lay.kind = .conv → ∀ d, d ∈ r1.dirs (l, .weight) ↔
          d ∈ r.dirs (l, .weight) ∨ (l = b ∧ d = .two 1 idx) ∨ (l ∈ g.preds b ∧ d = .two 0 idx) := by
        intro l lay hl hk d
        rw [b2, if_neg (notbn l lay hl (by rw [hk]; simp)), a1, mem_dirs_appendParam, dirs_appendModule]
        simp only [Prod.mk.injEq, and_true]
        tauto
      have hB : ∀ l lay, m.layers.get? l = some lay → lay.kind = .conv → ∀ d, d ∈ r1.dirs (l, .bias) ↔
          d ∈ r.dirs (l, .bias) ∨ (l ∈ g.preds b ∧ m.params.has (l, .bias) = true ∧ d = .two 0 idx) := by
        intro l lay hl hk d
        rw [b2, if_neg (notbn l lay hl (by rw [hk]; simp)), a2, mem_dirs_appendParam, dirs_appendModule]
        simp
      have hN : ∀ l lay, m.layers.get? l = some lay → lay.kind ≠ .conv → ∀ k, r2.dirs (l, k) = r.dirs (l, k) := by
        intro l lay hl hk k
        obtain ⟨n1, n2⟩ := notpred l lay hl hk
        rw [a3 l k n1, dirs_appendParam_ne _ _ (fun e => n2 (by cases e; rfl)), dirs_appendModule]
      have hR : ∀ l a, r2.runOf l a = r.runOf l a := by
        intro l a; rw [a4, runOf_appendParam, runOf_appendModule]
      refine ⟨?_, ?_, ?_, ?_, ?_⟩
      · intro l lay hl hk d hd
        rcases (hW l lay hl hk d).1 hd with hd | ⟨rfl, hd⟩ | ⟨e, hd⟩
        · exact h.weight_sound l lay hl hk d hd
        · exact ⟨_, _, hth, Or.inl ⟨rfl, hd⟩⟩
        · exact ⟨_, _, hth, Or.inr ⟨e, hd⟩⟩
      · intro l lay hl hk d hd
        rcases (hB l lay hl hk d).1 hd with hd | ⟨e, _, hd⟩
        · exact h.bias_sound l lay hl hk d hd
        · exact ⟨_, _, hth, e, hd⟩
      · intro l lay hl hk k
        rw [b2, if_neg (notbn l lay hl (by rw [hk]; simp)), hN l lay hl (by rw [hk]; simp)]
        exact h.fc l lay hl hk k
      · intro l lay hl hk
        by_cases c : l ∈ g.predBN b
        · exact Or.inr ⟨_, _, hth, c, fun k => by rw [b2, if_pos c], fun a => by rw [b3, if_pos c]⟩
        · simp only [b2, b3, if_neg c, hN l lay hl (by rw [hk]; simp), hR]
          exact h.bn_sound l lay hl hk
      · intro kv' hkv' lb' hl' hk' hw' hlt'
        rcases List.mem_append.1 hkv' with hkv' | hkv'
        · obtain ⟨g1, g2, g3⟩ := h.complete kv' hkv' lb' hl' hk' hw' hlt'
          refine ⟨(hW _ lb' hl' hk' _).2 (Or.inl g1), ?_, ?_⟩
          · intro a ha
            obtain ⟨⟨la, l1, l2⟩, l3, l4⟩ := g2 a ha
            exact ⟨⟨la, l1, l2⟩, (hW a la l1 l2 _).2 (Or.inl l3), fun hb => (hB a la l1 l2 _).2 (Or.inl (l4 hb))⟩
          · intro n hn
            obtain ⟨⟨ln, l1, l2⟩, l3⟩ := g3 n hn
            refine ⟨⟨ln, l1, l2⟩, fun k => ?_⟩
            rw [b2]
            split
            · simp
            · rw [hN n ln l1 (by rw [l2]; simp)]
              exact l3 k
        · simp at hkv'; subst hkv'
          simp only [hidx]
          refine ⟨(hW b lb hlb hbk _).2 (Or.inr (Or.inl ⟨rfl, rfl⟩)), ?_, ?_⟩
          · intro a ha
            obtain ⟨la, l1, l2⟩ := a0 a ha
            exact ⟨⟨la, l1, l2⟩, (hW a la l1 l2 _).2 (Or.inr (Or.inr ⟨ha, rfl⟩)),
              fun hb => (hB a la l1 l2 _).2 (Or.inr ⟨ha, hb, rfl⟩)⟩
          · intro n hn
            refine ⟨b1 n hn, fun k => ?_⟩
            rw [b2, if_pos hn]; simp

/-- The directives of the recipe built by `create_thinning_recipe_channels`. -/
theorem RDirsC.create {g : TGraph} {m : TModel} (hg : NoGroups m) (hc : Consistent m) (hlin : LinearFull m) (hpl : ParamsOfLayers m)
    (hp : PredsConv g m) {r : Recipe} (he : createChannels g m = .ok r) : RDirsC g m m.params r := by
  unfold createChannels at he
  have h0 : RDirsC g m [] emptyRecipe := by
    have h1 : ∀ p, emptyRecipe.dirs p = [] := fun p => rfl
    have h3 : ∀ l a, emptyRecipe.runOf l a = none := fun l a => rfl
    constructor <;> simp [h1, h3]
  have := RDirsC.fold hg hc hlin hpl hp (ps := []) (rest := m.params) (by simp) h0 he
  simpa using this

end Verif
