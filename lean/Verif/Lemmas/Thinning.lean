import Verif.Model.Thinning
import Verif.Lemmas.Fold
/-! Lemmas about the execution of thinning recipes. -/
namespace Verif

theorem set_same {l : List ℕ} {d n : ℕ} (h : l[d]? = some n) : l.set d n = l := by
  apply List.ext_getElem?
  intro i
  rw [List.getElem?_set]
  split
  · rename_i e; subst e
    split
    · exact h.symm
    · rename_i h2; rw [List.getElem?_eq_none (by omega)] at h; cases h
  · rfl

theorem getElem?_set_self' {l : List ℕ} {d n v : ℕ} (h : l[d]? = some n) : (l.set d v)[d]? = some v := by
  rw [List.getElem?_set]
  have : d < l.length := by
    rcases Nat.lt_or_ge d l.length with h' | h'
    · exact h'
    · rw [List.getElem?_eq_none h'] at h; cases h
  simp [this]

theorem size_ok {t : ST} {d n : ℕ} (h : t.size d = .ok n) : t.shape[d]? = some n := by
  unfold ST.size at h
  split at h
  · cases h
  · rename_i h'; rw [h']; cases h; rfl

theorem size_of {t : ST} {d n : ℕ} (h : t.shape[d]? = some n) : t.size d = .ok n := by
  unfold ST.size; rw [h]

theorem indexSelect_ok {t t' : ST} {d : ℕ} {idx : List ℕ} (h : t.indexSelect d idx = .ok t') :
    ∃ n, t.shape[d]? = some n ∧ (∀ i ∈ idx, i < n) ∧ t'.shape = t.shape.set d idx.length ∧
      t'.data = selFlat (t.shape.take d).prod n (t.shape.drop (d + 1)).prod idx t.data := by
  unfold ST.indexSelect at h
  split at h
  · cases h
  · rename_i n hn
    split at h
    · rename_i hall
      cases h
      exact ⟨n, hn, by simpa using hall, rfl, rfl⟩
    · cases h

/-- Both outcomes of "select unless already thin" give the shape with `|idx|` at `d`. -/
theorem dataThin_ok {p p' : TParam} {d : ℕ} {idx : List ℕ} (h : dataThin p d idx = .ok p') :
    ∃ n, p.data.shape[d]? = some n ∧ idx.length ≤ n ∧ p'.data.shape = p.data.shape.set d idx.length ∧
      p'.grad = p.grad ∧ p'.mom = p.mom ∧ p'.mask = p.mask ∧
      (n ≠ idx.length → p.data.indexSelect d idx = .ok p'.data) ∧ (n = idx.length → p' = p) := by
  unfold dataThin at h
  obtain ⟨n, hn, h⟩ := ok_bind h
  have hs := size_ok hn
  by_cases c : n ≠ idx.length
  · rw [if_pos c] at h
    by_cases c2 : ¬ idx.length < n
    · rw [if_pos c2] at h; cases h
    · rw [if_neg c2] at h
      obtain ⟨d', hd', h⟩ := ok_bind h
      cases h
      obtain ⟨_, _, _, hsh, _⟩ := indexSelect_ok hd'
      exact ⟨n, hs, by omega, hsh, rfl, rfl, rfl, fun _ => hd', fun e => absurd e c⟩
  · rw [if_neg c] at h
    cases h
    have : n = idx.length := by simpa using c
    exact ⟨n, hs, by omega, by rw [set_same]; rw [hs, this], rfl, rfl, rfl, fun e => absurd this e, fun _ => rfl⟩

theorem optThin_ok {opt : OptKind} {p p' : TParam} {d : ℕ} {idx : List ℕ} {s : Option (List ℕ)}
    (h : optThin opt p d idx s = .ok p') :
    p'.data = p.data ∧ p'.grad = p.grad ∧ p'.mask = p.mask ∧
    (opt = .sgd → s = none → (p.mom = none ∧ p'.mom = none) ∨
      ∃ b b', p.mom = some b ∧ p'.mom = some b' ∧ b'.shape = b.shape.set d idx.length) := by
  unfold optThin at h
  cases opt with
  | none => cases h; exact ⟨rfl, rfl, rfl, fun h => by cases h⟩
  | other => cases h
  | sgd =>
    simp only at h
    cases hm : p.mom with
    | none => rw [hm] at h; cases h; exact ⟨rfl, rfl, rfl, fun _ _ => Or.inl ⟨rfl, hm⟩⟩
    | some b =>
      rw [hm] at h
      obtain ⟨b', hb', h⟩ := ok_bind h
      cases h
      refine ⟨rfl, rfl, rfl, fun _ hs => Or.inr ⟨b, b', rfl, ?_, (indexSelect_ok hb').choose_spec.2.2.1⟩⟩
      subst hs; rfl

theorem gradThin_ok {opt : OptKind} {p p' : TParam} {d : ℕ} {idx : List ℕ} (h : gradThin opt p d idx = .ok p') :
    p'.data = p.data ∧ p'.mask = p.mask ∧
    ((p.grad = none ∧ p' = p) ∨
      ∃ gr g' n, p.grad = some gr ∧ p'.grad = some g' ∧ gr.shape[d]? = some n ∧ g'.shape = gr.shape.set d idx.length ∧
        (n = idx.length → p' = p) ∧
        (n ≠ idx.length → opt = .sgd → (p.mom = none ∧ p'.mom = none) ∨
          ∃ b b', p.mom = some b ∧ p'.mom = some b' ∧ b'.shape = b.shape.set d idx.length)) := by
  unfold gradThin at h
  cases hg : p.grad with
  | none => rw [hg] at h; cases h; exact ⟨rfl, rfl, Or.inl ⟨rfl, rfl⟩⟩
  | some gr =>
    rw [hg] at h
    obtain ⟨n, hn, h⟩ := ok_bind h
    have hs := size_ok hn
    by_cases c : n ≠ idx.length
    · rw [if_pos c] at h
      obtain ⟨g', hg', h⟩ := ok_bind h
      obtain ⟨h1, h2, h3, h4⟩ := optThin_ok h
      refine ⟨h1, h3, Or.inr ⟨gr, g', n, rfl, h2, hs, (indexSelect_ok hg').choose_spec.2.2.1, fun e => absurd e c, fun _ ho => h4 ho rfl⟩⟩
    · rw [if_neg c] at h
      cases h
      have : n = idx.length := by simpa using c
      exact ⟨rfl, rfl, Or.inr ⟨gr, gr, n, rfl, hg, hs, by rw [set_same]; rw [hs, this], fun _ => rfl, fun e => absurd this e⟩⟩

theorem maskThin_ok {upd : Bool} {p p' : TParam} {d : ℕ} {idx : List ℕ} (h : maskThin upd p d idx = .ok p') :
    p'.data = p.data ∧ p'.grad = p.grad ∧ p'.mom = p.mom ∧
    (upd = false → p'.mask = p.mask) ∧
    (p.mask = none → p' = p) ∧
    (∀ k, upd = true → p.mask = some k → ∃ k' n, p'.mask = some k' ∧ k.shape[d]? = some n ∧ k'.shape = k.shape.set d idx.length ∧
      (n = idx.length → p' = p) ∧ (n ≠ idx.length → k.indexSelect d idx = .ok k')) := by
  unfold maskThin at h
  cases upd with
  | false => simp at h; subst h; exact ⟨rfl, rfl, rfl, fun _ => rfl, fun _ => rfl, by simp⟩
  | true =>
    simp only [if_true] at h
    cases hm : p.mask with
    | none => rw [hm] at h; cases h; exact ⟨rfl, rfl, rfl, by simp, fun _ => rfl, by simp⟩
    | some k =>
      rw [hm] at h
      obtain ⟨n, hn, h⟩ := ok_bind h
      have hs := size_ok hn
      by_cases c : n ≠ idx.length
      · rw [if_pos c] at h
        obtain ⟨k', hk', h⟩ := ok_bind h
        cases h
        refine ⟨rfl, rfl, rfl, by simp, by simp, ?_⟩
        rintro _ _ ⟨⟩
        exact ⟨k', n, rfl, hs, (indexSelect_ok hk').choose_spec.2.2.1, fun e => absurd e c, fun _ => hk'⟩
      · rw [if_neg c] at h
        cases h
        have : n = idx.length := by simpa using c
        refine ⟨rfl, rfl, rfl, by simp, by simp, ?_⟩
        rintro _ _ ⟨⟩
        exact ⟨k, n, hm, hs, by rw [set_same]; rw [hs, this], fun _ => rfl, fun e => absurd this e⟩

/-- The parameter, its gradient and (if updated) its mask have `n` entries along `d`. -/
def Thin (upd : Bool) (p : TParam) (d n : ℕ) : Prop :=
  p.data.shape[d]? = some n ∧ (∀ gr, p.grad = some gr → gr.shape[d]? = some n) ∧
  (upd = true → ∀ k, p.mask = some k → k.shape[d]? = some n)

theorem exec_two_split {opt : OptKind} {upd : Bool} {p p' : TParam} {d : ℕ} {idx : List ℕ}
    (h : execDirective opt upd p (.two d idx) = .ok p') :
    ∃ p1 p2, dataThin p d idx = .ok p1 ∧ gradThin opt p1 d idx = .ok p2 ∧ maskThin upd p2 d idx = .ok p' := by
  unfold execDirective at h
  obtain ⟨p1, h1, h⟩ := ok_bind h
  obtain ⟨p2, h2, h⟩ := ok_bind h
  exact ⟨p1, p2, h1, h2, h⟩

/-- Shape effect of a 2-tuple directive. -/
theorem exec_two_shape {opt : OptKind} {upd : Bool} {p p' : TParam} {d : ℕ} {idx : List ℕ}
    (h : execDirective opt upd p (.two d idx) = .ok p') :
    (∃ n, p.data.shape[d]? = some n ∧ idx.length ≤ n) ∧
    p'.data.shape = p.data.shape.set d idx.length ∧
    (p.grad = none → p'.grad = none) ∧
    (∀ g', p'.grad = some g' → ∃ gr n, p.grad = some gr ∧ gr.shape[d]? = some n ∧ g'.shape = gr.shape.set d idx.length) ∧
    (upd = false → p'.mask = p.mask) ∧ (p.mask = none → p'.mask = none) ∧
    (upd = true → ∀ k', p'.mask = some k' → ∃ k n, p.mask = some k ∧ k.shape[d]? = some n ∧ k'.shape = k.shape.set d idx.length) := by
  obtain ⟨p1, p2, h1, h2, h3⟩ := exec_two_split h
  obtain ⟨n, a1, a2, a3, a4, a5, a6, _, _⟩ := dataThin_ok h1
  obtain ⟨b1, b2, b3⟩ := gradThin_ok h2
  obtain ⟨c1, c2, c3, c4, c5, c6⟩ := maskThin_ok h3
  refine ⟨⟨n, a1, a2⟩, by rw [c1, b1, a3], ?_, ?_, ?_, ?_, ?_⟩
  · intro hg
    rcases b3 with ⟨_, e⟩ | ⟨gr, _, _, e, _⟩
    · rw [c2, e, a4, hg]
    · rw [a4, hg] at e; cases e
  · intro g' hg'
    rw [c2] at hg'
    rcases b3 with ⟨e0, e⟩ | ⟨gr, g2, m, e, e2, e3, e4, _⟩
    · rw [e, e0] at hg'; cases hg'
    · rw [e2] at hg'; cases hg'
      exact ⟨gr, m, by rw [← a4, e], e3, e4⟩
  · intro hu; rw [c4 hu, b2, a6]
  · intro hm
    rw [c5 (by rw [b2, a6, hm]), b2, a6, hm]
  · intro hu k' hk'
    cases hm : p2.mask with
    | none => rw [c5 hm, hm] at hk'; cases hk'
    | some k =>
      obtain ⟨k2, m, e1, e2, e3, _⟩ := c6 k hu hm
      rw [e1] at hk'; cases hk'
      exact ⟨k, m, by rw [← a6, ← b2, hm], e2, e3⟩

theorem exec_two_thin {opt : OptKind} {upd : Bool} {p p' : TParam} {d : ℕ} {idx : List ℕ}
    (h : execDirective opt upd p (.two d idx) = .ok p') : Thin upd p' d idx.length := by
  obtain ⟨⟨n, h1, _⟩, h2, _, h4, _, _, h7⟩ := exec_two_shape h
  refine ⟨by rw [h2]; exact getElem?_set_self' h1, ?_, ?_⟩
  · intro gr hg
    obtain ⟨_, m, _, e, e2⟩ := h4 gr hg
    rw [e2]; exact getElem?_set_self' e
  · intro hu k hk
    obtain ⟨_, m, _, e, e2⟩ := h7 hu k hk
    rw [e2]; exact getElem?_set_self' e

theorem exec_two_preserves {opt : OptKind} {upd : Bool} {p p' : TParam} {d d' n : ℕ} {idx : List ℕ}
    (h : execDirective opt upd p (.two d' idx) = .ok p') (hne : d' = d → idx.length = n) (ht : Thin upd p d n) :
    Thin upd p' d n := by
  by_cases e : d' = d
  · subst e; rw [← hne rfl]; exact exec_two_thin h
  · obtain ⟨_, h2, _, h4, _, _, h7⟩ := exec_two_shape h
    refine ⟨by rw [h2, List.getElem?_set_ne e]; exact ht.1, ?_, ?_⟩
    · intro gr hg
      obtain ⟨g0, m, e0, _, e2⟩ := h4 gr hg
      rw [e2, List.getElem?_set_ne e]; exact ht.2.1 g0 e0
    · intro hu k hk
      obtain ⟨k0, m, e0, _, e2⟩ := h7 hu k hk
      rw [e2, List.getElem?_set_ne e]; exact ht.2.2 hu k0 e0

theorem exec_two_of_thin {upd : Bool} {p : TParam} {d : ℕ} {idx : List ℕ} (ht : Thin upd p d idx.length)
    (opt : OptKind) : execDirective opt upd p (.two d idx) = .ok p := by
  have h1 : dataThin p d idx = .ok p := by
    unfold dataThin
    show (p.data.size d >>= _) = _
    rw [size_of ht.1]
    simp [bind, Except.bind, pure, Except.pure]
  have h2 : gradThin opt p d idx = .ok p := by
    unfold gradThin
    cases hg : p.grad with
    | none => rfl
    | some gr =>
      show (gr.size d >>= _) = _
      rw [size_of (ht.2.1 gr hg)]
      simp [bind, Except.bind, pure, Except.pure]
  have h3 : maskThin upd p d idx = .ok p := by
    unfold maskThin
    cases hu : upd with
    | false => simp
    | true =>
      cases hm : p.mask with
      | none => simp
      | some k =>
        simp only [if_true]
        show (k.size d >>= _) = _
        rw [size_of (ht.2.2 hu k hm)]
        simp [bind, Except.bind, pure, Except.pure]
  unfold execDirective
  show (dataThin p d idx >>= _) = _
  rw [h1]
  show (gradThin opt p d idx >>= _) = _
  rw [h2]
  exact h3

theorem thin_preserved {opt : OptKind} {upd : Bool} {ds : List Directive} {p p' : TParam} {k n : ℕ}
    (h2 : ∀ d ∈ ds, ∃ k idx, d = .two k idx) (hs : ∀ idx, .two k idx ∈ ds → idx.length = n)
    (ht : Thin upd p k n) (h : ds.foldlM (execDirective opt upd) p = .ok p') : Thin upd p' k n := by
  refine foldlM_preserves (P := fun p => Thin upd p k n) ?_ ht h
  intro s a s' ha hs' hf
  obtain ⟨k', idx, rfl⟩ := h2 a ha
  exact exec_two_preserves hf (fun e => by subst e; exact hs idx ha) hs'

theorem fold_thin {opt : OptKind} {upd : Bool} {ds : List Directive} {p p' : TParam}
    (h2 : ∀ d ∈ ds, ∃ k idx, d = .two k idx)
    (hs : ∀ k idx idx', .two k idx ∈ ds → .two k idx' ∈ ds → idx.length = idx'.length)
    (h : ds.foldlM (execDirective opt upd) p = .ok p') :
    ∀ k idx, .two k idx ∈ ds → Thin upd p' k idx.length := by
  induction ds generalizing p with
  | nil => simp
  | cons d ds ih =>
    rw [List.foldlM_cons] at h
    obtain ⟨p1, h1, h3⟩ := ok_bind h
    have h2' : ∀ d ∈ ds, ∃ k idx, d = .two k idx := fun d hd => h2 d (by simp [hd])
    intro k idx hm
    rcases List.mem_cons.1 hm with e | hm
    · subst e
      exact thin_preserved h2' (fun idx' hi => hs k idx' idx (by simp [hi]) (by simp)) (exec_two_thin h1) h3
    · exact ih h2' (fun k a b ha hb => hs k a b (by simp [ha]) (by simp [hb])) h3 k idx hm

theorem fold_fix {upd : Bool} {ds : List Directive} {p : TParam} (opt : OptKind)
    (h2 : ∀ d ∈ ds, ∃ k idx, d = .two k idx)
    (h : ∀ k idx, .two k idx ∈ ds → Thin upd p k idx.length) :
    ds.foldlM (execDirective opt upd) p = .ok p := by
  induction ds with
  | nil => rfl
  | cons d ds ih =>
    rw [List.foldlM_cons]
    obtain ⟨k, idx, rfl⟩ := h2 d (by simp)
    rw [exec_two_of_thin (h k idx (by simp)) opt]
    exact ih (fun d hd => h2 d (by simp [hd])) fun k idx hm => h k idx (by simp [hm])

/-! ## Folding over the recipe's dictionaries -/

/-- A loop over a dictionary with distinct keys visits each key once. -/
theorem execParams_ok {opt : OptKind} {upd : Bool} {ps : List (PName × List Directive)} {m m' : TModel}
    (hd : (ps.map Prod.fst).Nodup) (h : ps.foldlM (execParam opt upd) m = .ok m') :
    m'.layers = m.layers ∧ m'.params.map Prod.fst = m.params.map Prod.fst ∧
    (∀ kv ∈ ps, ∃ p p', m.params.get? kv.1 = some p ∧ kv.2.foldlM (execDirective opt upd) p = .ok p' ∧
      m'.params.get? kv.1 = some p') ∧
    (∀ k, k ∉ ps.map Prod.fst → m'.params.get? k = m.params.get? k) := by
  induction ps generalizing m with
  | nil => simp [pure, Except.pure] at h; subst h; simp
  | cons kv ps ih =>
    rw [List.foldlM_cons] at h
    obtain ⟨m1, h1, h2⟩ := ok_bind h
    simp only [List.map_cons, List.nodup_cons] at hd
    obtain ⟨a, a', b, c⟩ := ih hd.2 h2
    unfold execParam at h1
    cases hg : m.params.get? kv.1 with
    | none => rw [hg] at h1; cases h1
    | some p =>
      rw [hg] at h1
      obtain ⟨p', hp', h1⟩ := ok_bind h1
      cases h1
      refine ⟨a, ?_, ?_, ?_⟩
      · rw [a', Dict.keys_set_of_mem]
        rw [← Dict.get?_isSome_iff, hg]; rfl
      · intro kv' hkv'
        rcases List.mem_cons.1 hkv' with rfl | hkv'
        · refine ⟨p, p', hg, hp', ?_⟩
          rw [c _ hd.1]; exact Dict.get?_set_self _ _ _
        · obtain ⟨q, q', e1, e2, e3⟩ := b kv' hkv'
          refine ⟨q, q', ?_, e2, e3⟩
          rw [← e1]
          have : kv.1 ≠ kv'.1 := by
            intro e; exact hd.1 (e ▸ List.mem_map_of_mem hkv')
          simp only
          rw [Dict.get?_set_ne _ _ this]
      · intro k hk
        simp only [List.map_cons, List.mem_cons, not_or] at hk
        rw [c k hk.2]
        simp only
        rw [Dict.get?_set_ne _ _ (fun e => hk.1 e.symm)]

theorem execParams_fix {opt : OptKind} {upd : Bool} {ps : List (PName × List Directive)} {m : TModel}
    (h : ∀ kv ∈ ps, ∃ p, m.params.get? kv.1 = some p ∧ kv.2.foldlM (execDirective opt upd) p = .ok p) :
    ps.foldlM (execParam opt upd) m = .ok m := by
  induction ps with
  | nil => rfl
  | cons kv ps ih =>
    rw [List.foldlM_cons]
    obtain ⟨p, h1, h2⟩ := h kv (by simp)
    have : execParam opt upd m kv = .ok m := by
      unfold execParam
      rw [h1]
      show (kv.2.foldlM (execDirective opt upd) p >>= _) = _
      rw [h2]
      show Except.ok _ = _
      rw [Dict.set_get?_self h1]
    rw [this]
    exact ih fun kv' hkv' => h kv' (by simp [hkv'])

theorem execModule_params {m m' : TModel} {kv : String × ModDirs} (h : execModule m kv = .ok m') :
    m'.params = m.params := by
  unfold execModule at h
  obtain ⟨l, _, h⟩ := ok_bind h
  obtain ⟨l', _, h⟩ := ok_bind h
  cases h; rfl

/-- Effect of the directives of one module on the module. -/
def modEffect (l : TLayer) (md : ModDirs) : Except Err TLayer :=
  md.runs.foldlM execRunning { l with attrs := md.nums.foldl (fun a (av : Attr × ℕ) => a.set av.1 av.2) l.attrs }

theorem execModules_ok {ms : List (String × ModDirs)} {m m' : TModel}
    (hd : (ms.map Prod.fst).Nodup) (h : ms.foldlM execModule m = .ok m') :
    m'.params = m.params ∧ m'.layers.map Prod.fst = m.layers.map Prod.fst ∧
    (∀ kv ∈ ms, ∃ l l', m.layers.get? kv.1 = some l ∧ modEffect l kv.2 = .ok l' ∧ m'.layers.get? kv.1 = some l') ∧
    (∀ k, k ∉ ms.map Prod.fst → m'.layers.get? k = m.layers.get? k) := by
  induction ms generalizing m with
  | nil => simp [pure, Except.pure] at h; subst h; simp
  | cons kv ms ih =>
    rw [List.foldlM_cons] at h
    obtain ⟨m1, h1, h2⟩ := ok_bind h
    simp only [List.map_cons, List.nodup_cons] at hd
    obtain ⟨a, a', b, c⟩ := ih hd.2 h2
    have hp := execModule_params h1
    unfold execModule at h1
    obtain ⟨l, hl, h1⟩ := ok_bind h1
    obtain ⟨l', hl', h1⟩ := ok_bind h1
    have hg : m.layers.get? kv.1 = some l := by
      unfold Dict.getE at hl
      cases e : m.layers.get? kv.1 with
      | none => rw [e] at hl; cases hl
      | some v => rw [e] at hl; cases hl; rfl
    cases h1
    refine ⟨by rw [a], ?_, ?_, ?_⟩
    · rw [a', Dict.keys_set_of_mem]
      rw [← Dict.get?_isSome_iff, hg]; rfl
    · intro kv' hkv'
      rcases List.mem_cons.1 hkv' with rfl | hkv'
      · refine ⟨l, l', hg, hl', ?_⟩
        rw [c _ hd.1]; exact Dict.get?_set_self _ _ _
      · obtain ⟨q, q', e1, e2, e3⟩ := b kv' hkv'
        refine ⟨q, q', ?_, e2, e3⟩
        rw [← e1]
        have : kv.1 ≠ kv'.1 := by
          intro e; exact hd.1 (e ▸ List.mem_map_of_mem hkv')
        simp only
        rw [Dict.get?_set_ne _ _ this]
    · intro k hk
      simp only [List.map_cons, List.mem_cons, not_or] at hk
      rw [c k hk.2]
      simp only
      rw [Dict.get?_set_ne _ _ (fun e => hk.1 e.symm)]

theorem execModules_fix {ms : List (String × ModDirs)} {m : TModel}
    (h : ∀ kv ∈ ms, ∃ l, m.layers.get? kv.1 = some l ∧ modEffect l kv.2 = .ok l) :
    ms.foldlM execModule m = .ok m := by
  induction ms with
  | nil => rfl
  | cons kv ms ih =>
    rw [List.foldlM_cons]
    obtain ⟨l, h1, h2⟩ := h kv (by simp)
    have : execModule m kv = .ok m := by
      unfold execModule
      have e : m.layers.getE kv.1 = .ok l := by unfold Dict.getE; rw [h1]
      show (m.layers.getE kv.1 >>= _) = _
      rw [e]
      show (modEffect l kv.2 >>= _) = _
      rw [h2]
      show Except.ok _ = _
      rw [Dict.set_get?_self h1]
    rw [this]
    exact ih fun kv' hkv' => h kv' (by simp [hkv'])

/-! ## Attributes and running statistics of one module -/

theorem foldl_set_get (nums : Dict Attr ℕ) (hd : nums.Nodup) (a : Dict Attr ℕ) (k : Attr) :
    (nums.foldl (fun a (av : Attr × ℕ) => a.set av.1 av.2) a).get? k =
      (nums.get? k).or (a.get? k) := by
  induction nums generalizing a with
  | nil => simp
  | cons kv nums ih =>
    obtain ⟨k0, v0⟩ := kv
    simp only [Dict.Nodup, List.map_cons, List.nodup_cons] at hd
    rw [List.foldl_cons, ih hd.2]
    by_cases e : k0 = k
    · subst e
      have : Dict.get? nums k0 = none := (Dict.get?_eq_none_iff nums k0).2 hd.1
      rw [this, Dict.get?_cons]; simp
    · rw [Dict.get?_cons]; simp only [e, if_false]
      rw [Dict.get?_set_ne _ _ e]

theorem foldl_set_fix (nums : Dict Attr ℕ) (a : Dict Attr ℕ) (h : ∀ kv ∈ nums, a.get? kv.1 = some kv.2) :
    nums.foldl (fun a (av : Attr × ℕ) => a.set av.1 av.2) a = a := by
  induction nums with
  | nil => rfl
  | cons kv nums ih =>
    rw [List.foldl_cons, Dict.set_get?_self (h kv (by simp))]
    exact ih fun kv' h' => h kv' (by simp [h'])

theorem execRunning_ok {l l' : TLayer} {kv : RAttr × List ℕ} (h : execRunning l kv = .ok l') :
    l'.attrs = l.attrs ∧ l'.kind = l.kind ∧
    (∃ t t' n, l.running.get? kv.1 = some t ∧ t.shape[0]? = some n ∧ l'.running.get? kv.1 = some t' ∧
      t'.shape = t.shape.set 0 kv.2.length) ∧
    ∀ k, k ≠ kv.1 → l'.running.get? k = l.running.get? k := by
  unfold execRunning at h
  cases hr : l.running.get? kv.1 with
  | none => rw [hr] at h; cases h
  | some t =>
    rw [hr] at h
    obtain ⟨n, hn, h⟩ := ok_bind h
    have hs := size_ok hn
    by_cases c : n ≠ kv.2.length
    · rw [if_pos c] at h
      obtain ⟨t', ht', h⟩ := ok_bind h
      cases h
      refine ⟨rfl, rfl, ⟨t, t', n, rfl, hs, Dict.get?_set_self _ _ _, (indexSelect_ok ht').choose_spec.2.2.1⟩, ?_⟩
      intro k hk
      exact Dict.get?_set_ne _ _ (fun e => hk e.symm)
    · rw [if_neg c] at h
      cases h
      have : n = kv.2.length := by simpa using c
      exact ⟨rfl, rfl, ⟨t, t, n, rfl, hs, hr, by rw [set_same]; rw [hs, this]⟩, fun _ _ => rfl⟩

theorem execRunning_fix {l : TLayer} {kv : RAttr × List ℕ} {t : ST} (h : l.running.get? kv.1 = some t)
    (hs : t.shape[0]? = some kv.2.length) : execRunning l kv = .ok l := by
  unfold execRunning
  rw [h]
  show (t.size 0 >>= _) = _
  rw [size_of hs]
  simp [bind, Except.bind, pure, Except.pure]

theorem runs_ok {runs : Dict RAttr (List ℕ)} (hd : runs.Nodup) {l l' : TLayer} (h : runs.foldlM execRunning l = .ok l') :
    l'.attrs = l.attrs ∧ l'.kind = l.kind ∧
    (∀ kv ∈ runs, ∃ t t' n, l.running.get? kv.1 = some t ∧ t.shape[0]? = some n ∧ l'.running.get? kv.1 = some t' ∧
      t'.shape = t.shape.set 0 kv.2.length) ∧
    ∀ k, k ∉ runs.map Prod.fst → l'.running.get? k = l.running.get? k := by
  induction runs generalizing l with
  | nil => simp [pure, Except.pure] at h; subst h; simp
  | cons kv runs ih =>
    rw [List.foldlM_cons] at h
    obtain ⟨l1, h1, h2⟩ := ok_bind h
    simp only [Dict.Nodup, List.map_cons, List.nodup_cons] at hd
    obtain ⟨a, b, c, d⟩ := ih hd.2 h2
    obtain ⟨a1, b1, c1, d1⟩ := execRunning_ok h1
    refine ⟨a.trans a1, b.trans b1, ?_, ?_⟩
    · intro kv' hkv'
      rcases List.mem_cons.1 hkv' with rfl | hkv'
      · obtain ⟨t, t', n, e1, e2, e3, e4⟩ := c1
        exact ⟨t, t', n, e1, e2, by rw [d _ hd.1, e3], e4⟩
      · obtain ⟨t, t', n, e1, e2, e3, e4⟩ := c kv' hkv'
        have hne : kv'.1 ≠ kv.1 := by intro e; exact hd.1 (e ▸ List.mem_map_of_mem hkv')
        exact ⟨t, t', n, by rw [← d1 _ hne]; exact e1, e2, e3, e4⟩
    · intro k hk
      simp only [List.map_cons, List.mem_cons, not_or] at hk
      rw [d k hk.2, d1 k hk.1]

theorem runs_fix {runs : Dict RAttr (List ℕ)} {l : TLayer}
    (h : ∀ kv ∈ runs, ∃ t, l.running.get? kv.1 = some t ∧ t.shape[0]? = some kv.2.length) :
    runs.foldlM execRunning l = .ok l := by
  induction runs with
  | nil => rfl
  | cons kv runs ih =>
    rw [List.foldlM_cons]
    obtain ⟨t, h1, h2⟩ := h kv (by simp)
    rw [execRunning_fix h1 h2]
    exact ih fun kv' hkv' => h kv' (by simp [hkv'])

/-- A recipe is made of real dictionaries: no key twice. -/
structure Recipe.IsDict (r : Recipe) : Prop where
  modules : r.modules.Nodup
  parameters : r.parameters.Nodup
  nums : ∀ kv ∈ r.modules, kv.2.nums.Nodup
  runs : ∀ kv ∈ r.modules, kv.2.runs.Nodup

theorem modEffect_ok {l l' : TLayer} {md : ModDirs} (hn : md.nums.Nodup) (hr : md.runs.Nodup)
    (h : modEffect l md = .ok l') :
    l'.kind = l.kind ∧
    (∀ k, l'.attrs.get? k = (md.nums.get? k).or (l.attrs.get? k)) ∧
    (∀ kv ∈ md.runs, ∃ t t' n, l.running.get? kv.1 = some t ∧ t.shape[0]? = some n ∧ l'.running.get? kv.1 = some t' ∧
      t'.shape = t.shape.set 0 kv.2.length) ∧
    ∀ k, k ∉ md.runs.map Prod.fst → l'.running.get? k = l.running.get? k := by
  unfold modEffect at h
  obtain ⟨a, b, c, d⟩ := runs_ok hr h
  refine ⟨b, ?_, c, d⟩
  intro k
  rw [a]; exact foldl_set_get md.nums hn l.attrs k

theorem modEffect_idem {l l' : TLayer} {md : ModDirs} (hn : md.nums.Nodup) (hr : md.runs.Nodup)
    (h : modEffect l md = .ok l') : modEffect l' md = .ok l' := by
  obtain ⟨_, h2, h3, _⟩ := modEffect_ok hn hr h
  have e1 : md.nums.foldl (fun a (av : Attr × ℕ) => a.set av.1 av.2) l'.attrs = l'.attrs := by
    apply foldl_set_fix
    intro kv hkv
    rw [h2, Dict.get?_of_mem hn hkv, Option.some_or]
  unfold modEffect
  rw [e1]
  apply runs_fix
  intro kv hkv
  obtain ⟨t, t', n, _, e2, e3, e4⟩ := h3 kv hkv
  exact ⟨t', e3, by rw [e4]; exact getElem?_set_self' e2⟩

/-- Splitting the execution of a recipe. -/
theorem execRecipe_ok {opt : OptKind} {upd : Bool} {m m' : TModel} {r : Recipe}
    (h : execRecipe opt upd m r = .ok m') :
    r.parameters ≠ [] ∧ ∃ m1, r.modules.foldlM execModule m = .ok m1 ∧
      r.parameters.foldlM (execParam opt upd) m1 = .ok m' := by
  unfold execRecipe at h
  obtain ⟨m1, h1, h⟩ := ok_bind h
  by_cases c : r.parameters = []
  · rw [if_pos c] at h; cases h
  · rw [if_neg c] at h
    exact ⟨c, m1, h1, h⟩

/-- Complete effect of a successful execution. -/
theorem execRecipe_effect {opt : OptKind} {upd : Bool} {m m' : TModel} {r : Recipe} (hd : r.IsDict)
    (h : execRecipe opt upd m r = .ok m') :
    m'.layers.map Prod.fst = m.layers.map Prod.fst ∧ m'.params.map Prod.fst = m.params.map Prod.fst ∧
    (∀ kv ∈ r.modules, ∃ l l', m.layers.get? kv.1 = some l ∧ modEffect l kv.2 = .ok l' ∧ m'.layers.get? kv.1 = some l') ∧
    (∀ k, k ∉ r.modules.map Prod.fst → m'.layers.get? k = m.layers.get? k) ∧
    (∀ kv ∈ r.parameters, ∃ p p', m.params.get? kv.1 = some p ∧ kv.2.foldlM (execDirective opt upd) p = .ok p' ∧
      m'.params.get? kv.1 = some p') ∧
    (∀ k, k ∉ r.parameters.map Prod.fst → m'.params.get? k = m.params.get? k) := by
  obtain ⟨_, m1, h1, h2⟩ := execRecipe_ok h
  obtain ⟨a1, a2, a3, a4⟩ := execModules_ok hd.modules h1
  obtain ⟨b1, b2, b3, b4⟩ := execParams_ok hd.parameters h2
  refine ⟨by rw [b1, a2], by rw [b2, a1], ?_, ?_, ?_, ?_⟩
  · intro kv hkv; rw [b1]; exact a3 kv hkv
  · intro k hk; rw [b1]; exact a4 k hk
  · intro kv hkv; rw [← a1]; exact b3 kv hkv
  · intro k hk; rw [← a1]; exact b4 k hk

end Verif
