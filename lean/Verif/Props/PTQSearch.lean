import Verif.Model.PTQSearch
import Verif.Lemmas.Fold
import Verif.Lemmas.Masking
import Mathlib.Tactic.Linarith
/-!
# C93–C95: searches over quantization settings
-/
namespace Verif
open Dict

/-! ## C93: the search vector -/

theorem dict2vec_eq (d : Dict PKey PVal) (sc : Bool) (hp : sc = false → ∀ kv ∈ d, ∃ v, kv.2 = .scalar v)
    (acc : List PKey × List ℚ) :
    d.foldlM (dict2vecItem sc) acc = .ok
      (acc.1 ++ d.flatMap (fun kv => match kv.2 with | .scalar _ => [kv.1] | .pair _ _ => [kv.1 ++ sfxMin, kv.1 ++ sfxMax]),
       acc.2 ++ d.flatMap (fun kv => match kv.2 with | .scalar v => [v] | .pair a b => [a, b])) := by
  induction d generalizing acc with
  | nil => simp [pure, Except.pure]
  | cons kv d ih =>
    obtain ⟨k, v⟩ := kv
    have ih' := ih (fun h kv hkv => hp h kv (by simp [hkv]))
    rw [List.foldlM_cons]
    cases v with
    | scalar v =>
      simp only [dict2vecItem, bind, Except.bind]
      rw [ih']; simp
    | pair a b =>
      cases sc with
      | false => obtain ⟨v, hv⟩ := hp rfl (k, .pair a b) (by simp); cases hv
      | true =>
        simp only [dict2vecItem, bind, Except.bind]
        rw [ih']; simp

theorem vec2dictGo_items (sc : Bool) (vals : List ℚ) (d : Dict PKey PVal) (i : ℕ) (res : Dict PKey PVal)
    (hv : ∀ (j : ℕ) x, (d.flatMap (fun kv => match kv.2 with | PVal.scalar v => [v] | .pair a b => [a, b]))[j]? = some x →
      vals[i + j]? = some x)
    (hs : sc = false → ∀ kv ∈ d, ∃ v, kv.2 = .scalar v)
    (hsc : sc = true → ∀ kv ∈ d, ∀ v, kv.2 = .scalar v → ¬ sfxMin <:+ kv.1 ∧ ¬ sfxMax <:+ kv.1)
    (hpos : ∀ kv ∈ d, ∀ v, kv.2 = .scalar v → 0 ≤ v)
    (hord : ∀ kv ∈ d, ∀ a b, kv.2 = .pair a b → a ≤ b)
    (hnd : ((res ++ d).map Prod.fst).Nodup) :
    vec2dictGo sc vals (d.flatMap (fun kv => match kv.2 with | .scalar _ => [kv.1] | .pair _ _ => [kv.1 ++ sfxMin, kv.1 ++ sfxMax]))
      i res = .ok (res ++ d) := by
  induction d generalizing i res with
  | nil => simp [vec2dictGo]
  | cons kv d ih =>
    obtain ⟨k, v⟩ := kv
    have hk : k ∉ res.map Prod.fst := by
      intro hk
      rw [List.map_append, List.nodup_append] at hnd
      exact hnd.2.2 k hk k (by simp) rfl
    have hnd' : ∀ w, ((res ++ [(k, w)] ++ d).map Prod.fst).Nodup := by
      intro w; simpa using hnd
    cases v with
    | scalar v =>
      have h0 : vals[i]? = some v := by simpa using hv 0 v (by simp)
      have hrec := ih (i + 1) (res ++ [(k, .scalar v)])
        (by
          intro j x hx
          have := hv (j + 1) x (by simpa using hx)
          rw [← this]; congr 1; omega)
        (fun h kv hkv => hs h kv (by simp [hkv])) (fun h kv hkv => hsc h kv (by simp [hkv]))
        (fun kv hkv => hpos kv (by simp [hkv])) (fun kv hkv => hord kv (by simp [hkv])) (hnd' _)
      have hv0 : |v| = v := abs_of_nonneg (hpos (k, .scalar v) (by simp) v rfl)
      have hne : ¬ (sc = true ∧ sfxMin <:+ k) ∧ ¬ (sc = true ∧ sfxMax <:+ k) := by
        constructor
        · rintro ⟨h1, h2⟩; exact (hsc h1 (k, .scalar v) (by simp) v rfl).1 h2
        · rintro ⟨h1, h2⟩; exact (hsc h1 (k, .scalar v) (by simp) v rfl).2 h2
      simp only [List.flatMap_cons, List.cons_append, List.nil_append, vec2dictGo, hne.1, hne.2, if_false, vecGet, h0,
        bind, Except.bind]
      rw [hv0, keys_set_of_not_mem res k _ hk, hrec]
      simp
    | pair a b =>
      have hsct : sc = true := by
        cases hc : sc with
        | true => rfl
        | false => obtain ⟨v, hv'⟩ := hs hc (k, .pair a b) (by simp); cases hv'
      have h0 : vals[i]? = some a := by simpa using hv 0 a (by simp)
      have h1 : vals[i + 1]? = some b := hv 1 b (by simp)
      have hab : a ≤ b := hord (k, .pair a b) (by simp) a b rfl
      have hrec := ih (i + 1 + 1) (res ++ [(k, .pair a b)])
        (by
          intro j x hx
          have := hv (j + 2) x (by simpa using hx)
          rw [← this]; congr 1; omega)
        (fun h kv hkv => hs h kv (by simp [hkv])) (fun h kv hkv => hsc h kv (by simp [hkv]))
        (fun kv hkv => hpos kv (by simp [hkv])) (fun kv hkv => hord kv (by simp [hkv])) (hnd' _)
      have hmin : sfxMin <:+ k ++ sfxMin := List.suffix_append _ _
      have hmax : sfxMax <:+ k ++ sfxMax := List.suffix_append _ _
      have hnomin : ¬ sfxMin <:+ k ++ sfxMax := by
        rintro ⟨t, ht⟩
        have := (List.append_inj_right' ht (by decide))
        revert this; decide
      have htake : (k ++ sfxMin).take ((k ++ sfxMin).length - 4) = k := by
        have : (k ++ sfxMin).length - 4 = k.length := by
          rw [List.length_append]; show k.length + 4 - 4 = _; omega
        rw [this]; simp
      simp only [List.flatMap_cons, List.cons_append, List.nil_append, vec2dictGo, hsct, hmin, hmax, hnomin, if_true,
        if_false, and_self, and_false, vecGet, h0, h1, bind, Except.bind, htake]
      rw [show sortedPair a b = .pair a b by simp [sortedPair, hab], keys_set_of_not_mem res k _ hk, ← hsct, hrec]
      simp

/-- **C93** (round trip) Turning a dictionary of quantization parameters into the vector given to
the optimizer and back yields the same dictionary, for non-negative scalars (scale factors), for
ordered clipping pairs when clipping is searched, and provided no scalar's name ends in the
suffixes used for the pairs. -/
theorem C93_round_trip (d : Dict PKey PVal) (sc : Bool) (hd : d.Nodup)
    (hs : sc = false → ∀ kv ∈ d, ∃ v, kv.2 = .scalar v)
    (hsc : sc = true → ∀ kv ∈ d, ∀ v, kv.2 = .scalar v → ¬ "_min".toList <:+ kv.1 ∧ ¬ "_max".toList <:+ kv.1)
    (hpos : ∀ kv ∈ d, ∀ v, kv.2 = .scalar v → 0 ≤ v)
    (hord : ∀ kv ∈ d, ∀ a b, kv.2 = .pair a b → a ≤ b) :
    ∃ keys vals, dict2vec d sc = .ok (keys, vals) ∧ keys.length = vals.length ∧ vec2dict keys vals sc = .ok d := by
  refine ⟨d.flatMap (fun kv => match kv.2 with | .scalar _ => [kv.1] | .pair _ _ => [kv.1 ++ sfxMin, kv.1 ++ sfxMax]),
    d.flatMap (fun kv => match kv.2 with | .scalar v => [v] | .pair a b => [a, b]), ?_, ?_, ?_⟩
  · unfold dict2vec; rw [dict2vec_eq d sc hs]; simp
  · simp only [List.length_flatMap]
    congr 1
    apply List.map_congr_left
    intro kv _
    cases kv.2 <;> rfl
  · unfold vec2dict
    have := vec2dictGo_items sc _ d 0 [] (by intro j x hx; simpa using hx) hs hsc hpos hord (by simpa using (show (d.map Prod.fst).Nodup from hd))
    simpa using this

/-- **C93** (missing values) A vector with fewer values than there are names is refused: `IndexError` (scales only, the default search). -/
theorem C93_too_short (keys : List PKey) (vals : List ℚ) (h : vals.length < keys.length) :
    vec2dict keys vals false = .error .index := by
  have main : ∀ (ks : List PKey) (i : ℕ) (res : Dict PKey PVal), i ≤ vals.length → vals.length < i + ks.length →
      vec2dictGo false vals ks i res = .error .index := by
    intro ks
    induction ks with
    | nil => intro i res h1 h2; simp at h2; omega
    | cons k ks ih =>
      intro i res h1 h2
      have e : vec2dictGo false vals (k :: ks) i res =
          (do let a ← vecGet vals i; vec2dictGo false vals ks (i + 1) (res.set k (.scalar |a|))) := by
        simp [vec2dictGo]
      rw [e]
      by_cases hi : i < vals.length
      · have : vecGet vals i = .ok vals[i] := by unfold vecGet; rw [List.getElem?_eq_getElem hi]
        rw [this]
        exact ih (i + 1) _ hi (by simp at h2; omega)
      · have : vecGet vals i = .error .index := by unfold vecGet; rw [List.getElem?_eq_none (by omega)]
        rw [this]; rfl
  exact main keys 0 [] (by omega) (by omega)

example : vec2dict ["a".toList, "b".toList] [1] false = .error .index := C93_too_short _ _ (by decide)

/-- **C93** (the candidates) Whatever vector the optimizer proposes, the dictionary made from it
has non-negative scalars and ordered pairs: no proposed scale factor is negative, no proposed
range inverted. -/
theorem C93_candidates (keys : List PKey) (vals : List ℚ) (sc : Bool) (d : Dict PKey PVal)
    (h : vec2dict keys vals sc = .ok d) :
    (∀ k v, d.get? k = some (.scalar v) → 0 ≤ v) ∧ (∀ k a b, d.get? k = some (.pair a b) → a ≤ b) := by
  have main : ∀ (keys : List PKey) (i : ℕ) (res d : Dict PKey PVal), vec2dictGo sc vals keys i res = .ok d →
      ((∀ k v, res.get? k = some (.scalar v) → 0 ≤ v) ∧ (∀ k a b, res.get? k = some (.pair a b) → a ≤ b)) →
      ((∀ k v, d.get? k = some (.scalar v) → 0 ≤ v) ∧ (∀ k a b, d.get? k = some (.pair a b) → a ≤ b)) := by
    intro keys
    induction keys with
    | nil => intro i res d h hr; simp only [vec2dictGo] at h; injection h with h; subst h; exact hr
    | cons k ks ih =>
      intro i res d h hr
      simp only [vec2dictGo] at h
      split at h
      · obtain ⟨a, _, h⟩ := ok_bind h
        obtain ⟨b, _, h⟩ := ok_bind h
        refine ih _ _ _ h ⟨?_, ?_⟩
        · intro k' v hk'
          rw [get?_set] at hk'
          split at hk'
          · unfold sortedPair at hk'; split at hk' <;> cases hk'
          · exact hr.1 k' v hk'
        · intro k' x y hk'
          rw [get?_set] at hk'
          split at hk'
          · unfold sortedPair at hk'
            split at hk'
            · rename_i hab; injection hk' with hk'; cases hk'; exact hab
            · rename_i hab; injection hk' with hk'; cases hk'; linarith [not_le.1 hab]
          · exact hr.2 k' x y hk'
      · split at h
        · exact ih _ _ _ h hr
        · obtain ⟨a, _, h⟩ := ok_bind h
          refine ih _ _ _ h ⟨?_, ?_⟩
          · intro k' v hk'
            rw [get?_set] at hk'
            split at hk'
            · injection hk' with hk'; cases hk'; exact abs_nonneg _
            · exact hr.1 k' v hk'
          · intro k' x y hk'
            rw [get?_set] at hk'
            split at hk'
            · injection hk' with hk'; cases hk'
            · exact hr.2 k' x y hk'
  exact main keys 0 [] d h (by simp)

/-- **C93** (what is searched) Once the settings have been accepted without clipping search, the
vector holds scale factors only: every searched parameter's name ends in `_scale`; in particular no
zero-point (whose sign the conversion would lose) is in it. -/
theorem C93_scales_only (ms : List PtqMod) (hb : ∀ m ∈ ms, m.bits ≠ some 0)
    (h : validateSettings ms false = .ok ()) : ∀ k ∈ namedFiltered ms, "_scale".toList <:+ k := by
  have hv : ∀ m ∈ ms, (m.isEmbedding = false → m.bits.getD 0 ≠ 0 → m.actsAsym = true → m.halfRange = true) ∧
      (m.isEmbedding = true ∨ m.hasParams = true → m.wtsAsym = false) := by
    clear hb
    unfold validateSettings at h
    simp only [Bool.false_eq_true, if_false] at h
    induction ms with
    | nil => simp
    | cons m ms ih =>
      rw [List.foldlM_cons] at h
      obtain ⟨_, h1, h2⟩ := ok_bind h
      have ih' := ih h2
      intro m' hm'
      rcases List.mem_cons.1 hm' with rfl | hm'
      · split at h1
        · cases h1
        · rename_i c1
          split at h1
          · cases h1
          · rename_i c2
            simp only [Bool.and_eq_true, Bool.not_eq_true', bne_iff_ne, Bool.or_eq_true, not_and,
              Bool.not_eq_false] at c1 c2
            refine ⟨fun e b a => ?_, fun e => ?_⟩
            · exact c1 e ⟨b, a⟩
            · have := c2 e; simpa using this
      · exact ih' m' hm'
  intro k hk
  unfold namedFiltered at hk
  rw [List.mem_flatMap] at hk
  obtain ⟨m, hm, hk⟩ := hk
  rw [List.mem_map] at hk
  obtain ⟨p, hp, rfl⟩ := hk
  have hmv := hv m hm
  have hmb := hb m hm
  have hpp : p = "w_scale".toList ∨ p = "output_scale".toList := by
    unfold PtqMod.filteredParams at hp
    rw [List.mem_append] at hp
    rcases hp with hp | hp
    · split at hp
      · rename_i hc
        simp only [Bool.or_eq_true, Bool.and_eq_true] at hc
        have := hmv.2 (by rcases hc with hc | hc; exact Or.inl hc; exact Or.inr hc.1)
        simp [this] at hp; exact Or.inl (by simpa using hp)
      · simp at hp
    · split at hp
      · rename_i hc
        simp only [Bool.and_eq_true, Bool.not_eq_true'] at hc
        obtain ⟨⟨h1, h2⟩, h3⟩ := hc
        obtain ⟨b, hbits⟩ := Option.isSome_iff_exists.1 h2
        have hb0 : m.bits.getD 0 ≠ 0 := by
          rw [hbits] at hmb ⊢; simpa using hmb
        have := hmv.1 h1 hb0
        cases ha : m.actsAsym with
        | false => simp [ha] at hp; exact Or.inr (by simpa using hp)
        | true => simp [ha, this ha] at hp; exact Or.inr (by simpa using hp)
      · simp at hp
  rcases hpp with rfl | rfl
  · exact ⟨m.name ++ ['.'] ++ ['w'], by simp⟩
  · exact ⟨m.name ++ ['.'] ++ "output".toList, by simp⟩

/-- Non-vacuity of C93: a scale and a clipping pair make the round trip; two modules are accepted. -/
example : dict2vec [("a.output_clipping".toList, .pair (-1) 2), ("b.w".toList, .scalar 3)] true =
      .ok (["a.output_clipping_min".toList, "a.output_clipping_max".toList, "b.w".toList], [-1, 2, 3]) ∧
    vec2dict ["a.output_clipping_min".toList, "a.output_clipping_max".toList, "b.w".toList] [5, 2, -3] true =
      .ok [("a.output_clipping".toList, .pair 2 5), ("b.w".toList, .scalar 3)] := by decide +kernel
example : validateSettings [{ name := ['a'], hasParams := true, bits := some 8, actsAsym := true, halfRange := true, preset := true },
      { name := ['b'], isEmbedding := true, bits := none, actsAsym := true, halfRange := false, preset := false }] false = .ok () ∧
    namedFiltered [{ name := ['a'], hasParams := true, bits := some 8, actsAsym := true, halfRange := true, preset := true }] =
      ["a.w_scale".toList, "a.output_scale".toList] := by decide +kernel

/-- Why C93 needs the hypothesis on names: a layer called `x_min` with a scalar parameter whose
whole name ends in `_min` would be taken for half of a pair. -/
example : vec2dict ["x_min".toList] [1] true = .error .index := by decide +kernel

/-! ## C94: the coordinate search -/

/-- The vectors reported by the minimizer's callback, in order. -/
def reported : List MinEvent → List (List ℚ)
  | [] => []
  | .eval _ :: es => reported es
  | .callback v :: es => v :: reported es

/-- Specification: `d` is the configuration of vector `v`, and it scores `x` whatever state the
model was in before. -/
def Scores {σ : Type} (e : CSEnv σ) (v : List ℚ) (d : Dict PKey PVal) (x : ℚ) : Prop :=
  vec2dict e.keys v e.sc = .ok d ∧ ∀ m m', e.update m d = .ok m' → e.score m' = x

theorem coordinateSearch_spec {σ : Type} (e : CSEnv σ)
    (hdet : ∀ m1 m2 d m1' m2', e.update m1 d = .ok m1' → e.update m2 d = .ok m2' → e.score m1' = e.score m2')
    (events : List MinEvent) (s s' : CSState σ) (h : events.foldlM (e.step false) s = .ok s') :
    s'.score ≤ s.score ∧
    (∀ v ∈ reported events, ∃ d x, Scores e v d x ∧ s'.score ≤ x) ∧
    ((s'.score = s.score ∧ s'.qp = s.qp) ∨
      ∃ v ∈ reported events, Scores e v s'.qp s'.score) := by
  induction events generalizing s with
  | nil =>
    simp only [List.foldlM_nil, pure, Except.pure] at h
    injection h with h; subst h
    exact ⟨le_refl _, by simp [reported], Or.inl ⟨rfl, rfl⟩⟩
  | cons ev es ih =>
    rw [List.foldlM_cons] at h
    obtain ⟨s1, h1, h2⟩ := ok_bind h
    obtain ⟨i1, i2, i3⟩ := ih s1 h2
    cases ev with
    | eval v =>
      simp only [CSEnv.step] at h1
      obtain ⟨r, hr, h1⟩ := ok_bind h1
      simp only [pure, Except.pure] at h1
      injection h1 with h1
      subst h1
      exact ⟨i1, i2, i3⟩
    | callback v =>
      simp only [CSEnv.step, Bool.false_eq_true, if_false] at h1
      obtain ⟨r, hr, h1⟩ := ok_bind h1
      unfold CSEnv.feed at hr
      obtain ⟨d, hd, hr⟩ := ok_bind hr
      obtain ⟨m', hm', hr⟩ := ok_bind hr
      simp only [pure, Except.pure] at hr
      injection hr with hr
      subst hr
      have hsc : Scores e v d (e.score m') := ⟨hd, fun m m'' hm => hdet _ _ _ _ _ hm hm'⟩
      dsimp only at h1
      split at h1
      · rename_i hlt
        simp only [pure, Except.pure] at h1
        injection h1 with h1
        subst h1
        dsimp only at i1 i3
        refine ⟨by linarith, ?_, ?_⟩
        · intro w hw
          rcases List.mem_cons.1 hw with rfl | hw
          · exact ⟨d, _, hsc, i1⟩
          · exact i2 w hw
        · right
          rcases i3 with ⟨h3, h4⟩ | ⟨w, hw, h3⟩
          · refine ⟨v, by simp [reported], ?_⟩
            rw [h3, h4]; exact hsc
          · exact ⟨w, by simp [reported, hw], h3⟩
      · rename_i hge
        simp only [pure, Except.pure] at h1
        injection h1 with h1
        subst h1
        dsimp only at i1 i3
        refine ⟨i1, ?_, ?_⟩
        · intro w hw
          rcases List.mem_cons.1 hw with rfl | hw
          · exact ⟨d, _, hsc, le_trans i1 (not_lt.1 hge)⟩
          · exact i2 w hw
        · rcases i3 with h3 | ⟨w, hw, h3⟩
          · exact Or.inl h3
          · exact Or.inr ⟨w, by simp [reported, hw], h3⟩

/-- **C94** (partial) Whatever points the minimizer evaluates and reports, the best score is at most
the initial score and the score of every reported point, and the returned configuration is the
initial one (with the initial score) or that of a reported point with exactly that score –
re-applying it to the returned model, in whatever state, gives the best score.  Assumes the
evaluation depends on the applied configuration only.  Missing: the returned model itself is left
in the last evaluated configuration, and basin hopping, see below. -/
theorem C94_best_partial {σ : Type} (e : CSEnv σ) (m0 : σ) (qp0 : Dict PKey PVal) (events : List MinEvent)
    (hdet : ∀ m1 m2 d m1' m2', e.update m1 d = .ok m1' → e.update m2 d = .ok m2' → e.score m1' = e.score m2')
    (out : CSState σ) (h : coordinateSearch e false m0 qp0 events = .ok out) :
    out.score ≤ e.score m0 ∧
    (∀ v ∈ reported events, ∃ d x, Scores e v d x ∧ out.score ≤ x) ∧
    ((out.score = e.score m0 ∧ out.qp = qp0) ∨
      ∃ v ∈ reported events, vec2dict e.keys v e.sc = .ok out.qp ∧
        ∀ m', e.update out.model out.qp = .ok m' → e.score m' = out.score) := by
  obtain ⟨h1, h2, h3⟩ := coordinateSearch_spec e hdet events _ out h
  refine ⟨h1, h2, ?_⟩
  rcases h3 with h3 | ⟨v, hv, hs⟩
  · exact Or.inl h3
  · exact Or.inr ⟨v, hv, hs.1, fun m' hm => hs.2 _ _ hm⟩

/-- A toy environment: one scale factor, the model is its value, the score its distance from 3. -/
def toyEnv : CSEnv ℚ where
  update _ d := match d.get? ['s'] with
    | some (.scalar v) => .ok v
    | _ => .error .key
  score m := |m - 3|
  keys := [['s']]
  sc := false

/-- Non-vacuity of C94, and its violation: the returned configuration is 3 but the returned model
was left at 9. -/
theorem C94_violated_model : ∃ out, coordinateSearch toyEnv false 1 [(['s'], .scalar 1)]
      [.eval [2], .callback [3], .eval [9]] = .ok out ∧ out.qp = [(['s'], .scalar 3)] ∧ out.score = 0 ∧
      toyEnv.score out.model = 6 := ⟨⟨9, 0, [(['s'], .scalar 3)]⟩, by decide +kernel, rfl, rfl, by decide +kernel⟩

/-- **C94** is violated by basin hopping: the first completed iteration raises TypeError (scipy
passes three arguments to the callback). -/
theorem C94_violated_basinhopping {σ : Type} (e : CSEnv σ) (m0 : σ) (qp0 : Dict PKey PVal)
    (events : List MinEvent) (h : reported events ≠ []) :
    ∀ out, coordinateSearch e true m0 qp0 events ≠ .ok out := by
  unfold coordinateSearch
  generalize (⟨m0, e.score m0, qp0⟩ : CSState σ) = s
  intro out
  induction events generalizing s with
  | nil => simp [reported] at h
  | cons ev es ih =>
    intro hc
    rw [List.foldlM_cons] at hc
    obtain ⟨s1, h1, h2⟩ := ok_bind hc
    cases ev with
    | eval v => exact ih (by simpa [reported] using h) s1 h2
    | callback v => simp [CSEnv.step] at h1

/-! ## C95: the greedy search -/

theorem set_comm_of_mem {α β : Type} [DecidableEq α] (d : Dict α β) (a k : α) (x w : β) (hne : a ≠ k)
    (hk : k ∈ d.map Prod.fst) : (d.set a x).set k w = (d.set k w).set a x := by
  induction d with
  | nil => simp at hk
  | cons kv d ih =>
    obtain ⟨b, v⟩ := kv
    by_cases h1 : b = a
    · subst h1
      simp [Dict.set, hne]
    · by_cases h2 : b = k
      · subst h2; simp [Dict.set, h1]
      · simp only [List.map_cons, List.mem_cons] at hk
        have hk' : k ∈ d.map Prod.fst := by
          rcases hk with hk | hk
          · exact absurd hk.symm h2
          · exact hk
        simp [Dict.set, h1, h2, ih hk']

theorem mem_keys_odUpdate {α β : Type} [DecidableEq α] (d c : Dict α β) (k : α) :
    k ∈ (odUpdate d c).map Prod.fst ↔ k ∈ d.map Prod.fst ∨ k ∈ c.map Prod.fst := by
  induction c generalizing d with
  | nil => simp [odUpdate]
  | cons kv c ih =>
    have : odUpdate d (kv :: c) = odUpdate (d.set kv.1 kv.2) c := rfl
    rw [this, ih, mem_keys_set]
    simp only [List.map_cons, List.mem_cons]
    tauto

theorem odUpdate_set_comm {α β : Type} [DecidableEq α] (d c : Dict α β) (k : α) (w : β)
    (hk : k ∉ c.map Prod.fst) (hd : k ∈ d.map Prod.fst) :
    (odUpdate d c).set k w = odUpdate (d.set k w) c := by
  induction c generalizing d with
  | nil => rfl
  | cons kv c ih =>
    simp only [List.map_cons, List.mem_cons, not_or] at hk
    have h1 : odUpdate d (kv :: c) = odUpdate (d.set kv.1 kv.2) c := rfl
    have h2 : odUpdate (d.set k w) (kv :: c) = odUpdate ((d.set k w).set kv.1 kv.2) c := rfl
    rw [h1, h2, ih (d.set kv.1 kv.2) hk.2 ((mem_keys_set _ _ _ _).2 (Or.inr hd)),
      set_comm_of_mem _ _ _ _ _ (fun e => hk.1 e.symm) hd]

theorem get?_odUpdate_not_mem {α β : Type} [DecidableEq α] (d c : Dict α β) (k : α)
    (hk : k ∉ c.map Prod.fst) : (odUpdate d c).get? k = d.get? k := by
  induction c generalizing d with
  | nil => rfl
  | cons kv c ih =>
    simp only [List.map_cons, List.mem_cons, not_or] at hk
    have h1 : odUpdate d (kv :: c) = odUpdate (d.set kv.1 kv.2) c := rfl
    rw [h1, ih _ hk.2, get?_set_ne _ _ (fun e => hk.1 e.symm)]

theorem get?_odUpdate_mem {α β : Type} [DecidableEq α] (d c : Dict α β) (hc : c.Nodup) (k : α) (v : β)
    (hk : c.get? k = some v) : (odUpdate d c).get? k = some v := by
  induction c generalizing d with
  | nil => simp at hk
  | cons kv c ih =>
    obtain ⟨a, x⟩ := kv
    have h1 : odUpdate d ((a, x) :: c) = odUpdate (d.set a x) c := rfl
    have hc' : a ∉ c.map Prod.fst ∧ Dict.Nodup c := by
      unfold Dict.Nodup at hc ⊢
      rw [List.map_cons, List.nodup_cons] at hc
      exact hc
    rw [h1]
    by_cases h : a = k
    · subst h
      rw [get?_odUpdate_not_mem _ _ _ hc'.1, get?_set_self]
      simpa [Dict.get?] using hk
    · exact ih _ hc'.2 (by simpa [Dict.get?, h] using hk)

/-- Updating with `c1` and then with `c2`, where both set the same keys, is updating with `c2`. -/
theorem odUpdate_odUpdate {α β : Type} [DecidableEq α] (d c1 c2 : Dict α β)
    (hk : c1.map Prod.fst = c2.map Prod.fst) (hn : (c2.map Prod.fst).Nodup) :
    odUpdate (odUpdate d c1) c2 = odUpdate d c2 := by
  induction c2 generalizing d c1 with
  | nil => simp at hk; subst hk; rfl
  | cons kv c2 ih =>
    obtain ⟨k, v⟩ := kv
    cases c1 with
    | nil => simp at hk
    | cons kv1 c1 =>
      obtain ⟨k1, v1⟩ := kv1
      simp only [List.map_cons, List.cons.injEq] at hk
      obtain ⟨rfl, hk⟩ := hk
      rw [List.map_cons, List.nodup_cons] at hn
      have h1 : odUpdate d ((k1, v1) :: c1) = odUpdate (d.set k1 v1) c1 := rfl
      have h2 : ∀ e, odUpdate e ((k1, v) :: c2) = odUpdate (e.set k1 v) c2 := fun _ => rfl
      dsimp only at hn
      rw [h1, h2, h2, odUpdate_set_comm _ _ _ _ (by rw [hk]; exact hn.1)
        ((mem_keys_set _ _ _ _).2 (Or.inl rfl)), set_set]
      exact ih _ _ hk hn.2

/-- Specification: the configuration `b` with the settings `c` merged into layer `n`'s entry. -/
def withOverride (b : GOverrides) (n : String) (c : GOverride) : GOverrides :=
  b.set n (odUpdate ((b.get? n).getD []) c)

/-- Specification: all candidates set the same settings (in the same order). -/
def SameKeys (cands : List GOverride) : Prop :=
  ∃ ks : List String, ks.Nodup ∧ ∀ c ∈ cands, c.map Prod.fst = ks

theorem ensureEntry_with (b : GOverrides) (n : String) (c : GOverride) :
    (ensureEntry b n).set n (odUpdate (((ensureEntry b n).get? n).getD []) c) = withOverride b n c := by
  unfold ensureEntry withOverride
  split
  · rename_i h; rw [h]
  · rename_i h
    rw [get?_set_self, set_set]
    cases hb : b.get? n with
    | none => rfl
    | some e =>
      cases e with
      | nil => rfl
      | cons x xs => exact absurd hb (h x xs)

theorem withOverride_twice (b : GOverrides) (n : String) (c1 c2 : GOverride)
    (hk : c1.map Prod.fst = c2.map Prod.fst) (hn : (c2.map Prod.fst).Nodup) :
    withOverride (withOverride b n c1) n c2 = withOverride b n c2 := by
  unfold withOverride
  rw [get?_set_self, set_set, Option.getD_some, odUpdate_odUpdate _ _ _ hk hn]

theorem tryOverride_fst (perf : GOverrides → ℚ) (n : String) (s : GOverrides × Option (ℚ × GOverride)) (c : GOverride) :
    (tryOverride perf n s c).1 = withOverride s.1 n c := ensureEntry_with s.1 n c

theorem tryOverride_snd (perf : GOverrides → ℚ) (n : String) (s : GOverrides × Option (ℚ × GOverride)) (c : GOverride) :
    (tryOverride perf n s c).2 = match s.2 with
      | none => some (perf (withOverride s.1 n c), c)
      | some (b, _) => if perf (withOverride s.1 n c) > b then some (perf (withOverride s.1 n c), c) else s.2 := by
  unfold tryOverride
  dsimp only
  rw [ensureEntry_with]
  cases s.2 <;> rfl

theorem searchBest_fold (perf : GOverrides → ℚ) (n : String) (b : GOverrides) (ks : List String) (hks : ks.Nodup)
    (cands : List GOverride) (hk : ∀ c ∈ cands, c.map Prod.fst = ks)
    (d : GOverrides) (x : ℚ) (c0 : GOverride)
    (hd : ∀ c, c.map Prod.fst = ks → withOverride d n c = withOverride b n c)
    (hx : x = perf (withOverride b n c0)) :
    ∃ c, (c = c0 ∨ c ∈ cands) ∧
      (cands.foldl (tryOverride perf n) (d, some (x, c0))).2 = some (perf (withOverride b n c), c) ∧
      x ≤ perf (withOverride b n c) ∧
      ∀ c' ∈ cands, perf (withOverride b n c') ≤ perf (withOverride b n c) := by
  induction cands generalizing d x c0 with
  | nil => exact ⟨c0, Or.inl rfl, by simp [hx], by rw [hx], by simp⟩
  | cons c1 cs ih =>
    rw [List.foldl_cons]
    have hk1 := hk c1 (by simp)
    have e1 := tryOverride_fst perf n (d, some (x, c0)) c1
    have e2 := tryOverride_snd perf n (d, some (x, c0)) c1
    rw [show tryOverride perf n (d, some (x, c0)) c1 = ((tryOverride perf n (d, some (x, c0)) c1).1,
      (tryOverride perf n (d, some (x, c0)) c1).2) from rfl, e1, e2]
    have hd' : ∀ c, c.map Prod.fst = ks → withOverride (withOverride b n c1) n c = withOverride b n c := by
      intro c hc
      rw [withOverride_twice _ _ _ _ (by rw [hk1, hc]) (by rw [hc]; exact hks)]
    dsimp only
    rw [hd c1 hk1]
    split
    · rename_i hgt
      obtain ⟨c, hc, hf, hle, hall⟩ := ih (fun c hc => hk c (by simp [hc])) (withOverride b n c1) _ c1 hd' rfl
      refine ⟨c, ?_, hf, by linarith, ?_⟩
      · rcases hc with rfl | hc
        · exact Or.inr (by simp)
        · exact Or.inr (by simp [hc])
      · intro c' hc'
        rcases List.mem_cons.1 hc' with rfl | hc'
        · exact hle
        · exact hall c' hc'
    · rename_i hle0
      obtain ⟨c, hc, hf, hle, hall⟩ := ih (fun c hc => hk c (by simp [hc])) (withOverride b n c1) x c0 hd' hx
      refine ⟨c, ?_, hf, hle, ?_⟩
      · rcases hc with rfl | hc
        · exact Or.inl rfl
        · exact Or.inr (by simp [hc])
      · intro c' hc'
        rcases List.mem_cons.1 hc' with rfl | hc'
        · linarith [not_lt.1 hle0]
        · exact hall c' hc'

/-- **C95** (one layer) The settings chosen for a layer are one of the candidates, and no candidate
– merged into the layer's entry of the configuration found so far – scores better. -/
theorem C95_local (perf : GOverrides → ℚ) (n : String) (b : GOverrides) (cands : List GOverride)
    (hne : cands ≠ []) (hk : SameKeys cands) :
    searchBestLocal perf n b cands ∈ cands ∧
    ∀ c' ∈ cands, perf (withOverride b n c') ≤ perf (withOverride b n (searchBestLocal perf n b cands)) := by
  obtain ⟨ks, hks, hk⟩ := hk
  cases cands with
  | nil => exact absurd rfl hne
  | cons c1 cs =>
    have hk1 := hk c1 (by simp)
    have e1 := tryOverride_fst perf n (b, none) c1
    have e2 := tryOverride_snd perf n (b, none) c1
    obtain ⟨c, hc, hf, hle, hall⟩ := searchBest_fold perf n b ks hks cs (fun c hc => hk c (by simp [hc]))
      (withOverride b n c1) (perf (withOverride b n c1)) c1
      (fun c hc => withOverride_twice _ _ _ _ (by rw [hk1, hc]) (by rw [hc]; exact hks)) rfl
    have hres : searchBestLocal perf n b (c1 :: cs) = c := by
      unfold searchBestLocal
      rw [List.foldl_cons, show tryOverride perf n (b, none) c1 = ((tryOverride perf n (b, none) c1).1,
        (tryOverride perf n (b, none) c1).2) from rfl, e1, e2]
      dsimp only
      rw [hf]; rfl
    rw [hres]
    refine ⟨?_, ?_⟩
    · rcases hc with rfl | hc <;> simp [*]
    · intro c' hc'
      rcases List.mem_cons.1 hc' with rfl | hc'
      · exact hle
      · exact hall c' hc'

/-- Specification: the configuration from which layer `n` is searched: what was found so far; the
layer called `fc` always gets an 8-bit, unclipped first input. -/
def fcBase (b : GOverrides) (n : String) : GOverrides :=
  if n = "fc" then withOverride b "fc" [("input_overrides", .inputs [(0, (8, "NONE"))])] else b

/-- Specification: the layer's entry `e` (if there is one) has a setting for `k` that Python takes for true: not `None`, not zero, not
`False`, not the empty string and not the empty dictionary. -/
def HasSetting (e : Option GOverride) (k : String) : Prop :=
  ∃ o v, e = some o ∧ o.get? k = some v ∧ v ≠ .none ∧ v ≠ .num 0 ∧ v ≠ .bool false ∧ v ≠ .str "" ∧ v ≠ .inputs []

theorem hasSetting_iff (e : Option GOverride) (k : String) : ovTruthy (e.getD []) k = true ↔ HasSetting e k := by
  have tr : ∀ v : OVal, v.truthy = true ↔ (v ≠ .none ∧ v ≠ .num 0 ∧ v ≠ .bool false ∧ v ≠ .str "" ∧ v ≠ .inputs []) := by
    intro v
    cases v <;> simp [OVal.truthy]
  unfold HasSetting ovTruthy
  cases e with
  | none => simp [Dict.get?]
  | some o =>
    simp only [Option.getD_some]
    cases h : o.get? k with
    | none => simp [h]
    | some v =>
      simp only [Option.map_some, Option.getD_some, tr]
      constructor
      · intro hv; exact ⟨o, v, rfl, h, hv⟩
      · rintro ⟨o', v', e1, e2, hv⟩
        injection e1 with e1; subst e1
        rw [h] at e2; injection e2 with e2; subst e2; exact hv

theorem hasSetting_false (e : Option GOverride) (k : String) : ovTruthy (e.getD []) k = false ↔ ¬ HasSetting e k := by
  rw [← hasSetting_iff]; simp

/-- Specification of a greedy run over the layers: layers to skip and layers whose settings were
already in the initial configuration `init` keep their entry; every other layer gets the best of its
candidates given the configuration found so far. -/
inductive GreedyRun (perf : GOverrides → ℚ) (init : GOverrides) : GOverrides → List GMod → GOverrides → Prop
  | done (b) : GreedyRun perf init b [] b
  | skip (b m ms out) : m.skip = true → GreedyRun perf init b ms out → GreedyRun perf init b (m :: ms) out
  | keep (b m ms out) : m.skip = false → HasSetting (init.get? m.name) "bits_activations" →
      GreedyRun perf init b ms out → GreedyRun perf init b (m :: ms) out
  | choose (b m ms out c) : m.skip = false →
      ¬ HasSetting (init.get? m.name) "bits_activations" → c ∈ m.cands →
      (∀ c' ∈ m.cands, perf (withOverride (fcBase b m.name) m.name c') ≤ perf (withOverride (fcBase b m.name) m.name c)) →
      GreedyRun perf init (withOverride (fcBase b m.name) m.name c) ms out → GreedyRun perf init b (m :: ms) out

theorem fcWorkaround_ensure (b : GOverrides) (n : String) (c : GOverride) :
    withOverride (fcWorkaround (ensureEntry b n) n) n c = withOverride (fcBase b n) n c := by
  unfold fcWorkaround fcBase
  by_cases h : n = "fc"
  · subst h
    simp only [if_true]
    rw [ensureEntry_with]
  · simp only [h, if_false]
    unfold ensureEntry
    split
    · rfl
    · rename_i hh
      unfold withOverride
      rw [get?_set_self, set_set]
      cases hb : b.get? n with
      | none => rfl
      | some e =>
        cases e with
        | nil => rfl
        | cons x xs => exact absurd hb (hh x xs)

theorem greedyModule_search (perf : GOverrides → ℚ) (s : GSState) (m : GMod) (hs : m.skip = false)
    (ht : ¬ (ovTruthy ((s.best.get? m.name).getD []) "bits_activations" = true ∧ m.name ∉ s.loaded))
    (hne : m.cands ≠ []) (hk : SameKeys m.cands) :
    ∃ c ∈ m.cands, (greedyModule perf s m) = { s with best := withOverride (fcBase s.best m.name) m.name c } ∧
      ∀ c' ∈ m.cands, perf (withOverride (fcBase s.best m.name) m.name c') ≤
        perf (withOverride (fcBase s.best m.name) m.name c) := by
  obtain ⟨h1, h2⟩ := C95_local perf m.name (fcWorkaround (ensureEntry s.best m.name) m.name) m.cands hne hk
  refine ⟨_, h1, ?_, ?_⟩
  · unfold greedyModule
    rw [if_neg (by simp [hs]), if_neg ht, ← fcWorkaround_ensure]
    rfl
  · intro c' hc'
    have := h2 c' hc'
    rwa [fcWorkaround_ensure, fcWorkaround_ensure] at this

theorem get?_withOverride_ne (b : GOverrides) (n n' : String) (c : GOverride) (h : n ≠ n') :
    (withOverride b n c).get? n' = b.get? n' := get?_set_ne _ _ h

theorem get?_fcBase_ne (b : GOverrides) (n n' : String) (h : n ≠ n') : (fcBase b n).get? n' = b.get? n' := by
  unfold fcBase
  split
  · rename_i h1; exact get?_withOverride_ne _ _ _ _ (h1 ▸ h)
  · rfl

theorem greedy_run_fold (perf : GOverrides → ℚ) (init : GOverrides) (mods : List GMod) (s : GSState)
    (hnd : (mods.map GMod.name).Nodup) (hinit : ∀ m ∈ mods, s.best.get? m.name = init.get? m.name)
    (hl : ∀ m ∈ mods, m.name ∉ s.loaded)
    (hc : ∀ m ∈ mods, m.skip = false → m.cands ≠ [] ∧ SameKeys m.cands) :
    GreedyRun perf init s.best mods (mods.foldl (greedyModule perf) s).best := by
  induction mods generalizing s with
  | nil => exact .done _
  | cons m ms ih =>
    rw [List.foldl_cons]
    rw [List.map_cons, List.nodup_cons] at hnd
    have hne : ∀ m' ∈ ms, m.name ≠ m'.name := fun m' hm' e => hnd.1 (List.mem_map.2 ⟨m', hm', e.symm⟩)
    have hi := hinit m (by simp)
    have hlm := hl m (by simp)
    cases hs : m.skip with
    | true =>
      refine .skip _ _ _ _ hs ?_
      have : greedyModule perf s m = s := by unfold greedyModule; rw [if_pos hs]
      rw [this]
      exact ih s hnd.2 (fun m' h => hinit m' (by simp [h])) (fun m' h => hl m' (by simp [h])) (fun m' h => hc m' (by simp [h]))
    | false =>
      cases ht : ovTruthy ((s.best.get? m.name).getD []) "bits_activations" with
      | true =>
        refine .keep _ _ _ _ hs (by rw [← hi]; exact (hasSetting_iff _ _).1 ht) ?_
        have : greedyModule perf s m = { s with loaded := s.loaded ++ [m.name] } := by
          unfold greedyModule; rw [if_neg (by simp [hs]), if_pos ⟨ht, hlm⟩]
        rw [this]
        refine ih { s with loaded := s.loaded ++ [m.name] } hnd.2 (fun m' h => hinit m' (by simp [h])) ?_ (fun m' h => hc m' (by simp [h]))
        intro m' h
        simp only [List.mem_append, List.mem_singleton, not_or]
        exact ⟨hl m' (by simp [h]), fun e => hne m' h e.symm⟩
      | false =>
        obtain ⟨c, hcm, he, hmax⟩ := greedyModule_search perf s m hs (by rw [ht]; simp) (hc m (by simp) hs).1 (hc m (by simp) hs).2
        refine .choose _ _ _ _ c hs (by rw [← hi]; exact (hasSetting_false _ _).1 ht) hcm hmax ?_
        rw [he]
        refine ih { s with best := withOverride (fcBase s.best m.name) m.name c } hnd.2 ?_ (fun m' h => hl m' (by simp [h])) (fun m' h => hc m' (by simp [h]))
        intro m' h
        dsimp only
        rw [get?_withOverride_ne _ _ _ _ (hne m' h), get?_fcBase_ne _ _ _ (hne m' h)]
        exact hinit m' (by simp [h])

/-- **C95** (partial) Run as a script with no inputs to quantize separately, from an empty or a
resumed configuration: the result is that of a greedy run – every layer, in topological order, gets
the candidate with the best evaluation given the settings of the layers before it, layers already
configured in the resumed file are kept.  Candidates for a layer must set the same keys; the
stock generators' do (below).  Missing: see the violations. -/
theorem C95_greedy_partial (perf : GOverrides → ℚ) (gen : GInput → ℕ → List GOverride) (resume : GOverrides)
    (mods : List GMod) (hnd : (mods.map GMod.name).Nodup)
    (hc : ∀ m ∈ mods, m.skip = false → m.cands ≠ [] ∧ SameKeys m.cands) :
    ∃ out, ptqGreedySearch true perf gen resume [] mods = .ok out ∧ GreedyRun perf resume resume mods out :=
  ⟨_, rfl, greedy_run_fold perf resume mods ⟨resume, []⟩ hnd (fun _ _ => rfl) (by simp) hc⟩

/-- A greedy run changes only the entries of layers it searches. -/
theorem C95_untouched (perf : GOverrides → ℚ) (init b out : GOverrides) (mods : List GMod)
    (h : GreedyRun perf init b mods out) (n : String) (hn : ∀ m ∈ mods, m.skip = false → m.name ≠ n) :
    out.get? n = b.get? n := by
  induction h with
  | done b => rfl
  | skip b m ms out _ _ ih => exact ih (fun m' h => hn m' (by simp [h]))
  | keep b m ms out _ _ _ ih => exact ih (fun m' h => hn m' (by simp [h]))
  | choose b m ms out c hs _ _ _ _ ih =>
    rw [ih (fun m' h => hn m' (by simp [h])), get?_withOverride_ne _ _ _ _ (hn m (by simp) hs),
      get?_fcBase_ne _ _ _ (hn m (by simp) hs)]

/-- **C95** (stock candidates) The stock generators' candidates all set the same keys. -/
theorem C95_stock_candidates (ba bw : ℕ) (k : GKind) (isParam : Bool) (idx : ℕ) :
    SameKeys (moduleOverrideGen ba bw k) ∧ moduleOverrideGen ba bw k ≠ [] ∧
    SameKeys (inputOverrideGen ba bw isParam idx) ∧ inputOverrideGen ba bw isParam idx ≠ [] ∧
    (∀ c ∈ moduleOverrideGen ba bw k, c.get? "bits_activations" = some (.num ba)) := by
  refine ⟨?_, ?_, ?_, ?_, ?_⟩
  · unfold moduleOverrideGen
    cases k.isReLU with
    | true => exact ⟨["make_identity", "bits_weights", "bits_activations"], by decide, by simp⟩
    | false =>
      cases hp : k.isParam with
      | true => exact ⟨["clip_acts", "bits_weights", "bits_activations", "bits_bias", "clip_half_range"], by decide, by simp⟩
      | false =>
        exact ⟨["clip_acts", "fpq_module", "fake", "bits_weights", "bits_activations", "clip_half_range"], by decide, by simp⟩
  · unfold moduleOverrideGen
    cases k.isReLU <;> simp [clipModes]
  · cases isParam with
    | true => exact ⟨["input_overrides", "bits_activations", "bits_weights"], by decide, by simp [inputOverrideGen]⟩
    | false => exact ⟨["input_overrides", "bits_activations"], by decide, by simp [inputOverrideGen]⟩
  · simp [inputOverrideGen, clipModes]
  · unfold moduleOverrideGen
    cases k.isReLU with
    | true => simp [Dict.get?]
    | false => cases hp : k.isParam <;> simp [clipModes, Dict.get?]

/-- **C95** (half range) A stock candidate clips a layer to half its range exactly when its clipping
mode is a fitted distribution and every successor module is a ReLU. -/
theorem C95_half_range (ba bw : ℕ) (k : GKind) (hr : k.isReLU = false) :
    ∀ c ∈ moduleOverrideGen ba bw k, c.get? "clip_half_range" = some (.bool true) ↔
      (∀ isRelu ∈ k.succs, isRelu = true) ∧
        (c.get? "clip_acts" = some (.str "GAUSS") ∨ c.get? "clip_acts" = some (.str "LAPLACE")) := by
  unfold moduleOverrideGen
  cases hp : k.isParam <;> simp [hr, clipModes, Dict.get?]

/-- **C95** (resume) Stopping the search after any number of layers and starting again from the saved
configuration yields what an uninterrupted search yields (no separately quantized inputs, every
candidate sets non-zero activation bits). -/
theorem C95_resume (perf : GOverrides → ℚ) (gen : GInput → ℕ → List GOverride) (start : GOverrides)
    (before after : List GMod) (hnd : ((before ++ after).map GMod.name).Nodup)
    (hc : ∀ m ∈ before ++ after, m.skip = false → m.cands ≠ [] ∧ SameKeys m.cands ∧
      ∀ c ∈ m.cands, ∃ k, c.get? "bits_activations" = some (.num (k + 1))) :
    ∃ saved out, ptqGreedySearch true perf gen start [] before = .ok saved ∧
      ptqGreedySearch true perf gen start [] (before ++ after) = .ok out ∧
      ptqGreedySearch true perf gen saved [] (before ++ after) = .ok out := by
  -- the part after the crash does not depend on `loaded`
  have indep : ∀ (ms : List GMod) (b : GOverrides) (l1 l2 : List String), (ms.map GMod.name).Nodup →
      (∀ m ∈ ms, m.name ∉ l1) → (∀ m ∈ ms, m.name ∉ l2) →
      (ms.foldl (greedyModule perf) ⟨b, l1⟩).best = (ms.foldl (greedyModule perf) ⟨b, l2⟩).best := by
    intro ms
    induction ms with
    | nil => intros; rfl
    | cons m ms ih =>
      intro b l1 l2 hnd h1 h2
      rw [List.map_cons, List.nodup_cons] at hnd
      have hne : ∀ m' ∈ ms, m'.name ≠ m.name := fun m' hm' e => hnd.1 (List.mem_map.2 ⟨m', hm', e⟩)
      have h1m := h1 m (by simp)
      have h2m := h2 m (by simp)
      rw [List.foldl_cons, List.foldl_cons]
      unfold greedyModule
      dsimp only
      split
      · exact ih _ _ _ hnd.2 (fun m' h => h1 m' (by simp [h])) (fun m' h => h2 m' (by simp [h]))
      · by_cases ht : ovTruthy ((b.get? m.name).getD []) "bits_activations" = true
        · rw [if_pos ⟨ht, h1m⟩, if_pos ⟨ht, h2m⟩]
          refine ih _ _ _ hnd.2 ?_ ?_ <;> intro m' h <;>
            simp only [List.mem_append, List.mem_singleton, not_or]
          · exact ⟨h1 m' (by simp [h]), hne m' h⟩
          · exact ⟨h2 m' (by simp [h]), hne m' h⟩
        · rw [if_neg (fun e => ht e.1), if_neg (fun e => ht e.1)]
          exact ih _ _ _ hnd.2 (fun m' h => h1 m' (by simp [h])) (fun m' h => h2 m' (by simp [h]))
  -- after a run every searched layer's entry is recognized
  have final : ∀ (ms : List GMod) (s : GSState), (ms.map GMod.name).Nodup → (∀ m ∈ ms, m.name ∉ s.loaded) →
      (∀ m ∈ ms, m.skip = false → m.cands ≠ [] ∧ SameKeys m.cands ∧
        ∀ c ∈ m.cands, ∃ k, c.get? "bits_activations" = some (.num (k + 1))) →
      (∀ n, n ∉ ms.map GMod.name → (ms.foldl (greedyModule perf) s).best.get? n = s.best.get? n) ∧
      ∀ m ∈ ms, m.skip = false →
        ovTruthy (((ms.foldl (greedyModule perf) s).best.get? m.name).getD []) "bits_activations" = true := by
    intro ms
    induction ms with
    | nil => intro s _ _ _; exact ⟨fun _ _ => rfl, by simp⟩
    | cons m ms ih =>
      intro s hnd hl hc
      rw [List.map_cons, List.nodup_cons] at hnd
      have hne : ∀ m' ∈ ms, m'.name ≠ m.name := fun m' hm' e => hnd.1 (List.mem_map.2 ⟨m', hm', e⟩)
      have hlm := hl m (by simp)
      rw [List.foldl_cons]
      have step : (∀ n, n ≠ m.name → (greedyModule perf s m).best.get? n = s.best.get? n) ∧
          (m.skip = false → ovTruthy (((greedyModule perf s m).best.get? m.name).getD []) "bits_activations" = true) ∧
          (∀ m' ∈ ms, m'.name ∉ (greedyModule perf s m).loaded) := by
        cases hs : m.skip with
        | true =>
          have : greedyModule perf s m = s := by unfold greedyModule; rw [if_pos hs]
          rw [this]
          exact ⟨fun _ _ => rfl, by simp, fun m' h => hl m' (by simp [h])⟩
        | false =>
          by_cases ht : ovTruthy ((s.best.get? m.name).getD []) "bits_activations" = true
          · have : greedyModule perf s m = { s with loaded := s.loaded ++ [m.name] } := by
              unfold greedyModule; rw [if_neg (by simp [hs]), if_pos ⟨ht, hlm⟩]
            rw [this]
            refine ⟨fun _ _ => rfl, fun _ => ht, ?_⟩
            intro m' h
            simp only [List.mem_append, List.mem_singleton, not_or]
            exact ⟨hl m' (by simp [h]), hne m' h⟩
          · obtain ⟨h1, h2, h3⟩ := hc m (by simp) hs
            obtain ⟨c, hcm, he, _⟩ := greedyModule_search perf s m hs (fun e => ht e.1) h1 h2
            rw [he]
            refine ⟨?_, fun _ => ?_, fun m' h => hl m' (by simp [h])⟩
            · intro n hn
              dsimp only
              rw [get?_withOverride_ne _ _ _ _ hn.symm, get?_fcBase_ne _ _ _ hn.symm]
            · dsimp only
              obtain ⟨k, hk⟩ := h3 c hcm
              obtain ⟨ks, hks, hkc⟩ := h2
              unfold ovTruthy withOverride
              rw [get?_set_self, Option.getD_some,
                get?_odUpdate_mem _ c (by unfold Dict.Nodup; rw [hkc c hcm]; exact hks) _ _ hk]
              simp [OVal.truthy]
      obtain ⟨i1, i2⟩ := ih (greedyModule perf s m) hnd.2 step.2.2 (fun m' h => hc m' (by simp [h]))
      refine ⟨?_, ?_⟩
      · intro n hn
        rw [List.map_cons, List.mem_cons, not_or] at hn
        rw [i1 n hn.2, step.1 n hn.1]
      · intro m' hm' hs'
        rcases List.mem_cons.1 hm' with rfl | hm'
        · rw [i1 _ hnd.1]; exact step.2.1 hs'
        · exact i2 m' hm' hs'
  -- re-running over recognized layers changes nothing but `loaded`
  have redo : ∀ (ms : List GMod) (b : GOverrides) (l : List String), (ms.map GMod.name).Nodup → (∀ m ∈ ms, m.name ∉ l) →
      (∀ m ∈ ms, m.skip = false → ovTruthy ((b.get? m.name).getD []) "bits_activations" = true) →
      ∃ l', ms.foldl (greedyModule perf) ⟨b, l⟩ = ⟨b, l ++ l'⟩ ∧ ∀ x ∈ l', x ∈ ms.map GMod.name := by
    intro ms
    induction ms with
    | nil => intro b l _ _ _; exact ⟨[], by simp, by simp⟩
    | cons m ms ih =>
      intro b l hnd hl ht
      rw [List.map_cons, List.nodup_cons] at hnd
      have hne : ∀ m' ∈ ms, m'.name ≠ m.name := fun m' hm' e => hnd.1 (List.mem_map.2 ⟨m', hm', e⟩)
      rw [List.foldl_cons]
      cases hs : m.skip with
      | true =>
        have : greedyModule perf ⟨b, l⟩ m = ⟨b, l⟩ := by unfold greedyModule; rw [if_pos hs]
        rw [this]
        obtain ⟨l', h1, h2⟩ := ih b l hnd.2 (fun m' h => hl m' (by simp [h])) (fun m' h => ht m' (by simp [h]))
        exact ⟨l', h1, fun x hx => by simp [h2 x hx]⟩
      | false =>
        have : greedyModule perf ⟨b, l⟩ m = ⟨b, l ++ [m.name]⟩ := by
          unfold greedyModule; rw [if_neg (by simp [hs]), if_pos ⟨ht m (by simp) hs, hl m (by simp)⟩]
        rw [this]
        obtain ⟨l', h1, h2⟩ := ih b (l ++ [m.name]) hnd.2
          (by
            intro m' h
            simp only [List.mem_append, List.mem_singleton, not_or]
            exact ⟨hl m' (by simp [h]), hne m' h⟩) (fun m' h => ht m' (by simp [h]))
        refine ⟨m.name :: l', by rw [h1]; simp, ?_⟩
        intro x hx
        rcases List.mem_cons.1 hx with rfl | hx
        · simp
        · simp [h2 x hx]
  have hnd' := hnd
  rw [List.map_append, List.nodup_append] at hnd
  obtain ⟨n1, n2, n3⟩ := hnd
  obtain ⟨-, hf⟩ := final before ⟨start, []⟩ n1 (by simp) (fun m h => hc m (by simp [h]))
  obtain ⟨l', hr, hl'⟩ := redo before (before.foldl (greedyModule perf) ⟨start, []⟩).best [] n1 (by simp) hf
  refine ⟨(before.foldl (greedyModule perf) ⟨start, []⟩).best, ((before ++ after).foldl (greedyModule perf) ⟨start, []⟩).best,
    rfl, rfl, ?_⟩
  -- the loaded list after `before` holds names of `before` only
  have loadedIn : ∀ (ms : List GMod) (s : GSState), ∀ x ∈ (ms.foldl (greedyModule perf) s).loaded,
      x ∈ s.loaded ∨ x ∈ ms.map GMod.name := by
    intro ms
    induction ms with
    | nil => intro s x hx; exact Or.inl hx
    | cons m ms ih =>
      intro s x hx
      rw [List.foldl_cons] at hx
      rcases ih _ x hx with h | h
      · unfold greedyModule at h
        split at h
        · exact Or.inl h
        · split at h
          · simp only [List.mem_append, List.mem_singleton] at h
            rcases h with h | h
            · exact Or.inl h
            · exact Or.inr (by simp [h])
          · exact Or.inl h
      · exact Or.inr (by simp at h ⊢; exact Or.inr h)
  show Except.ok _ = Except.ok _
  congr 1
  show ((before ++ after).foldl (greedyModule perf) _).best = _
  rw [List.foldl_append, List.foldl_append, hr]
  apply indep after _ _ _ n2
  · intro m hm hx
    simp only [List.nil_append] at hx
    exact n3 m.name (hl' _ hx) m.name (List.mem_map_of_mem hm) rfl
  · intro m hm hx
    rcases loadedIn before ⟨start, []⟩ _ hx with h | h
    · simp at h
    · exact n3 m.name h m.name (List.mem_map_of_mem hm) rfl

/-- **C95** (one quantized input) For a layer with one separately quantized input the stock search
keeps, as the layer's only setting, the input's clipping mode whose evaluation was the best of the
four. -/
theorem C95_input (perf : GOverrides → ℚ) (ba bw : ℕ) (s s' : GSState) (m : GInput) (i : ℕ) (hi : m.idxs = [i])
    (hs : m.skip = false) (ht0 : ¬ HasSetting (s.best.get? m.name) "input_overrides")
    (h : greedyInput perf (fun m i => inputOverrideGen ba bw m.isParam i) s m = .ok s') :
    ∃ clip ∈ ["NONE", "AVG", "GAUSS", "LAPLACE"],
      s' = { s with best := s.best.set m.name [("input_overrides", .inputs [(i, (ba, clip))])] } ∧
      ∀ clip' ∈ ["NONE", "AVG", "GAUSS", "LAPLACE"],
        let full := fun c : String => withOverride s.best m.name
          ([("input_overrides", .inputs [(i, (ba, c))]), ("bits_activations", .num ba)] ++
            if m.isParam then [("bits_weights", OVal.num bw)] else [])
        perf (full clip') ≤ perf (full clip) := by
  have ht := (hasSetting_false _ _).2 ht0
  obtain ⟨-, -, h3, h4, -⟩ := C95_stock_candidates ba bw ⟨false, false, false, false, false, []⟩ m.isParam i
  obtain ⟨l1, l2⟩ := C95_local perf m.name (ensureEntry s.best m.name) _ h4 h3
  have hw : ∀ c, withOverride (ensureEntry s.best m.name) m.name c = withOverride s.best m.name c :=
    ensureEntry_with s.best m.name
  generalize hr : searchBestLocal perf m.name (ensureEntry s.best m.name) (inputOverrideGen ba bw m.isParam i) = r at l1 l2
  unfold inputOverrideGen at l1
  obtain ⟨clip, hclip, rfl⟩ := List.mem_map.1 l1
  refine ⟨clip, hclip, ?_, ?_⟩
  · unfold greedyInput at h
    rw [if_neg (by simp [hs]), if_neg (by simp [ht]), hi] at h
    simp only [List.foldl_cons, List.foldl_nil, hr] at h
    rw [ensureEntry_with] at h
    unfold withOverride at h
    rw [get?_set_self, Option.getD_some, get?_odUpdate_mem _ _ ?_ "input_overrides" (.inputs [(i, (ba, clip))])
      (by simp [Dict.get?])] at h
    · simp only [set_set] at h
      injection h with h
      exact h.symm
    · cases m.isParam <;> simp [Dict.Nodup]
  · intro clip' hclip'
    have := l2 _ (List.mem_map.2 ⟨clip', hclip', rfl⟩)
    rw [hw, hw] at this
    exact this

/-- **C95** (resumed inputs) A layer whose inputs are already configured in the resumed file is not searched again: all settings stay as they
are, and it is remembered as fully configured exactly if its activation bits are set too. -/
theorem C95_input_kept (perf : GOverrides → ℚ) (gen : GInput → ℕ → List GOverride) (s : GSState) (m : GInput) (hs : m.skip = false)
    (ht : HasSetting (s.best.get? m.name) "input_overrides") :
    ∃ s', greedyInput perf gen s m = .ok s' ∧ s'.best = s.best ∧
      (HasSetting (s.best.get? m.name) "bits_activations" → s'.loaded = s.loaded ++ [m.name]) ∧
      (¬ HasSetting (s.best.get? m.name) "bits_activations" → s'.loaded = s.loaded) := by
  refine ⟨_, by unfold greedyInput; rw [if_neg (by simp [hs]), if_pos ((hasSetting_iff _ _).2 ht)], ?_, ?_, ?_⟩
  · split <;> rfl
  · intro h; rw [if_pos ((hasSetting_iff _ _).2 h)]
  · intro h; rw [if_neg (fun e => h ((hasSetting_iff _ _).1 e))]

example : HasSetting (Dict.get? ([("a", [("input_overrides", .inputs [(0, (8, "AVG"))])])] : GOverrides) "a") "input_overrides" ∧
    ¬ HasSetting (Dict.get? ([("a", [("input_overrides", .inputs [])])] : GOverrides) "a") "input_overrides" := by
  rw [← hasSetting_iff, ← hasSetting_iff]; decide

/-- A scoring function for the examples: points for settings of layers. -/
def toyPerf (pts : List (String × String × OVal × ℚ)) (b : GOverrides) : ℚ :=
  (pts.map fun p => if ((b.get? p.1).getD []).get? p.2.1 = some p.2.2.1 then p.2.2.2 else 0).sum

/-- Non-vacuity of C95: two convolutions, best settings AVG for the first and GAUSS for the second. -/
example : ptqGreedySearch true (toyPerf [("a", "clip_acts", .str "AVG", 1), ("b", "clip_acts", .str "GAUSS", 2)])
    (fun m i => inputOverrideGen 8 8 m.isParam i) [] []
    [⟨"a", false, moduleOverrideGen 8 8 { isParam := true, isQuantized := true, succs := [false] }⟩,
     ⟨"r", true, []⟩,
     ⟨"b", false, moduleOverrideGen 8 8 { isParam := true, isQuantized := true, succs := [true] }⟩] =
    .ok [("a", [("clip_acts", .str "AVG"), ("bits_weights", .num 8), ("bits_activations", .num 8), ("bits_bias", .num 32),
          ("clip_half_range", .bool false)]),
        ("b", [("clip_acts", .str "GAUSS"), ("bits_weights", .num 8), ("bits_activations", .num 8), ("bits_bias", .num 32),
          ("clip_half_range", .bool true)])] := by decide +kernel

/-- Non-vacuity of `C95_input`. -/
example : greedyInput (toyPerf [("a", "input_overrides", .inputs [(0, (8, "AVG"))], 1)])
    (fun m i => inputOverrideGen 8 8 m.isParam i) ⟨[], []⟩ ⟨"a", false, true, [0]⟩ =
    .ok ⟨[("a", [("input_overrides", .inputs [(0, (8, "AVG"))])])], []⟩ := by decide +kernel

/-- **C95** is violated when two inputs of a layer are to be quantized: only the last one's settings
are in the result. -/
theorem C95_violated_two_inputs (perf : GOverrides → ℚ) :
    ∃ clip, ptqGreedySearch true perf (fun m i => inputOverrideGen 8 8 m.isParam i) [] [⟨"add", false, false, [0, 1]⟩] [] =
      .ok [("add", [("input_overrides", .inputs [(1, (8, clip))])])] := by
  obtain ⟨-, -, h3, h4, -⟩ := C95_stock_candidates 8 8 ⟨false, false, false, false, false, []⟩ false 1
  obtain ⟨-, -, h3', h4', -⟩ := C95_stock_candidates 8 8 ⟨false, false, false, false, false, []⟩ false 0
  obtain ⟨l1', -⟩ := C95_local perf "add" [("add", [])] _ h4' h3'
  generalize hr' : searchBestLocal perf "add" [("add", [])] (inputOverrideGen 8 8 false 0) = r' at l1'
  obtain ⟨clip', hclip', rfl⟩ := List.mem_map.1 l1'
  obtain ⟨l1, -⟩ := C95_local perf "add"
    [("add", [("input_overrides", .inputs [(0, (8, clip'))]), ("bits_activations", .num 8)])] _ h4 h3
  generalize hr : searchBestLocal perf "add" [("add", [("input_overrides", .inputs [(0, (8, clip'))]),
    ("bits_activations", .num 8)])] (inputOverrideGen 8 8 false 1) = r at l1
  obtain ⟨clip, hclip, rfl⟩ := List.mem_map.1 l1
  refine ⟨clip, ?_⟩
  simp only [Bool.false_eq_true, if_false, List.append_nil] at hr hr'
  simp [ptqGreedySearch, greedyInput, ovTruthy, ensureEntry, Dict.get?, Dict.set, odUpdate, hr', hr, bind, Except.bind,
    pure, Except.pure]

/-- **C95** is violated for the network's output layer: it has no successor modules, so "all its
successors are ReLUs" holds and its Gaussian and Laplacian candidates clip to half the range. -/
theorem C95_violated_output_half_range (ba bw : ℕ) (k : GKind) (hr : k.isReLU = false) (hs : k.succs = []) :
    ∀ c ∈ moduleOverrideGen ba bw k, c.get? "clip_acts" = some (.str "GAUSS") ∨ c.get? "clip_acts" = some (.str "LAPLACE") →
      c.get? "clip_half_range" = some (.bool true) := by
  unfold moduleOverrideGen
  cases hp : k.isParam <;> simp [hr, hs, clipModes, Dict.get?]

/-- **C95** is violated for `Tanh` and `Sigmoid`: the intended 16-bit floating point setting is
always overwritten by 32 bits, as these layers are not among the quantized ones. -/
theorem C95_violated_fp16 (ba bw : ℕ) (k : GKind) (hr : k.isReLU = false) (hf : k.isFp16 = true)
    (hq : k.isQuantized = false) (hp : k.isParam = false) :
    ∀ c ∈ moduleOverrideGen ba bw k, c.get? "fpq_module" = some (.num 32) := by
  unfold moduleOverrideGen
  simp [hr, hf, hq, hp, clipModes, Dict.get?]

/-- **C95** (why the candidates must set the same keys): with candidates setting different keys the
second is evaluated together with the first one's setting, so a configuration that was never
evaluated can be returned. -/
theorem C95_violated_leak : ∃ perf : GOverrides → ℚ,
    let cands : List GOverride := [[("x", .num 1)], [("y", .num 1)]]
    ptqGreedySearch true perf (fun _ _ => []) [] [] [⟨"a", false, cands⟩] = .ok [("a", [("y", .num 1)])] ∧
    perf [("a", [("y", .num 1)])] < perf [("a", [("x", .num 1)])] := by
  refine ⟨toyPerf [("a", "x", .num 1, 2), ("a", "y", .num 1, 1)], ?_⟩
  decide +kernel

/-- **C95** (resume) is violated when a layer has a separately quantized input: a complete
configuration is searched again for that layer, and can change. -/
theorem C95_violated_resume_input : ∃ perf : GOverrides → ℚ,
    let gen := fun (m : GInput) i => inputOverrideGen 8 8 m.isParam i
    let inputs : List GInput := [⟨"a", false, true, [0]⟩]
    let mods : List GMod := [⟨"a", false, [[("bits_activations", .num 8)], [("bits_activations", .num 4)]]⟩,
      ⟨"b", false, [[("bits_activations", .num 8)]]⟩]
    ∃ out out', ptqGreedySearch true perf gen [] inputs mods = .ok out ∧
      ptqGreedySearch true perf gen out inputs mods = .ok out' ∧ out ≠ out' := by
  refine ⟨fun b => if ((b.get? "a").getD []).get? "bits_activations" = some (.num 4) then
    (if (b.get? "b").isSome then 2 else 0) else 1, ?_⟩
  refine ⟨[("a", [("input_overrides", .inputs [(0, (8, "NONE"))]), ("bits_activations", .num 8)]), ("b", [("bits_activations", .num 8)])],
    [("a", [("input_overrides", .inputs [(0, (8, "NONE"))]), ("bits_activations", .num 4)]), ("b", [("bits_activations", .num 8)])], ?_⟩
  decide +kernel

end Verif
