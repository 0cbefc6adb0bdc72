import Verif.Model.SearchInit
import Verif.Props.PTQSearch
import Verif.Lemmas.Fold
/-!
# C145: initialization of the post-training coordinate search
-/
namespace Verif

/-- Two states agree on a layer: same module, same stored argument. -/
def AgreeOn {Q : Type} (s t : InitState Q) (n : List Char) : Prop :=
  Dict.get? s.model n = Dict.get? t.model n ∧ Dict.get? s.args n = Dict.get? t.args n

theorem initReplace_ok {Q : Type} {e : InitEnv Q} {m : IMode} {name : List Char} {c : ClipMode} {model : Dict (List Char) (QObj Q)}
    {args : Dict (List Char) ClipMode} {s' : InitState Q} (h : initReplace e m name c model args = .ok s') :
    (e.build name c = .plain ∧ s' = ⟨model, args⟩) ∨
    ∃ q q', e.build name c = .wrap q ∧ initOptimize e name m q = .ok q' ∧ s' = ⟨model.set name (.wrap q'), args⟩ := by
  unfold initReplace at h
  split at h
  · rename_i hb; cases h; exact Or.inl ⟨hb, rfl⟩
  · rename_i q hb
    cases ho : initOptimize e name m q with
    | error er => rw [ho] at h; cases h
    | ok q' => rw [ho] at h; cases h; exact Or.inr ⟨q, q', hb, ho, rfl⟩

theorem initLayer_ok {Q : Type} {e : InitEnv Q} {m : IMode} {name : List Char} {s s' : InitState Q}
    (h : initLayer e m name s = .ok s') :
    ∃ m' st, m.resolve = .ok m' ∧ Dict.get? s.args name = some st ∧
      initReplace e m' name (initClip m' st) s.model (s.args.set name (initClip m' st)) = .ok s' := by
  unfold initLayer at h
  obtain ⟨m', e1, h⟩ := ok_bind h
  obtain ⟨st, e2, h⟩ := ok_bind h
  refine ⟨m', st, e1, ?_, h⟩
  unfold Dict.getE at e2
  split at e2
  · rename_i v hv; cases e2; exact hv
  · cases e2

theorem initLayer_of {Q : Type} (e : InitEnv Q) (m m' : IMode) (name : List Char) (s : InitState Q) (st : ClipMode)
    (h1 : m.resolve = .ok m') (h2 : Dict.get? s.args name = some st) :
    initLayer e m name s = initReplace e m' name (initClip m' st) s.model (s.args.set name (initClip m' st)) := by
  unfold initLayer Dict.getE
  rw [h1, h2]
  rfl

theorem initLayer_frame {Q : Type} {e : InitEnv Q} {m : IMode} {name : List Char} {s s' : InitState Q}
    (h : initLayer e m name s = .ok s') (n : List Char) (hn : n ≠ name) : AgreeOn s' s n := by
  obtain ⟨m', st, -, -, h⟩ := initLayer_ok h
  rcases initReplace_ok h with ⟨-, rfl⟩ | ⟨q, q', -, -, rfl⟩
  · exact ⟨rfl, Dict.get?_set_ne _ _ (Ne.symm hn)⟩
  · exact ⟨Dict.get?_set_ne _ _ (Ne.symm hn), Dict.get?_set_ne _ _ (Ne.symm hn)⟩

/-- The result of one layer depends on that layer's entries only. -/
theorem initLayer_local {Q : Type} (e : InitEnv Q) (m : IMode) (name : List Char) (s t : InitState Q)
    (hst : AgreeOn s t name) {s' : InitState Q} (h : initLayer e m name s = .ok s') :
    ∃ t', initLayer e m name t = .ok t' ∧ AgreeOn s' t' name := by
  obtain ⟨m', st, h1, h2, h⟩ := initLayer_ok h
  rw [initLayer_of e m m' name t st h1 (by rw [← hst.2]; exact h2)]
  rcases initReplace_ok h with ⟨hb, rfl⟩ | ⟨q, q', hb, ho, rfl⟩
  · unfold initReplace
    rw [hb]
    exact ⟨_, rfl, hst.1, by simp⟩
  · unfold initReplace
    rw [hb]
    dsimp only
    rw [ho]
    exact ⟨_, rfl, by simp, by simp⟩

theorem initAll_spec {Q : Type} (e : InitEnv Q) (a : IModeArg) (orig : Dict (List Char) (QObj Q)) :
    ∀ (topo : List (List Char)) (s s' : InitState Q), topo.Nodup → topo.foldlM (initStep e a orig) s = .ok s' → ∀ n,
      ((n ∉ topo ∨ Dict.get? orig n = some .plain) → AgreeOn s' s n) ∧
      (∀ q0, n ∈ topo → Dict.get? orig n = some (.wrap q0) →
        ∃ m s1, a.of n = .ok m ∧ initLayer e m n s = .ok s1 ∧ AgreeOn s' s1 n) := by
  intro topo
  induction topo with
  | nil =>
    intro s s' _ h n
    cases h
    exact ⟨fun _ => ⟨rfl, rfl⟩, fun _ h => absurd h (by simp)⟩
  | cons x xs ih =>
    intro s s' hnd h n
    rw [List.nodup_cons] at hnd
    obtain ⟨s1, h1, h2⟩ := ok_bind (x := initStep e a orig s x) h
    obtain ⟨i1, i2⟩ := ih s1 s' hnd.2 h2 n
    unfold initStep at h1
    obtain ⟨o, eo, h1⟩ := ok_bind h1
    have eo' : Dict.get? orig x = some o := by
      unfold Dict.getE at eo
      split at eo
      · rename_i v hv; cases eo; exact hv
      · cases eo
    cases o with
    | plain =>
      cases h1
      constructor
      · rintro (h | h)
        · exact i1 (Or.inl (fun h' => h (List.mem_cons_of_mem _ h')))
        · exact i1 (Or.inr h)
      · intro q0 hm hq
        rcases List.mem_cons.1 hm with rfl | hm
        · rw [hq] at eo'; cases eo'
        · exact i2 q0 hm hq
    | wrap q1 =>
      obtain ⟨m, em, h1⟩ := ok_bind h1
      by_cases hx : n = x
      · subst hx
        have hs' : AgreeOn s' s1 n := i1 (Or.inl hnd.1)
        constructor
        · rintro (h | h)
          · exact absurd List.mem_cons_self h
          · rw [h] at eo'; cases eo'
        · intro q0 _ _
          exact ⟨m, s1, em, h1, hs'⟩
      · have hf := initLayer_frame h1 n hx
        constructor
        · intro h
          have : AgreeOn s' s1 n := by
            rcases h with h | h
            · exact i1 (Or.inl (fun h' => h (List.mem_cons_of_mem _ h')))
            · exact i1 (Or.inr h)
          exact ⟨this.1.trans hf.1, this.2.trans hf.2⟩
        · intro q0 hm hq
          rcases List.mem_cons.1 hm with rfl | hm
          · exact absurd rfl hx
          · obtain ⟨m', s2, h3, h4, h5⟩ := i2 q0 hm hq
            obtain ⟨t, h6, h7⟩ := initLayer_local e m' n s1 s hf h4
            exact ⟨m', t, h3, h6, ⟨h5.1.trans h7.1, h5.2.trans h7.2⟩⟩

/-- **C145** (independence) If the initialization returns, every layer that is not a quantization wrapper or not in the
graph is as before, and every quantized layer is in the state it would get if it were initialized alone with its mode –
whatever happened to the layers before it. -/
theorem C145_independent {Q : Type} (e : InitEnv Q) (a : IModeArg) (topo : List (List Char)) (hnd : topo.Nodup)
    (s s' : InitState Q) (h : initAll e a topo s = .ok s') (n : List Char) :
    ((n ∉ topo ∨ Dict.get? s.model n = some .plain) → Dict.get? s'.model n = Dict.get? s.model n) ∧
    (∀ q0, n ∈ topo → Dict.get? s.model n = some (.wrap q0) →
      ∃ m s1, a.of n = .ok m ∧ initLayer e m n s = .ok s1 ∧ Dict.get? s'.model n = Dict.get? s1.model n) := by
  obtain ⟨h1, h2⟩ := initAll_spec e a s.model topo s s' hnd h n
  refine ⟨fun h => (h1 h).1, fun q0 hm hq => ?_⟩
  obtain ⟨m, s1, h3, h4, h5⟩ := h2 q0 hm hq
  exact ⟨m, s1, h3, h4, h5.1⟩

/-- **C145** (order) The order in which layers are initialized is irrelevant: for any two orders of the same layers that
both return, every module is in the same state. -/
theorem C145_order {Q : Type} (e : InitEnv Q) (a : IModeArg) (t1 t2 : List (List Char)) (hp : t1.Perm t2) (hnd : t1.Nodup)
    (s s1 s2 : InitState Q) (h1 : initAll e a t1 s = .ok s1) (h2 : initAll e a t2 s = .ok s2)
    (hin : ∀ n ∈ t1, (Dict.get? s.model n).isSome) (n : List Char) : Dict.get? s1.model n = Dict.get? s2.model n := by
  obtain ⟨a1, a2⟩ := C145_independent e a t1 hnd s s1 h1 n
  obtain ⟨b1, b2⟩ := C145_independent e a t2 (hp.nodup_iff.1 hnd) s s2 h2 n
  by_cases hm : n ∈ t1
  · obtain ⟨o, ho⟩ := Option.isSome_iff_exists.1 (hin n hm)
    cases o with
    | plain => rw [a1 (Or.inr ho), b1 (Or.inr ho)]
    | wrap q =>
      obtain ⟨m, u, c1, c2, c3⟩ := a2 q hm ho
      obtain ⟨m', u', d1, d2, d3⟩ := b2 q (hp.mem_iff.1 hm) ho
      rw [c1] at d1; cases d1
      rw [c2] at d2; cases d2
      rw [c3, d3]
  · rw [a1 (Or.inl hm), b1 (Or.inl (fun h => hm (hp.mem_iff.2 h)))]

/-- **C145** (clipping) A layer whose mode is, or names, a clipping mode is rebuilt with exactly that mode. -/
theorem C145_clip {Q : Type} (e : InitEnv Q) (a : IModeArg) (topo : List (List Char)) (hnd : topo.Nodup)
    (s s' : InitState Q) (h : initAll e a topo s = .ok s') (n : List Char) (hn : n ∈ topo) (q0 q : Q)
    (hq : Dict.get? s.model n = some (.wrap q0)) (m : IMode) (c : ClipMode) (hm : a.of n = .ok m)
    (hc : m.resolve = .ok (.clip c)) (hb : e.build n c = .wrap q) :
    Dict.get? s'.model n = some (.wrap q) := by
  obtain ⟨-, h2⟩ := C145_independent e a topo hnd s s' h n
  obtain ⟨m', s1, h3, h4, h5⟩ := h2 q0 hn hq
  rw [hm] at h3; cases h3
  rw [h5]
  obtain ⟨m', st, e1, -, h4⟩ := initLayer_ok h4
  rw [hc] at e1
  cases e1
  have hcl : initClip (.clip c) st = c := rfl
  rw [hcl] at h4
  rcases initReplace_ok h4 with ⟨hb', -⟩ | ⟨q1, q', hb', ho, rfl⟩
  · rw [hb] at hb'; cases hb'
  · rw [hb] at hb'; cases hb'
    have : initOptimize e n (.clip c) q = .ok q := rfl
    rw [this] at ho; cases ho
    simp

/-- **C145** (clipping succeeds) With one clipping mode for all layers and stored arguments for every quantized layer, the
initialization does not fail. -/
theorem C145_clip_total {Q : Type} (e : InitEnv Q) (m : IMode) (c : ClipMode) (hc : m.resolve = .ok (.clip c))
    (topo : List (List Char)) (s : InitState Q) (hin : ∀ n ∈ topo, (Dict.get? s.model n).isSome)
    (harg : ∀ n ∈ topo, (Dict.get? s.args n).isSome) : ∃ s', initAll e (.one m) topo s = .ok s' := by
  unfold initAll
  have H : ∀ (topo : List (List Char)) (t : InitState Q), (∀ n ∈ topo, (Dict.get? s.model n).isSome) →
      (∀ n ∈ topo, (Dict.get? t.args n).isSome) → ∃ s', topo.foldlM (initStep e (.one m) s.model) t = .ok s' := by
    intro topo
    induction topo with
    | nil => intro t _ _; exact ⟨t, rfl⟩
    | cons x xs ih =>
      intro t h1 h2
      obtain ⟨o, ho⟩ := Option.isSome_iff_exists.1 (h1 x (by simp))
      obtain ⟨st, hst⟩ := Option.isSome_iff_exists.1 (h2 x (by simp))
      have : ∃ t1, initStep e (.one m) s.model t x = .ok t1 ∧ ∀ n, (Dict.get? t.args n).isSome → (Dict.get? t1.args n).isSome := by
        unfold initStep Dict.getE
        rw [ho]
        cases o with
        | plain => exact ⟨t, rfl, fun _ h => h⟩
        | wrap q =>
          show ∃ t1, initLayer e m x t = .ok t1 ∧ _
          rw [initLayer_of e m _ x t st hc hst]
          have hcl : initClip (.clip c) st = c := rfl
          rw [hcl]
          have hset : ∀ n, (Dict.get? t.args n).isSome → (Dict.get? (Dict.set t.args x c) n).isSome := by
            intro n hn
            rw [Dict.get?_set]
            split
            · rfl
            · exact hn
          unfold initReplace
          cases e.build x c with
          | plain => exact ⟨_, rfl, hset⟩
          | wrap q => exact ⟨_, rfl, hset⟩
      obtain ⟨t1, e1, e2⟩ := this
      obtain ⟨s', e3⟩ := ih t1 (fun n hn => h1 n (by simp [hn])) (fun n hn => e2 n (h2 n (by simp [hn])))
      refine ⟨s', ?_⟩
      rw [List.foldlM_cons, e1]
      exact e3
  exact H topo s hin harg

/-- **C145** (names) Names of modes are accepted in any case; the seven documented names, and no others, are accepted. -/
theorem C145_names (s : List Char) :
    (IMode.str s).resolve =
      (if s.map Char.toUpper = "NONE".toList then .ok (.clip .none)
       else if s.map Char.toUpper = "AVG".toList then .ok (.clip .avg)
       else if s.map Char.toUpper = "LAPLACE".toList then .ok (.clip .laplace)
       else if s.map Char.toUpper = "GAUSS".toList then .ok (.clip .gauss)
       else if s.map Char.toUpper = "L1".toList then .ok (.loss 1)
       else if s.map Char.toUpper = "L2".toList then .ok (.loss 2)
       else if s.map Char.toUpper = "L3".toList then .ok (.loss 3) else .error .value) := by
  have e : (IMode.str s).resolve = (match Dict.get? searchInitModes (s.map Char.toUpper) with
    | some m => .ok m
    | none => .error .value) := rfl
  rw [e]
  generalize s.map Char.toUpper = u
  by_cases h1 : u = "NONE".toList
  · rw [if_pos h1, h1]; rfl
  rw [if_neg h1]
  by_cases h2 : u = "AVG".toList
  · rw [if_pos h2, h2]; rfl
  rw [if_neg h2]
  by_cases h3 : u = "LAPLACE".toList
  · rw [if_pos h3, h3]; rfl
  rw [if_neg h3]
  by_cases h4 : u = "GAUSS".toList
  · rw [if_pos h4, h4]; rfl
  rw [if_neg h4]
  by_cases h5 : u = "L1".toList
  · rw [if_pos h5, h5]; rfl
  rw [if_neg h5]
  by_cases h6 : u = "L2".toList
  · rw [if_pos h6, h6]; rfl
  rw [if_neg h6]
  by_cases h7 : u = "L3".toList
  · rw [if_pos h7, h7]; rfl
  rw [if_neg h7]
  have : Dict.get? searchInitModes u = none := by
    unfold searchInitModes
    rw [Dict.get?_cons, if_neg (Ne.symm h1), Dict.get?_cons, if_neg (Ne.symm h2), Dict.get?_cons, if_neg (Ne.symm h3),
      Dict.get?_cons, if_neg (Ne.symm h4), Dict.get?_cons, if_neg (Ne.symm h5), Dict.get?_cons, if_neg (Ne.symm h6),
      Dict.get?_cons, if_neg (Ne.symm h7), Dict.get?_nil]
  rw [this]

/-- **C145** (unknown mode) An unknown name, or a dictionary without one of the quantized layers, is refused as soon as a
quantized layer is reached. -/
theorem C145_refused {Q : Type} (e : InitEnv Q) (a : IModeArg) (topo : List (List Char)) (hnd : topo.Nodup)
    (s : InitState Q) (n : List Char) (hn : n ∈ topo) (q0 : Q) (hq : Dict.get? s.model n = some (.wrap q0))
    (hbad : ∀ m m', a.of n = .ok m → m.resolve ≠ .ok m') : ∀ s', initAll e a topo s ≠ .ok s' := by
  intro s' h
  obtain ⟨-, h2⟩ := C145_independent e a topo hnd s s' h n
  obtain ⟨m, s1, h3, h4, -⟩ := h2 q0 hn hq
  obtain ⟨m', st, e1, -, -⟩ := initLayer_ok h4
  exact hbad m m' h3 e1

/-- **C145** (missing mode) A dictionary of modes without an entry for a quantized layer is refused. -/
theorem C145_missing_mode {Q : Type} (e : InitEnv Q) (d : Dict (List Char) IMode) (topo : List (List Char)) (hnd : topo.Nodup)
    (s : InitState Q) (n : List Char) (hn : n ∈ topo) (q0 : Q) (hq : Dict.get? s.model n = some (.wrap q0))
    (hd : Dict.get? d n = none) : ∀ s', initAll e (.each d) topo s ≠ .ok s' := by
  refine C145_refused e _ topo hnd s n hn q0 hq ?_
  intro m m' h
  unfold IModeArg.of Dict.getE at h
  simp only [hd] at h
  cases h

/-- The state in which optimizing leaves a wrapper: the one of the last vector the minimizer evaluated. -/
theorem optimize_last {Q : Type} (e : CSEnv Q) (vs : List (List ℚ)) (v : List ℚ) (q q' : Q)
    (h : optimizeLayer e (vs ++ [v]) q = .ok q') :
    ∃ q1 d, vec2dict e.keys v e.sc = .ok d ∧ e.update q1 d = .ok q' := by
  unfold optimizeLayer at h
  rw [List.foldlM_append] at h
  obtain ⟨q1, -, h⟩ := ok_bind h
  obtain ⟨q2, h2, h3⟩ := ok_bind (x := (e.feed q1 v).map Prod.fst) h
  cases h3
  refine ⟨q1, ?_⟩
  unfold CSEnv.feed at h2
  cases hd : vec2dict e.keys v e.sc with
  | error er => rw [hd] at h2; cases h2
  | ok d =>
    rw [hd] at h2
    cases hu : e.update q1 d with
    | error er =>
      have : (Except.map Prod.fst (do let m' ← e.update q1 d; return (m', d)) : Except Err Q) = .ok q' := h2
      rw [hu] at this; cases this
    | ok q3 =>
      have : (Except.map Prod.fst (do let m' ← e.update q1 d; return (m', d)) : Except Err Q) = .ok q' := h2
      rw [hu] at this; cases this
      exact ⟨d, rfl, hu⟩

/-- **C145** (losses; partial) A layer whose mode is a loss is rebuilt with its stored clipping and left with the
parameters of the *last* vector the minimizer evaluated: its loss is the loss of that vector.  (Missing: the minimizer's
result is not applied, see below.) -/
theorem C145_loss_partial {Q : Type} (e : InitEnv Q) (a : IModeArg) (topo : List (List Char)) (hnd : topo.Nodup)
    (s s' : InitState Q) (h : initAll e a topo s = .ok s') (n : List Char) (hn : n ∈ topo) (q0 q : Q)
    (hq : Dict.get? s.model n = some (.wrap q0)) (m : IMode) (l : ℕ) (c : ClipMode) (hm : a.of n = .ok m)
    (hl : m.resolve = .ok (.loss l)) (hc : Dict.get? s.args n = some c) (hb : e.build n c = .wrap q)
    (vs : List (List ℚ)) (v : List ℚ) (hv : e.evals n l q = vs ++ [v])
    (hdet : ∀ m1 m2 d m1' m2', (e.cs n l).update m1 d = .ok m1' → (e.cs n l).update m2 d = .ok m2' →
      (e.cs n l).score m1' = (e.cs n l).score m2') :
    ∃ q' d, Dict.get? s'.model n = some (.wrap q') ∧ Scores (e.cs n l) v d ((e.cs n l).score q') ∧
      ∃ q1, (e.cs n l).update q1 d = .ok q' := by
  obtain ⟨-, h2⟩ := C145_independent e a topo hnd s s' h n
  obtain ⟨m', s1, h3, h4, h5⟩ := h2 q0 hn hq
  rw [hm] at h3; cases h3
  obtain ⟨m', st, e1, e2, h4⟩ := initLayer_ok h4
  rw [hl] at e1; cases e1
  rw [hc] at e2; cases e2
  have hcl : initClip (.loss l) c = c := rfl
  rw [hcl] at h4
  rcases initReplace_ok h4 with ⟨hb', -⟩ | ⟨q1, q', hb', ho, rfl⟩
  · rw [hb] at hb'; cases hb'
  · rw [hb] at hb'; cases hb'
    have e3 : optimizeLayer (e.cs n l) (e.evals n l q) q = .ok q' := ho
    rw [hv] at e3
    obtain ⟨q1, d, e4, e5⟩ := optimize_last _ _ _ _ _ e3
    exact ⟨q', d, by rw [h5]; simp, ⟨e4, fun m1 m1' hu => hdet _ _ _ _ _ hu e5⟩, q1, e5⟩

/-- A toy layer: its state is its scale factor, the loss its distance from 3. -/
def toyInit : InitEnv ℚ where
  build n c := if n = "relu".toList then .plain else .wrap (if c = .avg then 2 else 1)
  cs _ _ := toyEnv
  evals _ _ q := [[q], [3], [9]]

def toyModel : InitState ℚ :=
  ⟨[("conv".toList, .wrap 5), ("relu".toList, .plain), ("fc".toList, .wrap 7)], [("conv".toList, .none), ("fc".toList, .none)]⟩

/-- Non-vacuity: one name for all layers, and one mode per layer. -/
example : ((initAll toyInit (.one (.str "avg".toList)) ["conv".toList, "relu".toList, "fc".toList] toyModel).map fun s => s.model) =
    .ok [("conv".toList, .wrap 2), ("relu".toList, .plain), ("fc".toList, .wrap 2)] := by decide +kernel
example : ((initAll toyInit (.each [("fc".toList, .loss 7), ("conv".toList, .clip .avg)]) ["conv".toList, "relu".toList, "fc".toList] toyModel).map
    fun s => s.model) = .ok [("conv".toList, .wrap 2), ("relu".toList, .plain), ("fc".toList, .wrap 9)] := by decide +kernel

/-- **C145** is violated by losses: the minimizer evaluated the initial vector (loss 2), the optimum (loss 0) and a probe
(loss 6); the layer is left at the probe – worse than without optimization. -/
theorem C145_violated_loss :
    ((initAll toyInit (.one (.str "L2".toList)) ["conv".toList] toyModel).map fun s => (Dict.get? s.model "conv".toList)) =
      .ok (some (.wrap 9)) ∧
    toyInit.evals "conv".toList 2 1 = [[1], [3], [9]] ∧ toyEnv.score 1 = 2 ∧ toyEnv.score 3 = 0 ∧ toyEnv.score 9 = 6 := by
  decide +kernel

/-- **C145** is violated by repeated initialization: a clipping mode is written into the stored arguments, so a second
initialization (by a loss) starts from that clipping instead of the configured one. -/
theorem C145_violated_again :
    ((initAll toyInit (.one (.clip .avg)) ["conv".toList] toyModel).map fun s => (Dict.get? s.args "conv".toList)) = .ok (some .avg) ∧
    Dict.get? toyModel.args "conv".toList = some .none ∧
    toyInit.build "conv".toList .avg ≠ toyInit.build "conv".toList .none := by decide +kernel

end Verif
