import Verif.Model.PTQFuse
import Verif.Props.Stats
/-!
# C100: fusing ReLUs ahead of post-training quantization
-/
namespace Verif

/-! ## Specification -/

/-- A traced model: wires are written once and before they are read; every module is called by a single
operation, which carries its name (a second call of a shared module gets a different name); the first
functional operation of a container may carry the container's name. -/
structure TracedModel (mods : List PMod) (P : List POp) : Prop where
  names : (P.map POp.name).Nodup
  outs : (P.map POp.out).Nodup
  order : P.Pairwise fun a b => b.out ∉ a.ins
  self : ∀ a ∈ P, a.out ∉ a.ins
  mnames : (mods.map PMod.name).Nodup
  calls : ∀ a ∈ P, ∀ m, a.mod = some m → a.name = m ∧ ∃ d ∈ mods, d.name = m
  funs : ∀ a ∈ P, a.mod = none → ∀ d ∈ mods, d.name = a.name → d.container = true ∧ d.cls = .other
  unary : ∀ a ∈ P, ∀ d ∈ mods, a.mod = some d.name → d.cls ≠ .other → a.ins.length = 1

/-- The activations compute the ReLU and ReLU6. -/
structure ActSem {V : Type} (σ : OpSem V) (relu6 : V → V) (mods : List PMod) : Prop where
  fnRelu : ∀ d ∈ mods, d.cls = .relu → ∀ x, σ.fn d.name [x] = σ.relu x
  fnRelu6 : ∀ d ∈ mods, d.cls = .relu6 → ∀ x, σ.fn d.name [x] = relu6 x
  idem : ∀ x, σ.relu (σ.relu x) = σ.relu x
  six_relu : ∀ x, relu6 (σ.relu x) = relu6 x
  relu_six : ∀ x, σ.relu (relu6 x) = relu6 x

/-- A quantized layer whose output is consumed by exactly one operation, a ReLU or ReLU6 module. -/
def FollowedByRelu (mods : List PMod) (P : List POp) (n : Name) : Prop :=
  ∃ m ∈ mods, m.name = n ∧ m.acts = true ∧ m.container = false ∧
    ∃ a ∈ P, a.mod = some n ∧ ∃ b ∈ P, (∀ c ∈ P, a.out ∈ c.ins ↔ c = b) ∧
      ∃ r ∈ mods, b.mod = some r.name ∧ r.cls ≠ .other

open Classical in
/-- Reference execution of one operation: the original operation; the output of a wrapped module passes
through its quantizer, after a ReLU if the layer is followed by one; the modules in `removed` have lost
their quantizer but still compute their activation. -/
noncomputable def refOp {V : Type} (σ : OpSem V) (wrapped removed fused : Name → Prop) (env : ℕ → V) (o : POp) :
    ℕ → V :=
  Function.update env o.out
    (match o.mod with
     | none => σ.call o.name (o.ins.map env)
     | some m =>
       if wrapped m ∧ ¬ removed m then
         σ.q m (if fused m then σ.relu (σ.fn m (o.ins.map env)) else σ.fn m (o.ins.map env))
       else σ.fn m (o.ins.map env))

/-! ## Lemmas -/

theorem foldl_fuse_mem (mods : List PMod) (adj : PAdjMap) (l : List PMod) (acc : ReluFuse) (n : Name) :
    (n ∈ (l.foldl (fuseReluStep mods adj) acc).half ↔ n ∈ acc.half ∨ ∃ m ∈ l, m.name = n ∧
      ∃ s, soleSucc adj m = some s ∧ (isCls mods s.1 .relu || isCls mods s.1 .relu6) = true) ∧
    (n ∈ (l.foldl (fuseReluStep mods adj) acc).ident ↔ n ∈ acc.ident ∨ ∃ m ∈ l,
      ∃ s, soleSucc adj m = some s ∧ s.1 = n ∧ (isCls mods s.1 .relu || isCls mods s.1 .relu6) = true) := by
  induction l generalizing acc with
  | nil => simp
  | cons m l ih =>
    rw [List.foldl_cons]
    have := ih (fuseReluStep mods adj acc m)
    rw [this.1, this.2]
    clear this
    unfold fuseReluStep
    cases hs : soleSucc adj m with
    | none => simp [hs]
    | some s =>
      by_cases hc : (isCls mods s.1 .relu || isCls mods s.1 .relu6) = true
      · simp only [hc, if_true, List.mem_append, List.mem_singleton, List.mem_cons, exists_eq_or_imp, hs,
          Option.some.injEq, exists_eq_left', and_true]
        constructor <;> grind
      · simp only [hc, if_false, List.mem_cons, exists_eq_or_imp, hs, Option.some.injEq, exists_eq_left',
          and_false, false_or, Bool.false_eq_true]
        exact ⟨trivial, trivial⟩

theorem mem_half {mods : List PMod} {adj : PAdjMap} {n : Name} :
    n ∈ (fuseRelu mods adj).half ↔ ∃ m ∈ mods, m.name = n ∧
      ∃ s, soleSucc adj m = some s ∧ (isCls mods s.1 .relu || isCls mods s.1 .relu6) = true := by
  have := (foldl_fuse_mem mods adj mods ⟨[], []⟩ n).1
  simpa [fuseRelu] using this

theorem mem_ident {mods : List PMod} {adj : PAdjMap} {n : Name} :
    n ∈ (fuseRelu mods adj).ident ↔ ∃ m ∈ mods,
      ∃ s, soleSucc adj m = some s ∧ s.1 = n ∧ (isCls mods s.1 .relu || isCls mods s.1 .relu6) = true := by
  have := (foldl_fuse_mem mods adj mods ⟨[], []⟩ n).2
  simpa [fuseRelu] using this

theorem isRelu_iff {mods : List PMod} {n : Name} :
    (isCls mods n .relu || isCls mods n .relu6) = true ↔ ∃ r ∈ mods, r.name = n ∧ r.cls ≠ .other := by
  unfold isCls
  simp only [Bool.or_eq_true, List.any_eq_true, Bool.and_eq_true, beq_iff_eq]
  constructor
  · rintro (⟨r, hr, h1, h2⟩ | ⟨r, hr, h1, h2⟩) <;> exact ⟨r, hr, h1, by rw [h2]; decide⟩
  · rintro ⟨r, hr, h1, h2⟩
    cases hc : r.cls with
    | relu => exact .inl ⟨r, hr, h1, hc⟩
    | relu6 => exact .inr ⟨r, hr, h1, hc⟩
    | other => exact absurd hc h2

/-- The table is built module by module from tables it extends. -/
theorem replace_table (mods : List PMod) (adj : PAdjMap) (f : ReluFuse) :
    ∀ (l : List PMod) (d0 d : Dict Name Repl), (l.map PMod.name).Nodup →
      (∀ m ∈ l, d0.get? m.name = none) →
      l.foldlM (replaceStep mods adj f) d0 = .ok d →
      (∀ n r, d0.get? n = some r → d.get? n = some r) ∧
      ∀ m ∈ l, ∃ dp, (∀ n r, dp.get? n = some r → d.get? n = some r) ∧
        ∃ r, replaceOne mods adj f dp m = .ok r ∧ d.get? m.name = some r := by
  intro l
  induction l with
  | nil =>
    intro d0 d _ _ h
    cases h
    exact ⟨fun _ _ h => h, fun m hm => absurd hm (by simp)⟩
  | cons m l ih =>
    intro d0 d hnd hno h
    simp only [List.map_cons, List.nodup_cons] at hnd
    rw [List.foldlM_cons] at h
    cases hr : replaceOne mods adj f d0 m with
    | error e => simp only [replaceStep, hr, Except.map] at h; cases h
    | ok r =>
      have hst : replaceStep mods adj f d0 m = .ok (d0.set m.name r) := by simp [replaceStep, hr, Except.map]
      rw [hst] at h
      have hno' : ∀ m' ∈ l, (d0.set m.name r).get? m'.name = none := by
        intro m' hm'
        rw [Dict.get?_set_ne]
        · exact hno m' (List.mem_cons_of_mem _ hm')
        · intro e; exact hnd.1 (e ▸ List.mem_map_of_mem hm')
      obtain ⟨A, B⟩ := ih (d0.set m.name r) d hnd.2 hno' h
      have ext : ∀ n r', d0.get? n = some r' → d.get? n = some r' := by
        intro n r' hn
        apply A
        rw [Dict.get?_set_ne]
        · exact hn
        · intro e
          have := hno m (List.mem_cons_self)
          rw [e, hn] at this; cases this
      refine ⟨ext, ?_⟩
      intro m' hm'
      rcases List.mem_cons.1 hm' with rfl | hm'
      · exact ⟨d0, ext, r, hr, A _ _ (Dict.get?_set_self _ _ _)⟩
      · exact B m' hm'

/-- What the table says about a module. -/
theorem repl_cases {mods : List PMod} {adj : PAdjMap} {d : Dict Name Repl} (hnd : (mods.map PMod.name).Nodup)
    (h : prepareRelu mods adj = .ok d) {m : PMod} (hm : m ∈ mods) :
    (replOf d m.name = .identity ∧ m.cls ≠ .other ∧ m.name ∈ (fuseRelu mods adj).ident ∧
      ∃ e p ps, adj.get? m.name = some e ∧ e.preds = p :: ps ∧ ∃ hf, replOf d p.1 = .wrapper hf) ∨
    (m.wraps = true ∧ replOf d m.name = .wrapper (decide (m.cls ≠ .other ∨ m.name ∈ (fuseRelu mods adj).half))) ∨
    (m.wraps = false ∧ replOf d m.name = .plain) := by
  obtain ⟨_, B⟩ := replace_table mods adj (fuseRelu mods adj) mods [] d hnd (by simp) h
  obtain ⟨dp, hext, r, hr, hd⟩ := B m hm
  have hrep : replOf d m.name = r := by simp [replOf, hd]
  rw [hrep]
  unfold replaceOne at hr
  by_cases hc : m.cls ≠ .other ∧ m.name ∈ (fuseRelu mods adj).ident
  · rw [if_pos hc] at hr
    cases he : adj.get? m.name with
    | none => rw [he] at hr; cases hr
    | some e =>
      rw [he] at hr
      cases hp : e.preds with
      | nil => simp only [hp] at hr; cases hr
      | cons p ps =>
        simp only [hp] at hr
        split at hr
        · cases hr
        · split at hr
          · rename_i hf hg
            cases hr
            exact .inl ⟨rfl, hc.1, hc.2, e, p, ps, rfl, hp, hf, by simp [replOf, hext _ _ hg]⟩
          · right
            by_cases hw : m.wraps = true
            · rw [if_pos hw] at hr; cases hr
              left; exact ⟨hw, by simp [hc.1]⟩
            · rw [if_neg hw] at hr; cases hr
              right; exact ⟨by simpa using hw, rfl⟩
  · rw [if_neg hc] at hr
    right
    by_cases hw : m.wraps = true
    · rw [if_pos hw] at hr; cases hr
      left; exact ⟨hw, by simp⟩
    · rw [if_neg hw] at hr; cases hr
      right; exact ⟨by simpa using hw, rfl⟩

theorem adjOf_get {P : List POp} (hn : (P.map POp.name).Nodup) {a : POp} (ha : a ∈ P) :
    (adjOf P).get? a.name = some
      ⟨(P.filter fun c => c.feeds a).map fun c => (c.name, c.type),
       (P.filter fun b => a.feeds b).map fun b => (b.name, b.type)⟩ := by
  apply Dict.get?_of_mem
  · unfold Dict.Nodup adjOf
    rw [List.map_map]
    exact hn
  · exact List.mem_map_of_mem ha

theorem adjOf_mem {P : List POp} {n : Name} {e : PAdj} (h : (adjOf P).get? n = some e) :
    ∃ a ∈ P, a.name = n ∧ e = ⟨(P.filter fun c => c.feeds a).map fun c => (c.name, c.type),
       (P.filter fun b => a.feeds b).map fun b => (b.name, b.type)⟩ := by
  have := Dict.mem_of_get? h
  obtain ⟨a, ha, e1⟩ := List.mem_map.1 this
  cases e1
  exact ⟨a, ha, rfl, rfl⟩

theorem soleSucc_some {adj : PAdjMap} {m : PMod} {s : Name × String} (h : soleSucc adj m = some s) :
    m.acts = true ∧ m.container = false ∧ ∃ e, adj.get? m.name = some e ∧ e.succs = [s] := by
  unfold soleSucc at h
  split at h
  · cases h
  · rename_i hc
    rw [not_or] at hc
    refine ⟨by simpa using hc.1, by simpa using hc.2, ?_⟩
    split at h
    · cases h
    · rename_i e he
      split at h
      · rename_i s' hs; cases h; exact ⟨e, he, hs⟩
      · cases h

theorem soleSucc_intro {adj : PAdjMap} {m : PMod} {s : Name × String} {e : PAdj} (h1 : m.acts = true)
    (h2 : m.container = false) (he : adj.get? m.name = some e) (hs : e.succs = [s]) : soleSucc adj m = some s := by
  unfold soleSucc
  rw [if_neg (by simp [h1, h2]), he]
  simp [hs]

theorem filter_eq_singleton {α : Type} {l : List α} {p : α → Bool} {b : α} (hnd : l.Nodup) (hb : b ∈ l)
    (h : ∀ c ∈ l, p c = true ↔ c = b) : l.filter p = [b] := by
  induction l with
  | nil => simp at hb
  | cons x l ih =>
    have hx := h x List.mem_cons_self
    rw [List.nodup_cons] at hnd
    by_cases e : x = b
    · subst e
      rw [List.filter_cons_of_pos (hx.2 rfl)]
      congr 1
      apply List.filter_eq_nil_iff.2
      intro c hc hp
      have := (h c (List.mem_cons_of_mem _ hc)).1 hp
      exact hnd.1 (this ▸ hc)
    · rw [List.filter_cons_of_neg (fun hp => e (hx.1 hp))]
      exact ih hnd.2 ((List.mem_cons.1 hb).resolve_left (fun e' => e e'.symm))
        (fun c hc => h c (List.mem_cons_of_mem _ hc))

section
variable {mods : List PMod} {P : List POp}

theorem TracedModel.nodup (H : TracedModel mods P) : P.Nodup := H.names.of_map _

theorem inj_of_nodup_map {α β : Type} {f : α → β} {l : List α} (h : (l.map f).Nodup) {a b : α} (ha : a ∈ l) (hb : b ∈ l)
    (e : f a = f b) : a = b := by
  exact List.inj_on_of_nodup_map h ha hb e

/-- The operation with the name of a module that is not a container is the call of that module. -/
theorem TracedModel.call_of_name (H : TracedModel mods P) {a : POp} (ha : a ∈ P) {m : PMod} (hm : m ∈ mods)
    (e : a.name = m.name) (hc : m.container = false ∨ m.cls ≠ .other) : a.mod = some m.name := by
  cases h : a.mod with
  | none =>
    have := H.funs a ha h m hm e.symm
    rcases hc with hc | hc
    · rw [this.1] at hc; cases hc
    · exact absurd this.2 hc
  | some n => rw [← e, ← (H.calls a ha n h).1]

/-- `_apply_fuse_relu` marks exactly the layers followed by a ReLU. -/
theorem half_iff (H : TracedModel mods P) {n : Name} :
    n ∈ (fuseRelu mods (adjOf P)).half ↔ FollowedByRelu mods P n := by
  rw [mem_half]
  constructor
  · rintro ⟨m, hm, rfl, s, hs, hr⟩
    obtain ⟨h1, h2, e, he, hsu⟩ := soleSucc_some hs
    obtain ⟨a, ha, hn, rfl⟩ := adjOf_mem he
    obtain ⟨r, hr1, hr2, hr3⟩ := isRelu_iff.1 hr
    dsimp only at hsu
    obtain ⟨b, hb, hbs⟩ := List.map_eq_singleton_iff.1 hsu
    have hbP : b ∈ P := List.mem_of_mem_filter (by rw [hb]; exact List.mem_singleton_self b)
    have hbn : b.name = r.name := by rw [hr2, ← hbs]
    refine ⟨m, hm, rfl, h1, h2, a, ha, H.call_of_name ha hm hn (.inl h2), b, hbP, ?_, r, hr1,
      H.call_of_name hbP hr1 hbn (.inr hr3), hr3⟩
    intro c hc
    have : c ∈ P.filter (fun b => a.feeds b) ↔ c = b := by rw [hb, List.mem_singleton]
    rw [← this, List.mem_filter]
    simp [POp.feeds, hc]
  · rintro ⟨m, hm, rfl, h1, h2, a, ha, hmod, b, hb, hcons, r, hr, hbm, hrc⟩
    have hn := (H.calls a ha _ hmod).1
    have hbn := (H.calls b hb _ hbm).1
    refine ⟨m, hm, rfl, (b.name, b.type), ?_, isRelu_iff.2 ⟨r, hr, hbn.symm, hrc⟩⟩
    refine soleSucc_intro h1 h2 (hn ▸ adjOf_get H.names ha) ?_
    dsimp only
    rw [filter_eq_singleton H.nodup hb (fun c hc => by simpa [POp.feeds] using hcons c hc)]
    rfl

/-- The predecessor of a ReLU turned into an identity is a layer that clips at zero. -/
theorem identity_pred (H : TracedModel mods P) {d : Dict Name Repl} (h : prepareRelu mods (adjOf P) = .ok d)
    {o : POp} (ho : o ∈ P) {r : PMod} (hr : r ∈ mods) (hom : o.mod = some r.name) (hid : replOf d r.name = .identity) :
    r.cls ≠ .other ∧ ∃ a ∈ P, ∃ n, a.mod = some n ∧ o.ins = [a.out] ∧ FollowedByRelu mods P n ∧
      replOf d n = .wrapper true := by
  rcases repl_cases H.mnames h hr with ⟨_, hc, hin, e, p, ps, he, hp, hf, hw⟩ | ⟨_, hx⟩ | ⟨_, hx⟩
  · refine ⟨hc, ?_⟩
    obtain ⟨w, hw1⟩ := List.length_eq_one_iff.1 (H.unary o ho r hr hom hc)
    obtain ⟨m, hm, s, hs, hsn, hrel⟩ := mem_ident.1 hin
    have hhalf : m.name ∈ (fuseRelu mods (adjOf P)).half := mem_half.2 ⟨m, hm, rfl, s, hs, hrel⟩
    obtain ⟨m1, m2, e2, he2, hsu⟩ := soleSucc_some hs
    obtain ⟨a, ha, hn, rfl⟩ := adjOf_mem he2
    dsimp only at hsu
    obtain ⟨b, hb, hbs⟩ := List.map_eq_singleton_iff.1 hsu
    have hbf : b ∈ P.filter fun b => a.feeds b := by rw [hb]; exact List.mem_singleton_self b
    have hbP := List.mem_of_mem_filter hbf
    have hbo : b = o := by
      apply inj_of_nodup_map H.names hbP ho
      rw [(H.calls o ho _ hom).1, ← hsn, ← hbs]
    subst hbo
    have hfe : a.feeds b = true := (List.mem_filter.1 hbf).2
    have haw : a.out = w := by simpa [POp.feeds, hw1] using hfe
    have hpa : p = (a.name, a.type) := by
      obtain ⟨o', ho', hn', rfl⟩ := adjOf_mem he
      have : o' = b := inj_of_nodup_map H.names ho' ho (by rw [hn', (H.calls b ho _ hom).1])
      subst this
      dsimp only at hp
      have hmem : p ∈ (P.filter fun c => c.feeds o').map fun c => (c.name, c.type) := by rw [hp]; exact List.mem_cons_self
      obtain ⟨c, hc1, rfl⟩ := List.mem_map.1 hmem
      have hcw : c.out = w := by
        have := (List.mem_filter.1 hc1).2
        simpa [POp.feeds, hw1] using this
      have : c = a := inj_of_nodup_map H.outs (List.mem_of_mem_filter hc1) ha (by rw [hcw, haw])
      rw [this]
    have hpn : p.1 = m.name := by rw [hpa]; exact hn
    refine ⟨a, ha, m.name, H.call_of_name ha hm hn (.inl m2), by rw [hw1, haw], (half_iff H).1 hhalf, ?_⟩
    rw [hpn] at hw
    rcases repl_cases H.mnames h hm with ⟨hx, _⟩ | ⟨_, hx⟩ | ⟨_, hx⟩
    · rw [hx] at hw; cases hw
    · rw [hx]; simp [hhalf]
    · rw [hx] at hw; cases hw
  · rw [hx] at hid; cases hid
  · rw [hx] at hid; cases hid
end

/-- Executing further operations does not change a wire they do not write. -/
theorem runOps_of_not_out {V : Type} [Inhabited V] (σ : OpSem V) (repl : Name → Repl) (l : List POp) (env : ℕ → V) (w : ℕ)
    (h : w ∉ l.map POp.out) : runOps σ repl l env w = env w := by
  induction l generalizing env with
  | nil => rfl
  | cons o l ih =>
    simp only [List.map_cons, List.mem_cons, not_or] at h
    show runOps σ repl l (runOp σ repl env o) w = env w
    rw [ih _ h.2]
    unfold runOp
    rw [Function.update_of_ne h.1]

/-! ## C100 -/

/-- **C100** (all values) For every traced model, the prepared model computes on every wire what the
original model computes with the quantizers inserted — those of layers followed by a ReLU behind that
ReLU — provided a quantized non-negative value is a fixed point of the activation that was removed.
`removed` are the ReLUs turned into identities; each of them follows a wrapped layer that clips at zero. -/
theorem C100_wires {V : Type} [Inhabited V] (σ : OpSem V) (relu6 : V → V) (mods : List PMod) (P : List POp)
    (d : Dict Name Repl) (H : TracedModel mods P) (A : ActSem σ relu6 mods)
    (h : prepareRelu mods (adjOf P) = .ok d)
    (hq : ∀ n, FollowedByRelu mods P n → ∀ r ∈ mods, replOf d r.name = .identity → ∀ x,
      σ.fn r.name [σ.q n (σ.relu x)] = σ.q n (σ.relu x)) (env : ℕ → V) :
    ∃ removed : Name → Prop,
      (∀ r, removed r → ∃ m ∈ mods, m.name = r ∧ m.cls ≠ .other ∧ ∃ a ∈ P, ∃ b ∈ P, ∃ n, a.mod = some n ∧
        b.mod = some r ∧ b.ins = [a.out] ∧ FollowedByRelu mods P n ∧ replOf d n = .wrapper true) ∧
      runOps σ (replOf d) P env =
        P.foldl (refOp σ (fun n => ∃ m ∈ mods, m.name = n ∧ m.wraps = true) removed (FollowedByRelu mods P)) env := by
  refine ⟨fun r => ∃ o ∈ P, ∃ m ∈ mods, m.name = r ∧ o.mod = some r ∧ replOf d r = .identity, ?_, ?_⟩
  · rintro r ⟨o, ho, m, hm, rfl, hom, hid⟩
    obtain ⟨hc, a, ha, n, h1, h2, h3, h4⟩ := identity_pred H h ho hm hom hid
    exact ⟨m, hm, rfl, hc, a, ha, o, ho, n, h1, hom, h2, h3, h4⟩
  · -- simulation over the list of operations
    have key : ∀ (l pre : List POp) (e : ℕ → V), P = pre ++ l →
        (∀ a ∈ pre, ∀ n, a.mod = some n → FollowedByRelu mods P n → replOf d n = .wrapper true →
          ∃ y, e a.out = σ.q n (σ.relu y)) →
        l.foldl (runOp σ (replOf d)) e =
          l.foldl (refOp σ (fun n => ∃ m ∈ mods, m.name = n ∧ m.wraps = true)
            (fun r => ∃ o ∈ P, ∃ m ∈ mods, m.name = r ∧ o.mod = some r ∧ replOf d r = .identity)
            (FollowedByRelu mods P)) e := by
      intro l
      induction l with
      | nil => intro pre e _ _; rfl
      | cons o l ih =>
        intro pre e hP hinv
        have ho : o ∈ P := by rw [hP]; simp
        have hstep : runOp σ (replOf d) e o = refOp σ (fun n => ∃ m ∈ mods, m.name = n ∧ m.wraps = true)
            (fun r => ∃ o ∈ P, ∃ m ∈ mods, m.name = r ∧ o.mod = some r ∧ replOf d r = .identity)
            (FollowedByRelu mods P) e o := by
          unfold runOp refOp
          congr 1
          cases hom : o.mod with
          | none => rfl
          | some n =>
            obtain ⟨_, m, hm, rfl⟩ := H.calls o ho n hom
            dsimp only
            rcases repl_cases H.mnames h hm with ⟨hid, hc, _⟩ | ⟨hw, hx⟩ | ⟨hw, hx⟩
            · -- a removed ReLU
              rw [if_neg (fun hh => hh.2 ⟨o, ho, m, hm, rfl, hom, hid⟩)]
              obtain ⟨_, a, ha, n, h1, h2, h3, h4⟩ := identity_pred H h ho hm hom hid
              have hapre : a ∈ pre := by
                rw [hP] at ha
                rcases List.mem_append.1 ha with ha | ha
                · exact ha
                · exfalso
                  rcases List.mem_cons.1 ha with rfl | hal
                  · exact H.self a ho (by rw [h2]; simp)
                  · have hord := H.order
                    rw [hP, List.pairwise_append] at hord
                    have := (List.pairwise_cons.1 hord.2.1).1 a hal
                    exact this (by rw [h2]; simp)
              obtain ⟨y, hy⟩ := hinv a hapre n h1 h3 h4
              rw [hid, h2]
              show e a.out = σ.fn m.name [e a.out]
              rw [hy, hq n h3 m hm hid]
            · -- a wrapped module
              have hnr : ¬ ∃ o ∈ P, ∃ m' ∈ mods, m'.name = m.name ∧ o.mod = some m.name ∧ replOf d m.name = .identity := by
                rintro ⟨_, _, _, _, _, _, hid⟩
                rw [hx] at hid; cases hid
              rw [if_pos ⟨⟨m, hm, rfl, hw⟩, hnr⟩, hx]
              · show σ.q m.name _ = _
                congr 1
                by_cases hfo : FollowedByRelu mods P m.name
                · rw [if_pos hfo, if_pos (by simp [(half_iff H).2 hfo])]
                · rw [if_neg hfo]
                  by_cases hc : m.cls = .other
                  · rw [if_neg (by simp [hc, mt (half_iff H).1 hfo])]
                  · rw [if_pos (by simp [hc])]
                    obtain ⟨w, hw1⟩ := List.length_eq_one_iff.1 (H.unary o ho m hm hom hc)
                    rw [hw1]
                    show σ.relu (σ.fn m.name [e w]) = σ.fn m.name [e w]
                    cases hcc : m.cls with
                    | relu => rw [A.fnRelu m hm hcc, A.idem]
                    | relu6 => rw [A.fnRelu6 m hm hcc, A.relu_six]
                    | other => exact absurd hcc hc
            · -- an unchanged module
              rw [if_neg, hx]
              · rfl
              · rintro ⟨⟨m', hm', e1, e2⟩, _⟩
                have := inj_of_nodup_map H.mnames hm' hm e1
                rw [this, hw] at e2; cases e2
        rw [List.foldl_cons, List.foldl_cons, ← hstep]
        apply ih (pre ++ [o]) _ (by rw [hP]; simp)
        intro a ha n h1 h2 h3
        have haP : a ∈ P := by rw [hP]; rcases List.mem_append.1 ha with ha | ha <;> simp at ha ⊢ <;> simp [ha]
        rcases List.mem_append.1 ha with ha | ha
        · obtain ⟨y, hy⟩ := hinv a ha n h1 h2 h3
          refine ⟨y, ?_⟩
          unfold runOp
          rw [Function.update_of_ne, hy]
          intro e'
          have hon := H.outs
          rw [hP, List.map_append, List.nodup_append] at hon
          exact hon.2.2 a.out (List.mem_map_of_mem ha) o.out (by simp) e'
        · have : a = o := by simpa using ha
          subst this
          refine ⟨σ.fn n (a.ins.map e), ?_⟩
          unfold runOp
          rw [Function.update_self, h1]
          show replFwd σ (replOf d n) n _ = _
          rw [h3]; rfl
    exact key P [] env rfl (by simp)

/-- **C100** (function) Without quantization error the prepared model computes the original network: on
every wire except the outputs of layers directly in front of a ReLU (which are visible to nobody else).
`hq6`: no ReLU6 was turned into an identity (see `C100_relu6` and the violations below). -/
theorem C100_exact {V : Type} [Inhabited V] (σ : OpSem V) (relu6 : V → V) (mods : List PMod) (P : List POp)
    (d : Dict Name Repl) (H : TracedModel mods P) (A : ActSem σ relu6 mods)
    (h : prepareRelu mods (adjOf P) = .ok d) (hid : ∀ n x, σ.q n x = x)
    (hq6 : ∀ r ∈ mods, r.cls = .relu6 → replOf d r.name ≠ .identity) (env : ℕ → V) (w : ℕ)
    (hw : ∀ a ∈ P, ∀ n, a.mod = some n → FollowedByRelu mods P n → a.out ≠ w) :
    runOps σ (replOf d) P env w = runOps σ (fun _ => .plain) P env w := by
  have key : ∀ (l pre : List POp) (e e0 : ℕ → V), P = pre ++ l →
      (∀ a ∈ pre, ∀ n, a.mod = some n → FollowedByRelu mods P n → replOf d n = .wrapper true →
        e a.out = σ.relu (e0 a.out)) →
      (∀ w, (∀ a ∈ pre, ∀ n, a.mod = some n → FollowedByRelu mods P n → replOf d n = .wrapper true → a.out ≠ w) →
        e w = e0 w) →
      (∀ w, (∀ a ∈ P, ∀ n, a.mod = some n → FollowedByRelu mods P n → replOf d n = .wrapper true → a.out ≠ w) →
        l.foldl (runOp σ (replOf d)) e w = l.foldl (runOp σ fun _ => .plain) e0 w) := by
    intro l
    induction l with
    | nil =>
      intro pre e e0 hP _ hsame w hw
      rw [List.append_nil] at hP
      subst hP
      exact hsame w hw
    | cons o l ih =>
      intro pre e e0 hP hrel hsame w hw
      have ho : o ∈ P := by rw [hP]; simp
      -- a wire read by `o` that differs is the output of a layer whose only consumer is `o`, a ReLU
      have hins : ∀ v ∈ o.ins, (e v = e0 v) ∨
          (∃ r ∈ mods, o.mod = some r.name ∧ r.cls ≠ .other ∧ o.ins = [v] ∧ e v = σ.relu (e0 v)) := by
        intro v hv
        by_cases hx : ∃ a ∈ pre, ∃ n, a.mod = some n ∧ FollowedByRelu mods P n ∧ replOf d n = .wrapper true ∧ a.out = v
        · obtain ⟨a, ha, n, h1, h2, h3, rfl⟩ := hx
          right
          have haP : a ∈ P := by rw [hP]; exact List.mem_append_left _ ha
          obtain ⟨m, hm, rfl, _, _, a', ha', hm', b, hb, hcons, r, hr, hbm, hrc⟩ := h2
          have haa : a' = a := inj_of_nodup_map H.names ha' haP (by
            rw [(H.calls a' ha' _ hm').1, (H.calls a haP _ h1).1])
          subst haa
          have hbo := (hcons o ho).1 hv
          subst hbo
          refine ⟨r, hr, hbm, hrc, ?_, ?_⟩
          · obtain ⟨w', hw'⟩ := List.length_eq_one_iff.1 (H.unary o ho r hr hbm hrc)
            rw [hw'] at hv ⊢
            rw [List.mem_singleton.1 hv]
          · exact hrel a' ha m.name h1 ⟨m, hm, rfl, ‹_›, ‹_›, a', ha', hm', o, hb, hcons, r, hr, hbm, hrc⟩ h3
        · left
          apply hsame
          intro a ha n h1 h2 h3 e'
          exact hx ⟨a, ha, n, h1, h2, h3, e'⟩
      -- the new value on the output wire
      have hval : (∀ n, o.mod = some n → FollowedByRelu mods P n → replOf d n = .wrapper true →
            runOp σ (replOf d) e o o.out = σ.relu (runOp σ (fun _ => .plain) e0 o o.out)) ∧
          ((∀ n, o.mod = some n → FollowedByRelu mods P n → replOf d n ≠ .wrapper true) →
            runOp σ (replOf d) e o o.out = runOp σ (fun _ => .plain) e0 o o.out) := by
        unfold runOp
        simp only [Function.update_self]
        cases hom : o.mod with
        | none =>
          refine ⟨by simp, fun _ => ?_⟩
          dsimp only
          congr 1
          apply List.map_congr_left
          intro v hv
          rcases hins v hv with he | ⟨r, _, hr, _⟩
          · exact he
          · rw [hom] at hr; cases hr
        | some n =>
          obtain ⟨_, m, hm, rfl⟩ := H.calls o ho n hom
          dsimp only
          -- the activation does not see the clipping of its input
          have hfn : σ.fn m.name (o.ins.map e) = σ.fn m.name (o.ins.map e0) := by
            by_cases hall : ∀ v ∈ o.ins, e v = e0 v
            · rw [List.map_congr_left hall]
            · rw [not_forall] at hall
              obtain ⟨v, hall⟩ := hall
              rw [not_forall] at hall
              obtain ⟨hv, hne⟩ := hall
              obtain ⟨r, hr, hrm, hrc, h1, h2⟩ := (hins v hv).resolve_left hne
              rw [hom] at hrm
              have hnm : m.name = r.name := Option.some.inj hrm
              rw [hnm, h1]
              show σ.fn r.name [e v] = σ.fn r.name [e0 v]
              rw [h2]
              cases hcc : r.cls with
              | relu => rw [A.fnRelu r hr hcc, A.fnRelu r hr hcc, A.idem]
              | relu6 => rw [A.fnRelu6 r hr hcc, A.fnRelu6 r hr hcc, A.six_relu]
              | other => exact absurd hcc hrc
          have hplain : replFwd σ .plain m.name (o.ins.map e0) = σ.fn m.name (o.ins.map e0) := rfl
          rw [hplain]
          rcases repl_cases H.mnames h hm with ⟨hidn, hc, _⟩ | ⟨hw, hx⟩ | ⟨hw, hx⟩
          · refine ⟨fun n hn _ h3 => ?_, fun _ => ?_⟩
            · rw [Option.some.inj hn, ] at hidn; rw [hidn] at h3; cases h3
            · obtain ⟨_, a, ha, n, h1, h2, h3, h4⟩ := identity_pred H h ho hm hom hidn
              have hcr : m.cls = .relu := by
                cases hcc : m.cls with
                | relu => rfl
                | relu6 => exact absurd hidn (hq6 m hm hcc)
                | other => exact absurd hcc hc
              have hapre : a ∈ pre := by
                have ha' := ha
                rw [hP] at ha'
                rcases List.mem_append.1 ha' with ha' | ha'
                · exact ha'
                · exfalso
                  rcases List.mem_cons.1 ha' with rfl | hal
                  · exact H.self a ho (by rw [h2]; simp)
                  · have hord := H.order
                    rw [hP, List.pairwise_append] at hord
                    exact (List.pairwise_cons.1 hord.2.1).1 a hal (by rw [h2]; simp)
              rw [hidn, h2]
              show e a.out = σ.fn m.name [e0 a.out]
              rw [A.fnRelu m hm hcr, hrel a hapre n h1 h3 h4]
          · rw [hx]
            refine ⟨fun n hn h2 _ => ?_, fun hno => ?_⟩
            · have hn' : m.name = n := Option.some.inj hn
              rw [← hn'] at h2
              show σ.q m.name (if _ then _ else _) = _
              rw [if_pos (by simp [(half_iff H).2 h2]), hid, hfn]
            · show σ.q m.name (if _ then _ else _) = _
              rw [hid, hfn]
              by_cases hc : m.cls = .other
              · have : m.name ∉ (fuseRelu mods (adjOf P)).half := by
                  intro hh
                  refine hno m.name rfl ((half_iff H).1 hh) ?_
                  rw [hx]; simp [hh]
                rw [if_neg (by simp [hc, this])]
              · rw [if_pos (by simp [hc])]
                obtain ⟨w', hw1⟩ := List.length_eq_one_iff.1 (H.unary o ho m hm hom hc)
                rw [hw1]
                show σ.relu (σ.fn m.name [e0 w']) = σ.fn m.name [e0 w']
                cases hcc : m.cls with
                | relu => rw [A.fnRelu m hm hcc, A.idem]
                | relu6 => rw [A.fnRelu6 m hm hcc, A.relu_six]
                | other => exact absurd hcc hc
          · refine ⟨fun n hn _ h3 => ?_, fun _ => ?_⟩
            · rw [Option.some.inj hn] at hx; rw [hx] at h3; cases h3
            · rw [hx]; exact hfn
      have hother : ∀ v, v ≠ o.out → runOp σ (replOf d) e o v = e v ∧ runOp σ (fun _ => .plain) e0 o v = e0 v := by
        intro v hv
        unfold runOp
        rw [Function.update_of_ne hv, Function.update_of_ne hv]
        exact ⟨rfl, rfl⟩
      have hpreout : ∀ a ∈ pre, a.out ≠ o.out := by
        intro a ha e'
        have hon := H.outs
        rw [hP, List.map_append, List.nodup_append] at hon
        exact hon.2.2 a.out (List.mem_map_of_mem ha) o.out (by simp) e'
      rw [List.foldl_cons, List.foldl_cons]
      apply ih (pre ++ [o]) _ _ (by rw [hP]; simp) _ _ w hw
      · intro a ha n h1 h2 h3
        rcases List.mem_append.1 ha with ha | ha
        · rw [(hother _ (hpreout a ha)).1, (hother _ (hpreout a ha)).2]
          exact hrel a ha n h1 h2 h3
        · have : a = o := by simpa using ha
          subst this
          exact hval.1 n h1 h2 h3
      · intro v hv
        by_cases hvo : v = o.out
        · subst hvo
          apply hval.2
          intro n h1 h2 h3
          exact hv o (by simp) n h1 h2 h3 rfl
        · rw [(hother v hvo).1, (hother v hvo).2]
          apply hsame
          intro a ha n h1 h2 h3
          exact hv a (by simp [ha]) n h1 h2 h3
  exact key P [] env env rfl (by simp) (fun _ _ => rfl) w (fun a ha n h1 h2 _ => hw a ha n h1 h2)

/-- **C100** (total) Preparing a traced model never fails. -/
theorem C100_total (mods : List PMod) (P : List POp) (H : TracedModel mods P) :
    ∃ d, prepareRelu mods (adjOf P) = .ok d := by
  have one : ∀ (done : Dict Name Repl) (m : PMod), m ∈ mods →
      ∃ r, replaceOne mods (adjOf P) (fuseRelu mods (adjOf P)) done m = .ok r := by
    intro done m hm
    unfold replaceOne
    by_cases hc : m.cls ≠ .other ∧ m.name ∈ (fuseRelu mods (adjOf P)).ident
    · rw [if_pos hc]
      obtain ⟨n, hn, s, hs, hsn, hrel⟩ := mem_ident.1 hc.2
      obtain ⟨n1, n2, e, he, hsu⟩ := soleSucc_some hs
      obtain ⟨a, ha, han, rfl⟩ := adjOf_mem he
      dsimp only at hsu
      obtain ⟨b, hb, hbs⟩ := List.map_eq_singleton_iff.1 hsu
      have hbf : b ∈ P.filter fun b => a.feeds b := by rw [hb]; exact List.mem_singleton_self b
      have hbP := List.mem_of_mem_filter hbf
      have hbn : b.name = m.name := by rw [← hsn, ← hbs]
      have hbm := H.call_of_name hbP hm hbn (.inr hc.1)
      rw [← hbn, adjOf_get H.names hbP]
      dsimp only
      have hamem : (a.name, a.type) ∈ (P.filter fun c => c.feeds b).map fun c => (c.name, c.type) :=
        List.mem_map_of_mem (List.mem_filter.2 ⟨ha, (List.mem_filter.1 hbf).2⟩)
      obtain ⟨w, hw⟩ := List.length_eq_one_iff.1 (H.unary b hbP m hm hbm hc.1)
      cases hp : (P.filter fun c => c.feeds b).map (fun c => (c.name, c.type)) with
      | nil => rw [hp] at hamem; cases hamem
      | cons p ps =>
        dsimp only
        have hpm : p ∈ (P.filter fun c => c.feeds b).map fun c => (c.name, c.type) := by rw [hp]; exact List.mem_cons_self
        obtain ⟨c, hc1, rfl⟩ := List.mem_map.1 hpm
        have hcw : c.out = w := by simpa [POp.feeds, hw] using (List.mem_filter.1 hc1).2
        have haw : a.out = w := by simpa [POp.feeds, hw] using (List.mem_filter.1 hbf).2
        have hca : c = a := inj_of_nodup_map H.outs (List.mem_of_mem_filter hc1) ha (by rw [hcw, haw])
        rw [if_neg (by
          rw [hca, List.all_eq_true]
          intro hall
          have := hall n hn
          simp [han] at this)]
        split <;> exact ⟨_, rfl⟩
    · rw [if_neg hc]; exact ⟨_, rfl⟩
  have fold : ∀ (l : List PMod) (done : Dict Name Repl), (∀ m ∈ l, m ∈ mods) →
      ∃ d, l.foldlM (replaceStep mods (adjOf P) (fuseRelu mods (adjOf P))) done = .ok d := by
    intro l
    induction l with
    | nil => intro done _; exact ⟨done, rfl⟩
    | cons m l ih =>
      intro done hl
      obtain ⟨r, hr⟩ := one done m (hl m List.mem_cons_self)
      obtain ⟨d, hd⟩ := ih (done.set m.name r) (fun x hx => hl x (List.mem_cons_of_mem _ hx))
      refine ⟨d, ?_⟩
      rw [List.foldlM_cons]
      have : replaceStep mods (adjOf P) (fuseRelu mods (adjOf P)) done m = .ok (done.set m.name r) := by
        simp [replaceStep, hr, Except.map]
      rw [this]
      exact hd
  exact fold mods [] (fun _ h => h)

/-- **C100** (ReLU) The hypothesis of `C100_wires` holds for ReLUs: a quantized non-negative value is not
negative, with the parameters of any mode and range and any positive scale used with them. -/
theorem C100_relu (mode : QMode) (b : ℕ) (hb : 2 ≤ b) (lo hi scale zp : ℚ)
    (h : modeParams mode b lo hi = .ok (scale, zp)) (s' : ℚ) (hs' : 0 < s') (x : ℚ) :
    max (fakeQuant (max x 0) s' zp (modeRange mode b)) 0 = fakeQuant (max x 0) s' zp (modeRange mode b) := by
  obtain ⟨_, _, hle, _⟩ := modeParams_image mode b hb lo hi scale zp h
  have h0 := (C29_zero mode b hb lo hi scale zp h s').2
  apply max_eq_left
  refine h0.symm.le.trans ?_
  have := (C27_integer_in_range s' zp _ _ hle).2 hs'.le 0 (max x 0) (le_max_right _ _)
  unfold fakeQuant linearDequantize
  exact div_le_div_of_nonneg_right (by linarith) hs'.le

/-- No quantized value exceeds the upper end of a non-negative range. -/
theorem fakeQuant_le_hi (mode : QMode) (b : ℕ) (hb : 2 ≤ b) (lo hi scale zp : ℚ) (h0 : 0 ≤ lo) (hlh : lo ≤ hi)
    (hpos : 0 < hi) (h : modeParams mode b lo hi = .ok (scale, zp)) (x : ℚ) :
    fakeQuant x scale zp (modeRange mode b) ≤ hi := by
  obtain ⟨hs, _, hle, _⟩ := modeParams_image mode b hb lo hi scale zp h
  obtain ⟨f1, f2⟩ := modeParams_form mode b hb lo hi scale zp (.inr hpos.ne') h
  obtain ⟨n, hn, _, hn2⟩ := (C27_integer_in_range scale zp _ _ hle).1 x
  unfold fakeQuant linearDequantize
  rw [hn, div_le_iff₀ hs]
  have hnq : (n : ℚ) ≤ (modeRange mode b).2 := by exact_mod_cast hn2
  have hpq : (2 : ℚ) ^ b = 2 * 2 ^ (b - 1) := by exact_mod_cast two_pow_pred (by omega : 1 ≤ b)
  by_cases hsym : mode.isSym = true
  · obtain ⟨z0, e⟩ := f1 hsym
    rw [abs_of_nonneg h0, abs_of_pos hpos, max_eq_right hlh] at e
    have : ((modeRange mode b).2 : ℚ) = 2 ^ (b - 1) - 1 := by
      cases mode <;> simp [QMode.isSym] at hsym <;> simp [modeRange, quantizedRange]
    rw [z0, mul_comm, e]
    have h2 := pow_two_ge_one (b - 1)
    split <;> linarith
  · have hsym' : mode.isSym = false := by simpa using hsym
    obtain ⟨e, z⟩ := f2 hsym'
    rw [max_eq_left hpos.le, min_eq_right h0, sub_zero] at e
    rw [min_eq_right h0, mul_zero, show ((roundHalfEven (0 : ℚ) : ℤ) : ℚ) = 0 by
      have := round_int 0; rw [Int.cast_zero] at this; rw [this]; simp, zero_add] at z
    rw [mul_comm, e, z]
    cases mode <;> simp [QMode.isSym] at hsym'
    · have : ((modeRange .asymmetricUnsigned b).2 : ℚ) = 2 ^ b - 1 := by simp [modeRange, quantizedRange]
      simp; linarith
    · have : ((modeRange .asymmetricSigned b).2 : ℚ) = 2 ^ (b - 1) - 1 := by simp [modeRange, quantizedRange]
      simp; linarith

/-- **C100** (ReLU6) The hypothesis of `C100_wires` holds for ReLU6 if the layer is quantized with clipped
statistics (as after `_apply_activation_stats_fusions`) without clipping or with averaged extremes, and
the range is not degenerate: every quantized value lies between 0 and 6. -/
theorem C100_relu6 (s : Stats) (b : ℕ) (hb : 2 ≤ b) (mode : QMode) (clip : ClipMode) (half : Bool)
    (hclip : clip = .none ∨ clip = .avg) (h1 : s.min ≤ s.avgMin) (h2 : s.avgMin ≤ s.avgMax) (h3 : s.avgMax ≤ s.max)
    (hav : s.avgMin ≤ 6) (lo hi : ℚ) (hsat : satFromStats (clipStats s 0 (min s.max 6)) b mode clip half = .ok (lo, hi)) (hpos : 0 < hi)
    (scale zp : ℚ) (hp : paramsFromStats (clipStats s 0 (min s.max 6)) b mode clip half none = .ok (scale, zp)) (x : ℚ) :
    min (max (fakeQuant (max x 0) scale zp (modeRange mode b)) 0) 6 = fakeQuant (max x 0) scale zp (modeRange mode b) := by
  have hm : modeParams mode b lo hi = .ok (scale, zp) := by
    unfold paramsFromStats at hp
    rw [hsat] at hp
    cases h2 : modeParams mode b lo hi with
    | error e => simp only [bind, Except.bind, h2] at hp; cases hp
    | ok p => simp only [bind, Except.bind, h2] at hp; cases hp; rfl
  have hr : 0 ≤ lo ∧ lo ≤ hi ∧ hi ≤ 6 := by
    unfold clipStats at hsat
    split at hsat
    · rcases hclip with rfl | rfl <;> (cases hsat; exact absurd hpos (lt_irrefl _))
    · rename_i c1
      split at hsat
      · rename_i c2
        rcases hclip with rfl | rfl <;> (cases hsat; exact ⟨hpos.le, le_rfl, min_le_right _ _⟩)
      · rename_i c2
        rw [not_lt] at c1 c2
        rcases hclip with rfl | rfl
        · cases hsat
          refine ⟨le_max_left _ _, ?_, (min_le_left _ _).trans (min_le_right _ _)⟩
          refine max_le (le_min (le_min c1 (by norm_num)) c1) (le_min c2 (by linarith))
        · cases hsat
          refine ⟨le_max_left _ _, ?_, (min_le_left _ _).trans (min_le_right _ _)⟩
          refine max_le hpos.le (le_min (le_min (by linarith) hav) h2)
  have e1 := C100_relu mode b hb lo hi scale zp hm scale (modeParams_image mode b hb lo hi scale zp hm).1 x
  rw [e1]
  apply min_eq_left
  exact (fakeQuant_le_hi mode b hb lo hi scale zp hr.1 hr.2.1 hpos hm _).trans hr.2.2

/-! ### Non-vacuity and violations, on numbers as values -/

/-- conv1 → relu1 → conv2 → relu2 → output, everything quantized. -/
def exFuseMods : List PMod :=
  [⟨["conv1"], .other, false, true, true, none⟩, ⟨["relu1"], .relu, false, true, true, none⟩,
   ⟨["conv2"], .other, false, true, true, none⟩, ⟨["relu2"], .relu, false, true, true, none⟩]
def exFuseOps : List POp :=
  [⟨["conv1"], some ["conv1"], "Conv", [0], 1⟩, ⟨["relu1"], some ["relu1"], "Relu", [1], 2⟩,
   ⟨["conv2"], some ["conv2"], "Conv", [2], 3⟩, ⟨["relu2"], some ["relu2"], "Relu", [3], 4⟩]
/-- Layers multiply by -2, activations clip. -/
def exFuseSem : OpSem ℚ where
  fn := fun n xs =>
    if n = ["relu1"] ∨ n = ["relu2"] ∨ n = ["relu"] then max (xs.headD 0) 0
    else if n = ["relu6"] then min (max (xs.headD 0) 0) 6
    else -2 * xs.headD 0
  call := fun _ xs => xs.sum
  relu := fun x => max x 0
  q := fun _ x => x

theorem exFuse_traced : TracedModel exFuseMods exFuseOps := by
  constructor <;> decide +revert

theorem exFuse_acts : ActSem exFuseSem (fun x => min (max x 0) 6) exFuseMods := by
  constructor
  · intro d hd hc x
    simp only [exFuseMods, List.mem_cons, List.not_mem_nil, or_false] at hd
    rcases hd with rfl | rfl | rfl | rfl <;> first | (cases hc; done) | rfl
  · intro d hd hc x
    simp only [exFuseMods, List.mem_cons, List.not_mem_nil, or_false] at hd
    rcases hd with rfl | rfl | rfl | rfl <;> cases hc
  · intro x; simp [exFuseSem]
  · intro x; simp [exFuseSem]
  · intro x; simp [exFuseSem]

example : prepareRelu exFuseMods (adjOf exFuseOps) = .ok [(["conv1"], .wrapper true), (["relu1"], .identity),
    (["conv2"], .wrapper true), (["relu2"], .identity)] ∧
    runOps exFuseSem (fun _ => .plain) exFuseOps (fun _ => -3) 4 = 0 ∧
    runOps exFuseSem (fun _ => .plain) exFuseOps (fun _ => -3) 2 = 6 := by decide +kernel

/-- **C100** is violated for a ReLU module that is used twice: turned into an identity because of its
first use, it also vanishes behind an operation that does not clip (a residual addition, say). -/
theorem C100_violated_shared_relu : ∃ (mods : List PMod) (P : List POp) (d : Dict Name Repl) (σ : OpSem ℚ),
    (∀ n x, σ.q n x = x) ∧ prepareRelu mods (adjOf P) = .ok d ∧
    runOps σ (fun _ => .plain) P (fun _ => 1) 4 = 0 ∧ runOps σ (replOf d) P (fun _ => 1) 4 = -2 :=
  ⟨[⟨["conv1"], .other, false, true, true, none⟩, ⟨["relu"], .relu, false, true, true, none⟩,
    ⟨["pool"], .other, false, true, false, none⟩],
   [⟨["conv1"], some ["conv1"], "Conv", [0], 1⟩, ⟨["relu"], some ["relu"], "Relu", [1], 2⟩,
    ⟨["pool"], some ["pool"], "Pool", [0], 3⟩, ⟨["relu_Relu_1"], some ["relu"], "Relu", [3], 4⟩],
   [(["conv1"], .wrapper true), (["relu"], .identity), (["pool"], .plain)], exFuseSem,
   fun _ _ => rfl, by decide +kernel, by decide +kernel, by decide +kernel⟩

/-- **C100** is violated for a layer whose output is also an output of the network: it is clipped there. -/
theorem C100_violated_tapped_output : ∃ (mods : List PMod) (P : List POp) (d : Dict Name Repl) (σ : OpSem ℚ),
    TracedModel mods P ∧ (∀ n x, σ.q n x = x) ∧ prepareRelu mods (adjOf P) = .ok d ∧
    runOps σ (fun _ => .plain) P (fun _ => 1) 1 = -2 ∧ runOps σ (replOf d) P (fun _ => 1) 1 = 0 :=
  ⟨exFuseMods, exFuseOps, [(["conv1"], .wrapper true), (["relu1"], .identity),
    (["conv2"], .wrapper true), (["relu2"], .identity)], exFuseSem, exFuse_traced, fun _ _ => rfl,
   by decide +kernel, by decide +kernel, by decide +kernel⟩

/-- **C100** is violated for ReLU6 without statistics: the upper bound 6 is lost, whatever the
(dynamic, here exact) quantizer. -/
theorem C100_violated_relu6_dynamic : ∃ (mods : List PMod) (P : List POp) (d : Dict Name Repl) (σ : OpSem ℚ),
    TracedModel mods P ∧ (∀ n x, σ.q n x = x) ∧ prepareRelu mods (adjOf P) = .ok d ∧
    runOps σ (fun _ => .plain) P (fun _ => -5) 2 = 6 ∧ runOps σ (replOf d) P (fun _ => -5) 2 = 10 :=
  ⟨[⟨["conv1"], .other, false, true, true, none⟩, ⟨["relu6"], .relu6, false, true, true, none⟩],
   [⟨["conv1"], some ["conv1"], "Conv", [0], 1⟩, ⟨["relu6"], some ["relu6"], "Clip", [1], 2⟩],
   [(["conv1"], .wrapper true), (["relu6"], .identity)], exFuseSem, by constructor <;> decide +revert, fun _ _ => rfl,
   by decide +kernel, by decide +kernel, by decide +kernel⟩

/-- **C100** is violated for ReLU6 with the analytical clipping modes: they ignore the clipped maximum, and
the quantized output of the layer exceeds 6. -/
theorem C100_violated_relu6_aciq : ∃ (s : Stats) (scale zp x : ℚ), s.Consistent ∧
    paramsFromStats (clipStats s 0 (min s.max 6)) 8 .asymmetricUnsigned .laplace true none = .ok (scale, zp) ∧
    6 < fakeQuant (max x 0) scale zp (modeRange .asymmetricUnsigned 8) :=
  ⟨⟨-10, 20, -2, 15, 2, 3, 2⟩, 255 / (2 * 11.16), 0, 20, by constructor <;> decide +kernel, by decide +kernel, by decide +kernel⟩

end Verif
