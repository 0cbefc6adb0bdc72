import Verif.Lemmas.Recipe
import Verif.Props.Thinning2
/-! Exactly which directives a filters recipe contains, and the values of thinned running statistics. -/
namespace Verif

/-- The directive for a fully-connected successor `ls` of `lr`. -/
def fcDirective (lr ls : TLayer) (idx : List ℕ) (d : Directive) : Prop :=
  ∃ inF outF outC, ls.attrs.get? .inFeatures = some inF ∧ ls.attrs.get? .outFeatures = some outF ∧
    lr.attrs.get? .outChannels = some outC ∧ outC ≠ 0 ∧
    d = .four 1 idx [outF, outC, Nat.sqrt (inF / outC), Nat.sqrt (inF / outC)] [outF, inF / outC * idx.length]

/-- Effect of handling the successors on the directives of the recipe. -/
theorem succs_dirs {m : TModel} (hg : NoGroups m) {root : String} {lr : TLayer} (hr : m.layers.get? root = some lr)
    {idx : List ℕ} {rec : Recipe → String → Except Err Recipe} {ss : List String} {r r' : Recipe}
    (he : ss.foldlM (handleSuccF m root idx.length idx rec) r = .ok r') :
    (∀ l, r'.dirs (l, .bias) = r.dirs (l, .bias)) ∧ (∀ l a, r'.runOf l a = r.runOf l a) ∧
    ∀ l lay, m.layers.get? l = some lay →
      (lay.kind = .conv → ∀ d, d ∈ r'.dirs (l, .weight) ↔ d ∈ r.dirs (l, .weight) ∨ (l ∈ ss ∧ d = .two 1 idx)) ∧
      (lay.kind = .linear → ∀ d, d ∈ r'.dirs (l, .weight) ↔ d ∈ r.dirs (l, .weight) ∨ (l ∈ ss ∧ fcDirective lr lay idx d)) ∧
      (lay.kind = .bn → r'.dirs (l, .weight) = r.dirs (l, .weight)) := by
  induction ss generalizing r with
  | nil => simp [pure, Except.pure] at he; subst he; simp
  | cons s ss ih =>
    rw [List.foldlM_cons] at he
    obtain ⟨r1, h1, h2⟩ := ok_bind he
    obtain ⟨ib, ir, il⟩ := ih h2
    unfold handleSuccF at h1
    obtain ⟨ls, hs, h1⟩ := ok_bind h1
    have hs := getE_ok hs
    have step : (∀ l, r1.dirs (l, .bias) = r.dirs (l, .bias)) ∧ (∀ l a, r1.runOf l a = r.runOf l a) ∧
        ∀ l lay, m.layers.get? l = some lay →
        (lay.kind = .conv → ∀ d, d ∈ r1.dirs (l, .weight) ↔ d ∈ r.dirs (l, .weight) ∨ (l = s ∧ d = .two 1 idx)) ∧
        (lay.kind = .linear → ∀ d, d ∈ r1.dirs (l, .weight) ↔ d ∈ r.dirs (l, .weight) ∨ (l = s ∧ fcDirective lr lay idx d)) ∧
        (lay.kind = .bn → r1.dirs (l, .weight) = r.dirs (l, .weight)) := by
      cases hk : ls.kind with
      | conv =>
        simp only [hk] at h1
        obtain ⟨gr, hgr, h1⟩ := ok_bind h1
        obtain ⟨inC, _, h1⟩ := ok_bind h1
        have := attr_ok hgr; rw [hg s ls hs hk] at this; cases this
        simp only [if_true] at h1
        cases h1
        refine ⟨fun l => ?_, fun l a => ?_, fun l lay hl => ⟨fun hk' d => ?_, fun hk' d => ?_, fun hk' => ?_⟩⟩
        · rw [dirs_appendParam_ne _ _ (by intro e; cases e), dirs_appendModule]
        · rw [runOf_appendParam, runOf_appendModule]
        · rw [mem_dirs_appendParam, dirs_appendModule]; simp
        · have : l ≠ s := by rintro rfl; rw [hs] at hl; cases hl; rw [hk] at hk'; cases hk'
          rw [dirs_appendParam_ne _ _ (by intro e; cases e; exact this rfl), dirs_appendModule]; simp [this]
        · have : l ≠ s := by rintro rfl; rw [hs] at hl; cases hl; rw [hk] at hk'; cases hk'
          rw [dirs_appendParam_ne _ _ (by intro e; cases e; exact this rfl), dirs_appendModule]
      | linear =>
        simp only [hk] at h1
        unfold handleLinearSucc at h1
        obtain ⟨ls', q1, k1⟩ := ok_bind h1
        obtain rfl : ls = ls' := by
          have := getE_ok q1; rw [hs] at this; exact Option.some.inj this
        obtain ⟨lr', q2, k2⟩ := ok_bind k1
        obtain rfl : lr = lr' := by
          have := getE_ok q2; rw [hr] at this; exact Option.some.inj this
        obtain ⟨inF, q3, k3⟩ := ok_bind k2
        obtain ⟨outF, q4, k4⟩ := ok_bind k3
        obtain ⟨outC, q5, k5⟩ := ok_bind k4
        clear h1 k1 k2 k3 k4
        by_cases c0 : outC = 0
        · simp [c0] at k5
        simp only [c0, if_false] at k5
        cases k5
        refine ⟨fun l => ?_, fun l a => ?_, fun l lay hl => ⟨fun hk' d => ?_, fun hk' d => ?_, fun hk' => ?_⟩⟩
        · rw [dirs_appendParam_ne _ _ (by intro e; cases e), dirs_appendModule]
        · rw [runOf_appendParam, runOf_appendModule]
        · have : l ≠ s := by rintro rfl; rw [hs] at hl; cases hl; rw [hk] at hk'; cases hk'
          rw [dirs_appendParam_ne _ _ (by intro e; cases e; exact this rfl), dirs_appendModule]; simp [this]
        · rw [mem_dirs_appendParam, dirs_appendModule]
          by_cases c : l = s
          · subst c; rw [hs] at hl; cases hl
            have : fcDirective lr ls idx d ↔ d = .four 1 idx [outF, outC, Nat.sqrt (inF / outC), Nat.sqrt (inF / outC)] [outF, inF / outC * idx.length] := by
              unfold fcDirective
              rw [attr_ok q3, attr_ok q4, attr_ok q5]
              constructor
              · rintro ⟨a, b, c, e1, e2, e3, _, e4⟩
                cases e1; cases e2; cases e3; exact e4
              · intro e; exact ⟨inF, outF, outC, rfl, rfl, rfl, c0, e⟩
            rw [this]; simp
          · simp [c]
        · have : l ≠ s := by rintro rfl; rw [hs] at hl; cases hl; rw [hk] at hk'; cases hk'
          rw [dirs_appendParam_ne _ _ (by intro e; cases e; exact this rfl), dirs_appendModule]
      | bn =>
        simp only [hk] at h1
        cases h1
        refine ⟨fun _ => rfl, fun _ _ => rfl, fun l lay hl => ⟨fun hk' d => ?_, fun hk' d => ?_, fun hk' => rfl⟩⟩ <;>
        · have : l ≠ s := by rintro rfl; rw [hs] at hl; cases hl; rw [hk] at hk'; cases hk'
          simp [this]
    obtain ⟨sb, sr, sl⟩ := step
    refine ⟨fun l => (ib l).trans (sb l), fun l a => (ir l a).trans (sr l a), fun l lay hl => ?_⟩
    obtain ⟨i1, i2, i3⟩ := il l lay hl
    obtain ⟨s1, s2, s3⟩ := sl l lay hl
    refine ⟨fun hk d => ?_, fun hk d => ?_, fun hk => (i3 hk).trans (s3 hk)⟩
    · rw [i1 hk, s1 hk, List.mem_cons]; tauto
    · rw [i2 hk, s2 hk, List.mem_cons]; tauto

/-- Effect of `handle_layer` on the directives of the recipe. -/
theorem layer_dirs {g : TGraph} {m : TModel} (hg : NoGroups m) {idx : List ℕ} {fuel : ℕ} {r r' : Recipe} {x : String}
    (he : handleLayerF g m x idx.length idx fuel r x = .ok r') :
    ∃ lx, m.layers.get? x = some lx ∧ lx.kind = .conv ∧ ∀ l lay, m.layers.get? l = some lay →
      (lay.kind = .conv →
        (∀ d, d ∈ r'.dirs (l, .weight) ↔ d ∈ r.dirs (l, .weight) ∨ (l = x ∧ d = .two 0 idx) ∨ (l ∈ g.succs x ∧ d = .two 1 idx)) ∧
        (∀ d, d ∈ r'.dirs (l, .bias) ↔ d ∈ r.dirs (l, .bias) ∨ (l = x ∧ m.params.has (l, .bias) = true ∧ d = .two 0 idx))) ∧
      (lay.kind = .linear →
        (∀ d, d ∈ r'.dirs (l, .weight) ↔ d ∈ r.dirs (l, .weight) ∨ (l ∈ g.succs x ∧ fcDirective lx lay idx d)) ∧
        r'.dirs (l, .bias) = r.dirs (l, .bias)) ∧
      (lay.kind = .bn → (∀ k, r'.dirs (l, k) = if l ∈ g.succBN x then [.two 0 idx] else r.dirs (l, k)) ∧
        (∀ a, r'.runOf l a = if l ∈ g.succBN x then some idx else r.runOf l a)) := by
  cases fuel with
  | zero => cases he
  | succ fuel =>
    unfold handleLayerF at he
    obtain ⟨lx, h1, he⟩ := ok_bind he
    have hx := getE_ok h1
    by_cases c : lx.kind ≠ .conv
    · rw [if_pos c] at he; cases he
    rw [if_neg c] at he
    have hxk : lx.kind = .conv := by simpa using c
    obtain ⟨r2, h2, he⟩ := ok_bind he
    obtain ⟨ab, ar, al⟩ := succs_dirs hg hx h2
    generalize hr0 : (if m.params.has (x, .bias) then
            ((r.appendModule x .outChannels idx.length).appendParam (x, .weight) (.two 0 idx)).appendParam (x, .bias) (.two 0 idx)
          else ((r.appendModule x .outChannels idx.length).appendParam (x, .weight) (.two 0 idx))) = r0 at h2 ab ar al
    have w0 : ∀ l d, d ∈ r0.dirs (l, .weight) ↔ d ∈ r.dirs (l, .weight) ∨ (l = x ∧ d = .two 0 idx) := by
      intro l d
      have h1 : d ∈ ((r.appendModule x .outChannels idx.length).appendParam (x, .weight) (.two 0 idx)).dirs (l, .weight) ↔
          d ∈ r.dirs (l, .weight) ∨ (l = x ∧ d = .two 0 idx) := by
        rw [mem_dirs_appendParam, dirs_appendModule]; simp
      subst hr0; split
      · rw [mem_dirs_appendParam, h1]; simp
      · exact h1
    have b0 : ∀ l d, d ∈ r0.dirs (l, .bias) ↔ d ∈ r.dirs (l, .bias) ∨ (l = x ∧ m.params.has (l, .bias) = true ∧ d = .two 0 idx) := by
      intro l d
      have h1 : d ∈ ((r.appendModule x .outChannels idx.length).appendParam (x, .weight) (.two 0 idx)).dirs (l, .bias) ↔
          d ∈ r.dirs (l, .bias) := by
        rw [mem_dirs_appendParam, dirs_appendModule]; simp
      subst hr0; split
      · rename_i c; rw [mem_dirs_appendParam, h1]
        constructor
        · rintro (h | ⟨h, h'⟩)
          · exact Or.inl h
          · cases h; exact Or.inr ⟨rfl, c, h'⟩
        · rintro (h | ⟨h, _, h'⟩)
          · exact Or.inl h
          · subst h; exact Or.inr ⟨rfl, h'⟩
      · rename_i c; rw [h1]
        constructor
        · exact Or.inl
        · rintro (h | ⟨h, h', _⟩)
          · exact h
          · subst h; exact absurd h' c
    have n0 : ∀ l : String, l ≠ x → ∀ k, r0.dirs (l, k) = r.dirs (l, k) := by
      intro l e k
      have h1 : ((r.appendModule x .outChannels idx.length).appendParam (x, .weight) (.two 0 idx)).dirs (l, k) = r.dirs (l, k) := by
        rw [dirs_appendParam_ne _ _ (fun e' => e (by cases e'; rfl)), dirs_appendModule]
      subst hr0; split
      · rw [dirs_appendParam_ne _ _ (fun e' => e (by cases e'; rfl)), h1]
      · exact h1
    have u0 : ∀ l a, r0.runOf l a = r.runOf l a := by
      intro l a
      subst hr0; split <;> simp only [runOf_appendParam, runOf_appendModule]
    -- before batch-norm
    have pre : ∀ l lay, m.layers.get? l = some lay →
      (lay.kind = .conv →
        (∀ d, d ∈ r2.dirs (l, .weight) ↔ d ∈ r.dirs (l, .weight) ∨ (l = x ∧ d = .two 0 idx) ∨ (l ∈ g.succs x ∧ d = .two 1 idx)) ∧
        (∀ d, d ∈ r2.dirs (l, .bias) ↔ d ∈ r.dirs (l, .bias) ∨ (l = x ∧ m.params.has (l, .bias) = true ∧ d = .two 0 idx))) ∧
      (lay.kind = .linear →
        (∀ d, d ∈ r2.dirs (l, .weight) ↔ d ∈ r.dirs (l, .weight) ∨ (l ∈ g.succs x ∧ fcDirective lx lay idx d)) ∧
        r2.dirs (l, .bias) = r.dirs (l, .bias)) ∧
      (lay.kind = .bn → (∀ k, r2.dirs (l, k) = r.dirs (l, k)) ∧ ∀ a, r2.runOf l a = r.runOf l a) := by
      intro l lay hl
      obtain ⟨a1, a2, a3⟩ := al l lay hl
      refine ⟨fun hk => ⟨fun d => ?_, fun d => ?_⟩, fun hk => ⟨fun d => ?_, ?_⟩, fun hk => ⟨fun k => ?_, fun a => ?_⟩⟩
      · rw [a1 hk, w0]; tauto
      · rw [ab, b0]
      · have : l ≠ x := by rintro rfl; rw [hx] at hl; cases hl; rw [hxk] at hk; cases hk
        rw [a2 hk, n0 l this]
      · have : l ≠ x := by rintro rfl; rw [hx] at hl; cases hl; rw [hxk] at hk; cases hk
        rw [ab, n0 l this]
      · have : l ≠ x := by rintro rfl; rw [hx] at hl; cases hl; rw [hxk] at hk; cases hk
        cases k with
        | weight => rw [a3 hk, n0 l this]
        | bias => rw [ab, n0 l this]
      · rw [ar, u0]
    refine ⟨lx, hx, hxk, fun l lay hl => ?_⟩
    obtain ⟨p1, p2, p3⟩ := pre l lay hl
    split at he
    · rename_i hb
      cases he
      refine ⟨p1, p2, fun hk => ?_⟩
      rw [hb]; simpa using p3 hk
    · rename_i bn hb
      obtain ⟨⟨lbn, b1, b2⟩, _, b4, b5⟩ := appendBN_ok he
      refine ⟨fun hk => ?_, fun hk => ?_, fun hk => ?_⟩
      · have : l ≠ bn := by rintro rfl; rw [b1] at hl; cases hl; rw [b2] at hk; cases hk
        rw [b5, b5]; simpa [this] using p1 hk
      · have : l ≠ bn := by rintro rfl; rw [b1] at hl; cases hl; rw [b2] at hk; cases hk
        rw [b5, b5]; simpa [this] using p2 hk
      · obtain ⟨q1, q2⟩ := p3 hk
        rw [hb]
        refine ⟨fun k => ?_, fun a => ?_⟩
        · rw [b5, q1]; simp
        · rw [b4, q2]; simp
    · cases he

/-- A parameter whose filters are thinned: its non-zero rows. -/
def Thinned (m : TModel) (a : String) (idx : List ℕ) : Prop :=
  ∃ p, ((a, PK.weight), p) ∈ m.params ∧ p.data.shape.length = 4 ∧ idx = nonzeroRows p.data ∧
    idx.length < p.data.shape.headD 0 ∧ IsConvOf m a

theorem Thinned.conv {m : TModel} {a : String} {idx : List ℕ} (h : Thinned m a idx) : IsConvOf m a := by
  obtain ⟨_, _, _, _, _, h⟩ := h
  exact h

/-- The directives of a filters recipe, for the parameters `ps` handled so far. -/
structure RDirs (g : TGraph) (m : TModel) (ps : List (PName × TParam)) (r : Recipe) : Prop where
  conv_sound : ∀ l lay, m.layers.get? l = some lay → lay.kind = .conv → ∀ d ∈ r.dirs (l, .weight),
    ∃ a idx, Thinned m a idx ∧ ((a = l ∧ d = .two 0 idx) ∨ (l ∈ g.succs a ∧ d = .two 1 idx))
  bias_sound : ∀ l lay, m.layers.get? l = some lay → lay.kind = .conv → ∀ d ∈ r.dirs (l, .bias),
    ∃ idx, Thinned m l idx ∧ d = .two 0 idx
  fc_sound : ∀ l lay, m.layers.get? l = some lay → lay.kind = .linear → r.dirs (l, .bias) = [] ∧ ∀ d ∈ r.dirs (l, .weight),
    ∃ a la idx, Thinned m a idx ∧ l ∈ g.succs a ∧ m.layers.get? a = some la ∧ la.kind = .conv ∧ fcDirective la lay idx d
  bn_sound : ∀ l lay, m.layers.get? l = some lay → lay.kind = .bn →
    ((∀ k, r.dirs (l, k) = []) ∧ ∀ a, r.runOf l a = none) ∨
    ∃ a idx, Thinned m a idx ∧ l ∈ g.succBN a ∧ (∀ k, r.dirs (l, k) = [.two 0 idx]) ∧ ∀ x, r.runOf l x = some idx
  complete : ∀ kv ∈ ps, kv.2.data.shape.length = 4 → (nonzeroRows kv.2.data).length < kv.2.data.shape.headD 0 →
    ∃ la, m.layers.get? kv.1.1 = some la ∧ la.kind = .conv ∧
    .two 0 (nonzeroRows kv.2.data) ∈ r.dirs (kv.1.1, .weight) ∧
    (m.params.has (kv.1.1, .bias) = true → .two 0 (nonzeroRows kv.2.data) ∈ r.dirs (kv.1.1, .bias)) ∧
    ∀ l lay, m.layers.get? l = some lay →
      (lay.kind = .conv → l ∈ g.succs kv.1.1 → .two 1 (nonzeroRows kv.2.data) ∈ r.dirs (l, .weight)) ∧
      (lay.kind = .linear → l ∈ g.succs kv.1.1 → ∀ d, fcDirective la lay (nonzeroRows kv.2.data) d → d ∈ r.dirs (l, .weight)) ∧
      (lay.kind = .bn → l ∈ g.succBN kv.1.1 → ∀ k, r.dirs (l, k) ≠ [])

theorem RDirs.fold {g : TGraph} {m : TModel} (hg : NoGroups m)
    (hw : ∀ kv ∈ m.params, kv.2.data.shape.length = 4 → kv.1.2 = .weight)
    {ps rest : List (PName × TParam)} (hsub : ∀ kv ∈ ps ++ rest, kv ∈ m.params) {r r' : Recipe} (h : RDirs g m ps r)
    (he : rest.foldlM (stepF g m) r = .ok r') : RDirs g m (ps ++ rest) r' := by
  induction rest generalizing ps r with
  | nil => simp [pure, Except.pure] at he; subst he; simpa using h
  | cons kv rest ih =>
    rw [List.foldlM_cons] at he
    obtain ⟨r1, h1, h2⟩ := ok_bind he
    have hmem : kv ∈ m.params := hsub kv (by simp)
    suffices hstep : RDirs g m (ps ++ [kv]) r1 by
      have := ih (ps := ps ++ [kv]) (by simpa using hsub) hstep h2
      simpa using this
    unfold stepF at h1
    simp only at h1
    have skip : (kv.2.data.shape.length = 4 → ¬ (nonzeroRows kv.2.data).length < kv.2.data.shape.headD 0) → r1 = r →
        RDirs g m (ps ++ [kv]) r1 := by
      rintro hns rfl
      refine ⟨h.conv_sound, h.bias_sound, h.fc_sound, h.bn_sound, ?_⟩
      intro kv' hkv' h4 hlt
      rcases List.mem_append.1 hkv' with hkv' | hkv'
      · exact h.complete kv' hkv' h4 hlt
      · simp at hkv'; subst hkv'; exact absurd hlt (hns h4)
    split at h1
    · rename_i c; cases h1; exact skip (fun h4 => absurd h4 c) rfl
    · rename_i c4
      have c4 : kv.2.data.shape.length = 4 := by simpa using c4
      split at h1
      · cases h1
      · split at h1
        · rename_i c; cases h1; exact skip (fun _ => by omega) rfl
        · rename_i clt
          have hlt : (nonzeroRows kv.2.data).length < kv.2.data.shape.headD 0 := by omega
          obtain ⟨lx, hx, hxk, H⟩ := layer_dirs hg h1
          have hkw := hw kv hmem c4
          have hth : Thinned m kv.1.1 (nonzeroRows kv.2.data) := by
            refine ⟨kv.2, ?_, c4, rfl, hlt, lx, hx, hxk⟩
            have : kv = ((kv.1.1, PK.weight), kv.2) := by rw [← hkw]
            rw [← this]; exact hmem
          refine ⟨?_, ?_, ?_, ?_, ?_⟩
          · intro l lay hl hk d hd
            rcases (((H l lay hl).1 hk).1 d).1 hd with hd | ⟨e, hd⟩ | ⟨e, hd⟩
            · exact h.conv_sound l lay hl hk d hd
            · exact ⟨_, _, hth, Or.inl ⟨e.symm, hd⟩⟩
            · exact ⟨_, _, hth, Or.inr ⟨e, hd⟩⟩
          · intro l lay hl hk d hd
            rcases (((H l lay hl).1 hk).2 d).1 hd with hd | ⟨e, _, hd2⟩
            · exact h.bias_sound l lay hl hk d hd
            · subst e; exact ⟨_, hth, hd2⟩
          · intro l lay hl hk
            obtain ⟨q1, q2⟩ := (H l lay hl).2.1 hk
            obtain ⟨f1, f2⟩ := h.fc_sound l lay hl hk
            refine ⟨by rw [q2, f1], fun d hd => ?_⟩
            rcases (q1 d).1 hd with hd | ⟨e, hd⟩
            · exact f2 d hd
            · exact ⟨_, lx, _, hth, e, hx, hxk, hd⟩
          · intro l lay hl hk
            obtain ⟨q1, q2⟩ := (H l lay hl).2.2 hk
            by_cases c : l ∈ g.succBN kv.1.1
            · exact Or.inr ⟨_, _, hth, c, fun k => by rw [q1, if_pos c], fun a => by rw [q2, if_pos c]⟩
            · simp only [c, if_false] at q1 q2
              simp only [q1, q2]
              exact h.bn_sound l lay hl hk
          · intro kv' hkv' h4 hlt'
            rcases List.mem_append.1 hkv' with hkv' | hkv'
            · obtain ⟨la, g1, g2, g3, g4, g5⟩ := h.complete kv' hkv' h4 hlt'
              refine ⟨la, g1, g2, ?_, ?_, ?_⟩
              · exact (((H _ la g1).1 g2).1 _).2 (Or.inl g3)
              · intro hb; exact (((H _ la g1).1 g2).2 _).2 (Or.inl (g4 hb))
              · intro l lay hl
                obtain ⟨e1, e2, e3⟩ := g5 l lay hl
                refine ⟨fun hk hs => (((H l lay hl).1 hk).1 _).2 (Or.inl (e1 hk hs)),
                  fun hk hs d hd => (((H l lay hl).2.1 hk).1 _).2 (Or.inl (e2 hk hs d hd)), fun hk hs k => ?_⟩
                rw [((H l lay hl).2.2 hk).1]
                split
                · simp
                · exact e3 hk hs k
            · simp at hkv'; subst hkv'
              refine ⟨lx, hx, hxk, ?_, ?_, ?_⟩
              · exact (((H _ lx hx).1 hxk).1 _).2 (Or.inr (Or.inl ⟨rfl, rfl⟩))
              · intro hb; exact (((H _ lx hx).1 hxk).2 _).2 (Or.inr ⟨rfl, hb, rfl⟩)
              · intro l lay hl
                refine ⟨fun hk hs => (((H l lay hl).1 hk).1 _).2 (Or.inr (Or.inr ⟨hs, rfl⟩)),
                  fun hk hs d hd => (((H l lay hl).2.1 hk).1 _).2 (Or.inr ⟨hs, hd⟩), fun hk hs k => ?_⟩
                rw [((H l lay hl).2.2 hk).1, if_pos hs]; simp

/-- The directives of the recipe built by `create_thinning_recipe_filters`. -/
theorem RDirs.create {g : TGraph} {m : TModel} (hg : NoGroups m)
    (hw : ∀ kv ∈ m.params, kv.2.data.shape.length = 4 → kv.1.2 = .weight) {r : Recipe}
    (he : createFilters g m = .ok r) : RDirs g m m.params r := by
  unfold createFilters at he
  have h0 : RDirs g m [] emptyRecipe := by
    have h1 : ∀ p, emptyRecipe.dirs p = [] := fun p => rfl
    have h3 : ∀ l a, emptyRecipe.runOf l a = none := fun l a => rfl
    constructor <;> simp [h1, h3]
  have := RDirs.fold hg hw (ps := []) (rest := m.params) (by simp) h0 he
  simpa using this

/-! ## Values of running statistics -/

theorem execRunning_data {l l' : TLayer} {kv : RAttr × List ℕ} (h : execRunning l kv = .ok l') :
    ∃ t t', l.running.get? kv.1 = some t ∧ l'.running.get? kv.1 = some t' ∧
      ((t.shape[0]? = some kv.2.length ∧ t' = t) ∨ t.indexSelect 0 kv.2 = .ok t') := by
  unfold execRunning at h
  split at h
  · cases h
  · rename_i t ht
    obtain ⟨n, hn, h⟩ := ok_bind h
    by_cases c : n ≠ kv.2.length
    · rw [if_pos c] at h
      obtain ⟨t', ht', h⟩ := ok_bind h
      cases h
      exact ⟨t, t', ht, by simp, Or.inr ht'⟩
    · rw [if_neg c] at h
      cases h
      have : n = kv.2.length := by simpa using c
      exact ⟨t, t, ht, ht, Or.inl ⟨by rw [size_ok hn, this], rfl⟩⟩

theorem runs_data {runs : Dict RAttr (List ℕ)} (hd : runs.Nodup) {l l' : TLayer} (h : runs.foldlM execRunning l = .ok l') :
    ∀ kv ∈ runs, ∃ t t', l.running.get? kv.1 = some t ∧ l'.running.get? kv.1 = some t' ∧
      ((t.shape[0]? = some kv.2.length ∧ t' = t) ∨ t.indexSelect 0 kv.2 = .ok t') := by
  induction runs generalizing l with
  | nil => simp
  | cons kv runs ih =>
    rw [List.foldlM_cons] at h
    obtain ⟨l1, h1, h2⟩ := ok_bind h
    simp only [Dict.Nodup, List.map_cons, List.nodup_cons] at hd
    obtain ⟨_, _, _, d⟩ := runs_ok hd.2 h2
    obtain ⟨_, _, _, d1⟩ := execRunning_ok h1
    intro kv' hkv'
    rcases List.mem_cons.1 hkv' with rfl | hkv'
    · obtain ⟨t, t', e1, e2, e3⟩ := execRunning_data h1
      exact ⟨t, t', e1, by rw [d _ hd.1, e2], e3⟩
    · obtain ⟨t, t', e1, e2, e3⟩ := ih hd.2 h2 kv' hkv'
      have hne : kv'.1 ≠ kv.1 := by intro e; exact hd.1 (e ▸ List.mem_map_of_mem hkv')
      exact ⟨t, t', by rw [← d1 _ hne]; exact e1, e2, e3⟩

theorem exec_running {opt : OptKind} {upd : Bool} {m m' : TModel} {r : Recipe} (hd : r.IsDict)
    (h : execRecipe opt upd m r = .ok m') {l : String} {lay : TLayer} (hl : m.layers.get? l = some lay) :
    ∃ lay', m'.layers.get? l = some lay' ∧ lay'.kind = lay.kind ∧
      (∀ a, r.runOf l a = none → lay'.running.get? a = lay.running.get? a) ∧
      ∀ a idx, r.runOf l a = some idx → ∃ t t', lay.running.get? a = some t ∧ lay'.running.get? a = some t' ∧
        ((t.shape[0]? = some idx.length ∧ t' = t) ∨ t.indexSelect 0 idx = .ok t') := by
  obtain ⟨_, _, h3, h4, _, _⟩ := execRecipe_effect hd h
  cases e : r.modules.get? l with
  | none =>
    have := h4 l ((Dict.get?_eq_none_iff _ _).1 e)
    rw [hl] at this
    exact ⟨lay, this, rfl, fun _ _ => rfl, fun a idx ha => by simp [Recipe.runOf, e] at ha⟩
  | some md =>
    have hmem := Dict.mem_of_get? e
    obtain ⟨lay1, lay2, e1, e2, e3⟩ := h3 _ hmem
    simp only at e1 e2 e3
    rw [hl] at e1; cases e1
    obtain ⟨f1, _, _, f4⟩ := modEffect_ok (hd.nums _ hmem) (hd.runs _ hmem) e2
    refine ⟨lay2, e3, f1, fun a ha => ?_, fun a idx ha => ?_⟩
    · apply f4
      apply (Dict.get?_eq_none_iff _ _).1
      simpa [Recipe.runOf, e] using ha
    · have ha' : md.runs.get? a = some idx := by simpa [Recipe.runOf, e] using ha
      unfold modEffect at e2
      exact runs_data (hd.runs _ hmem) e2 _ (Dict.mem_of_get? ha')

end Verif
