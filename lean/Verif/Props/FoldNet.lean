import Verif.Model.FoldNet
import Verif.Props.BNFold
import Verif.Lemmas.Fold
import Mathlib.Tactic.FieldSimp
import Mathlib.Data.List.Nodup
/-!
# C133: folding all batch-norms preserves the function of the network
-/
namespace Verif
open Dict
variable {K : Type} [Field K]
set_option linter.unusedSectionVars false

/-! ## Specification -/

/-- The operation carries the name of a convolution or linear module. -/
def IsLayerOp (mods : Dict String (FoldMod K)) (o : FOp) : Prop := ∃ l, mods.get? o.name = some (.layer l)

/-- The operation carries the name of a batch-norm module. -/
def IsNormOp (mods : Dict String (FoldMod K)) (o : FOp) : Prop := ∃ n, mods.get? o.name = some (.bn n)

/-- The batch-norm of the same dimension: `BatchNorm1d` for linear layers and 1D convolutions. -/
def FoldKind.norm : FoldKind → NormKind
  | .linear => .bn1d
  | .conv1d => .bn1d
  | .conv2d => .bn2d
  | .conv3d => .bn3d

theorem kindsMatch_iff (k : FoldKind) (n : NormKind) : kindsMatch k n = true ↔ n = k.norm := by
  cases k <;> cases n <;> decide

/-- In the trace, batch-norm `b` runs directly after the layer `a`. -/
def RunsAfter (mods : Dict String (FoldMod K)) (P : List FOp) (a b : FOp) : Prop :=
  (∃ l r, P = l ++ a :: b :: r) ∧ IsLayerOp mods a ∧ IsNormOp mods b

/-- A traced model: wires are written once and before they are read; layers and batch-norms are called
once, by the operation that carries their name. -/
structure FoldTrace (mods : Dict String (FoldMod K)) (P : List FOp) : Prop where
  names : (P.map FOp.name).Nodup
  outs : (P.map FOp.out).Nodup
  order : P.Pairwise fun a b => b.out ∉ a.ins
  self : ∀ a ∈ P, a.out ∉ a.ins
  once : ∀ a ∈ P, ∀ m, a.mod = some m → (∃ l, mods.get? m = some (.layer l)) ∨ (∃ n, mods.get? m = some (.bn n)) → a.name = m
  named : ∀ a ∈ P, IsLayerOp mods a ∨ IsNormOp mods a → a.mod = some a.name

/-- A batch-norm that runs directly after a layer reads the output of that layer; if moreover another layer
runs directly before the two, nothing else reads that output. -/
structure FoldWired (mods : Dict String (FoldMod K)) (P : List FOp) : Prop where
  conn : ∀ a b, RunsAfter mods P a b → b.ins = [a.out]
  split : ∀ l p a b r, P = l ++ p :: a :: b :: r → IsLayerOp mods p → IsLayerOp mods a → IsNormOp mods b →
    ∀ c ∈ P, a.out ∈ c.ins → c = b

/-! ## Which pairs are fused -/

/-- Nodes are layers, batch-norms or neither. -/
def FNode.One (x : FNode) : Prop := ¬ (0 ∈ x.types ∧ 1 ∈ x.types)

theorem fuse2_inv (nodes : List FNode) (h1 : ∀ x ∈ nodes, x.One) :
    let s := nodes.foldl (FState.step 2) ⟨0, [], []⟩
    ((s.idx = 0 ∧ s.seq = []) ∨ ∃ l x, nodes = l ++ [x] ∧ s.idx = 1 ∧ s.seq = [x] ∧ x.isModule = true ∧ 0 ∈ x.types ∧
      (x.succs.length ≤ 1 ∨ ∃ l' y, l = l' ++ [y] ∧ y.isModule = true ∧ 0 ∈ y.types)) ∧
    (∀ q ∈ s.out, ∃ l a b r, nodes = l ++ a :: b :: r ∧ q = [a, b] ∧ a.isModule = true ∧ 0 ∈ a.types ∧ b.isModule = true ∧ 1 ∈ b.types ∧
      (a.succs.length ≤ 1 ∨ ∃ l' y, l = l' ++ [y] ∧ y.isModule = true ∧ 0 ∈ y.types)) ∧
    (∀ l x, nodes = l ++ [x] → x.isModule = true → 0 ∈ x.types → x.succs.length ≤ 1 → s.idx = 1 ∧ s.seq = [x]) := by
  induction nodes using List.reverseRecOn with
  | nil => simp
  | append_singleton nodes node ih =>
    rw [List.foldl_append]
    simp only [List.foldl_cons, List.foldl_nil]
    obtain ⟨i1, i2, _⟩ := ih fun x hx => h1 x (by simp [hx])
    have hone := h1 node (by simp)
    generalize nodes.foldl (FState.step 2) ⟨0, [], []⟩ = s at i1 i2 ⊢
    have ho : ∀ q ∈ s.out, ∃ l a b r, nodes ++ [node] = l ++ a :: b :: r ∧ q = [a, b] ∧ a.isModule = true ∧ 0 ∈ a.types ∧
        b.isModule = true ∧ 1 ∈ b.types ∧ (a.succs.length ≤ 1 ∨ ∃ l' y, l = l' ++ [y] ∧ y.isModule = true ∧ 0 ∈ y.types) := by
      intro q hq
      obtain ⟨l, a, b, r, e, h⟩ := i2 q hq
      exact ⟨l, a, b, r ++ [node], by rw [e]; simp, h⟩
    have lastEq : ∀ l x, nodes ++ [node] = l ++ [x] → l = nodes ∧ x = node := by
      intro l x h
      have := List.append_inj' h rfl
      exact ⟨this.1.symm, by simpa using this.2.symm⟩
    unfold FState.step
    by_cases c1 : node.isModule = false
    · rw [if_pos c1]
      refine ⟨Or.inl ⟨rfl, rfl⟩, ho, ?_⟩
      intro l x h hx; obtain ⟨_, rfl⟩ := lastEq l x h; simp [hx] at c1
    rw [if_neg c1]
    have hmod : node.isModule = true := by simpa using c1
    rcases i1 with ⟨hi, hs⟩ | ⟨l0, x, e0, hi, hs, hx1, hx2, hx3⟩
    · rw [hi, hs]
      by_cases c2 : 0 ∈ node.types
      · rw [if_pos c2, if_neg (by omega)]
        by_cases c3 : 1 < node.succs.length
        · rw [if_pos c3]
          refine ⟨Or.inl ⟨rfl, rfl⟩, ho, ?_⟩
          intro l x h _ _ hx; obtain ⟨_, rfl⟩ := lastEq l x h; omega
        · rw [if_neg c3]
          refine ⟨Or.inr ⟨nodes, node, rfl, rfl, rfl, hmod, c2, Or.inl (by omega)⟩, ho, ?_⟩
          intro l x h _ _ hx; obtain ⟨_, rfl⟩ := lastEq l x h; exact ⟨rfl, rfl⟩
      · rw [if_neg c2, if_neg c2]
        refine ⟨Or.inl ⟨rfl, rfl⟩, ho, ?_⟩
        intro l x h _ hx; obtain ⟨_, rfl⟩ := lastEq l x h; exact absurd hx c2
    · rw [hi, hs]
      by_cases c2 : 1 ∈ node.types
      · rw [if_pos c2, if_pos rfl]
        refine ⟨Or.inl ⟨rfl, rfl⟩, ?_, ?_⟩
        · intro q hq
          rcases List.mem_append.1 hq with hq | hq
          · exact ho q hq
          · simp at hq
            exact ⟨l0, x, node, [], by rw [e0]; simp, hq, hx1, hx2, hmod, c2, hx3⟩
        · intro l x h _ hx; obtain ⟨_, rfl⟩ := lastEq l x h; exact absurd ⟨hx, c2⟩ hone
      · rw [if_neg c2]
        by_cases c3 : 0 ∈ node.types
        · rw [if_pos c3]
          refine ⟨Or.inr ⟨nodes, node, rfl, rfl, rfl, hmod, c3, Or.inr ⟨l0, x, e0, hx1, hx2⟩⟩, ho, ?_⟩
          intro l x h _ _ hx; obtain ⟨_, rfl⟩ := lastEq l x h; exact ⟨rfl, rfl⟩
        · rw [if_neg c3]
          refine ⟨Or.inl ⟨rfl, rfl⟩, ho, ?_⟩
          intro l x h _ hx; obtain ⟨_, rfl⟩ := lastEq l x h; exact absurd hx c3

theorem step_out_mono (n : ℕ) (nodes : List FNode) (s : FState) : ∀ q ∈ s.out, q ∈ (nodes.foldl (FState.step n) s).out := by
  induction nodes generalizing s with
  | nil => exact fun q h => h
  | cons x nodes ih =>
    intro q h
    refine ih _ q ?_
    unfold FState.step
    split_ifs <;> simp [h]

theorem fuse2_complete (l : List FNode) (a b : FNode) (r : List FNode) (h1 : ∀ x ∈ l ++ a :: b :: r, x.One)
    (ha : a.isModule = true) (ha0 : 0 ∈ a.types) (hs : a.succs.length ≤ 1) (hb : b.isModule = true) (hb1 : 1 ∈ b.types) :
    [a, b] ∈ fusedSequences 2 (l ++ a :: b :: r) := by
  obtain ⟨_, _, h⟩ := fuse2_inv (l ++ [a]) fun x hx => h1 x (by
    rcases List.mem_append.1 hx with h | h
    · simp [h]
    · simp at h; simp [h])
  obtain ⟨e1, e2⟩ := h l a rfl ha ha0 hs
  have e : l ++ a :: b :: r = (l ++ [a]) ++ b :: r := by simp
  unfold fusedSequences
  rw [e, List.foldl_append, List.foldl_cons]
  apply step_out_mono
  generalize (l ++ [a]).foldl (FState.step 2) ⟨0, [], []⟩ = s at e1 e2 ⊢
  unfold FState.step
  rw [e1, e2, if_neg (by simp [hb]), if_pos hb1, if_pos rfl]
  simp

theorem foldNode_one (mods : Dict String (FoldMod K)) (P : List FOp) (o : FOp) : (foldNode mods P o).One := by
  unfold FNode.One foldNode
  cases mods.get? o.name with
  | none => simp
  | some m => cases m <;> simp [FoldMod.types]

theorem node_layer {mods : Dict String (FoldMod K)} {P : List FOp} {o : FOp} :
    ((foldNode mods P o).isModule = true ∧ 0 ∈ (foldNode mods P o).types) ↔ IsLayerOp mods o := by
  unfold foldNode IsLayerOp
  cases mods.get? o.name with
  | none => simp
  | some m => cases m <;> simp [FoldMod.types]

theorem node_norm {mods : Dict String (FoldMod K)} {P : List FOp} {o : FOp} :
    ((foldNode mods P o).isModule = true ∧ 1 ∈ (foldNode mods P o).types) ↔ IsNormOp mods o := by
  unfold foldNode IsNormOp
  cases mods.get? o.name with
  | none => simp
  | some m => cases m <;> simp [FoldMod.types]

/-- The fused sequences are pairs of a layer and a batch-norm running directly after it; either nothing but
one operation reads the layer's output or another layer runs directly before. -/
theorem fused_pairs (mods : Dict String (FoldMod K)) (P : List FOp) (q : List FNode)
    (hq : q ∈ fusedSequences 2 (P.map (foldNode mods P))) :
    ∃ l a b r, P = l ++ a :: b :: r ∧ q = [foldNode mods P a, foldNode mods P b] ∧ IsLayerOp mods a ∧ IsNormOp mods b ∧
      ((foldNode mods P a).succs.length ≤ 1 ∨ ∃ l' p, l = l' ++ [p] ∧ IsLayerOp mods p) := by
  obtain ⟨_, h, _⟩ := fuse2_inv (P.map (foldNode mods P)) fun x hx => by
    obtain ⟨o, _, rfl⟩ := List.mem_map.1 hx
    exact foldNode_one mods P o
  obtain ⟨l, a, b, r, e, rfl, a1, a2, b1, b2, h3⟩ := h q hq
  rw [List.map_eq_append_iff] at e
  obtain ⟨l', r', rfl', e1, e2⟩ := e
  rw [List.map_eq_cons_iff] at e2
  obtain ⟨a', r2, rfl, e3, e4⟩ := e2
  rw [List.map_eq_cons_iff] at e4
  obtain ⟨b', r3, rfl, e5, e6⟩ := e4
  refine ⟨l', a', b', r3, rfl', by rw [e3, e5], node_layer.1 (by rw [e3]; exact ⟨a1, a2⟩), node_norm.1 (by rw [e5]; exact ⟨b1, b2⟩), ?_⟩
  rcases h3 with h3 | ⟨l2, y, e7, y1, y2⟩
  · left; rw [e3]; exact h3
  · right
    rw [← e1, List.map_eq_append_iff] at e7
    obtain ⟨u, v, rfl, _, e8⟩ := e7
    rw [List.map_eq_singleton_iff] at e8
    obtain ⟨p, rfl, e9⟩ := e8
    exact ⟨u, p, rfl, node_layer.1 (by rw [e9]; exact ⟨y1, y2⟩)⟩

/-! ## What happens to the modules -/

/-- The module put in the place of the layer. -/
def foldRes (sig : K → K) (inference : Bool) (l : FoldLayer K) (n : FoldNorm K) : FoldMod K :=
  if inference then .layer (l.folded sig n) else .sim l n

theorem foldBn_ok {sig : K → K} {inference : Bool} {l : FoldLayer K} {n : FoldNorm K} {r : Option (FoldMod K)}
    (h : foldBn sig inference l n = .ok r) :
    kindsMatch l.kind n.kind = true ∧ (n.tracks = true → r = some (foldRes sig inference l n)) ∧ (n.tracks = false → r = none) := by
  unfold foldBn at h
  split_ifs at h with c1 c2 c3 c4 c5
  · cases h; exact ⟨by simpa using c3, by simp [c4], fun _ => rfl⟩
  · cases h; exact ⟨by simpa using c3, fun _ => by simp [foldRes, c5], by simp [c4]⟩
  · cases h; exact ⟨by simpa using c3, fun _ => by simp [foldRes, c5], by simp [c4]⟩

theorem fuse_table (sig : K → K) (inference : Bool) (orig : Dict String (FoldMod K)) (S : List (List FNode))
    (hn : (S.flatten.map FNode.name).Nodup) (m0 m' : Dict String (FoldMod K))
    (h : S.foldlM (fuseSeq sig inference orig) m0 = .ok m') :
    (∀ x, (∀ q ∈ S, ∀ a ∈ q, a.name ≠ x) → m'.get? x = m0.get? x) ∧
    ∀ q ∈ S, ∃ a b l n, q = [a, b] ∧ orig.get? a.name = some (.layer l) ∧ orig.get? b.name = some (.bn n) ∧
      kindsMatch l.kind n.kind = true ∧
      (n.tracks = true → m'.get? a.name = some (foldRes sig inference l n) ∧ m'.get? b.name = some .identity) ∧
      (n.tracks = false → m'.get? a.name = m0.get? a.name ∧ m'.get? b.name = m0.get? b.name) := by
  induction S generalizing m0 with
  | nil =>
    cases h
    exact ⟨fun _ _ => rfl, by simp⟩
  | cons q S ih =>
    rw [List.foldlM_cons] at h
    obtain ⟨m1, h1, h⟩ := ok_bind h
    have hn' : (q.map FNode.name ++ S.flatten.map FNode.name).Nodup := by simpa [List.flatten_cons] using hn
    rw [List.nodup_append] at hn'
    obtain ⟨hq, hS, hd⟩ := hn'
    obtain ⟨i1, i2⟩ := ih hS m1 h
    have hdis : ∀ a ∈ q, ∀ q' ∈ S, ∀ a' ∈ q', a'.name ≠ a.name := by
      intro a ha q' hq' a' ha' e
      exact hd a.name (List.mem_map_of_mem ha) a'.name (List.mem_map_of_mem (List.mem_flatten.2 ⟨q', hq', ha'⟩)) e.symm
    -- the pair
    unfold fuseSeq at h1
    split at h1
    next _ a b =>
      split at h1
      next _ _ l n hl hb =>
        cases hf : foldBn sig inference l n with
        | error e => rw [hf] at h1; cases h1
        | ok r =>
          rw [hf] at h1
          obtain ⟨k1, k2, k3⟩ := foldBn_ok hf
          have hab : a.name ≠ b.name := by
            simp only [List.map_cons, List.map_nil, List.nodup_cons, List.mem_singleton] at hq
            exact hq.1
          have hm1 : ∀ x, x ≠ a.name → x ≠ b.name → m1.get? x = m0.get? x := by
            intro x h2 h3
            cases r with
            | none => cases h1; rfl
            | some m =>
              cases h1
              show Dict.get? (Dict.set (Dict.set m0 a.name m) b.name .identity) x = _
              rw [get?_set_ne _ _ h3.symm, get?_set_ne _ _ h2.symm]
          have ea := i1 a.name (fun q' hq' a' ha' => hdis a (by simp) q' hq' a' ha')
          have eb := i1 b.name (fun q' hq' a' ha' => hdis b (by simp) q' hq' a' ha')
          refine ⟨?_, ?_⟩
          · intro x hx
            have := hx [a, b] (by simp)
            rw [i1 x fun q' hq' => hx q' (by simp [hq']), hm1 x (fun e => this a (by simp) e.symm) (fun e => this b (by simp) e.symm)]
          · intro q' hq'
            rcases List.mem_cons.1 hq' with rfl | hq'
            · refine ⟨a, b, l, n, rfl, hl, hb, k1, ?_, ?_⟩
              · intro ht
                rw [k2 ht] at h1
                cases h1
                rw [ea, eb]
                show Dict.get? (Dict.set (Dict.set m0 a.name _) b.name .identity) _ = _ ∧ Dict.get? (Dict.set (Dict.set m0 a.name _) b.name .identity) _ = _
                rw [get?_set_ne _ _ hab.symm, get?_set_self, get?_set_self]
                exact ⟨rfl, rfl⟩
              · intro ht
                rw [k3 ht] at h1
                cases h1
                exact ⟨ea, eb⟩
            · obtain ⟨a', b', l', n', rfl, g1, g2, g3, g4, g5⟩ := i2 q' hq'
              refine ⟨a', b', l', n', rfl, g1, g2, g3, g4, fun ht => ?_⟩
              have n1 : ∀ c ∈ [a', b'], c.name ≠ a.name ∧ c.name ≠ b.name := fun c hc =>
                ⟨hdis a (by simp) _ hq' c hc, hdis b (by simp) _ hq' c hc⟩
              obtain ⟨u1, u2⟩ := g5 ht
              rw [u1, u2, hm1 _ (n1 a' (by simp)).1 (n1 a' (by simp)).2, hm1 _ (n1 b' (by simp)).1 (n1 b' (by simp)).2]
              exact ⟨rfl, rfl⟩
      next => cases h1
    next => cases h1

theorem pair_nodup {mods : Dict String (FoldMod K)} {P : List FOp} (hn : (P.map FOp.name).Nodup) :
    (((fusedSequences 2 (P.map (foldNode mods P))).flatten).map FNode.name).Nodup := by
  obtain ⟨h, _⟩ := C68_fused_partial 2 (P.map (foldNode mods P))
  refine (h.map FNode.name).nodup ?_
  rw [List.map_map]
  exact hn

/-- The folded layer computes the layer followed by its batch-norm. -/
theorem foldRes_fwd (sig : K → K) (inference : Bool) (l : FoldLayer K) (n : FoldNorm K) (ht : n.tracks = true)
    (hs : ∀ c, sig (n.var c) ≠ 0) (xs : List (FVal K)) :
    (foldRes sig inference l n).fwd sig xs = n.fwd sig (l.fwd (xs.headD 0)) := by
  have hs' : ∀ c, (sig (n.var c)) ≠ 0 := hs
  unfold foldRes
  cases inference with
  | true =>
    funext c p
    have := hs' c
    show dotK ((l.w c).map (· * (n.gamma c * (1 / sig (n.var c))))) (l.geom c p (xs.headD 0)) +
      (n.beta c - n.gamma c * (n.mean c - (l.b.map (· c)).getD 0) * (1 / sig (n.var c))) = _
    rw [dotK_scale]
    simp only [FoldNorm.fwd, ht, if_true, FoldLayer.fwd]
    field_simp
    ring
  | false =>
    funext c p
    have := hs' c
    show dotK ((l.w c).map (· * (n.gamma c * (1 / sig (n.var c))))) (l.geom c p (xs.headD 0)) +
      (n.beta c - n.gamma c * (n.mean c - (l.b.map (· c)).getD 0) * (1 / sig (n.var c))) = _
    rw [dotK_scale]
    simp only [FoldNorm.fwd, ht, if_true, FoldLayer.fwd]
    field_simp
    ring

/-! ## C133 -/

/-- `b` is the batch-norm `n`, with statistics, that was folded into `a`. -/
def FoldedPair (mods : Dict String (FoldMod K)) (P : List FOp) (a b : FOp) (l : FoldLayer K) (n : FoldNorm K) : Prop :=
  a ∈ P ∧ b ∈ P ∧ RunsAfter mods P a b ∧ mods.get? a.name = some (.layer l) ∧ mods.get? b.name = some (.bn n) ∧ n.tracks = true ∧
    [foldNode mods P a, foldNode mods P b] ∈ fusedSequences 2 (P.map (foldNode mods P))

theorem name_inj {P : List FOp} (h : (P.map FOp.name).Nodup) {a b : FOp} (ha : a ∈ P) (hb : b ∈ P) (e : a.name = b.name) : a = b :=
  List.inj_on_of_nodup_map h ha hb e

theorem FoldedPair.wired {mods : Dict String (FoldMod K)} {P : List FOp} {a b : FOp} {l : FoldLayer K} {n : FoldNorm K}
    (h : FoldedPair mods P a b l n) (H : FoldTrace mods P) (W : FoldWired mods P) :
    b.ins = [a.out] ∧ ∀ c ∈ P, a.out ∈ c.ins → c = b := by
  obtain ⟨ha, hb, hr, hl, hn, ht, hq⟩ := h
  have hc := W.conn a b hr
  refine ⟨hc, ?_⟩
  obtain ⟨u, a', b', v, e, e2, hl', hn', h3⟩ := fused_pairs mods P _ hq
  have ea : a = a' := name_inj H.names ha (by rw [e]; simp) (by
    have : foldNode mods P a = foldNode mods P a' := by simpa using (List.cons.inj e2).1
    exact congrArg FNode.name this)
  have eb : b = b' := name_inj H.names hb (by rw [e]; simp) (by
    have : foldNode mods P b = foldNode mods P b' := by simpa using (List.cons.inj (List.cons.inj e2).2).1
    exact congrArg FNode.name this)
  subst ea eb
  rcases h3 with h3 | ⟨u', p, rfl, hp⟩
  · intro c hcP hin
    have hlen : (P.filter fun b => b.ins.contains a.out).length ≤ 1 := by simpa [foldNode] using h3
    have m1 : b ∈ P.filter fun b => b.ins.contains a.out := by simp [hb, hc]
    have m2 : c ∈ P.filter fun b => b.ins.contains a.out := by simp [hcP, hin]
    obtain ⟨x, hx⟩ : ∃ x, P.filter (fun b => b.ins.contains a.out) = [x] := by
      apply List.length_eq_one_iff.1
      have := List.length_pos_of_mem m1
      omega
    rw [hx, List.mem_singleton] at m1 m2
    rw [m1, m2]
  · exact W.split u' p a b v (by rw [e]; simp) hp hl' hn'

theorem FoldedPair.unique {mods : Dict String (FoldMod K)} {P : List FOp} {a b b' : FOp} {l l' : FoldLayer K} {n n' : FoldNorm K}
    (H : FoldTrace mods P) (W : FoldWired mods P) (h : FoldedPair mods P a b l n) (h' : FoldedPair mods P a b' l' n') : b = b' ∧ l = l' ∧ n = n' := by
  have e1 := (h'.wired H W).2 b h.2.1 (by rw [(h.wired H W).1]; simp)
  subst e1
  obtain ⟨_, _, _, h1, h2, _⟩ := h
  obtain ⟨_, _, _, h3, h4, _⟩ := h'
  rw [h1] at h3; rw [h2] at h4
  cases h3; cases h4
  exact ⟨rfl, rfl, rfl⟩

/-- **C133** (modules): folding changes exactly the layers directly followed by a batch-norm with running
statistics (whose output only the batch-norm reads, or after another layer), which get the folded
parameters, and these batch-norms, which become identities; everything else stays as it was. -/
theorem C133_modules (sig : K → K) (inference : Bool) (mods mods' : Dict String (FoldMod K)) (P : List FOp)
    (hn : (P.map FOp.name).Nodup) (h : foldBatchNorms sig inference mods P = .ok mods') :
    (∀ x, (∀ a b l n, FoldedPair mods P a b l n → x ≠ a.name ∧ x ≠ b.name) → mods'.get? x = mods.get? x) ∧
    (∀ a b l n, FoldedPair mods P a b l n → n.kind = l.kind.norm ∧
      mods'.get? a.name = some (foldRes sig inference l n) ∧ mods'.get? b.name = some .identity) ∧
    (∀ a b l n, RunsAfter mods P a b → mods.get? a.name = some (.layer l) → mods.get? b.name = some (.bn n) → n.tracks = true →
      (∀ c ∈ P, ∀ d ∈ P, a.out ∈ c.ins → a.out ∈ d.ins → c = d) → FoldedPair mods P a b l n) := by
  have hcomp : ∀ a b l n, RunsAfter mods P a b → mods.get? a.name = some (.layer l) → mods.get? b.name = some (.bn n) → n.tracks = true →
      (∀ c ∈ P, ∀ d ∈ P, a.out ∈ c.ins → a.out ∈ d.ins → c = d) → FoldedPair mods P a b l n := by
    intro a b l n hr hl hb ht hu
    obtain ⟨⟨u, v, e⟩, h1, h2⟩ := hr
    have ha : a ∈ P := by rw [e]; simp
    have hbP : b ∈ P := by rw [e]; simp
    refine ⟨ha, hbP, ⟨⟨u, v, e⟩, h1, h2⟩, hl, hb, ht, ?_⟩
    have hlen : (foldNode mods P a).succs.length ≤ 1 := by
      simp only [foldNode, List.length_map]
      have hnd : (P.filter fun b => b.ins.contains a.out).Nodup := (List.Nodup.of_map _ hn).filter _
      by_contra hc
      rcases hf : P.filter (fun b => b.ins.contains a.out) with _ | ⟨x, _ | ⟨y, t⟩⟩
      · rw [hf] at hc; simp at hc
      · rw [hf] at hc; simp at hc
      · have hx : x ∈ P.filter fun b => b.ins.contains a.out := by rw [hf]; simp
        have hy : y ∈ P.filter fun b => b.ins.contains a.out := by rw [hf]; simp
        simp only [List.mem_filter, List.contains_iff_mem] at hx hy
        have := hu x hx.1 y hy.1 hx.2 hy.2
        rw [hf] at hnd
        simp [this] at hnd
    have := fuse2_complete (u.map (foldNode mods P)) (foldNode mods P a) (foldNode mods P b) (v.map (foldNode mods P))
      (by
        intro x hx
        simp only [List.mem_append, List.mem_cons, List.mem_map] at hx
        rcases hx with ⟨o, _, rfl⟩ | rfl | rfl | ⟨o, _, rfl⟩ <;> exact foldNode_one _ _ _)
      (node_layer.2 h1).1 (node_layer.2 h1).2 hlen (node_norm.2 h2).1 (node_norm.2 h2).2
    have e' : P.map (foldNode mods P) = u.map (foldNode mods P) ++ foldNode mods P a :: foldNode mods P b :: v.map (foldNode mods P) := by
      rw [show P.map (foldNode mods P) = (u ++ a :: b :: v).map (foldNode mods P) from by rw [← e]]
      simp
    rw [e']; exact this
  unfold foldBatchNorms at h
  by_cases hh : hasNorm mods = true
  · rw [if_pos hh] at h
    obtain ⟨t1, t2⟩ := fuse_table sig inference mods _ (pair_nodup hn) mods mods' h
    have back : ∀ q ∈ fusedSequences 2 (P.map (foldNode mods P)), ∃ a b, q = [foldNode mods P a, foldNode mods P b] ∧ a ∈ P ∧ b ∈ P ∧ RunsAfter mods P a b := by
      intro q hq
      obtain ⟨l, a, b, r, e, e2, h1, h2, _⟩ := fused_pairs mods P q hq
      exact ⟨a, b, e2, by rw [e]; simp, by rw [e]; simp, ⟨l, r, e⟩, h1, h2⟩
    refine ⟨?_, ?_, hcomp⟩
    · intro x hx
      by_cases hc : ∀ q ∈ fusedSequences 2 (P.map (foldNode mods P)), ∀ a ∈ q, a.name ≠ x
      · exact t1 x hc
      · push Not at hc
        obtain ⟨q, hq, c, hcq, rfl⟩ := hc
        obtain ⟨a', b', l, n, e, hl, hb, _, htr, huntr⟩ := t2 q hq
        obtain ⟨a, b, e2, haP, hbP, hr⟩ := back q hq
        rw [e2] at e
        simp only [List.cons.injEq, and_true] at e
        obtain ⟨rfl, rfl⟩ := e
        have hl : mods.get? a.name = some (.layer l) := hl
        have hb : mods.get? b.name = some (.bn n) := hb
        cases ht : n.tracks with
        | true =>
          have hp : FoldedPair mods P a b l n := ⟨haP, hbP, hr, hl, hb, ht, by rw [← e2]; exact hq⟩
          obtain ⟨x1, x2⟩ := hx a b l n hp
          rw [e2] at hcq
          simp only [List.mem_cons, List.not_mem_nil, or_false] at hcq
          rcases hcq with rfl | rfl
          · exact absurd rfl x1
          · exact absurd rfl x2
        | false =>
          obtain ⟨u1, u2⟩ := huntr ht
          rw [e2] at hcq
          simp only [List.mem_cons, List.not_mem_nil, or_false] at hcq
          rcases hcq with rfl | rfl
          · exact u1
          · exact u2
    · intro a b l n hp
      obtain ⟨haP, hbP, hr, hl, hb, ht, hq⟩ := hp
      obtain ⟨a', b', l', n', e, hl', hb', hk, htr, _⟩ := t2 _ hq
      simp only [List.cons.injEq, and_true] at e
      obtain ⟨rfl, rfl⟩ := e
      have hl' : mods.get? a.name = some (.layer l') := hl'
      have hb' : mods.get? b.name = some (.bn n') := hb'
      rw [hl] at hl'; rw [hb] at hb'
      cases hl'; cases hb'
      exact ⟨(kindsMatch_iff _ _).1 hk, htr ht⟩
  · rw [if_neg hh] at h
    cases h
    refine ⟨fun _ _ => rfl, ?_, hcomp⟩
    intro a b l n hp
    exfalso
    apply hh
    unfold hasNorm
    rw [List.any_eq_true]
    exact ⟨_, mem_of_get? hp.2.2.2.2.1, rfl⟩

/-- **C133**: if layers and batch-norms are called once, and batch-norms that run directly after a layer are
wired to it, then the model with folded batch-norms (either kind of folding) computes, on every input, the
same values as before on every wire but the inputs of folded batch-norms; in particular the same outputs.
Missing for the full property: models that violate these conditions, on which the code changes the function
(`C133_violated_*`). -/
theorem C133_network_partial (sig : K → K) (call : String → List (FVal K) → FVal K) (inference : Bool) (mods mods' : Dict String (FoldMod K))
    (P : List FOp) (H : FoldTrace mods P) (W : FoldWired mods P) (h : foldBatchNorms sig inference mods P = .ok mods')
    (hs : ∀ x n, mods.get? x = some (.bn n) → ∀ c, sig (n.var c) ≠ 0) (env : ℕ → FVal K) (w : ℕ)
    (hw : ∀ a b, RunsAfter mods P a b → a.out ≠ w) :
    foldRun sig call mods' P env w = foldRun sig call mods P env w := by
  obtain ⟨t1, t2, _⟩ := C133_modules sig inference mods mods' P H.names h
  have key : ∀ (l pre : List FOp) (e e0 : ℕ → FVal K), P = pre ++ l →
      (∀ a ∈ pre, ∀ b k n, FoldedPair mods P a b k n → e a.out = n.fwd sig (e0 a.out)) →
      (∀ w, (∀ a ∈ pre, ∀ b k n, FoldedPair mods P a b k n → a.out ≠ w) → e w = e0 w) →
      ∀ w, (∀ a ∈ P, ∀ b k n, FoldedPair mods P a b k n → a.out ≠ w) →
        l.foldl (foldRunOp sig call mods') e w = l.foldl (foldRunOp sig call mods) e0 w := by
    intro l
    induction l with
    | nil =>
      intro pre e e0 hP _ hB w hw
      rw [List.append_nil] at hP
      subst hP
      exact hB w hw
    | cons o l ih =>
      intro pre e e0 hP hA hB w hw
      have ho : o ∈ P := by rw [hP]; simp
      have outne : ∀ a ∈ pre, a.out ≠ o.out := by
        intro a ha
        have := H.outs
        rw [hP, List.map_append, List.nodup_append] at this
        exact this.2.2 a.out (List.mem_map_of_mem ha) o.out (by simp)
      rw [List.foldl_cons, List.foldl_cons]
      refine ih (pre ++ [o]) _ _ (by rw [hP]; simp) ?_ ?_ w hw
      · -- folded layers
        intro a ha b k n hp
        rcases List.mem_append.1 ha with ha | ha
        · unfold foldRunOp
          rw [Function.update_of_ne (outne a ha), Function.update_of_ne (outne a ha)]
          exact hA a ha b k n hp
        · simp only [List.mem_singleton] at ha
          subst ha
          have hin : ∀ v ∈ a.ins, e v = e0 v := by
            intro v hv
            refine hB v fun a2 ha2 b2 k2 n2 hp2 e2 => ?_
            subst e2
            have := (hp2.wired H W).2 a ho hv
            subst this
            have h1 := hp2.2.2.2.2.1
            rw [hp.2.2.2.1] at h1
            cases h1
          have hmod := H.named a ho (Or.inl ⟨k, hp.2.2.2.1⟩)
          unfold foldRunOp
          rw [Function.update_self, Function.update_self, hmod]
          simp only
          rw [(t2 a b k n hp).2.1, hp.2.2.2.1, Option.getD_some, Option.getD_some,
            foldRes_fwd sig inference k n hp.2.2.2.2.2.1 (hs _ _ hp.2.2.2.2.1), List.map_congr_left hin]
          rfl
      · intro v hv
        by_cases hvo : v = o.out
        · subst hvo
          unfold foldRunOp
          rw [Function.update_self, Function.update_self]
          have hnl : ∀ b k n, ¬ FoldedPair mods P o b k n := fun b k n hp => hv o (by simp) b k n hp rfl
          by_cases hnb : ∃ a k n, FoldedPair mods P a o k n
          · -- a folded batch-norm
            obtain ⟨a, k, n, hp⟩ := hnb
            have hmod := H.named o ho (Or.inr ⟨n, hp.2.2.2.2.1⟩)
            obtain ⟨hins, _⟩ := hp.wired H W
            have hapre : a ∈ pre := by
              have haP := hp.1
              rw [hP] at haP
              rcases List.mem_append.1 haP with h' | h'
              · exact h'
              · exfalso
                rcases List.mem_cons.1 h' with rfl | h'
                · exact H.self a ho (by rw [hins]; simp)
                · have hord := H.order
                  rw [hP, List.pairwise_append] at hord
                  exact (List.rel_of_pairwise_cons hord.2.1 h') (by rw [hins]; simp)
            rw [hmod]
            simp only
            rw [(t2 a o k n hp).2.2, hp.2.2.2.2.1, hins]
            simp only [Option.getD_some, List.map_cons, List.map_nil, FoldMod.fwd, List.headD_cons]
            exact hA a hapre o k n hp
          · -- neither
            have hin : ∀ v ∈ o.ins, e v = e0 v := by
              intro v hv
              refine hB v fun a2 ha2 b2 k2 n2 hp2 e2 => ?_
              subst e2
              have := (hp2.wired H W).2 o ho hv
              subst this
              exact hnb ⟨a2, k2, n2, hp2⟩
            rw [List.map_congr_left hin]
            cases hm : o.mod with
            | none => rfl
            | some m =>
              simp only
              rw [t1 m]
              intro a b k n hp
              constructor
              · rintro rfl
                have := H.once o ho _ hm (Or.inl ⟨k, hp.2.2.2.1⟩)
                have := name_inj H.names ho hp.1 this
                subst this
                exact hnl b k n hp
              · rintro rfl
                have := H.once o ho _ hm (Or.inr ⟨n, hp.2.2.2.2.1⟩)
                have := name_inj H.names ho hp.2.1 this
                subst this
                exact hnb ⟨a, k, n, hp⟩
        · unfold foldRunOp
          rw [Function.update_of_ne hvo, Function.update_of_ne hvo]
          exact hB v fun a ha b k n hp => hv a (by simp [ha]) b k n hp
  exact key P [] env env rfl (by simp) (fun _ _ => rfl) w fun a _ b k n hp => hw a b hp.2.2.1

/-- **C133** (success): folding succeeds if every batch-norm that runs directly after a layer has the
dimension of that layer and is not torchvision's frozen batch-norm. -/
theorem C133_succeeds (sig : K → K) (inference : Bool) (mods : Dict String (FoldMod K)) (P : List FOp)
    (hk : ∀ a b l n, RunsAfter mods P a b → mods.get? a.name = some (.layer l) → mods.get? b.name = some (.bn n) → n.kind = l.kind.norm) :
    ∃ mods', foldBatchNorms sig inference mods P = .ok mods' := by
  unfold foldBatchNorms
  split
  · have : ∀ (S : List (List FNode)) (m0 : Dict String (FoldMod K)), (∀ q ∈ S, q ∈ fusedSequences 2 (P.map (foldNode mods P))) →
        ∃ m', S.foldlM (fuseSeq sig inference mods) m0 = .ok m' := by
      intro S
      induction S with
      | nil => intro m0 _; exact ⟨m0, rfl⟩
      | cons q S ih =>
        intro m0 hS
        obtain ⟨l, a, b, r, e, rfl, ⟨k, h1⟩, ⟨n, h2⟩, _⟩ := fused_pairs mods P q (hS q (by simp))
        have hm := (kindsMatch_iff _ _).2 (hk a b k n ⟨⟨l, r, e⟩, ⟨k, h1⟩, ⟨n, h2⟩⟩ h1 h2)
        have hf : ∃ x, foldBn sig inference k n = .ok x := by
          unfold foldBn
          rw [if_neg (by intro c; rw [c] at hm; cases k.kind <;> simp [kindsMatch] at hm), if_neg (by simp [hm])]
          split_ifs <;> exact ⟨_, rfl⟩
        obtain ⟨x, hx⟩ := hf
        have hq : ∃ m1, fuseSeq sig inference mods m0 [foldNode mods P a, foldNode mods P b] = .ok m1 := by
          unfold fuseSeq
          simp only [foldNode, h1, h2, hx]
          exact ⟨_, rfl⟩
        obtain ⟨m1, hm1⟩ := hq
        rw [List.foldlM_cons, hm1]
        exact ih m1 fun q hq => hS q (by simp [hq])
    exact this _ mods fun _ h => h
  · exact ⟨mods, rfl⟩

/-! ## A concrete network, and violations -/

/-- A 1x1 convolution with one channel and weight `k`. -/
def exFoldConv (k : ℚ) : FoldMod ℚ := .layer ⟨.conv2d, fun _ p x => [x 0 p], fun _ => [k], none⟩

/-- A batch-norm with one channel. -/
def exFoldNorm (kind : NormKind) (tracks : Bool) : FoldMod ℚ :=
  .bn ⟨kind, tracks, fun _ => 3, fun _ => 1, fun _ => 5, fun _ => 2, fun _ _ _ => 0⟩

/-- Functional operations add their inputs. -/
def exFoldCall (_ : String) (xs : List (FVal ℚ)) : FVal ℚ := fun c p => (xs.map fun x => x c p).sum

/-- The value on wire `w`, for input 1 and `sqrt(v + eps)` replaced by `v`, before and after folding. -/
def exFoldRun (mods : Dict String (FoldMod ℚ)) (P : List FOp) (w : ℕ) : ℚ × Option ℚ :=
  (foldRun (fun v => v) exFoldCall mods P (fun _ _ _ => 1) w 0 0,
   match foldBatchNorms (fun v => v) true mods P with
   | .ok m => some (foldRun (fun v => v) exFoldCall m P (fun _ _ _ => 1) w 0 0)
   | .error _ => none)

/-- conv → bn → add (with the input) → conv2 → bn2, where bn2 has no running statistics. -/
def exFoldMods : Dict String (FoldMod ℚ) :=
  [("conv", exFoldConv 7), ("bn", exFoldNorm .bn2d true), ("conv2", exFoldConv 2), ("bn2", exFoldNorm .bn2d false)]

/-- The trace of that network. -/
def exFoldOps : List FOp :=
  [⟨"conv", some "conv", [0], 1⟩, ⟨"bn", some "bn", [1], 2⟩, ⟨"add", none, [2, 0], 3⟩, ⟨"conv2", some "conv2", [3], 4⟩, ⟨"bn2", some "bn2", [4], 5⟩]

theorem exFold_trace : FoldTrace exFoldMods exFoldOps := by
  refine ⟨by decide, by decide, by decide, by decide, ?_, ?_⟩
  · intro a ha m hm _
    simp only [exFoldOps, List.mem_cons, List.not_mem_nil, or_false] at ha
    rcases ha with rfl | rfl | rfl | rfl | rfl <;> simp_all
  · intro a ha h
    simp only [exFoldOps, List.mem_cons, List.not_mem_nil, or_false] at ha
    rcases ha with rfl | rfl | rfl | rfl | rfl <;> simp_all [IsLayerOp, IsNormOp, exFoldMods, Dict.get?]

theorem exFold_wired : FoldWired exFoldMods exFoldOps := by
  have split : ∀ l a b r, exFoldOps = l ++ a :: b :: r → IsLayerOp exFoldMods a → IsNormOp exFoldMods b →
      (l = [] ∧ a = ⟨"conv", some "conv", [0], 1⟩ ∧ b = ⟨"bn", some "bn", [1], 2⟩) ∨
      (l = exFoldOps.take 3 ∧ a = ⟨"conv2", some "conv2", [3], 4⟩ ∧ b = ⟨"bn2", some "bn2", [4], 5⟩) := by
    intro l a b r e ha hb
    unfold exFoldOps at e
    rcases l with _ | ⟨x1, _ | ⟨x2, _ | ⟨x3, _ | ⟨x4, l⟩⟩⟩⟩
    · simp at e; left; exact ⟨rfl, e.1.symm, e.2.1.symm⟩
    · simp at e; obtain ⟨_, rfl, rfl, _⟩ := e; simp [IsLayerOp, exFoldMods, Dict.get?, exFoldNorm] at ha
    · simp at e; obtain ⟨_, _, rfl, rfl, _⟩ := e; simp [IsLayerOp, exFoldMods, Dict.get?] at ha
    · simp at e; obtain ⟨rfl, rfl, rfl, rfl, rfl, _⟩ := e; right; exact ⟨rfl, rfl, rfl⟩
    · simp at e
      have := congrArg List.length e.2.2.2.2
      simp at this
      omega
  refine ⟨?_, ?_⟩
  · rintro a b ⟨⟨l, r, e⟩, ha, hb⟩
    rcases split l a b r e ha hb with ⟨_, rfl, rfl⟩ | ⟨_, rfl, rfl⟩ <;> rfl
  · intro l p a b r e hp ha hb
    rcases split (l ++ [p]) a b r (by rw [e]; simp) ha hb with ⟨h, _⟩ | ⟨h, _⟩
    · simp at h
    · exfalso
      have : p = ⟨"add", none, [2, 0], 3⟩ := by
        have := congrArg List.getLast? h
        simpa [exFoldOps] using this
      subst this
      simp [IsLayerOp, exFoldMods, Dict.get?] at hp

example : exFoldRun exFoldMods exFoldOps 2 = (4, some 4) ∧ exFoldRun exFoldMods exFoldOps 4 = (10, some 10) ∧
    (exFoldRun exFoldMods exFoldOps 1) = (7, some 4) := ⟨by decide +kernel, by decide +kernel, by decide +kernel⟩

/-- **C133** is violated if a layer has a second reader and runs directly after another layer: the reader gets
the normalized values. -/
theorem C133_violated_split : ∃ (mods : Dict String (FoldMod ℚ)) (P : List FOp) (y y' : ℚ), exFoldRun mods P 5 = (y, some y') ∧ y ≠ y' ∧
    P = [⟨"conv1", some "conv1", [0], 1⟩, ⟨"conv2", some "conv2", [1], 2⟩, ⟨"bn", some "bn", [2], 3⟩, ⟨"add", none, [2, 3], 5⟩] :=
  ⟨[("conv1", exFoldConv 1), ("conv2", exFoldConv 7), ("bn", exFoldNorm .bn2d true)], _, 11, 8, by decide +kernel, by decide +kernel, rfl⟩

/-- **C133** is violated if a batch-norm runs directly after a layer but reads something else: it is folded
into the layer all the same. -/
theorem C133_violated_not_connected : ∃ (mods : Dict String (FoldMod ℚ)) (P : List FOp) (y y' : ℚ), exFoldRun mods P 3 = (y, some y') ∧ y ≠ y' ∧
    P = [⟨"conv", some "conv", [0], 1⟩, ⟨"bn", some "bn", [0], 2⟩, ⟨"add", none, [1, 2], 3⟩] :=
  ⟨[("conv", exFoldConv 7), ("bn", exFoldNorm .bn2d true)], _, 2, 5, by decide +kernel, by decide +kernel, rfl⟩

/-- **C133** is violated if a layer is called twice: the second call computes the normalized values too. -/
theorem C133_violated_shared_layer : ∃ (mods : Dict String (FoldMod ℚ)) (P : List FOp) (y y' : ℚ), exFoldRun mods P 3 = (y, some y') ∧ y ≠ y' ∧
    P = [⟨"conv", some "conv", [0], 1⟩, ⟨"bn", some "bn", [1], 2⟩, ⟨"conv_1", some "conv", [2], 3⟩] :=
  ⟨[("conv", exFoldConv 7), ("bn", exFoldNorm .bn2d true)], _, 28, 71/2, by decide +kernel, by decide +kernel, rfl⟩

/-- **C133** is violated if a batch-norm is called twice: the second call does nothing any more. -/
theorem C133_violated_shared_norm : ∃ (mods : Dict String (FoldMod ℚ)) (P : List FOp) (y y' : ℚ), exFoldRun mods P 3 = (y, some y') ∧ y ≠ y' ∧
    P = [⟨"conv", some "conv", [0], 1⟩, ⟨"bn", some "bn", [1], 2⟩, ⟨"bn_1", some "bn", [2], 3⟩] :=
  ⟨[("conv", exFoldConv 7), ("bn", exFoldNorm .bn2d true)], _, -1/2, 4, by decide +kernel, by decide +kernel, rfl⟩

/-- **C133** is violated if the output of the layer is also an output of the model: in the graph it has one
reader, so it is replaced by the normalized values. -/
theorem C133_violated_tapped_output : ∃ (y y' : ℚ), exFoldRun exFoldMods exFoldOps 1 = (y, some y') ∧ y ≠ y' :=
  ⟨7, 4, by decide +kernel, by decide +kernel⟩

/-- **C133** is violated by torchvision's frozen batch-norm, which the function claims to fold: folding raises
AttributeError whenever one runs directly after a 2D convolution whose output nothing else reads. -/
theorem C133_violated_frozen (sig : K → K) (inference : Bool) (l : FoldLayer K) (n : FoldNorm K) (hl : l.kind = .conv2d) (hn : n.kind = .frozen2d) :
    foldBatchNorms sig inference [("conv", .layer l), ("bn", .bn n)] [⟨"conv", some "conv", [0], 1⟩, ⟨"bn", some "bn", [1], 2⟩] = .error .attribute := by
  have : fusedSequences 2 ([⟨"conv", some "conv", [0], 1⟩, ⟨"bn", some "bn", [1], 2⟩].map
      (foldNode [("conv", FoldMod.layer l), ("bn", FoldMod.bn n)] [⟨"conv", some "conv", [0], 1⟩, ⟨"bn", some "bn", [1], 2⟩])) =
      [[⟨"conv", true, [0], ["bn"]⟩, ⟨"bn", true, [1], []⟩]] := rfl
  unfold foldBatchNorms
  rw [this]
  show (if true = true then _ else _) = _
  rw [if_pos rfl]
  simp only [List.foldlM_cons, fuseSeq]
  show ((foldBn sig inference l n).map _ >>= _) = _
  have : foldBn sig inference l n = .error .attribute := by unfold foldBn; rw [if_pos hn, if_pos hl]
  rw [this]
  rfl

end Verif
