import Verif.Model.BNFold
import Mathlib.Data.Rat.Defs
import Mathlib.Algebra.Order.Ring.Rat
import Mathlib.Algebra.Field.Rat
import Mathlib.Tactic.FieldSimp
import Mathlib.Tactic.LinearCombination
import Mathlib.Algebra.BigOperators.Ring.List
import Mathlib.Algebra.CharZero.Defs
import Mathlib.Tactic.Ring
import Mathlib.Tactic.Linarith
import Mathlib.Data.List.Induction
/-!
# C40, C67, C68: batch-norm folding and module fusion
-/
namespace Verif
variable {K : Type} [Field K]

/-! ## Specification of batch normalization (torch.nn.BatchNorm) -/

/-- Evaluation mode: running statistics. -/
def bnEval (sig : K → K) (gamma beta rmean rvar y : K) : K := gamma * ((y - rmean) / sig rvar) + beta

/-- Training mode: statistics of the batch `ys` (all values of the channel). -/
def bnTrain (sig : K → K) (gamma beta : K) (ys : List K) (y : K) : K :=
  gamma * ((y - meanK ys) / sig (varK ys)) + beta

theorem dotK_scale (w x : List K) (k : K) : dotK (w.map (· * k)) x = k * dotK w x := by
  induction w generalizing x with
  | nil => simp [dotK]
  | cons a w ih =>
    cases x with
    | nil => simp [dotK]
    | cons b x =>
      have := ih x
      simp only [dotK, List.map_cons, List.zipWith_cons_cons, List.sum_cons] at this ⊢
      rw [this]; ring

/-- **C40** For every layer (with or without bias), statistics, affine parameters (or none) and
input: the folded layer – `fold_batch_norms` in inference mode – returns the batch-norm of the
original layer's output; so does the simulated-folding module in evaluation mode, frozen or not. -/
theorem C40_fold (sig : K → K) (hs : ∀ v, sig v ≠ 0) (s : SimBN K) (hf : s.frozen = false) (x : List K) :
    (s.freeze sig).chans.map (fun c => c.layer x) = s.chans.map (fun c => bnEval sig c.gamma c.beta c.rmean c.rvar (c.layer x)) ∧
    s.evalForward sig x = s.chans.map (fun c => bnEval sig c.gamma c.beta c.rmean c.rvar (c.layer x)) ∧
    (s.freeze sig).evalForward sig x = s.evalForward sig x := by
  have key : ∀ c : BNChan K, dotK (c.w.map (· * (c.gamma * (1 / sig c.rvar)))) x +
      (c.beta - c.gamma * (c.rmean - c.b.getD 0) * (1 / sig c.rvar)) =
      bnEval sig c.gamma c.beta c.rmean c.rvar (c.layer x) := by
    intro c
    rw [dotK_scale]
    unfold bnEval BNChan.layer
    have := hs c.rvar
    field_simp
    ring
  refine ⟨?_, ?_, ?_⟩
  · unfold SimBN.freeze BNChan.fold BNChan.layer
    simp only [List.map_map, Function.comp_def, Option.getD_some]
    apply List.map_congr_left
    intro c _
    exact key c
  · unfold SimBN.evalForward
    simp only [hf]
    apply List.map_congr_left
    intro c _
    simpa using key c
  · unfold SimBN.evalForward SimBN.freeze BNChan.fold
    simp [hf, List.map_map, Function.comp_def]

/-- **C40** The folded weights used for ranking filters while pruning are those of the folded layer. -/
theorem C40_policy_fold (sig : K → K) (c : BNChan K) : policyFold sig c = (c.fold sig).w := by
  unfold policyFold BNChan.fold
  simp [div_eq_mul_inv]

def exBN : SimBN ℚ := ⟨[⟨[1, 2], some 3, 2, 1, 5, 4⟩, ⟨[0, -1], none, 1, 0, 1, 7⟩], 0, false⟩
example : exBN.evalForward (fun v => v / 2) [1, 1] = [2, -4/7] ∧
    ((exBN.freeze (fun v => v / 2)).chans.map fun c => c.layer [1, 1]) = [2, -4/7] := by decide +kernel

/-! ## C67: training mode -/

theorem meanK_shift [CharZero K] (l : List K) (hl : l ≠ []) (b : K) : meanK (l.map (· + b)) = meanK l + b := by
  have hn : (l.length : K) ≠ 0 := Nat.cast_ne_zero.2 (by simpa using hl)
  have hsum : (l.map (· + b)).sum = l.sum + l.length * b := by
    clear hn hl
    induction l with
    | nil => simp
    | cons a l ih => simp only [List.map_cons, List.sum_cons, ih, List.length_cons]; push_cast; ring
  unfold meanK
  rw [hsum, List.length_map]
  field_simp

theorem varK_shift [CharZero K] (l : List K) (hl : l ≠ []) (b : K) : varK (l.map (· + b)) = varK l := by
  unfold varK
  rw [meanK_shift l hl b, List.map_map]
  congr 1
  apply List.map_congr_left
  intro y _
  simp

theorem zip_map_map {α β γ : Type} (l : List α) (f : α → β) (g : α → γ) :
    List.zip (l.map f) (l.map g) = l.map fun a => (f a, g a) := by
  induction l with
  | nil => rfl
  | cons a l ih => simp [ih]

/-- **C67** Training mode, unless the module freezes in this very pass: for every batch the output is
the batch-norm, with the batch's own statistics, of the layer's output including its bias, and the
running statistics are updated exactly as the batch-norm module itself would have on that output
(mean with momentum; variance with the unbiased estimate). -/
theorem C67_training [CharZero K] (sig : K → K) (hs : ∀ v, sig v ≠ 0) (momentum : Option K) (delay : ℕ)
    (s : SimBN K) (hf : s.frozen = false) (hd : s.nbt + 1 ≤ delay) (xs : List (List K)) (hx : xs ≠ []) :
    let r := s.trainForward sig momentum delay xs
    let mom := momentum.getD (1 / ((s.nbt + 1 : ℕ) : K))
    r.2 = xs.map (fun x => s.chans.map fun c => bnTrain sig c.gamma c.beta (xs.map c.layer) (c.layer x)) ∧
    r.1.nbt = s.nbt + 1 ∧ r.1.frozen = false ∧
    r.1.chans.map (fun c => (c.w, c.b)) = s.chans.map (fun c => (c.w, c.b)) ∧
    r.1.chans.map (·.rmean) = s.chans.map (fun c => (1 - mom) * c.rmean + mom * meanK (xs.map c.layer)) ∧
    r.1.chans.map (·.rvar) = s.chans.map (fun c => (1 - mom) * c.rvar + mom *
      (((xs.map c.layer).map fun y => (y - meanK (xs.map c.layer)) * (y - meanK (xs.map c.layer))).sum / (xs.length - 1))) := by
  have hnf : ¬ delay < s.nbt + 1 := by omega
  have hlay : ∀ c : BNChan K, xs.map c.layer = (xs.map (dotK c.w)).map (· + c.b.getD 0) := by
    intro c; simp [List.map_map, Function.comp_def, BNChan.layer]
  have hne : ∀ c : BNChan K, xs.map (dotK c.w) ≠ [] := fun c => by simpa using hx
  have hm : ∀ c : BNChan K, meanK (xs.map c.layer) = meanK (xs.map (dotK c.w)) + c.b.getD 0 := by
    intro c; rw [hlay, meanK_shift _ (hne c)]
  have hv : ∀ c : BNChan K, varK (xs.map c.layer) = varK (xs.map (dotK c.w)) := by
    intro c; rw [hlay, varK_shift _ (hne c)]
  unfold SimBN.trainForward
  simp only [hf, hnf, if_false]
  refine ⟨?_, rfl, rfl, ?_, ?_, ?_⟩
  · simp only [Bool.false_eq_true, if_false]
    apply List.map_congr_left
    intro x _
    rw [zip_map_map, List.map_map]
    apply List.map_congr_left
    intro c _
    simp only [Function.comp_def, BNChan.track]
    rw [dotK_scale]
    unfold bnTrain
    rw [hm, hv]
    unfold BNChan.layer
    have h2 := hs (varK (xs.map (dotK c.w)))
    have h1 := hs (c.rvar * (1 - momentum.getD (1 / ((s.nbt + 1 : ℕ) : K))) + momentum.getD (1 / ((s.nbt + 1 : ℕ) : K)) *
      (varK (xs.map (dotK c.w)) * (((xs.map (dotK c.w)).length : K) / (((xs.map (dotK c.w)).length : K) - 1))))
    generalize sig (c.rvar * _ + _) = t at h1 ⊢
    field_simp
    ring
  · simp only [Bool.false_eq_true, if_false]
    simp [List.map_map, Function.comp_def, BNChan.track]
  · simp only [Bool.false_eq_true, if_false, List.map_map]
    apply List.map_congr_left
    intro c _
    simp only [Function.comp_def, BNChan.track]
    rw [hm]; ring
  · simp only [Bool.false_eq_true, if_false, List.map_map]
    apply List.map_congr_left
    intro c _
    simp only [Function.comp_def, BNChan.track]
    have hn : (xs.length : K) ≠ 0 := Nat.cast_ne_zero.2 (by simpa using hx)
    have e : varK (xs.map (dotK c.w)) =
        (xs.map fun x => (c.layer x - meanK (xs.map c.layer)) * (c.layer x - meanK (xs.map c.layer))).sum / xs.length := by
      rw [← hv]
      unfold varK
      generalize meanK (xs.map c.layer) = t
      unfold meanK
      simp only [List.length_map, List.map_map]
      rfl
    rw [e, List.length_map]
    field_simp

/-- **C67** Once frozen, training passes no longer change anything and compute the folded layer. -/
theorem C67_frozen (sig : K → K) (momentum : Option K) (delay : ℕ) (s : SimBN K) (hf : s.frozen = true)
    (xs : List (List K)) :
    s.trainForward sig momentum delay xs = (s, xs.map (s.evalForward sig)) := by
  unfold SimBN.trainForward SimBN.evalForward
  simp [hf]

example : (exBN.trainForward (fun v => v / 2 + 1) (some (1/2)) 5 [[1, 1], [3, 1]]).2 = [[-1/3, 0], [7/3, 0]] := by
  decide +kernel

/-- **C67** is violated in the pass in which the module freezes: the weights are scaled in place
before they are used and so are scaled twice; the output is neither the batch-norm with the batch
statistics nor the output of the frozen layer. -/
theorem C67_violated_freezing_pass : ∃ (s : SimBN ℚ) (xs : List (List ℚ)) (sig : ℚ → ℚ),
    (∀ v, 0 ≤ v → 0 < sig v) ∧ s.frozen = false ∧
    let r := s.trainForward sig (some (1/2)) 0 xs
    r.1.frozen = true ∧
    r.2 ≠ xs.map (fun x => s.chans.map fun c => bnTrain sig c.gamma c.beta (xs.map c.layer) (c.layer x)) ∧
    r.2 ≠ xs.map (r.1.evalForward sig) :=
  ⟨exBN, [[1, 1], [3, 1]], fun v => v / 2 + 1, fun v hv => by linarith, rfl, by decide +kernel⟩

/-! ## C68: fusing sequences of modules -/

/-- Invariant of the scan. -/
theorem fuse_inv (n : ℕ) (nodes : List FNode) :
    let s := nodes.foldl (FState.step n) ⟨0, [], []⟩
    s.seq.length = s.idx ∧ (∃ p, nodes = p ++ s.seq) ∧ (s.out.flatten ++ s.seq).Sublist nodes ∧
    (∀ (i : ℕ) (m : FNode), s.seq[i]? = some m → m.isModule = true ∧ i ∈ m.types ∧ (1 ≤ i → m.succs.length ≤ 1)) ∧
    (∀ q ∈ s.out, q.length = n ∧ q <:+: nodes ∧
      ∀ (i : ℕ) (m : FNode), q[i]? = some m → m.isModule = true ∧ i ∈ m.types ∧ (1 ≤ i → i + 1 < n → m.succs.length ≤ 1)) := by
  induction nodes using List.reverseRecOn with
  | nil => simp
  | append_singleton nodes node ih =>
    rw [List.foldl_append]
    simp only [List.foldl_cons, List.foldl_nil]
    generalize nodes.foldl (FState.step n) ⟨0, [], []⟩ = s at ih ⊢
    obtain ⟨h1, ⟨p, h2⟩, h3, h4, h5⟩ := ih
    have hout : s.out.flatten.Sublist (nodes ++ [node]) :=
      ((List.sublist_append_left _ _).trans h3).trans (List.sublist_append_left _ _)
    have hq : ∀ q ∈ s.out, q.length = n ∧ q <:+: nodes ++ [node] ∧
      ∀ (i : ℕ) (m : FNode), q[i]? = some m → m.isModule = true ∧ i ∈ m.types ∧ (1 ≤ i → i + 1 < n → m.succs.length ≤ 1) := by
      intro q hq
      obtain ⟨a, ⟨u, v, e⟩, c⟩ := h5 q hq
      exact ⟨a, ⟨u, v ++ [node], by rw [← e]; simp⟩, c⟩
    have hreset : ∀ t : FState, t = ⟨0, [], s.out⟩ →
        t.seq.length = t.idx ∧ (∃ p, nodes ++ [node] = p ++ t.seq) ∧ (t.out.flatten ++ t.seq).Sublist (nodes ++ [node]) ∧
        (∀ (i : ℕ) (m : FNode), t.seq[i]? = some m → m.isModule = true ∧ i ∈ m.types ∧ (1 ≤ i → m.succs.length ≤ 1)) ∧
        (∀ q ∈ t.out, q.length = n ∧ q <:+: nodes ++ [node] ∧
          ∀ (i : ℕ) (m : FNode), q[i]? = some m → m.isModule = true ∧ i ∈ m.types ∧ (1 ≤ i → i + 1 < n → m.succs.length ≤ 1)) := by
      rintro t rfl
      exact ⟨rfl, ⟨nodes ++ [node], by simp⟩, by simpa using hout, by simp, hq⟩
    unfold FState.step
    by_cases c1 : node.isModule = false
    · rw [if_pos c1]; exact hreset _ rfl
    rw [if_neg c1]
    have hmod : node.isModule = true := by simpa using c1
    have happ : ∀ (i : ℕ) (m : FNode), (s.seq ++ [node])[i]? = some m →
        s.seq[i]? = some m ∨ (i = s.idx ∧ m = node) := by
      intro i m hi
      rcases Nat.lt_or_ge i s.seq.length with h | h
      · rw [List.getElem?_append_left h] at hi; exact Or.inl hi
      · rw [List.getElem?_append_right h] at hi
        have hi0 : i - s.seq.length = 0 := by
          by_contra hc
          rw [List.getElem?_eq_none (by simp; omega)] at hi; cases hi
        rw [hi0] at hi
        simp at hi
        exact Or.inr ⟨by omega, hi.symm⟩
    by_cases c2 : s.idx ∈ node.types
    · rw [if_pos c2]
      have hsub : (s.out.flatten ++ (s.seq ++ [node])).Sublist (nodes ++ [node]) := by
        rw [← List.append_assoc]; exact h3.append (List.Sublist.refl _)
      by_cases c3 : s.idx + 1 = n
      · rw [if_pos c3]
        refine ⟨rfl, ⟨nodes ++ [node], by simp⟩, by simpa using hsub, by simp, ?_⟩
        intro q hqm
        rcases List.mem_append.1 hqm with hqm | hqm
        · exact hq q hqm
        · simp at hqm; subst hqm
          refine ⟨by simp [h1, c3], ⟨p, [], by rw [h2]; simp⟩, ?_⟩
          intro i m hi
          rcases happ i m hi with h | ⟨rfl, rfl⟩
          · obtain ⟨a, b, c⟩ := h4 i m h; exact ⟨a, b, fun h _ => c h⟩
          · exact ⟨hmod, c2, fun _ h => by omega⟩
      · rw [if_neg c3]
        by_cases c4 : 1 < node.succs.length
        · rw [if_pos c4]; exact hreset _ rfl
        · rw [if_neg c4]
          refine ⟨by simp [h1], ⟨p, by simp only; rw [h2]; simp⟩, hsub, ?_, hq⟩
          intro i m hi
          rcases happ i m hi with h | ⟨rfl, rfl⟩
          · exact h4 i m h
          · exact ⟨hmod, c2, fun _ => by omega⟩
    · rw [if_neg c2]
      by_cases c5 : 0 ∈ node.types
      · rw [if_pos c5]
        refine ⟨rfl, ⟨nodes, rfl⟩, ?_, ?_, hq⟩
        · exact ((List.sublist_append_left _ _).trans h3).append (List.Sublist.refl _)
        · intro i m hi
          cases i with
          | zero => simp at hi; subst hi; exact ⟨hmod, c5, fun h => by omega⟩
          | succ i => simp at hi
      · rw [if_neg c5]; exact hreset _ rfl

/-- **C68** (partial) Every fused sequence has the requested length and types, consists of modules
that are consecutive in the graph's order, and no module is fused twice; modules strictly inside the
sequence have at most one successor.  Missing: that the *first* module has one successor, and that
each module feeds the next; both are violated, see below. -/
theorem C68_fused_partial (n : ℕ) (nodes : List FNode) :
    (fusedSequences n nodes).flatten.Sublist nodes ∧
    ∀ q ∈ fusedSequences n nodes, q.length = n ∧ q <:+: nodes ∧
      ∀ (i : ℕ) (m : FNode), q[i]? = some m → m.isModule = true ∧ i ∈ m.types ∧ (1 ≤ i → i + 1 < n → m.succs.length ≤ 1) := by
  obtain ⟨_, _, h3, _, h5⟩ := fuse_inv n nodes
  exact ⟨(List.sublist_append_left _ _).trans h3, h5⟩

/-- **C68** is violated: a convolution with two consumers is fused with the batch-norm that is one of
them, if the previous entry of the graph was also a convolution (`conv1 → conv2 → {bn, relu}`). -/
theorem C68_violated_split : ∃ nodes : List FNode, ∃ q ∈ fusedSequences 2 nodes, ∃ m ∈ q.dropLast, 1 < m.succs.length :=
  ⟨[⟨"conv1", true, [0], ["conv2"]⟩, ⟨"conv2", true, [0], ["bn", "relu"]⟩, ⟨"bn", true, [1], ["add"]⟩,
    ⟨"relu", true, [], ["add"]⟩, ⟨"add", true, [], []⟩], by decide +kernel⟩

/-- **C68** is violated: modules that are only neighbours in the graph's order are fused although
neither feeds the other (`conv(x) + bn(x)`): the batch-norm is folded into a convolution that does
not precede it. -/
theorem C68_violated_not_connected : ∃ nodes : List FNode, ∃ a b, [a, b] ∈ fusedSequences 2 nodes ∧ b.name ∉ a.succs :=
  ⟨[⟨"conv", true, [0], ["add"]⟩, ⟨"bn", true, [1], ["add"]⟩, ⟨"add", true, [], []⟩],
    ⟨"conv", true, [0], ["add"]⟩, ⟨"bn", true, [1], ["add"]⟩, by decide +kernel⟩

example : fusedSequences 2 [⟨"c1", true, [0], ["b1"]⟩, ⟨"b1", true, [1], ["c2"]⟩, ⟨"c2", true, [0], ["b2", "x"]⟩, ⟨"b2", true, [1], []⟩]
    = [[⟨"c1", true, [0], ["b1"]⟩, ⟨"b1", true, [1], ["c2"]⟩]] := by decide +kernel

end Verif
