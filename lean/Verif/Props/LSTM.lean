import Verif.Model.LSTM
import Verif.Lemmas.Fold
import Verif.Lemmas.Masking
import Mathlib.Algebra.BigOperators.Group.Finset.Basic
import Mathlib.Algebra.BigOperators.Group.Finset.Piecewise
import Mathlib.Tactic.Ring
import Mathlib.Tactic.Linarith
/-!
# C96, C97: the modular LSTM computes what PyTorch's LSTM computes
-/
namespace Verif
open Dict

/-! ## C96: the cell -/

section Cell
variable {R : Type} [CommRing R]

theorem dotRow_eq (a x : List R) (h : a.length = x.length) :
    dotRow a x = ∑ k ∈ Finset.range x.length, a.getD k 0 * x.getD k 0 := by
  induction a generalizing x with
  | nil =>
    cases x with
    | nil => simp [dotRow]
    | cons b x => simp at h
  | cons a as ih =>
    cases x with
    | nil => simp at h
    | cons b x =>
      have := ih x (by simpa using h)
      simp only [dotRow, List.zipWith_cons_cons, List.sum_cons, List.length_cons] at this ⊢
      rw [this, Finset.sum_range_succ']
      simp [add_comm]

/-- Specification: pre-activation `r` of the gates – the two affine maps of PyTorch's LSTM
(bias 0 if there is none). -/
def preAct (w : CellW R) (x h : List R) (r : ℕ) : R :=
  ((∑ k ∈ Finset.range x.length, (w.wx.getD r []).getD k 0 * x.getD k 0) + (w.bx.map (fun b => b.getD r 0)).getD 0) +
    ((∑ k ∈ Finset.range h.length, (w.wh.getD r []).getD k 0 * h.getD k 0) + (w.bh.map (fun b => b.getD r 0)).getD 0)

/-- Specification: the shapes of a cell with `I` inputs and `H` units. -/
structure CellW.Shaped (w : CellW R) (I H : ℕ) : Prop where
  wx : w.wx.length = 4 * H ∧ ∀ row ∈ w.wx, row.length = I
  wh : w.wh.length = 4 * H ∧ ∀ row ∈ w.wh, row.length = H
  bx : ∀ b, w.bx = some b → b.length = 4 * H
  bh : ∀ b, w.bh = some b → b.length = 4 * H

theorem linRow_spec (w : List (List R)) (b : Option (List R)) (x : List R) (n : ℕ) (hw : w.length = n)
    (hr : ∀ row ∈ w, row.length = x.length) (hb : ∀ v, b = some v → v.length = n) :
    (linRow w b x).length = n ∧ ∀ r < n, (linRow w b x)[r]? =
      some ((∑ k ∈ Finset.range x.length, (w.getD r []).getD k 0 * x.getD k 0) + (b.map (fun b => b.getD r 0)).getD 0) := by
  have key : ∀ r < n, (w.map fun row => dotRow row x)[r]? =
      some (∑ k ∈ Finset.range x.length, (w.getD r []).getD k 0 * x.getD k 0) := by
    intro r hr'
    have hlt : r < w.length := by omega
    rw [List.getElem?_map, List.getElem?_eq_getElem hlt, Option.map_some, dotRow_eq _ _ (hr _ (List.getElem_mem hlt))]
    simp [List.getD_eq_getElem?_getD, List.getElem?_eq_getElem hlt]
  unfold linRow
  cases b with
  | none =>
    dsimp only
    refine ⟨by simp [hw], ?_⟩
    intro r hr'
    rw [key r hr']; simp
  | some b =>
    have hbl := hb b rfl
    dsimp only
    refine ⟨by simp [hw, hbl], ?_⟩
    intro r hr'
    have hlt : r < b.length := by omega
    rw [List.getElem?_zipWith, key r hr', List.getElem?_eq_getElem hlt]
    simp [List.getD_eq_getElem?_getD, List.getElem?_eq_getElem hlt]

theorem chunk4_spec (v : List R) (H k j : ℕ) (hv : v.length = 4 * H) (hj : j < H) :
    (chunk4 v k)[j]? = v[k * H + j]? := by
  have : (v.length + 3) / 4 = H := by omega
  unfold chunk4
  simp only [this]
  rw [List.getElem?_take_of_lt hj, List.getElem?_drop]

theorem chunk4_length (v : List R) (H k : ℕ) (hv : v.length = 4 * H) (hk : k < 4) : (chunk4 v k).length = H := by
  have : (v.length + 3) / 4 = H := by omega
  have h2 : k * H + H ≤ 4 * H := by nlinarith
  unfold chunk4
  simp only [this, List.length_take, List.length_drop]
  rw [hv]
  omega

/-- **C96** (the cell) One row through the cell is PyTorch's LSTM cell: with the pre-activations
`z`, gates in the order input, forget, cell, output,
`c' = σ(z_f) c + σ(z_i) tanh(z_g)`, `h' = σ(z_o) tanh(c')`, unit by unit. -/
theorem C96_cell (sg th : R → R) (w : CellW R) (I H : ℕ) (hw : w.Shaped I H) (x h c : List R)
    (hx : x.length = I) (hh : h.length = H) (hc : c.length = H) :
    (cellRow sg th w x h c).1.length = H ∧ (cellRow sg th w x h c).2.length = H ∧
    ∀ j < H, ∃ c', c' = sg (preAct w x h (H + j)) * c.getD j 0 + sg (preAct w x h j) * th (preAct w x h (2 * H + j)) ∧
      (cellRow sg th w x h c).2[j]? = some c' ∧
      (cellRow sg th w x h c).1[j]? = some (sg (preAct w x h (3 * H + j)) * th c') := by
  obtain ⟨l1, e1⟩ := linRow_spec w.wx w.bx x (4 * H) hw.wx.1 (fun r hr => by rw [hw.wx.2 r hr, hx]) hw.bx
  obtain ⟨l2, e2⟩ := linRow_spec w.wh w.bh h (4 * H) hw.wh.1 (fun r hr => by rw [hw.wh.2 r hr, hh]) hw.bh
  generalize hg : List.zipWith (· + ·) (linRow w.wx w.bx x) (linRow w.wh w.bh h) = gate
  have hgl : gate.length = 4 * H := by rw [← hg]; simp [l1, l2]
  have hge : ∀ r < 4 * H, gate[r]? = some (preAct w x h r) := by
    intro r hr
    rw [← hg, List.getElem?_zipWith, e1 r hr, e2 r hr]; rfl
  have piece : ∀ k < 4, ∀ j < H, (chunk4 gate k)[j]? = some (preAct w x h (k * H + j)) := by
    intro k hk j hj
    rw [chunk4_spec gate H k j hgl hj, hge]
    have : k * H ≤ 3 * H := Nat.mul_le_mul_right H (by omega)
    omega
  have plen := fun k (hk : k < 4) => chunk4_length gate H k hgl hk
  have hcell : cellRow sg th w x h c =
      (List.zipWith (· * ·) ((chunk4 gate 3).map sg) ((List.zipWith (· + ·) (List.zipWith (· * ·) ((chunk4 gate 1).map sg) c)
        (List.zipWith (· * ·) ((chunk4 gate 0).map sg) ((chunk4 gate 2).map th))).map th),
       List.zipWith (· + ·) (List.zipWith (· * ·) ((chunk4 gate 1).map sg) c)
        (List.zipWith (· * ·) ((chunk4 gate 0).map sg) ((chunk4 gate 2).map th))) := by
    unfold cellRow; rw [← hg]
  rw [hcell]
  refine ⟨?_, ?_, ?_⟩
  · simp [plen, hc]
  · simp [plen, hc]
  · intro j hj
    refine ⟨_, rfl, ?_⟩
    have p0 := piece 0 (by omega) j hj
    have p1 := piece 1 (by omega) j hj
    have p2 := piece 2 (by omega) j hj
    have p3 := piece 3 (by omega) j hj
    simp only [Nat.zero_mul, Nat.zero_add, Nat.one_mul] at p0 p1
    have hcj : c[j]? = some (c.getD j 0) := by
      have : j < c.length := by omega
      simp [List.getD_eq_getElem?_getD, List.getElem?_eq_getElem this]
    have e2' : (List.zipWith (· + ·) (List.zipWith (· * ·) ((chunk4 gate 1).map sg) c)
        (List.zipWith (· * ·) ((chunk4 gate 0).map sg) ((chunk4 gate 2).map th)))[j]? =
        some (sg (preAct w x h (H + j)) * c.getD j 0 + sg (preAct w x h j) * th (preAct w x h (2 * H + j))) := by
      simp only [List.getElem?_zipWith, List.getElem?_map, p0, p1, p2, hcj, Option.map_some]
    refine ⟨e2', ?_⟩
    rw [List.getElem?_zipWith, List.getElem?_map, List.getElem?_map, p3, e2']
    rfl

theorem zipRows3_getElem? {α β γ δ : Type} (f : α → β → γ → δ) (a : List α) (b : List β) (c : List γ) (i : ℕ)
    (x : α) (y : β) (z : γ) (hx : a[i]? = some x) (hy : b[i]? = some y) (hz : c[i]? = some z) :
    (zipRows3 f a b c)[i]? = some (f x y z) := by
  induction i generalizing a b c with
  | zero =>
    cases a <;> cases b <;> cases c <;> simp_all [zipRows3]
  | succ i ih =>
    cases a with
    | nil => simp at hx
    | cons _ a =>
      cases b with
      | nil => simp at hy
      | cons _ b =>
        cases c with
        | nil => simp at hz
        | cons _ c =>
          simp only [List.getElem?_cons_succ] at hx hy hz
          simpa [zipRows3] using ih a b c hx hy hz

/-- **C96** (batches) The rows of a batch do not influence each other: row `i` of the result is the
cell on row `i`. -/
theorem C96_batch (sg th : R → R) (w : CellW R) (x h c : List (List R)) (i : ℕ) (xi hi ci : List R)
    (hx : x[i]? = some xi) (hh : h[i]? = some hi) (hc : c[i]? = some ci) :
    (cellBatch sg th w x (h, c)).1[i]? = some (cellRow sg th w xi hi ci).1 ∧
    (cellBatch sg th w x (h, c)).2[i]? = some (cellRow sg th w xi hi ci).2 := by
  have := zipRows3_getElem? (fun x h c => cellRow sg th w x h c) x h c i xi hi ci hx hh hc
  unfold cellBatch
  simp [this]

end Cell

/-! ## C96: sequences and layers -/

section Seq
variable {X : Type}

/-- Specification: the state after reading the steps `xs`. -/
def runState (cell : LCell X) (s : X × X) (xs : List X) : X × X := xs.foldl (fun s x => cell x s) s

/-- Specification: a layer's output sequence; at time `t` the hidden state after the first `t + 1`
steps. -/
def lstmLayerOut (cell : LCell X) (s : X × X) (xs : List X) : List X :=
  (List.range xs.length).map fun t => (runState cell s (xs.take (t + 1))).1

/-- Specification (PyTorch's LSTM, evaluation mode): layer after layer over the whole sequence; the
output of the last layer and every layer's final state. -/
def refUni : List (LCell X) → List (X × X) → List X → List X × List (X × X)
  | c :: cs, s :: ss, xs =>
    let r := refUni cs ss (lstmLayerOut c s xs)
    (r.1, runState c s xs :: r.2)
  | _, _, xs => (xs, [])

/-- One step through the layers, without dropout. -/
def chainPure : List (LCell X) → List (X × X) → X → X × List (X × X)
  | c :: cs, s :: ss, x =>
    let r := chainPure cs ss (c x s).1
    (r.1, c x s :: r.2)
  | _, _, x => (x, [])

theorem lstmLayerOut_cons (cell : LCell X) (s : X × X) (x : X) (xs : List X) :
    lstmLayerOut cell s (x :: xs) = (cell x s).1 :: lstmLayerOut cell (cell x s) xs := by
  unfold lstmLayerOut
  rw [List.length_cons, List.range_succ_eq_map, List.map_cons, List.map_map]
  rfl

theorem refUni_nil (cells : List (LCell X)) (ss : List (X × X)) (h : cells.length = ss.length) :
    refUni cells ss [] = ([], ss) := by
  induction cells generalizing ss with
  | nil => cases ss with
    | nil => rfl
    | cons _ _ => simp at h
  | cons c cs ih => cases ss with
    | nil => simp at h
    | cons s ss =>
      have := ih ss (by simpa using h)
      simp only [refUni, lstmLayerOut, List.length_nil, List.range_zero, List.map_nil, this, runState, List.foldl_nil]

theorem chainPure_length (cells : List (LCell X)) (ss : List (X × X)) (x : X) (h : cells.length = ss.length) :
    (chainPure cells ss x).2.length = cells.length := by
  induction cells generalizing ss x with
  | nil => rfl
  | cons c cs ih => cases ss with
    | nil => simp at h
    | cons s ss =>
      have := ih ss (c x s).1 (by simpa using h)
      simp [chainPure, this]

theorem refUni_cons (cells : List (LCell X)) (ss : List (X × X)) (x : X) (xs : List X) (h : cells.length = ss.length) :
    refUni cells ss (x :: xs) =
      ((chainPure cells ss x).1 :: (refUni cells (chainPure cells ss x).2 xs).1,
        (refUni cells (chainPure cells ss x).2 xs).2) := by
  induction cells generalizing ss x xs with
  | nil => cases ss with
    | nil => rfl
    | cons _ _ => simp at h
  | cons c cs ih => cases ss with
    | nil => simp at h
    | cons s ss =>
      have := ih ss (c x s).1 (lstmLayerOut c (c x s) xs) (by simpa using h)
      simp only [refUni, lstmLayerOut_cons, this, chainPure, runState, List.foldl_cons]

theorem uniBody_fold (n : ℕ) (drop : ℕ → X → X) (cells : List (LCell X)) (ss pre : List (X × X)) (k : ℕ)
    (hk : k = pre.length) (hl : cells.length = ss.length) (x : X) (acc : List (X × X)) (hdrop : ∀ i, i + 1 < n → drop i = id) :
    ((List.range' k cells.length).zip cells).foldlM
      (uniBody n drop ((pre ++ ss).map Prod.fst) ((pre ++ ss).map Prod.snd)) (x, acc) =
      .ok ((chainPure cells ss x).1, acc ++ (chainPure cells ss x).2) := by
  induction cells generalizing ss pre k x acc with
  | nil => simp [chainPure, pure, Except.pure]
  | cons c cs ih =>
    cases ss with
    | nil => simp at hl
    | cons s ss =>
      rw [List.length_cons, List.range'_succ, List.zip_cons_cons, List.foldlM_cons]
      have h1 : ((pre ++ s :: ss).map Prod.fst)[k]? = some s.1 := by
        rw [hk]; simp
      have h2 : ((pre ++ s :: ss).map Prod.snd)[k]? = some s.2 := by
        rw [hk]; simp
      have hb : uniBody n drop ((pre ++ s :: ss).map Prod.fst) ((pre ++ s :: ss).map Prod.snd) (x, acc) (k, c) =
          .ok ((c x s).1, acc ++ [c x s]) := by
        simp only [uniBody, getIdx, h1, h2, bind, Except.bind, pure, Except.pure]
        by_cases hkn : k + 1 < n
        · simp [hkn, hdrop k hkn]
        · simp [hkn]
      rw [hb]
      have := ih ss (pre ++ [s]) (k + 1) (by simp [hk]) (by simpa using hl) (c x s).1 (acc ++ [c x s])
      simp only [List.append_assoc, List.singleton_append] at this
      simp only [bind, Except.bind]
      rw [this]
      simp [chainPure]

theorem uniChain_pure (cells : List (LCell X)) (drop : ℕ → X → X) (ss : List (X × X)) (x : X)
    (hl : cells.length = ss.length) (hne : cells ≠ []) (hdrop : ∀ i, i + 1 < cells.length → drop i = id) :
    uniChain cells drop x (ss.map Prod.fst, ss.map Prod.snd) =
      .ok ((chainPure cells ss x).1, ((chainPure cells ss x).2.map Prod.fst, (chainPure cells ss x).2.map Prod.snd)) := by
  have h := uniBody_fold cells.length drop cells ss [] 0 rfl hl x [] hdrop
  simp only [List.nil_append] at h
  have hlen := chainPure_length cells ss x hl
  have hne' : (chainPure cells ss x).2 ≠ [] := by
    intro e; rw [e] at hlen; exact hne (List.length_eq_zero_iff.1 hlen.symm)
  unfold uniChain
  rw [List.range_eq_range', h]
  simp [bind, Except.bind, stackE, hne', pure, Except.pure]

theorem uniLoop_ref (cells : List (LCell X)) (drop : ℕ → ℕ → X → X) (xs : List X) (ss : List (X × X)) (t : ℕ)
    (hl : cells.length = ss.length) (hne : cells ≠ []) (hdrop : ∀ t i, i + 1 < cells.length → drop t i = id) :
    uniLoop cells drop t xs (ss.map Prod.fst, ss.map Prod.snd) =
      .ok ((refUni cells ss xs).1, ((refUni cells ss xs).2.map Prod.fst, (refUni cells ss xs).2.map Prod.snd)) := by
  induction xs generalizing ss t with
  | nil => rw [refUni_nil _ _ hl]; rfl
  | cons x xs ih =>
    unfold uniLoop
    rw [uniChain_pure cells (drop t) ss x hl hne (hdrop t), refUni_cons _ _ _ _ hl]
    have := ih (chainPure cells ss x).2 (t + 1) (by rw [chainPure_length _ _ _ hl])
    simp only [bind, Except.bind]
    rw [this]
    rfl

theorem refUni_length (cells : List (LCell X)) (ss : List (X × X)) (xs : List X) : (refUni cells ss xs).1.length = xs.length := by
  induction cells generalizing ss xs with
  | nil => cases ss <;> rfl
  | cons c cs ih => cases ss with
    | nil => rfl
    | cons s ss => simp [refUni, ih, lstmLayerOut]

/-- **C96** (unidirectional) Without dropout – in evaluation mode, with factor 0, or with a single
layer – processing each time step through all layers gives, for every sequence, every number of layers
and every state, the outputs and final states of the layer-by-layer LSTM. -/
theorem C96_unidirectional (cells : List (LCell X)) (drop : ℕ → ℕ → X → X) (xs : List X) (ss : List (X × X))
    (hl : cells.length = ss.length) (hne : cells ≠ []) (hx : xs ≠ [])
    (hdrop : ∀ t i, i + 1 < cells.length → drop t i = id) :
    processLayerWise cells drop xs (ss.map Prod.fst, ss.map Prod.snd) =
      .ok ((refUni cells ss xs).1, ((refUni cells ss xs).2.map Prod.fst, (refUni cells ss xs).2.map Prod.snd)) := by
  have hlen := refUni_length cells ss xs
  have : (refUni cells ss xs).1 ≠ [] := by
    intro e; rw [e] at hlen; exact hx (List.length_eq_zero_iff.1 hlen.symm)
  unfold processLayerWise
  rw [uniLoop_ref cells drop xs ss 0 hl hne hdrop]
  simp [bind, Except.bind, stackE, this, pure, Except.pure]

/-- Specification (PyTorch's LSTM in training mode): dropout is applied to what a layer passes to the
next layer, not to what it passes to its own next step.  `drop i` acts on layer `i`'s output sequence. -/
def refUniDrop (n : ℕ) (drop : ℕ → ℕ → X → X) : ℕ → List (LCell X) → List (X × X) → List X → List X × List (X × X)
  | i, c :: cs, s :: ss, xs =>
    let out := lstmLayerOut c s xs
    let out := if i + 1 < n then (List.range out.length).zipWith (fun t y => drop t i y) out else out
    let r := refUniDrop n drop (i + 1) cs ss out
    (r.1, runState c s xs :: r.2)
  | _, _, _, xs => (xs, [])

/-- **C96** (empty sequence) A sequence without time steps is refused. -/
theorem C96_empty (cells : List (LCell X)) (drop : ℕ → ℕ → X → X) (hc : List X × List X) (cell : LCell X) (s : X × X) :
    processLayerWise cells drop [] hc = .error .runtime ∧ processSeq cell [] s = .error .runtime := ⟨rfl, rfl⟩

/-- **C96** is violated in training with dropout and two layers: the dropped-out output of a lower
layer becomes its own recurrent state, so the outputs differ from PyTorch's LSTM with the same dropout
masks. -/
theorem C96_violated_dropout : ∃ (cells : List (LCell ℚ)) (drop : ℕ → ℕ → ℚ → ℚ) (xs : List ℚ) (ss : List (ℚ × ℚ)),
    ∃ out, processLayerWise cells drop xs (ss.map Prod.fst, ss.map Prod.snd) = .ok out ∧
      out.1 ≠ (refUniDrop cells.length drop 0 cells ss xs).1 :=
  ⟨[fun x s => (x + s.1, s.2), fun x s => (x + s.1, s.2)], fun t _ y => if t = 0 then 0 else 2 * y, [1, 1],
    [(0, 0), (0, 0)], ([0, 2], ([2, 2], [0, 0])), by decide +kernel, by decide +kernel⟩

/-- Specification (PyTorch's bidirectional LSTM): at time `t` a layer's output is the concatenation of
the forward state after steps `0..t` and the backward state after steps `T-1..t`; its final states are
those after the whole sequence; `drop i` acts on the output sequence passed on by layer `i`. -/
def refBi (n : ℕ) (cat : X → X → X) (drop : ℕ → List X → List X) :
    ℕ → List (LCell X × LCell X) → List ((X × X) × (X × X)) → List X → List X × List (X × X)
  | i, c :: cs, s :: ss, xs =>
    let out := (List.range xs.length).map fun t =>
      cat (runState c.1 s.1 (xs.take (t + 1))).1 (runState c.2 s.2 (xs.drop t).reverse).1
    let out := if i + 1 < n then drop i out else out
    let r := refBi n cat drop (i + 1) cs ss out
    (r.1, runState c.1 s.1 xs :: runState c.2 s.2 xs.reverse :: r.2)
  | _, _, _, xs => (xs, [])

theorem seqLoop_spec (cell : LCell X) (xs : List X) (s : X × X) :
    seqLoop cell xs s = (lstmLayerOut cell s xs, runState cell s xs) := by
  induction xs generalizing s with
  | nil => rfl
  | cons x xs ih => simp only [seqLoop, ih, lstmLayerOut_cons, runState, List.foldl_cons]

theorem processSeq_spec (cell : LCell X) (xs : List X) (s : X × X) (h : xs ≠ []) :
    processSeq cell xs s = .ok (lstmLayerOut cell s xs, runState cell s xs) := by
  have : lstmLayerOut cell s xs ≠ [] := by
    intro e
    have hl : (lstmLayerOut cell s xs).length = xs.length := by simp [lstmLayerOut]
    rw [e] at hl; exact h (List.length_eq_zero_iff.1 hl.symm)
  simp [processSeq, seqLoop_spec, stackE, this, bind, Except.bind, pure, Except.pure]

theorem zipWith_layers (cat : X → X → X) (cf cb : LCell X) (sf sb : X × X) (xs : List X) :
    List.zipWith cat (lstmLayerOut cf sf xs) (lstmLayerOut cb sb xs.reverse).reverse =
      (List.range xs.length).map fun t => cat (runState cf sf (xs.take (t + 1))).1 (runState cb sb (xs.drop t).reverse).1 := by
  apply List.ext_getElem?
  intro t
  rw [List.getElem?_zipWith, List.getElem?_map]
  by_cases ht : t < xs.length
  · have hr : (List.range xs.length)[t]? = some t := by simp [ht]
    rw [hr]
    have h1 : (lstmLayerOut cf sf xs)[t]? = some (runState cf sf (xs.take (t + 1))).1 := by simp [lstmLayerOut, ht]
    have h2 : (lstmLayerOut cb sb xs.reverse).reverse[t]? = some (runState cb sb (xs.drop t).reverse).1 := by
      have hlen : (lstmLayerOut cb sb xs.reverse).length = xs.length := by simp [lstmLayerOut]
      rw [List.getElem?_reverse (by rw [hlen]; exact ht), hlen]
      have hlt : xs.length - 1 - t < xs.length := by omega
      simp only [lstmLayerOut, List.length_reverse, List.getElem?_map, List.getElem?_range hlt, Option.map_some]
      congr 3
      rw [List.take_reverse]
      congr 2
      omega
    rw [h1, h2]; rfl
  · have hn : ∀ {α : Type} (l : List α), l.length = xs.length → l[t]? = none := by
      intro α l hl; rw [List.getElem?_eq_none]; omega
    rw [hn (List.range xs.length) (by simp), hn (lstmLayerOut cf sf xs) (by simp [lstmLayerOut])]
    rfl

/-- The states of the layers, interleaved forward and backward. -/
def interleave : List ((X × X) × (X × X)) → List (X × X)
  | [] => []
  | s :: ss => s.1 :: s.2 :: interleave ss

theorem evens_interleave (ss : List ((X × X) × (X × X))) (f : X × X → X) :
    evens ((interleave ss).map f) = ss.map (fun s => f s.1) := by
  induction ss with
  | nil => rfl
  | cons s ss ih => simp [interleave, evens, ih]

theorem odds_interleave (ss : List ((X × X) × (X × X))) (f : X × X → X) :
    odds ((interleave ss).map f) = ss.map (fun s => f s.2) := by
  induction ss with
  | nil => rfl
  | cons s ss ih => simp [interleave, odds, ih]

theorem biBody_fold (n : ℕ) (cat : X → X → X) (drop : ℕ → List X → List X) (hd : ∀ i l, (drop i l).length = l.length)
    (cells : List (LCell X × LCell X)) (ss pre : List ((X × X) × (X × X))) (k : ℕ) (hk : k = pre.length)
    (hl : cells.length = ss.length) (xs : List X) (hx : xs ≠ []) (ah ac : List X) :
    ((List.range' k cells.length).zip cells).foldlM
      (biBody n cat drop ((interleave (pre ++ ss)).map Prod.fst) ((interleave (pre ++ ss)).map Prod.snd)) (xs, (ah, ac)) =
      .ok ((refBi n cat drop k cells ss xs).1,
        (ah ++ (refBi n cat drop k cells ss xs).2.map Prod.fst, ac ++ (refBi n cat drop k cells ss xs).2.map Prod.snd)) := by
  induction cells generalizing ss pre k xs ah ac with
  | nil => simp [refBi, pure, Except.pure]
  | cons c cs ih =>
    cases ss with
    | nil => simp at hl
    | cons s ss =>
      rw [List.length_cons, List.range'_succ, List.zip_cons_cons, List.foldlM_cons]
      have hb : biBody n cat drop ((interleave (pre ++ s :: ss)).map Prod.fst) ((interleave (pre ++ s :: ss)).map Prod.snd)
          (xs, (ah, ac)) (k, c) =
          .ok (if k + 1 < n then drop k ((List.range xs.length).map fun t =>
              cat (runState c.1 s.1 (xs.take (t + 1))).1 (runState c.2 s.2 (xs.drop t).reverse).1)
            else (List.range xs.length).map fun t =>
              cat (runState c.1 s.1 (xs.take (t + 1))).1 (runState c.2 s.2 (xs.drop t).reverse).1,
            (ah ++ [(runState c.1 s.1 xs).1, (runState c.2 s.2 xs.reverse).1],
             ac ++ [(runState c.1 s.1 xs).2, (runState c.2 s.2 xs.reverse).2])) := by
        have g1 : ((pre ++ s :: ss).map (fun s => s.1.1))[k]? = some s.1.1 := by rw [hk]; simp
        have g2 : ((pre ++ s :: ss).map (fun s => s.1.2))[k]? = some s.1.2 := by rw [hk]; simp
        have g3 : ((pre ++ s :: ss).map (fun s => s.2.1))[k]? = some s.2.1 := by rw [hk]; simp
        have g4 : ((pre ++ s :: ss).map (fun s => s.2.2))[k]? = some s.2.2 := by rw [hk]; simp
        have hxr : xs.reverse ≠ [] := by simpa using hx
        simp only [biBody, evens_interleave, odds_interleave, getIdx, g1, g2, g3, g4, bind, Except.bind,
          processSeq_spec _ _ _ hx, processSeq_spec _ _ _ hxr, zipWith_layers, pure, Except.pure]
      rw [hb]
      simp only [bind, Except.bind]
      have hx' : (if k + 1 < n then drop k ((List.range xs.length).map fun t =>
              cat (runState c.1 s.1 (xs.take (t + 1))).1 (runState c.2 s.2 (xs.drop t).reverse).1)
            else (List.range xs.length).map fun t =>
              cat (runState c.1 s.1 (xs.take (t + 1))).1 (runState c.2 s.2 (xs.drop t).reverse).1) ≠ [] := by
        intro e
        have := congrArg List.length e
        split at this
        · rw [hd] at this; simp at this; exact hx this
        · simp at this; exact hx this
      have := ih ss (pre ++ [s]) (k + 1) (by simp [hk]) (by simpa using hl) _ hx'
        (ah ++ [(runState c.1 s.1 xs).1, (runState c.2 s.2 xs.reverse).1])
        (ac ++ [(runState c.1 s.1 xs).2, (runState c.2 s.2 xs.reverse).2])
      simp only [List.append_assoc, List.singleton_append] at this
      rw [this]
      simp [refBi]

/-- **C96** (bidirectional) For every sequence, number of layers, state and dropout between layers,
the bidirectional LSTM gives PyTorch's outputs and final states. -/
theorem C96_bidirectional (cells : List (LCell X × LCell X)) (cat : X → X → X) (drop : ℕ → List X → List X)
    (hd : ∀ i l, (drop i l).length = l.length) (xs : List X) (hx : xs ≠ []) (ss : List ((X × X) × (X × X)))
    (hl : cells.length = ss.length) :
    biForward cells cat drop xs ((interleave ss).map Prod.fst, (interleave ss).map Prod.snd) =
      .ok ((refBi cells.length cat drop 0 cells ss xs).1,
        ((refBi cells.length cat drop 0 cells ss xs).2.map Prod.fst,
         (refBi cells.length cat drop 0 cells ss xs).2.map Prod.snd)) := by
  have := biBody_fold cells.length cat drop hd cells ss [] 0 rfl hl xs hx [] []
  simpa [biForward, List.range_eq_range'] using this

end Seq

end Verif
