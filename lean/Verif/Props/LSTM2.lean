import Verif.Props.LSTM
/-!
# C97: conversion between PyTorch's and the modular LSTM, packed sequences
-/
namespace Verif
open Dict

section Conv
variable {R : Type}

theorem mem_lstmKeys (n : ℕ) (bias bidi : Bool) (k : PKeyL) :
    k ∈ lstmKeys n bias bidi ↔ k.layer < n ∧ (k.isBias = true → bias = true) ∧ (k.rev = true → bidi = true) := by
  obtain ⟨b, g, i, r⟩ := k
  unfold lstmKeys
  simp only [List.mem_flatMap, List.mem_range, List.mem_map, PKeyL.mk.injEq]
  constructor
  · rintro ⟨i', hi, b', hb, g', hg, r', hr, rfl, rfl, rfl, rfl⟩
    refine ⟨hi, ?_, ?_⟩
    · rintro rfl; cases bias <;> simp at hb ⊢
    · rintro rfl; cases bidi <;> simp at hr ⊢
  · rintro ⟨hi, hb, hr⟩
    refine ⟨i, hi, b, ?_, g, ?_, r, ?_, rfl, rfl, rfl, rfl⟩
    · cases b <;> cases bias <;> simp at hb ⊢
    · cases g <;> simp
    · cases r <;> cases bidi <;> simp at hr ⊢

/-- Specification: the tensor a converted LSTM has for a parameter. -/
def DLSTM.tensor (d : DLSTM R) (k : PKeyL) : Option (List (List R)) :=
  ((if k.rev then d.cellsRev else d.cells)[k.layer]?).bind fun c => c.get? (k.isBias, k.isInput)

/-- What does not change during the conversion loop. -/
def SameFrame (d d' : DLSTM R) : Prop :=
  d'.numLayers = d.numLayers ∧ d'.bias = d.bias ∧ d'.bidirectional = d.bidirectional ∧ d'.dropout = d.dropout ∧
  d'.training = d.training ∧ d'.cells.length = d.cells.length ∧ d'.cellsRev.length = d.cellsRev.length

theorem set_getElem?_cell (l : List (CellP R)) (i j : ℕ) (c : CellP R) (kb : Bool × Bool) (kb' : Bool × Bool)
    (t : List (List R)) (h : l[i]? = some c) :
    ((l.set i (c.set kb t))[j]?).bind (fun c => c.get? kb') =
      if j = i ∧ kb' = kb then some t else (l[j]?).bind (fun c => c.get? kb') := by
  have hi : i < l.length := by
    by_contra hc
    rw [List.getElem?_eq_none (by omega)] at h
    cases h
  rw [List.getElem?_set]
  by_cases hij : i = j
  · subst hij
    rw [if_pos rfl, if_pos hi, h]
    simp only [Option.bind_some, get?_set, true_and]
    by_cases hk : kb = kb'
    · subst hk; simp
    · rw [if_neg hk, if_neg (fun e => hk e.symm)]
  · rw [if_neg hij, if_neg (fun e => hij e.1.symm)]

theorem fromBody_spec (l : TorchLSTM R) (d d' : DLSTM R) (k : PKeyL) (h : fromBody l d k = .ok d') :
    SameFrame d d' ∧ ∀ k', d'.tensor k' = if k' = k then l.params.get? k else d.tensor k' := by
  obtain ⟨b, g, i, r⟩ := k
  unfold fromBody at h
  cases hp : l.params.get? ⟨b, g, i, r⟩ with
  | none => simp [hp] at h
  | some t =>
    simp only [hp] at h
    cases r with
    | true =>
      simp only [if_true] at h
      cases hc : d.cellsRev[i]? with
      | none => simp [hc] at h
      | some c =>
        simp only [hc] at h
        injection h with h; subst h
        refine ⟨⟨rfl, rfl, rfl, rfl, rfl, rfl, by simp⟩, ?_⟩
        rintro ⟨b', g', i', r'⟩
        unfold DLSTM.tensor
        cases r' with
        | true =>
          simp only [if_true]
          rw [set_getElem?_cell _ _ _ _ _ _ _ hc]
          by_cases he : i' = i ∧ (b', g') = (b, g)
          · obtain ⟨rfl, he⟩ := he
            cases he
            simp
          · rw [if_neg he, if_neg]
            intro e; cases e; exact he ⟨rfl, rfl⟩
        | false => simp
    | false =>
      simp only [Bool.false_eq_true, if_false] at h
      cases hc : d.cells[i]? with
      | none => simp [hc] at h
      | some c =>
        simp only [hc] at h
        injection h with h; subst h
        refine ⟨⟨rfl, rfl, rfl, rfl, rfl, by simp, rfl⟩, ?_⟩
        rintro ⟨b', g', i', r'⟩
        unfold DLSTM.tensor
        cases r' with
        | false =>
          simp only [Bool.false_eq_true, if_false]
          rw [set_getElem?_cell _ _ _ _ _ _ _ hc]
          by_cases he : i' = i ∧ (b', g') = (b, g)
          · obtain ⟨rfl, he⟩ := he
            cases he
            simp
          · rw [if_neg he, if_neg]
            intro e; cases e; exact he ⟨rfl, rfl⟩
        | true => simp

theorem fromFold_spec (l : TorchLSTM R) (ks : List PKeyL) (d d' : DLSTM R) (h : ks.foldlM (fromBody l) d = .ok d') :
    SameFrame d d' ∧ ∀ k', d'.tensor k' = if k' ∈ ks then l.params.get? k' else d.tensor k' := by
  induction ks generalizing d with
  | nil =>
    simp only [List.foldlM_nil, pure, Except.pure] at h
    injection h with h; subst h
    exact ⟨⟨rfl, rfl, rfl, rfl, rfl, rfl, rfl⟩, by simp⟩
  | cons k ks ih =>
    rw [List.foldlM_cons] at h
    obtain ⟨d1, h1, h2⟩ := ok_bind h
    obtain ⟨f1, t1⟩ := fromBody_spec l d d1 k h1
    obtain ⟨f2, t2⟩ := ih d1 h2
    refine ⟨⟨f2.1.trans f1.1, f2.2.1.trans f1.2.1, f2.2.2.1.trans f1.2.2.1, f2.2.2.2.1.trans f1.2.2.2.1,
      f2.2.2.2.2.1.trans f1.2.2.2.2.1, f2.2.2.2.2.2.1.trans f1.2.2.2.2.2.1, f2.2.2.2.2.2.2.trans f1.2.2.2.2.2.2⟩, ?_⟩
    intro k'
    rw [t2 k', t1 k']
    by_cases hk : k' ∈ ks
    · simp [hk]
    · by_cases he : k' = k
      · subst he; simp
      · simp [hk, he]

theorem fromFold_ok (l : TorchLSTM R) (ks : List PKeyL) (d : DLSTM R) (hp : ∀ k ∈ ks, (l.params.get? k).isSome)
    (hl : ∀ k ∈ ks, k.layer < (if k.rev then d.cellsRev else d.cells).length) :
    ∃ d', ks.foldlM (fromBody l) d = .ok d' := by
  induction ks generalizing d with
  | nil => exact ⟨d, rfl⟩
  | cons k ks ih =>
    have hs : ∃ d1, fromBody l d k = .ok d1 := by
      obtain ⟨t, ht⟩ := Option.isSome_iff_exists.1 (hp k (by simp))
      have hlk := hl k (by simp)
      unfold fromBody
      rw [ht]
      cases hr : k.rev with
      | true =>
        rw [hr] at hlk
        simp only [if_true] at hlk ⊢
        rw [List.getElem?_eq_getElem hlk]
        exact ⟨_, rfl⟩
      | false =>
        rw [hr] at hlk
        simp only [Bool.false_eq_true, if_false] at hlk ⊢
        rw [List.getElem?_eq_getElem hlk]
        exact ⟨_, rfl⟩
    obtain ⟨d1, h1⟩ := hs
    obtain ⟨f1, -⟩ := fromBody_spec l d d1 k h1
    obtain ⟨d', h'⟩ := ih d1 (fun k hk => hp k (by simp [hk])) (by
      intro k' hk'
      have := hl k' (by simp [hk'])
      cases hr : k'.rev <;> simp only [hr, Bool.false_eq_true, if_false, if_true] at this ⊢
      · rw [f1.2.2.2.2.2.1]; exact this
      · rw [f1.2.2.2.2.2.2]; exact this)
    refine ⟨d', ?_⟩
    rw [List.foldlM_cons, h1]
    exact h'

/-- Specification: an `nn.LSTM` with at least one layer and all its parameters. -/
def TorchLSTM.Complete (l : TorchLSTM R) : Prop :=
  l.numLayers ≠ 0 ∧ ∀ k : PKeyL, (l.params.get? k).isSome ↔
    k.layer < l.numLayers ∧ (k.isBias = true → l.bias = true) ∧ (k.rev = true → l.bidirectional = true)

/-- **C97** (from PyTorch) Every LSTM of PyTorch can be converted, and the result has its sizes,
options and, for every layer, direction and gate, exactly its tensors. -/
theorem C97_from (init : ℕ → Bool → CellP R) (l : TorchLSTM R) (hl : l.Complete) :
    ∃ d, fromPytorch init l = .ok d ∧ d.numLayers = l.numLayers ∧ d.bias = l.bias ∧
      d.bidirectional = l.bidirectional ∧ d.dropout = l.dropout ∧
      d.cells.length = l.numLayers ∧ (l.bidirectional = true → d.cellsRev.length = l.numLayers) ∧
      ∀ k : PKeyL, (l.params.get? k).isSome → d.tensor k = l.params.get? k := by
  obtain ⟨hn, hp⟩ := hl
  unfold fromPytorch freshDLSTM
  rw [if_neg hn]
  simp only [bind, Except.bind]
  generalize hd0 : (⟨l.numLayers, l.bias, l.bidirectional, l.dropout, true, (List.range l.numLayers).map (fun i => init i false),
    if l.bidirectional then (List.range l.numLayers).map (fun i => init i true) else []⟩ : DLSTM R) = d0
  have hc : d0.cells.length = l.numLayers := by rw [← hd0]; simp
  have hr : l.bidirectional = true → d0.cellsRev.length = l.numLayers := by
    intro hb; rw [← hd0]; simp [hb]
  obtain ⟨d, hd⟩ := fromFold_ok l (lstmKeys l.numLayers l.bias l.bidirectional) d0
    (fun k hk => (hp k).2 ((mem_lstmKeys _ _ _ _).1 hk))
    (by
      intro k hk
      obtain ⟨h1, _, h3⟩ := (mem_lstmKeys _ _ _ _).1 hk
      cases hrev : k.rev with
      | true => simp only [if_true]; rw [hr (h3 hrev)]; exact h1
      | false => simp only [Bool.false_eq_true, if_false]; rw [hc]; exact h1)
  obtain ⟨f, ht⟩ := fromFold_spec l _ d0 d hd
  refine ⟨d, hd, ?_, ?_, ?_, ?_, ?_, ?_, ?_⟩
  · rw [f.1, ← hd0]
  · rw [f.2.1, ← hd0]
  · rw [f.2.2.1, ← hd0]
  · rw [f.2.2.2.1, ← hd0]
  · rw [f.2.2.2.2.2.1, hc]
  · intro hb; rw [f.2.2.2.2.2.2, hr hb]
  · intro k hk
    rw [ht k, if_pos ((mem_lstmKeys _ _ _ _).2 ((hp k).1 hk))]

/-- **C97** (training mode is lost) The converted module is in training mode, whatever mode PyTorch's
module was in: an LSTM converted in evaluation mode applies its dropout. -/
theorem C97_violated_training_mode (init : ℕ → Bool → CellP R) (l : TorchLSTM R) (d : DLSTM R)
    (h : fromPytorch init l = .ok d) : d.training = true := by
  unfold fromPytorch at h
  obtain ⟨d0, h0, h⟩ := ok_bind h
  unfold freshDLSTM at h0
  split at h0
  · cases h0
  · injection h0 with h0
    obtain ⟨f, -⟩ := fromFold_spec l _ d0 d h
    rw [f.2.2.2.2.1, ← h0]

theorem toBody_spec (d : DLSTM R) (l l' : TorchLSTM R) (k : PKeyL) (h : toBody d l k = .ok l') :
    l'.numLayers = l.numLayers ∧ l'.bias = l.bias ∧ l'.bidirectional = l.bidirectional ∧ l'.dropout = l.dropout ∧
    ∀ k', l'.params.get? k' = if k' = k then d.tensor k else l.params.get? k' := by
  unfold toBody at h
  cases hc : (if k.rev then d.cellsRev else d.cells)[k.layer]? with
  | none => simp [hc] at h
  | some c =>
    simp only [hc] at h
    cases ht : c.get? (k.isBias, k.isInput) with
    | none => simp [ht] at h
    | some t =>
      simp only [ht] at h
      injection h with h; subst h
      refine ⟨rfl, rfl, rfl, rfl, ?_⟩
      intro k'
      have : d.tensor k = some t := by unfold DLSTM.tensor; rw [hc]; simpa using ht
      rw [get?_set, this]
      by_cases he : k = k'
      · subst he; simp
      · rw [if_neg he, if_neg (fun e => he e.symm)]

theorem toFold_spec (d : DLSTM R) (ks : List PKeyL) (l l' : TorchLSTM R) (h : ks.foldlM (toBody d) l = .ok l') :
    l'.numLayers = l.numLayers ∧ l'.bias = l.bias ∧ l'.bidirectional = l.bidirectional ∧ l'.dropout = l.dropout ∧
    ∀ k', l'.params.get? k' = if k' ∈ ks then d.tensor k' else l.params.get? k' := by
  induction ks generalizing l with
  | nil =>
    simp only [List.foldlM_nil, pure, Except.pure] at h
    injection h with h; subst h
    exact ⟨rfl, rfl, rfl, rfl, by simp⟩
  | cons k ks ih =>
    rw [List.foldlM_cons] at h
    obtain ⟨l1, h1, h2⟩ := ok_bind h
    obtain ⟨a1, a2, a3, a4, t1⟩ := toBody_spec d l l1 k h1
    obtain ⟨b1, b2, b3, b4, t2⟩ := ih l1 h2
    refine ⟨b1.trans a1, b2.trans a2, b3.trans a3, b4.trans a4, ?_⟩
    intro k'
    rw [t2 k', t1 k']
    by_cases hk : k' ∈ ks
    · simp [hk]
    · by_cases he : k' = k
      · subst he; simp
      · simp [hk, he]

theorem toFold_ok (d : DLSTM R) (ks : List PKeyL) (l : TorchLSTM R) (hp : ∀ k ∈ ks, (d.tensor k).isSome) :
    ∃ l', ks.foldlM (toBody d) l = .ok l' := by
  induction ks generalizing l with
  | nil => exact ⟨l, rfl⟩
  | cons k ks ih =>
    have hs : ∃ l1, toBody d l k = .ok l1 := by
      have := hp k (by simp)
      unfold DLSTM.tensor at this
      unfold toBody
      cases hc : (if k.rev then d.cellsRev else d.cells)[k.layer]? with
      | none => simp [hc] at this
      | some c =>
        rw [hc] at this
        obtain ⟨t, ht⟩ := Option.isSome_iff_exists.1 (by simpa using this : (c.get? (k.isBias, k.isInput)).isSome = true)
        simp only [ht]
        exact ⟨_, rfl⟩
    obtain ⟨l1, h1⟩ := hs
    obtain ⟨l', h'⟩ := ih l1 (fun k hk => hp k (by simp [hk]))
    exact ⟨l', by rw [List.foldlM_cons, h1]; exact h'⟩

/-- **C97** (round trip) Converting an LSTM of PyTorch and converting the result back yields an LSTM
with the same sizes, options and tensors. -/
theorem C97_round_trip (init : ℕ → Bool → CellP R) (init' : Dict PKeyL (List (List R))) (l : TorchLSTM R)
    (hl : l.Complete) : ∃ d l', fromPytorch init l = .ok d ∧ toPytorch init' d = .ok l' ∧
      l'.numLayers = l.numLayers ∧ l'.bias = l.bias ∧ l'.bidirectional = l.bidirectional ∧ l'.dropout = l.dropout ∧
      ∀ k, (l.params.get? k).isSome → l'.params.get? k = l.params.get? k := by
  obtain ⟨d, hd, h1, h2, h3, h4, -, -, ht⟩ := C97_from init l hl
  obtain ⟨hn, hp⟩ := hl
  have hkeys : ∀ k, k ∈ lstmKeys d.numLayers d.bias d.bidirectional ↔ (l.params.get? k).isSome := by
    intro k; rw [mem_lstmKeys, h1, h2, h3, hp k]
  obtain ⟨l', hl'⟩ := toFold_ok d (lstmKeys d.numLayers d.bias d.bidirectional)
    { numLayers := d.numLayers, bias := d.bias, bidirectional := d.bidirectional, dropout := d.dropout
      training := true, params := init' }
    (fun k hk => by rw [ht k ((hkeys k).1 hk)]; exact (hkeys k).1 hk)
  obtain ⟨b1, b2, b3, b4, t⟩ := toFold_spec d _ _ l' hl'
  refine ⟨d, l', hd, hl', b1.trans h1, b2.trans h2, b3.trans h3, b4.trans h4, ?_⟩
  intro k hk
  rw [t k, if_pos ((hkeys k).2 hk), ht k hk]

variable [CommRing R]

/-- The weights of a cell from the tensors of one layer and direction (a bias is a one-row tensor). -/
def weightsOf (bias : Bool) (t : Bool → Bool → Option (List (List R))) : CellW R where
  wx := (t false true).getD []
  wh := (t false false).getD []
  bx := if bias then some ((((t true true).getD []).head?).getD []) else none
  bh := if bias then some ((((t true false).getD []).head?).getD []) else none

/-- The cells of a converted LSTM, as functions on batches. -/
def DLSTM.cellFns (sg th : R → R) (d : DLSTM R) (rev : Bool) : List (LCell (List (List R))) :=
  (if rev then d.cellsRev else d.cells).map fun c => cellBatch sg th (weightsOf d.bias fun b g => c.get? (b, g))

/-- Specification: the cells of PyTorch's LSTM, by the documented names of its parameters. -/
def TorchLSTM.cellFns (sg th : R → R) (l : TorchLSTM R) (rev : Bool) : List (LCell (List (List R))) :=
  (List.range l.numLayers).map fun i => cellBatch sg th (weightsOf l.bias fun b g => l.params.get? ⟨b, g, i, rev⟩)

theorem cellFns_eq (sg th : R → R) (init : ℕ → Bool → CellP R) (l : TorchLSTM R) (hl : l.Complete) (d : DLSTM R)
    (h : fromPytorch init l = .ok d) (rev : Bool) (hrev : rev = true → l.bidirectional = true) :
    d.cellFns sg th rev = l.cellFns sg th rev := by
  obtain ⟨d', hd', -, h2, -, -, h5, h6, ht⟩ := C97_from init l hl
  rw [h] at hd'; injection hd' with hd'; subst hd'
  unfold DLSTM.cellFns TorchLSTM.cellFns
  have hlen : (if rev then d.cellsRev else d.cells).length = l.numLayers := by
    cases rev with
    | true => simp only [if_true]; exact h6 (hrev rfl)
    | false => simp only [Bool.false_eq_true, if_false]; exact h5
  apply List.ext_getElem?
  intro i
  rw [List.getElem?_map, List.getElem?_map]
  by_cases hi : i < l.numLayers
  · obtain ⟨c, hc⟩ : ∃ c, (if rev then d.cellsRev else d.cells)[i]? = some c :=
      ⟨_, List.getElem?_eq_getElem (by rw [hlen]; exact hi)⟩
    have key : ∀ b g, (b = true → l.bias = true) → c.get? (b, g) = l.params.get? ⟨b, g, i, rev⟩ := by
      intro b g hb
      have := ht ⟨b, g, i, rev⟩ ((hl.2 _).2 ⟨hi, hb, hrev⟩)
      unfold DLSTM.tensor at this
      simp only at this
      rw [hc] at this
      simpa using this
    rw [hc, List.getElem?_range hi]
    simp only [Option.map_some]
    congr 2
    unfold weightsOf
    rw [h2]
    cases hbias : l.bias with
    | true =>
      simp only [if_true]
      rw [key false true (by simp), key false false (by simp), key true true (fun _ => hbias), key true false (fun _ => hbias)]
    | false =>
      simp only [Bool.false_eq_true, if_false]
      rw [key false true (by simp), key false false (by simp)]
  · rw [List.getElem?_eq_none (by rw [hlen]; omega), List.getElem?_eq_none (by simp; omega)]
    rfl

/-- **C97** (function, unidirectional) The converted LSTM, in evaluation mode, computes on every batch
of sequences and every state what PyTorch's LSTM computes. -/
theorem C97_same_function (sg th : R → R) (init : ℕ → Bool → CellP R) (l : TorchLSTM R) (hl : l.Complete) (d : DLSTM R)
    (h : fromPytorch init l = .ok d) (xs : List (List (List R))) (hx : xs ≠ [])
    (ss : List (List (List R) × List (List R))) (hs : ss.length = l.numLayers) :
    ∃ ys hn, processLayerWise (d.cellFns sg th false) (fun _ _ y => y) xs (ss.map Prod.fst, ss.map Prod.snd) =
        .ok (ys, (hn.map Prod.fst, hn.map Prod.snd)) ∧
      (ys, hn) = refUni (l.cellFns sg th false) ss xs := by
  rw [cellFns_eq sg th init l hl d h false (by simp)]
  have hlen : (l.cellFns sg th false).length = ss.length := by simp [TorchLSTM.cellFns, hs]
  have hne : l.cellFns sg th false ≠ [] := by
    intro e; rw [e] at hlen; simp [hs] at hlen; exact hl.1 hlen.symm
  exact ⟨_, _, C96_unidirectional _ _ xs ss hlen hne hx (fun _ _ _ => rfl), rfl⟩

/-- **C97** (function, bidirectional) The same for bidirectional LSTMs; `catRows` concatenates the rows
of two batches. -/
theorem C97_same_function_bidirectional (sg th : R → R) (init : ℕ → Bool → CellP R) (l : TorchLSTM R) (hl : l.Complete)
    (d : DLSTM R) (h : fromPytorch init l = .ok d) (hb : l.bidirectional = true)
    (catRows : List (List R) → List (List R) → List (List R)) (drop : ℕ → List (List (List R)) → List (List (List R)))
    (hd : ∀ i y, (drop i y).length = y.length) (xs : List (List (List R))) (hx : xs ≠ [])
    (ss : List ((List (List R) × List (List R)) × (List (List R) × List (List R)))) (hs : ss.length = l.numLayers) :
    ∃ ys hn, biForward ((d.cellFns sg th false).zip (d.cellFns sg th true)) catRows drop xs
        ((interleave ss).map Prod.fst, (interleave ss).map Prod.snd) = .ok (ys, (hn.map Prod.fst, hn.map Prod.snd)) ∧
      (ys, hn) = refBi l.numLayers catRows drop 0 ((l.cellFns sg th false).zip (l.cellFns sg th true)) ss xs := by
  rw [cellFns_eq sg th init l hl d h false (by simp), cellFns_eq sg th init l hl d h true (fun _ => hb)]
  have hlen : ((l.cellFns sg th false).zip (l.cellFns sg th true)).length = l.numLayers := by simp [TorchLSTM.cellFns]
  have := C96_bidirectional ((l.cellFns sg th false).zip (l.cellFns sg th true)) catRows drop hd xs hx ss (by rw [hlen, hs])
  rw [hlen] at this
  exact ⟨_, _, this, rfl⟩

end Conv

/-! ## Packed sequences -/

section Packed
variable {X S : Type}

/-- **C97** (packed sequences) When the sequences of a packed batch come in order of decreasing
length, every sequence gets the outputs and the final state it gets alone. -/
theorem C97_packed (fwd : List X → S → Except Err (List X × S)) (ref : List X → S → List X × S)
    (hf : ∀ xs s, xs ≠ [] → fwd xs s = .ok (ref xs s)) (hlen : ∀ xs s, (ref xs s).1.length = xs.length)
    (seqs : List (List X × S)) (hne : ∀ p ∈ seqs, p.1 ≠ [])
    (hs : seqs.Pairwise fun a b => b.1.length ≤ a.1.length) :
    packedForward fwd seqs = .ok (seqs.map (fun p => (ref p.1 p.2).1), seqs.map (fun p => (ref p.1 p.2).2)) := by
  have hm : seqs.mapM (fun p => fwd p.1 p.2) = .ok (seqs.map fun p => ref p.1 p.2) := by
    clear hs
    induction seqs with
    | nil => rfl
    | cons p ps ih =>
      rw [List.mapM_cons, hf _ _ (hne p (by simp)), ih (fun q hq => hne q (by simp [hq]))]
      rfl
  unfold packedForward
  rw [hm]
  simp only [bind, Except.bind, List.map_map]
  rw [if_pos]
  · rfl
  · rw [List.pairwise_map]
    exact hs.imp (fun {a b} h => by simpa [hlen] using h)

/-- **C97** is violated for packed batches whose sequences are not in order of decreasing length
(PyTorch's LSTM accepts them): re-packing the results raises. -/
theorem C97_violated_packed_unsorted (fwd : List X → S → Except Err (List X × S)) (ref : List X → S → List X × S)
    (hf : ∀ xs s, xs ≠ [] → fwd xs s = .ok (ref xs s)) (hlen : ∀ xs s, (ref xs s).1.length = xs.length)
    (seqs : List (List X × S)) (hne : ∀ p ∈ seqs, p.1 ≠ [])
    (hs : ¬ seqs.Pairwise fun a b => b.1.length ≤ a.1.length) :
    packedForward fwd seqs = .error .runtime := by
  have hm : seqs.mapM (fun p => fwd p.1 p.2) = .ok (seqs.map fun p => ref p.1 p.2) := by
    clear hs
    induction seqs with
    | nil => rfl
    | cons p ps ih =>
      rw [List.mapM_cons, hf _ _ (hne p (by simp)), ih (fun q hq => hne q (by simp [hq]))]
      rfl
  unfold packedForward
  rw [hm]
  simp only [bind, Except.bind, List.map_map]
  rw [if_neg]
  rw [List.pairwise_map]
  intro hp
  exact hs (hp.imp (fun {a b} h => by simpa [hlen] using h))

end Packed

/-! ## The cell without a state -/

/-- **C96** is violated by a cell called without a state: the default state has one row per input
column, so a batch whose size differs from the number of inputs is refused … -/
theorem C96_violated_default_state {R : Type} [CommRing R] (sg th : R → R) (hidden : ℕ) (w : CellW R) (x : List (List R))
    (n : ℕ) (hn : (x.head?.map List.length).getD 0 = n) (h1 : x.length ≠ n) (h2 : x.length ≠ 1) (h3 : n ≠ 1) :
    cellForward sg th hidden w x none = .error .runtime := by
  unfold cellForward
  simp only [Option.getD_none, hn, List.length_replicate]
  rw [if_neg h1, if_neg h2, if_neg h3]

/-- … and a batch of one row gets one result per input column. -/
theorem C96_violated_default_state_one {R : Type} [CommRing R] (sg th : R → R) (hidden : ℕ) (w : CellW R) (x : List R)
    (r : List (List R) × List (List R)) (h : cellForward sg th hidden w [x] none = .ok r) : r.1.length = x.length := by
  have zlen : ∀ {α β γ δ : Type} (f : α → β → γ → δ) (n : ℕ) (a : α) (b : β) (c : γ),
      (zipRows3 f (List.replicate n a) (List.replicate n b) (List.replicate n c)).length = n := by
    intro α β γ δ f n a b c
    induction n with
    | zero => rfl
    | succ n ih => simp [List.replicate_succ, zipRows3, ih]
  unfold cellForward at h
  simp only [Option.getD_none, List.head?_cons, Option.map_some, Option.getD_some, List.length_replicate,
    List.length_cons, List.length_nil, Nat.zero_add] at h
  split at h
  · rename_i h1
    injection h with h; subst h
    rw [← h1]
    simp [cellBatch, zipRows3]
  · rw [if_pos trivial] at h
    injection h with h; subst h
    simp [cellBatch, broadcastRows, zlen]

/-- **C96** (states) A cell called with a state: with one state row per input row, row `i` of the result is the cell applied to row `i` of
the input and of the state; a state of a single row is used for every row of the batch; any other number of rows is refused. -/
theorem C96_states {R : Type} [CommRing R] (sg th : R → R) (hidden : ℕ) (w : CellW R) (x h c : List (List R))
    (hhc : c.length = h.length) :
    (h.length = x.length → ∃ h' c', cellForward sg th hidden w x (some (h, c)) = .ok (h', c') ∧
      ∀ (i : ℕ) (xi hi ci : List R), x[i]? = some xi → h[i]? = some hi → c[i]? = some ci →
        h'[i]? = some (cellRow sg th w xi hi ci).1 ∧ c'[i]? = some (cellRow sg th w xi hi ci).2) ∧
    (∀ h0 c0, h = [h0] → c = [c0] → x.length ≠ 1 → ∃ h' c', cellForward sg th hidden w x (some (h, c)) = .ok (h', c') ∧
      ∀ (i : ℕ) (xi : List R), x[i]? = some xi → h'[i]? = some (cellRow sg th w xi h0 c0).1 ∧ c'[i]? = some (cellRow sg th w xi h0 c0).2) ∧
    (h.length ≠ x.length → x.length ≠ 1 → h.length ≠ 1 → cellForward sg th hidden w x (some (h, c)) = .error .runtime) := by
  refine ⟨?_, ?_, ?_⟩
  · intro hl
    refine ⟨(cellBatch sg th w x (h, c)).1, (cellBatch sg th w x (h, c)).2, ?_, ?_⟩
    · unfold cellForward
      simp only [Option.getD_some]
      rw [if_pos hl.symm]
    · intro i xi hi ci h1 h2 h3
      exact C96_batch sg th w x h c i xi hi ci h1 h2 h3
  · intro h0 c0 e1 e2 hx
    subst e1; subst e2
    refine ⟨(cellBatch sg th w x (List.replicate x.length h0, List.replicate x.length c0)).1,
      (cellBatch sg th w x (List.replicate x.length h0, List.replicate x.length c0)).2, ?_, ?_⟩
    · unfold cellForward
      simp only [Option.getD_some, List.length_cons, List.length_nil, Nat.zero_add]
      rw [if_neg hx, if_neg hx, if_pos trivial]
      rfl
    · intro i xi h1
      have hi : i < x.length := (List.getElem?_eq_some_iff.1 h1).1
      exact C96_batch sg th w x _ _ i xi h0 c0 h1 (by simp [hi]) (by simp [hi])
  · intro h1 h2 h3
    unfold cellForward
    simp only [Option.getD_some]
    rw [if_neg (fun e => h1 e.symm), if_neg h2, if_neg h3]

/-- Non-vacuity of `C96_states`: a batch of two rows with one state row, over the integers. -/
example : ∃ r, cellForward (R := ℤ) id id 1 ⟨[[1], [1], [1], [1]], none, [[0], [0], [0], [0]], some [1, 1, 1, 1]⟩ [[1], [2]]
    (some ([[0]], [[1]])) = .ok r ∧ r.2 = [[6], [12]] := ⟨_, rfl, by decide⟩

/-! ## Whole models -/

section Tree
variable {R : Type}

mutual
/-- Specification: no LSTM of PyTorch occurs in the tree. -/
def NoTorch : LTree R → Prop
  | .torch _ _ => False
  | .dist _ => True
  | .node _ cs => NoTorchL cs
def NoTorchL : List (String × LTree R) → Prop
  | [] => True
  | (_, t) :: cs => NoTorch t ∧ NoTorchL cs
end

mutual
/-- Specification: no parent holds the same LSTM object under two names. -/
def NoShared : LTree R → Prop
  | .torch _ _ => True
  | .dist _ => True
  | .node _ cs => NoSharedL [] cs
def NoSharedL : List ℕ → List (String × LTree R) → Prop
  | _, [] => True
  | seen, (_, .torch id _) :: cs => id ∉ seen ∧ NoSharedL (id :: seen) cs
  | seen, (_, .dist _) :: cs => NoSharedL seen cs
  | seen, (_, .node id ds) :: cs => NoShared (.node id ds) ∧ NoSharedL seen cs
end

mutual
theorem convertTree_noTorch (init : ℕ → Bool → CellP R) (t t' : LTree R) (hs : NoShared t)
    (h : convertTree init t = .ok t') : NoTorch t' := by
  match t with
  | .torch _ l =>
    rw [convertTree] at h
    cases hf : fromPytorch init l with
    | error e => rw [hf] at h; cases h
    | ok d => rw [hf] at h; injection h with h; subst h; simp [NoTorch]
  | .dist d => rw [convertTree] at h; injection h with h; subst h; simp [NoTorch]
  | .node id cs =>
    rw [convertTree] at h
    cases hf : convertChildren init [] cs with
    | error e => rw [hf] at h; cases h
    | ok cs' =>
      rw [hf] at h; injection h with h; subst h
      rw [NoTorch]
      rw [NoShared] at hs
      exact convertChildren_noTorch init [] cs cs' hs hf
theorem convertChildren_noTorch (init : ℕ → Bool → CellP R) (seen : List ℕ) (cs cs' : List (String × LTree R))
    (hs : NoSharedL seen cs) (h : convertChildren init seen cs = .ok cs') : NoTorchL cs' := by
  match cs with
  | [] => rw [convertChildren] at h; injection h with h; subst h; simp [NoTorchL]
  | (n, .torch id l) :: cs =>
    rw [NoSharedL] at hs
    rw [convertChildren, if_neg hs.1] at h
    obtain ⟨t, ht, h⟩ := ok_bind h
    cases hf : convertChildren init (id :: seen) cs with
    | error e => rw [hf] at h; cases h
    | ok cs1 =>
      rw [hf] at h; injection h with h; subst h
      rw [NoTorchL]
      refine ⟨?_, convertChildren_noTorch init _ cs cs1 hs.2 hf⟩
      rw [convertTree] at ht
      cases hl : fromPytorch init l with
      | error e => rw [hl] at ht; cases ht
      | ok d => rw [hl] at ht; injection ht with ht; subst ht; simp [NoTorch]
  | (n, .dist d) :: cs =>
    rw [NoSharedL] at hs
    rw [convertChildren] at h
    cases hf : convertChildren init seen cs with
    | error e => rw [hf] at h; cases h
    | ok cs1 =>
      rw [hf] at h; injection h with h; subst h
      rw [NoTorchL]
      exact ⟨by simp [NoTorch], convertChildren_noTorch init _ cs cs1 hs hf⟩
  | (n, .node id ds) :: cs =>
    rw [NoSharedL] at hs
    rw [convertChildren] at h
    obtain ⟨t, ht, h⟩ := ok_bind h
    cases hf : convertChildren init seen cs with
    | error e => rw [hf] at h; cases h
    | ok cs1 =>
      rw [hf] at h; injection h with h; subst h
      rw [NoTorchL]
      exact ⟨convertTree_noTorch init (.node id ds) t hs.1 ht, convertChildren_noTorch init _ cs cs1 hs.2 hf⟩
end

/-- **C97** (whole models) After `convert_model_to_distiller_lstm` no LSTM of PyTorch is left at any
depth, provided no module holds one LSTM object under two names. -/
theorem C97_converts_all (init : ℕ → Bool → CellP R) (t t' : LTree R) (hs : NoShared t)
    (h : convertTree init t = .ok t') : NoTorch t' := convertTree_noTorch init t t' hs h

end Tree

/-- A one-layer LSTM with one input and one unit. -/
def tinyLSTM : TorchLSTM ℚ where
  numLayers := 1
  bias := false
  bidirectional := false
  dropout := 1 / 2
  training := false
  params := [(⟨false, true, 0, false⟩, [[1], [2], [3], [4]]), (⟨false, false, 0, false⟩, [[0], [1], [0], [1]])]

/-- **C97** is violated when a module holds one LSTM under two names: the second name keeps PyTorch's
module. -/
theorem C97_violated_shared : ∃ t', convertTree (fun _ _ => []) (.node 0 [("a", .torch 1 tinyLSTM), ("b", .torch 1 tinyLSTM)]) =
    .ok t' ∧ ¬ NoTorch t' := by
  refine ⟨.node 0 [("a", .dist ⟨1, false, false, 1 / 2, true,
    [[((false, true), [[1], [2], [3], [4]]), ((false, false), [[0], [1], [0], [1]])]], []⟩), ("b", .torch 1 tinyLSTM)], ?_, ?_⟩
  · simp only [convertTree, convertChildren]
    have : fromPytorch (fun _ _ => []) tinyLSTM = .ok ⟨1, false, false, 1 / 2, true,
      [[((false, true), [[1], [2], [3], [4]]), ((false, false), [[0], [1], [0], [1]])]], []⟩ := by decide +kernel
    rw [this]
    rfl
  · simp [NoTorch, NoTorchL]

/-- Non-vacuity: the tiny LSTM is complete, converts, and computes (with identities for the
activations). -/
example : tinyLSTM.Complete := by
  refine ⟨by decide, ?_⟩
  rintro ⟨b, g, i, r⟩
  rw [get?_isSome_iff]
  simp only [tinyLSTM, List.map_cons, List.map_nil, List.mem_cons, PKeyL.mk.injEq, List.not_mem_nil, or_false]
  cases b <;> cases g <;> cases r <;> simp
example : ∃ d, fromPytorch (fun _ _ => []) tinyLSTM = .ok d ∧
    processLayerWise (d.cellFns id id false) (fun _ _ y => y) [[[1], [2]], [[1], [1]]] ([[[0], [0]]], [[[0], [0]]]) =
      .ok ([[[12], [96]], [[720], [117900]]], ([[[720], [117900]]], [[[45], [1179]]])) := by
  refine ⟨⟨1, false, false, 1 / 2, true,
    [[((false, true), [[1], [2], [3], [4]]), ((false, false), [[0], [1], [0], [1]])]], []⟩, by decide +kernel, ?_⟩
  decide +kernel
example : packedForward (X := ℚ) (fun xs (s : ℚ) => .ok (xs.map (· + s), s)) [([1, 2], 1), ([5], 0)] =
    .ok ([[2, 3], [5]], [1, 0]) := by decide +kernel
/-- Non-vacuity of `C96_cell`'s hypothesis. -/
example : CellW.Shaped (⟨[[1], [2], [3], [4]], some [1, 1, 1, 1], [[0], [1], [0], [1]], none⟩ : CellW ℚ) 1 1 :=
  ⟨by simp, by simp, by simp, by simp⟩

end Verif
