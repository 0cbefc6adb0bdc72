import Verif.Basic.Py
import Mathlib.Algebra.Ring.Defs
import Mathlib.Data.Rat.Defs
import Mathlib.Algebra.BigOperators.Group.List.Basic
/-!
# The modular LSTM (distiller/modules/rnn.py)

Numbers are elements of a commutative ring; the sigmoid and the hyperbolic tangent are arbitrary
functions on it.  A step of a batch of sequences is the list of the batch's rows, a sequence the list
of its steps.  Operations that torch performs row by row (`nn.Linear`, element-wise operations,
`chunk` along the columns) are modelled on rows and mapped over the batch.
-/
namespace Verif

section Cell
variable {R : Type} [CommRing R]

/-- Weights of an LSTM cell: `fc_gate_x`, `fc_gate_h` (rnn.py:50-52); no bias tensors with
`bias=False`. -/
structure CellW (R : Type) where
  wx : List (List R)
  bx : Option (List R)
  wh : List (List R)
  bh : Option (List R)
  deriving DecidableEq, Repr

/-- Inner product of a row of weights and an input row. -/
def dotRow (w x : List R) : R := (List.zipWith (· * ·) w x).sum

/-- `nn.Linear.forward` on one row. -/
def linRow (w : List (List R)) (b : Option (List R)) (x : List R) : List R :=
  let y := w.map fun row => dotRow row x
  match b with
  | none => y
  | some b => List.zipWith (· + ·) y b

/-- The `k`-th of four pieces of `torch.chunk(v, 4)`: pieces have ceil(n/4) elements. -/
def chunk4 (v : List R) (k : ℕ) : List R :=
  let n := (v.length + 3) / 4
  (v.drop (k * n)).take n

/-- `DistillerLSTMCell.forward` on one row of the batch (rnn.py:78-86). -/
def cellRow (sg th : R → R) (w : CellW R) (x h c : List R) : List R × List R :=
  let gate := List.zipWith (· + ·) (linRow w.wx w.bx x) (linRow w.wh w.bh h)
  let i := (chunk4 gate 0).map sg
  let f := (chunk4 gate 1).map sg
  let g := (chunk4 gate 2).map th
  let o := (chunk4 gate 3).map sg
  let c' := List.zipWith (· + ·) (List.zipWith (· * ·) f c) (List.zipWith (· * ·) i g)
  (List.zipWith (· * ·) o (c'.map th), c')

/-- The rows of three batches, aligned. -/
def zipRows3 {α β γ δ : Type} (f : α → β → γ → δ) : List α → List β → List γ → List δ
  | a :: as, b :: bs, c :: cs => f a b c :: zipRows3 f as bs cs
  | _, _, _ => []

/-- `DistillerLSTMCell.forward` with a hidden state (rnn.py:68-86), batch and state with equally
many rows. -/
def cellBatch (sg th : R → R) (w : CellW R) (x : List (List R)) (s : List (List R) × List (List R)) :
    List (List R) × List (List R) :=
  let r := zipRows3 (fun x h c => cellRow sg th w x h c) x s.1 s.2
  (r.map Prod.fst, r.map Prod.snd)

/-- Rows repeated so that two batches can be added: torch's broadcasting of the row dimension. -/
def broadcastRows {α : Type} (a : List α) (n : ℕ) : List α :=
  match a with
  | [x] => List.replicate n x
  | _ => a

/-- `DistillerLSTMCell.forward` (rnn.py:68-91): without a hidden state `init_hidden` makes zeros with
as many rows as the input has columns (`x.size(1)`, rnn.py:72-74); adding the two gates broadcasts. -/
def cellForward (sg th : R → R) (hidden : ℕ) (w : CellW R) (x : List (List R))
    (s : Option (List (List R) × List (List R))) : Except Err (List (List R) × List (List R)) :=
  let s := s.getD
    (let n := (x.head?.map List.length).getD 0
     (List.replicate n (List.replicate hidden 0), List.replicate n (List.replicate hidden 0)))
  let n := s.1.length
  if x.length = n then .ok (cellBatch sg th w x s)
  else if x.length = 1 then .ok (cellBatch sg th w (broadcastRows x n) s)
  else if n = 1 then
    .ok (cellBatch sg th w x (broadcastRows s.1 x.length, broadcastRows s.2 x.length))
  else .error .runtime

end Cell

/-! ## Running cells over sequences: the cell is an arbitrary function of step and state -/

section Seq
variable {X : Type}

/-- A cell: step, (hidden, cell) state, to the new (hidden, cell) state. -/
abbrev LCell (X : Type) := X → X × X → X × X

/-- `l[i]`. -/
def getIdx {α : Type} (l : List α) (i : ℕ) : Except Err α :=
  match l[i]? with
  | some v => .ok v
  | none => .error .index

/-- `torch.stack(l)`: refuses an empty list. -/
def stackE {α : Type} (l : List α) : Except Err (List α) := if l = [] then .error .runtime else .ok l

/-- Body of the loop of `_layer_chain_unidirectional` (rnn.py:327-332): `acc` is the running output
and the list of new states.  `drop i` is the dropout after layer `i`. -/
def uniBody (n : ℕ) (drop : ℕ → X → X) (hs cs : List X) (acc : X × List (X × X)) (ic : ℕ × LCell X) :
    Except Err (X × List (X × X)) := do
  let h ← getIdx hs ic.1
  let c ← getIdx cs ic.1
  let r := ic.2 acc.1 (h, c)
  let out := if ic.1 + 1 < n then drop ic.1 r.1 else r.1
  return (out, acc.2 ++ [(out, r.2)])

/-- `_layer_chain_unidirectional` with a hidden state (rnn.py:316-334): one time step through all
layers; the states are repackaged as two stacks. -/
def uniChain (cells : List (LCell X)) (drop : ℕ → X → X) (step : X) (hc : List X × List X) :
    Except Err (X × (List X × List X)) := do
  let r ← ((List.range cells.length).zip cells).foldlM (uniBody cells.length drop hc.1 hc.2) (step, [])
  let h ← stackE (r.2.map Prod.fst)
  let c ← stackE (r.2.map Prod.snd)
  return (r.1, (h, c))

/-- Loop of `process_layer_wise` (rnn.py:266-271); `drop t i` is the dropout drawn at time `t` after
layer `i`. -/
def uniLoop (cells : List (LCell X)) (drop : ℕ → ℕ → X → X) :
    ℕ → List X → List X × List X → Except Err (List X × (List X × List X))
  | _, [], hc => .ok ([], hc)
  | t, x :: xs, hc => do
    let r ← uniChain cells (drop t) x hc
    let rest ← uniLoop cells drop (t + 1) xs r.2
    return (r.1 :: rest.1, rest.2)

/-- `process_layer_wise` (rnn.py:266-271). -/
def processLayerWise (cells : List (LCell X)) (drop : ℕ → ℕ → X → X) (xs : List X) (hc : List X × List X) :
    Except Err (List X × (List X × List X)) := do
  let r ← uniLoop cells drop 0 xs hc
  let ys ← stackE r.1
  return (ys, r.2)

/-- `process_sequence_wise` (rnn.py:122-138). -/
def seqLoop (cell : LCell X) : List X → X × X → List X × (X × X)
  | [], s => ([], s)
  | x :: xs, s =>
    let r := cell x s
    let rest := seqLoop cell xs r
    (r.1 :: rest.1, rest.2)

/-- `process_sequence_wise` (rnn.py:122-138) with its `torch.stack`. -/
def processSeq (cell : LCell X) (xs : List X) (s : X × X) : Except Err (List X × (X × X)) := do
  let ys ← stackE (seqLoop cell xs s).1
  return (ys, (seqLoop cell xs s).2)

/-- `l[::2]` -/
def evens {α : Type} : List α → List α
  | [] => []
  | [a] => [a]
  | a :: _ :: l => a :: evens l

/-- `l[1::2]` -/
def odds {α : Type} : List α → List α
  | [] => []
  | [_] => []
  | _ :: b :: l => b :: odds l

/-- Body of the loop of `_bidirectional_type2_forward` (rnn.py:282-294): output sequence, states so
far.  `cat` concatenates along the last dimension, `drop i` is the dropout after layer `i`. -/
def biBody (n : ℕ) (cat : X → X → X) (drop : ℕ → List X → List X) (h c : List X)
    (acc : List X × (List X × List X)) (ic : ℕ × (LCell X × LCell X)) : Except Err (List X × (List X × List X)) := do
  let hf ← getIdx (evens h) ic.1
  let cf ← getIdx (evens c) ic.1
  let hb ← getIdx (odds h) ic.1
  let cb ← getIdx (odds c) ic.1
  let f ← processSeq ic.2.1 acc.1 (hf, cf)
  let b ← processSeq ic.2.2 acc.1.reverse (hb, cb)
  let out := List.zipWith cat f.1 b.1.reverse
  let out := if ic.1 + 1 < n then drop ic.1 out else out
  return (out, (acc.2.1 ++ [f.2.1, b.2.1], acc.2.2 ++ [f.2.2, b.2.2]))

/-- `_bidirectional_type2_forward` (rnn.py:273-296). -/
def biForward (cells : List (LCell X × LCell X)) (cat : X → X → X) (drop : ℕ → List X → List X) (xs : List X)
    (hc : List X × List X) : Except Err (List X × (List X × List X)) :=
  ((List.range cells.length).zip cells).foldlM (biBody cells.length cat drop hc.1 hc.2) (xs, ([], []))

/-- `packed_sequence_forward` (rnn.py:242-264).  `fwd` is `forward_fn` on one sequence, `seqs` the
sequences of the batch in the user's order, each with its state.  The results are packed again with
`pack_sequence`, which refuses lengths that are not in decreasing order. -/
def packedForward {S : Type} (fwd : List X → S → Except Err (List X × S)) (seqs : List (List X × S)) :
    Except Err (List (List X) × List S) := do
  let rs ← seqs.mapM fun p => fwd p.1 p.2
  let ys := rs.map Prod.fst
  if ys.Pairwise (fun a b => b.length ≤ a.length) then return (ys, rs.map Prod.snd)
  else .error .runtime

end Seq

/-! ## Conversion from and to PyTorch's LSTM -/

/-- A parameter of `nn.LSTM`: weight or bias, input or hidden gate, layer, reverse direction.  The
code uses the strings "%s_%sh_l%d%s"; kept as the tuple, the format being injective. -/
structure PKeyL where
  isBias : Bool
  isInput : Bool
  layer : ℕ
  rev : Bool
  deriving DecidableEq, Repr

/-- `nn.LSTM`: what the conversion reads. -/
structure TorchLSTM (R : Type) where
  numLayers : ℕ
  bias : Bool
  bidirectional : Bool
  dropout : ℚ
  training : Bool
  params : Dict PKeyL (List (List R))
  deriving DecidableEq, Repr

/-- A cell of `DistillerLSTM` as the dictionary of its four parameters: (isBias, isInput) to tensor. -/
abbrev CellP (R : Type) := Dict (Bool × Bool) (List (List R))

/-- `DistillerLSTM`. -/
structure DLSTM (R : Type) where
  numLayers : ℕ
  bias : Bool
  bidirectional : Bool
  dropout : ℚ
  training : Bool
  cells : List (CellP R)
  cellsRev : List (CellP R)
  deriving DecidableEq, Repr

/-- The iteration space of the conversion loops (rnn.py:382-383, 418-419): layers times
`product(param_types, param_gates, suffixes)`. -/
def lstmKeys (n : ℕ) (bias bidi : Bool) : List PKeyL :=
  (List.range n).flatMap fun i =>
    (if bias then [false, true] else [false]).flatMap fun b =>
      [true, false].flatMap fun g =>
        (if bidi then [false, true] else [false]).map fun r => ⟨b, g, i, r⟩

/-- One iteration of the loop of `from_pytorch_impl` (rnn.py:420-425). -/
def fromBody {R : Type} (l : TorchLSTM R) (d : DLSTM R) (k : PKeyL) : Except Err (DLSTM R) :=
  match l.params.get? k with
  | none => .error .attribute
  | some t =>
    if k.rev then
      match d.cellsRev[k.layer]? with
      | none => .error .index
      | some c => .ok { d with cellsRev := d.cellsRev.set k.layer (c.set (k.isBias, k.isInput) t) }
    else
      match d.cells[k.layer]? with
      | none => .error .index
      | some c => .ok { d with cells := d.cells.set k.layer (c.set (k.isBias, k.isInput) t) }

/-- A freshly constructed `DistillerLSTM` (rnn.py:178-226): every cell has its (random) tensors
`init`, biases only with `bias`; modules are created in training mode. -/
def freshDLSTM {R : Type} (init : ℕ → Bool → CellP R) (n : ℕ) (bias bidi : Bool) (dropout : ℚ) :
    Except Err (DLSTM R) :=
  if n = 0 then .error .value
  else .ok
    { numLayers := n, bias := bias, bidirectional := bidi, dropout := dropout, training := true
      cells := (List.range n).map fun i => init i false
      cellsRev := if bidi then (List.range n).map fun i => init i true else [] }

/-- `DistillerLSTM.from_pytorch_impl` (rnn.py:399-427). -/
def fromPytorch {R : Type} (init : ℕ → Bool → CellP R) (l : TorchLSTM R) : Except Err (DLSTM R) := do
  let d ← freshDLSTM init l.numLayers l.bias l.bidirectional l.dropout
  (lstmKeys l.numLayers l.bias l.bidirectional).foldlM (fromBody l) d

/-- One iteration of the loop of `to_pytorch_impl` (rnn.py:384-391). -/
def toBody {R : Type} (d : DLSTM R) (l : TorchLSTM R) (k : PKeyL) : Except Err (TorchLSTM R) :=
  match (if k.rev then d.cellsRev else d.cells)[k.layer]? with
  | none => .error .index
  | some c =>
    match c.get? (k.isBias, k.isInput) with
    | none => .error .attribute
    | some t => .ok { l with params := l.params.set k t }

/-- `DistillerLSTM.to_pytorch_impl` (rnn.py:360-397): `init` are the new module's random tensors. -/
def toPytorch {R : Type} (init : Dict PKeyL (List (List R))) (d : DLSTM R) : Except Err (TorchLSTM R) :=
  (lstmKeys d.numLayers d.bias d.bidirectional).foldlM (toBody d)
    { numLayers := d.numLayers, bias := d.bias, bidirectional := d.bidirectional, dropout := d.dropout
      training := true, params := init }

/-- A tree of modules for `convert_model_to_distiller_lstm`: torch's LSTMs (with an identity), the
converted ones, other modules with named children. -/
inductive LTree (R : Type) where
  | torch (id : ℕ) (l : TorchLSTM R)
  | dist (d : DLSTM R)
  | node (id : ℕ) (children : List (String × LTree R))

mutual

/-- `convert_model_to_distiller_lstm` (rnn.py:438-451); cells (`nn.LSTMCell`) not included. -/
def convertTree {R : Type} (init : ℕ → Bool → CellP R) : LTree R → Except Err (LTree R)
  | .torch _ l => (fromPytorch init l).map .dist
  | .dist d => .ok (.dist d)
  | .node id cs => (convertChildren init [] cs).map (.node id)

/-- Its loop over `named_children()`, which yields an object only once per parent. -/
def convertChildren {R : Type} (init : ℕ → Bool → CellP R) :
    List ℕ → List (String × LTree R) → Except Err (List (String × LTree R))
  | _, [] => .ok []
  | seen, (n, .torch id l) :: cs =>
    if id ∈ seen then (convertChildren init seen cs).map ((n, .torch id l) :: ·)
    else (convertTree init (.torch id l)).bind fun t => (convertChildren init (id :: seen) cs).map ((n, t) :: ·)
  | seen, (n, .dist d) :: cs => (convertChildren init seen cs).map ((n, .dist d) :: ·)
  | seen, (n, .node id ds) :: cs =>
    (convertTree init (.node id ds)).bind fun t => (convertChildren init seen cs).map ((n, t) :: ·)

end

end Verif
