import Verif.Basic.Py
import Mathlib.Data.List.Sort
/-!
# Translating a batch of sentences (examples/GNMT)
(seq2seq/inference/beam_search.py: `SequenceGenerator.greedy_search` 27-78; seq2seq/inference/inference.py: `Translator.translate`
39-88; seq2seq/utils.py: `batch_padded_sequences` 90-107; seq2seq/data/config.py)
-/
namespace Verif

/-- The token numbers of config.py line 6: `PAD, UNK, BOS, EOS = [0, 1, 2, 3]`. -/
def tokPAD : ℕ := 0
/-- See `tokPAD`. -/
def tokBOS : ℕ := 2
/-- See `tokPAD`. -/
def tokEOS : ℕ := 3

/-! ## Tensor operations used -/

/-- `t.masked_select(m)` of a vector (PyTorch), the lengths being equal. -/
def maskedSelect {α : Type} (l : List α) (m : List Bool) : List α := ((l.zip m).filter Prod.snd).map Prod.fst

/-- `t.index_select(dim, idx)` along the batch dimension (PyTorch), the indices being valid. -/
def indexSelect {α : Type} (l : List α) (idx : List ℕ) : List α := idx.filterMap (l[·]?)

/-- `t[rows, col] = words` (PyTorch). -/
def setColumn (t : List (List ℕ)) (rows words : List ℕ) (col : ℕ) : List (List ℕ) :=
  (rows.zip words).foldl (fun t rw => t.modify rw.1 fun row => row.set col rw.2) t

/-- `l[rows] += 1` (PyTorch), the rows being distinct. -/
def incRows (l : List ℕ) (rows : List ℕ) : List ℕ := rows.foldl (fun l r => l.modify r (· + 1)) l

/-! ## Greedy search -/

variable {A B H : Type}

/-- The variables of the loop: `translation`, `lengths`, `active`, `words`, the three parts of `context` as lists over the batch dimension, and
`counter`. -/
structure GState (A B H : Type) where
  translation : List (List ℕ)
  lengths : List ℕ
  active : List ℕ
  words : List ℕ
  c0 : List A
  c1 : List B
  c2 : List H
  counter : ℕ

/-- `model.generate(words, context, 1)` (models/seq2seq_base.py:18-22, models/decoder.py:113-140): the decoder treats the sentences of a batch
independently (`gen`, any function); the encoder's output and length are returned unchanged. -/
def generate1 (gen : ℕ → A → B → H → ℕ × H) : List ℕ → List A → List B → List H → List (ℕ × H)
  | w :: ws, a :: as, b :: bs, h :: hs => gen w a b h :: generate1 gen ws as bs hs
  | _, _, _, _ => []

/-- The body of the loop (beam_search.py:52-76).  Once `active` is empty nothing happens any more: the `break` of lines 53-54. -/
def greedyStep (gen : ℕ → A → B → H → ℕ × H) (batch : ℕ) (s : GState A B H) (idx : ℕ) : GState A B H :=
  if s.active.length = 0 then s
  else
    let out := generate1 gen s.words s.c0 s.c1 s.c2
    let words := out.map Prod.fst
    let c2 := out.map Prod.snd
    let tr := setColumn s.translation s.active words idx
    let ln := incRows s.lengths s.active
    let terminating := words.map (· == tokEOS)
    if terminating.any id then
      let notT := terminating.map (!·)
      let mask := maskedSelect ((List.range batch).take s.active.length) notT
      ⟨tr, ln, maskedSelect s.active notT, indexSelect words mask, indexSelect s.c0 mask, indexSelect s.c1 mask, indexSelect c2 mask,
        s.counter + 1⟩
    else ⟨tr, ln, s.active, words, s.c0, s.c1, c2, s.counter + 1⟩

/-- `greedy_search` (beam_search.py:27-78): `words`, `c0`, `c1` are the initial input and context, `c2` the initial hidden states (`None` in the
code, which the decoder takes as zeros).  Without room for BOS, line 41 is an IndexError. -/
def greedySearch (gen : ℕ → A → B → H → ℕ × H) (maxLen batch : ℕ) (words : List ℕ) (c0 : List A) (c1 : List B) (c2 : List H) :
    Except Err (List (List ℕ) × List ℕ × ℕ) :=
  if maxLen = 0 then .error .index
  else
    let s := (List.range' 1 (maxLen - 1)).foldl (greedyStep gen batch)
      ⟨List.replicate batch ((List.replicate maxLen 0).set 0 tokBOS), List.replicate batch 1, List.range batch, words, c0, c1, c2, 0⟩
    .ok (s.translation, s.lengths, s.counter)

/-! ## Sorting a batch by length and back -/

/-- `zip(*sorted(enumerate(seq), key=lambda item: len(item[1]), reverse=True))` (utils.py:91-93): Python's sort is stable also in reverse. -/
def sortByLen (seqs : List (List ℕ)) : List (ℕ × List ℕ) :=
  (seqs.zipIdx.map fun x => (x.2, x.1)).insertionSort fun a b => b.2.length ≤ a.2.length

/-- Lines 97-104: the columns of the padded tensor. -/
def padTo (n : ℕ) (s : List ℕ) : List ℕ := s ++ List.replicate (n - s.length) tokPAD

/-- `batch_padded_sequences(seq, sort=True)` (utils.py:90-107): the columns, the lengths and the indices; an empty batch cannot be
unpacked (ValueError). -/
def batchPadded (seqs : List (List ℕ)) : Except Err (List (List ℕ) × List ℕ × List ℕ) :=
  match sortByLen seqs with
  | [] => .error .value
  | l => .ok (l.map fun x => padTo ((l.map fun x => x.2.length).foldl max 0) x.2, l.map fun x => x.2.length, l.map Prod.fst)

/-- `pred[1: lengths[idx] - 1]` (inference.py:80-82). -/
def cutPred (pred : List ℕ) (len : ℕ) : List ℕ := (pred.take (len - 1)).drop 1

/-- `[output[indices.index(i)] for i in range(len(output))]` (inference.py:87). -/
def restoreOrder {α : Type} (output : List α) (indices : List ℕ) : List α :=
  (List.range output.length).filterMap fun i => output[indices.idxOf i]?

/-- `translate` (inference.py:39-88) with beams of size one, up to the tokenizer: `segs` are the segmented sentences, `encode` the encoder on a
padded column and its length, `h0` the initial hidden state; the result are the tokens of the translations. -/
def translateGreedy (gen : ℕ → A → ℕ → H → ℕ × H) (encode : List ℕ → ℕ → A) (h0 : H) (maxLen : ℕ) (segs : List (List ℕ)) :
    Except Err (List (List ℕ)) := do
  let p ← batchPadded segs
  let c0 := List.zipWith encode p.1 p.2.1
  let r ← greedySearch gen maxLen segs.length (List.replicate segs.length tokBOS) c0 p.2.1 (List.replicate segs.length h0)
  return restoreOrder (List.zipWith cutPred r.1 r.2.1) p.2.2

end Verif
