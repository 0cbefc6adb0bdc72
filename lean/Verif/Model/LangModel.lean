import Verif.Basic.Py
import Verif.Model.Sampler
import Mathlib.Algebra.Field.Rat
import Mathlib.Algebra.BigOperators.Group.List.Basic
/-!
# The word language model example
(examples/word_language_model/data.py 4-50; main.py: `batchify` 129-136, `get_batch` 183-187, `evaluate` 190-204, `train` 219-271, the loop of
epochs 320-355)
-/
namespace Verif

/-! ## Dictionary and corpus (data.py) -/

/-- `Dictionary` (lines 4-7). -/
structure Vocab where
  word2idx : Dict String ℕ
  idx2word : List String
  deriving DecidableEq, Repr

/-- `Dictionary()` (lines 5-7). -/
def Vocab.empty : Vocab := ⟨[], []⟩

/-- `add_word` (lines 9-12), the dictionary afterwards. -/
def Vocab.addWord (d : Vocab) (w : String) : Vocab :=
  if d.word2idx.has w then d
  else
    let l := d.idx2word ++ [w]
    ⟨Dict.set d.word2idx w (l.length - 1), l⟩

/-- The words of a file: `line.split() + ['<eos>']` for each line (lines 32, 43); the lines are given as the results of `split`. -/
def fileWords (lines : List (List String)) : List String := lines.flatMap fun l => l ++ ["<eos>"]

/-- `tokenize` (lines 25-50) of an existing file: the first pass adds the words, the second looks their numbers up. -/
def Vocab.tokenize (d : Vocab) (lines : List (List String)) : Except Err (Vocab × List ℕ) := do
  let d' := (fileWords lines).foldl Vocab.addWord d
  let ids ← (fileWords lines).mapM fun w => Dict.getE d'.word2idx w
  return (d', ids)

/-- `Corpus(path)` (lines 19-23): the dictionary and the numbers of `train.txt`, `valid.txt` and `test.txt`. -/
def corpusOf (train valid test : List (List String)) : Except Err (Vocab × List ℕ × List ℕ × List ℕ) := do
  let a ← Vocab.empty.tokenize train
  let b ← a.1.tokenize valid
  let c ← b.1.tokenize test
  return (c.1, a.2, b.2, c.2)

/-! ## Batches (main.py) -/

/-- `batchify(data, bsz)` (main.py:129-136): the rows of the result.  `view(bsz, -1)` of an empty vector is a matrix without columns; zero columns
divide by zero. -/
def batchify (data : List ℕ) (bsz : ℕ) : Except Err (List (List ℕ)) :=
  if bsz = 0 then .error .zeroDiv
  else
    let nbatch := data.length / bsz
    let view := rowsOf nbatch bsz (data.take (nbatch * bsz))
    .ok ((List.range nbatch).map fun t => view.filterMap (·[t]?))

/-- `get_batch(source, i)` (main.py:183-187) for an index of the loop; the targets are kept by rows. -/
def getBatch (bptt : ℕ) (source : List (List ℕ)) (i : ℕ) : List (List ℕ) × List (List ℕ) :=
  let n := min bptt (source.length - 1 - i)
  ((source.drop i).take n, (source.drop (i + 1)).take n)

/-- `range(0, n, bptt)` (`bptt` positive). -/
def bpttRange (n bptt : ℕ) : List ℕ := (List.range ((n + bptt - 1) / bptt)).map (· * bptt)

variable {H : Type}

/-- The model on a chunk (model.py, forward): the recurrent network handles one row after the other; `net h row` gives the next hidden state and, for
the target row, the cross-entropies of its words.  The result are the hidden state and the cross-entropies of all words. -/
def rnnChunk (net : H → List ℕ → H × (List ℕ → List ℚ)) : H → List (List ℕ × List ℕ) → H × List ℚ
  | h, [] => (h, [])
  | h, (x, y) :: l =>
    let r := net h x
    let s := rnnChunk net r.1 l
    (s.1, r.2 y ++ s.2)

/-- The body of the loop of `evaluate` (main.py:199-203).  A recurrent network refuses a sequence of length zero (RuntimeError); the criterion averages over all
words of the chunk. -/
def evalStep (net : H → List ℕ → H × (List ℕ → List ℚ)) (bptt : ℕ) (source : List (List ℕ)) (s : H × ℚ) (i : ℕ) : Except Err (H × ℚ) :=
  let b := getBatch bptt source i
  if b.1.length = 0 then .error .runtime
  else
    let r := rnnChunk net s.1 (b.1.zip b.2)
    .ok (r.1, s.2 + b.1.length * (r.2.sum / r.2.length))

/-- `evaluate` (main.py:190-204); `h0` is `model.init_hidden(eval_batch_size)`. -/
def evaluateLM (net : H → List ℕ → H × (List ℕ → List ℚ)) (h0 : H) (bptt : ℕ) (source : List (List ℕ)) : Except Err ℚ := do
  if bptt = 0 then throw .value
  let r ← (bpttRange source.length bptt).foldlM (evalStep net bptt source) (h0, 0)
  if source.length = 0 then throw .zeroDiv
  return r.2 / source.length

/-- The reports of an epoch of training (main.py:244-258): the losses of the minibatches so far, and the reports `cur_loss`. -/
def trainReport (interval : ℕ) (s : ℚ × List ℚ) (x : ℕ × ℚ) : ℚ × List ℚ :=
  let total := s.1 + x.2
  if x.1 % interval = 0 ∧ 0 < x.1 then (0, s.2 ++ [total / interval]) else (total, s.2)

/-- The reports for the losses of an epoch, `log_interval` being positive. -/
def trainReports (interval : ℕ) (losses : List ℚ) : List ℚ :=
  ((losses.zipIdx.map fun x => (x.2, x.1)).foldl (trainReport interval) (0, [])).2

/-- One epoch's end (main.py:341-348): the model saved last and the model saved as the best, with its loss. -/
def lmSave {M : Type} (s : Option M × Option (M × ℚ)) (x : M × ℚ) : Option M × Option (M × ℚ) :=
  (some x.1, match s.2 with
    | none => some x
    | some b => if x.2 < b.2 then some x else some b)

end Verif
