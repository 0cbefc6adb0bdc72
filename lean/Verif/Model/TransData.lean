import Verif.Model.Seq2Seq
/-!
# Tokenizer and data of the translator (examples/GNMT)
(seq2seq/data/tokenizer.py; seq2seq/data/dataset.py; seq2seq/data/config.py 1-6)

A string is its list of characters.
-/
namespace Verif

/-- `str.split()` without arguments: the maximal pieces without white space (for blank, tab, carriage return and line feed). -/
def pySplit (l : List Char) : List (List Char) := (l.splitOnP Char.isWhitespace).filter fun w => !w.isEmpty

/-- `str.strip()`. -/
def pyStrip (l : List Char) : List Char := ((l.dropWhile Char.isWhitespace).reverse.dropWhile Char.isWhitespace).reverse

/-- `l.replace(pat, '')`: from the left, without overlaps; the number is that of the characters still to be left out. -/
def strRemove (pat : List Char) : ℕ → List Char → List Char
  | _, [] => []
  | n + 1, _ :: cs => strRemove pat n cs
  | 0, c :: cs => if pat ≠ [] ∧ pat.isPrefixOf (c :: cs) then strRemove pat (pat.length - 1) cs else c :: strRemove pat 0 cs

/-- `delim.join(l)` with `delim = ' '`. -/
def joinBlank : List (List Char) → List Char
  | [] => []
  | [w] => w
  | w :: ws => w ++ ' ' :: joinBlank ws

/-- `config.UNK` (config.py:6; see `tokPAD`). -/
def tokUNK : ℕ := 1

/-- The tokens of config.py lines 1-4 in the order of tokenizer.py:15-16; `'<\s>'` has a backslash. -/
def specialTokens : List (List Char) := [['<', 'p', 'a', 'd', '>'], ['<', 'u', 'n', 'k', '>'], ['<', 's', '>'], ['<', '\\', 's', '>']]

/-- `Tokenizer` (tokenizer.py:9). -/
structure Tokenizer where
  separator : List Char
  vocabSize : ℕ
  tok2idx : Dict (List Char) ℕ
  idx2tok : Dict ℕ (List Char)

/-- `vocab` (tokenizer.py:15-20) for the lines of the file. -/
def vocabList (lines : List (List Char)) : List (List Char) := specialTokens ++ lines.map pyStrip

/-- `Tokenizer.__init__` (tokenizer.py:10-32). -/
def Tokenizer.new (lines : List (List Char)) (separator : List Char := ['@', '@']) : Tokenizer :=
  let vocab := vocabList lines
  let tok2idx := vocab.zipIdx.foldl (fun d x => Dict.set d x.1 x.2) []
  let idx2tok := tok2idx.foldl (fun d x => Dict.set d x.2 x.1) []
  ⟨separator, vocab.length, tok2idx, idx2tok⟩

/-- `self.tok2idx[i]` of a `defaultdict(default)` (tokenizer.py:23, 36): a missing key is entered. -/
def Tokenizer.index (t : Tokenizer) (w : List Char) : ℕ × Tokenizer :=
  match Dict.get? t.tok2idx w with
  | some i => (i, t)
  | none => (tokUNK, { t with tok2idx := Dict.set t.tok2idx w tokUNK })

/-- The comprehension of tokenizer.py:36. -/
def Tokenizer.indices (t : Tokenizer) : List (List Char) → List ℕ × Tokenizer
  | [] => ([], t)
  | w :: ws =>
    let r := t.index w
    let s := r.2.indices ws
    (r.1 :: s.1, s.2)

/-- `segment` (tokenizer.py:34-38). -/
def Tokenizer.segment (t : Tokenizer) (line : List Char) : List ℕ × Tokenizer :=
  let r := t.indices (pySplit (pyStrip line))
  ([tokBOS] ++ r.1 ++ [tokEOS], r.2)

/-- `detokenize` (tokenizer.py:40-44) with the blank as `delim`. -/
def Tokenizer.detokenize (t : Tokenizer) (inputs : List ℕ) : Except Err (List Char) := do
  let ws ← inputs.mapM fun i => Dict.getE t.idx2tok i
  return strRemove t.separator 0 (strRemove (t.separator ++ [' ']) 0 (joinBlank ws))

/-- `process_data` (dataset.py:90-100): the file is read up to line `max_size`, unless this is `None` or 0. -/
def processData (t : Tokenizer) (maxSize : Option ℕ) : ℕ → List (List Char) → List (List ℕ) × Tokenizer
  | _, [] => ([], t)
  | i, line :: lines =>
    if maxSize.getD 0 ≠ 0 ∧ maxSize = some i then ([], t)
    else
      let r := t.segment line
      let s := processData r.2 maxSize (i + 1) lines
      (r.1 :: s.1, s.2)

/-- `ParallelDataset` (dataset.py:44-45). -/
structure ParallelData where
  src : List (List ℕ)
  tgt : List (List ℕ)
  lengths : List ℕ
  deriving DecidableEq, Repr

/-- `filter_data` (dataset.py:71-84). -/
def filterData (minLen maxLen : ℕ) : List (List ℕ) → List (List ℕ) → List (List ℕ) × List (List ℕ)
  | s :: ss, t :: ts =>
    let r := filterData minLen maxLen ss ts
    if (minLen ≤ s.length ∧ s.length ≤ maxLen) ∧ minLen ≤ t.length ∧ t.length ≤ maxLen then (s :: r.1, t :: r.2) else r
  | _, _ => ([], [])

/-- `sort_by_length` (dataset.py:64-68): `argsort` gives the indices of `torch.sort(descending=True)`. -/
def sortByLength (argsort : List ℕ → List ℕ) (d : ParallelData) : ParallelData :=
  let ind := argsort d.lengths
  ⟨ind.map (d.src.getD · []), ind.map (d.tgt.getD · []), ind.map (d.lengths.getD · 0)⟩

/-- `ParallelDataset.__init__` (dataset.py:46-62). -/
def ParallelData.new (t : Tokenizer) (argsort : List ℕ → List ℕ) (minLen maxLen : ℕ) (sort : Bool) (maxSize : Option ℕ) (srcFile tgtFile : List (List Char)) :
    Except Err ParallelData :=
  let s := processData t maxSize 0 srcFile
  let g := processData s.2 maxSize 0 tgtFile
  if s.1.length ≠ g.1.length then .error .assertion
  else
    let f := filterData minLen maxLen s.1 g.1
    let d : ParallelData := ⟨f.1, f.2, List.zipWith (fun a b => a.length + b.length) f.1 f.2⟩
    .ok (if sort then sortByLength argsort d else d)

/-- `collate_seq` (dataset.py:14-27) with `batch_first=False`: the tensor, row by row, and the lengths. -/
def collateSeq (seqs : List (List ℕ)) : List (List ℕ) × List ℕ :=
  let lengths := seqs.map List.length
  let full := List.replicate (lengths.foldl max 0) (List.replicate seqs.length tokPAD)
  (seqs.zipIdx.foldl (fun t x => setColumn t (List.range x.1.length) x.1 x.2) full, lengths)

/-- `collate` (dataset.py:29-39) as `get_loader` builds it (line 111, `sort=True`): the two tensors with their lengths and the indices.  `sorted` keeps the
order of equal elements, with `reverse=True` too. -/
def collate (seqs : List (List ℕ × List ℕ)) : Except Err ((List (List ℕ) × List ℕ) × (List (List ℕ) × List ℕ) × List ℕ) :=
  match seqs with
  | [] => .error .value
  | _ =>
    let srt := (seqs.map Prod.fst).zipIdx.insertionSort fun a b => b.1.length ≤ a.1.length
    let indices := srt.map Prod.snd
    let tgt := indices.map ((seqs.map Prod.snd).getD · [])
    .ok (collateSeq (srt.map Prod.fst), collateSeq tgt, indices)

end Verif
