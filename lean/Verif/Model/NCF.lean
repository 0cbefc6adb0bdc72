import Verif.Model.LangModel
import Mathlib.Data.List.Dedup
/-!
# The collaborative filtering example
(examples/ncf/dataset.py 24-132; ncf.py: `predict` 94-109, `eval_one` 123-137, `val_epoch` 140-184; convert.py 64-82)
-/
namespace Verif

/-! ## The training set (dataset.py) -/

/-- A line of the training file (dataset.py:57-63): user, item, and whether the rating is positive. -/
structure NcfRow where
  user : ℕ
  item : ℕ
  pos : Bool
  deriving DecidableEq, Repr

/-- `self.data` (dataset.py:69). -/
def ncfData (rows : List NcfRow) : List NcfRow := rows.filter NcfRow.pos

/-- `(u, j) in self.mat` (dataset.py:75-78): all rows are entered, also those without a positive rating. -/
def ncfMat (rows : List NcfRow) (u j : ℕ) : Bool := rows.any fun r => r.user == u && r.item == j

/-- `__len__` (dataset.py:83-84). -/
def ncfLen (nbNeg : ℕ) (rows : List NcfRow) : ℕ := (nbNeg + 1) * (ncfData rows).length

/-- The rejection loop (dataset.py:93-95) on the draws `ds`; `none` if it is still running after them. -/
def ncfDraw (rows : List NcfRow) (u : ℕ) : List ℕ → Option ℕ
  | [] => none
  | j :: ds => if ncfMat rows u j then ncfDraw rows u ds else some j

/-- `__getitem__(idx)` (dataset.py:86-97): user, item and label; `none` if the draws do not suffice. -/
def ncfItem (nbNeg : ℕ) (rows : List NcfRow) (idx : ℕ) (ds : List ℕ) : Except Err (Option (ℕ × ℕ × ℕ)) :=
  match (ncfData rows)[idx / (nbNeg + 1)]? with
  | none => .error .index
  | some r =>
    if idx % (nbNeg + 1) = 0 then .ok (some (r.user, r.item, 1))
    else .ok ((ncfDraw rows r.user ds).map fun j => (r.user, j, 0))

/-! ## Evaluation (ncf.py) -/

/-- `predict` (ncf.py:94-109): batches of `bs` (1024); the network scores each pair on its own. -/
def ncfPredict (score : ℕ → ℕ → ℚ) (bs : ℕ) (users items : List ℕ) : List ℚ :=
  (bpttRange users.length bs).flatMap fun i => List.zipWith score ((users.drop i).take bs) ((items.drop i).take bs)

/-- `{item: pred for item, pred in zip(items, predictions)}` (ncf.py:131). -/
def ncfScores (items : List ℕ) (preds : List ℚ) : Dict ℕ ℚ := (items.zip preds).foldl (fun d kv => Dict.set d kv.1 kv.2) []

/-- `heapq.nlargest(K, d, key=d.get)` (ncf.py:132): documented as the first `K` of the stable sort in descending order. -/
def ncfRanked (K : ℕ) (d : Dict ℕ ℚ) : List ℕ := ((d.insertionSort fun a b => b.2 ≤ a.2).take K).map Prod.fst

/-- `_calculate_ndcg` (ncf.py:116-120) up to the logarithms: `gain i` is `log 2 / log (i + 2)`. -/
def ncfNdcg (gain : ℕ → ℚ) (ranked : List ℕ) (t : ℕ) : ℚ := if t ∈ ranked then gain (ranked.idxOf t) else 0

/-- `eval_one` (ncf.py:123-137): hit, gain, and the list of the caller, to which the test item has been appended. -/
def evalOne (score : ℕ → ℕ → ℚ) (bs : ℕ) (gain : ℕ → ℚ) (K : ℕ) (rating : ℕ × ℕ) (items : List ℕ) : ℕ × ℚ × List ℕ :=
  let items := items ++ [rating.2]
  let users := List.replicate items.length rating.1
  let ranked := ncfRanked K (ncfScores items (ncfPredict score bs users items))
  (if rating.2 ∈ ranked then 1 else 0, ncfNdcg gain ranked rating.2, items)

/-- `val_epoch` (ncf.py:140-184): hits and gains, and the negatives afterwards.  With several processes the lists are copied and those of
the caller stay as they are. -/
def valEpoch (score : ℕ → ℕ → ℚ) (bs : ℕ) (gain : ℕ → ℚ) (K : ℕ) (processes : ℕ) (numUsers : ℤ) (ratings : List (ℕ × ℕ))
    (negs : List (List ℕ)) : List (ℕ × ℚ) × List (List ℕ) :=
  let n := if 0 < numUsers then numUsers.toNat else max ratings.length negs.length
  let res := List.zipWith (evalOne score bs gain K) (ratings.take n) (negs.take n)
  (res.map fun r => (r.1, r.2.1), if 1 < processes then negs else res.map (fun r => r.2.2) ++ negs.drop res.length)

/-! ## Making the data set (convert.py) -/

/-- `user_to_items[user]` (convert.py:65-67): the items of the user in the order of time. -/
def userItems (ratings : List (ℕ × ℕ)) (u : ℕ) : List ℕ := (ratings.filter fun r => r.1 = u).map Prod.snd

/-- The loop over the users (convert.py:74-82): the training pairs, the test pairs and, for each user, the pool the negatives are drawn from.
`ratings` are the pairs of user and item in the order of time, numbered from zero. -/
def convertData (nbUsers nbItems : ℕ) (ratings : List (ℕ × ℕ)) : Except Err (List (ℕ × ℕ) × List (ℕ × ℕ) × List (List ℕ)) :=
  (List.range nbUsers).foldlM (fun s u =>
    match (userItems ratings u).getLast? with
    | none => .error .index
    | some t => .ok (s.1.filter (· ≠ (u, t)), s.2.1 ++ [(u, t)],
        s.2.2 ++ [(List.range nbItems).filter fun i => i ∉ (userItems ratings u).dropLast])) (ratings.dedup, [], [])

/-! ## Saved data structures (dataset.py:44-81)

`TimingContext.__exit__` (lines 33-36) returns `True`: every exception inside of a `with TimingContext` block is suppressed. -/

/-- A file: absent, begun but not complete, complete. -/
inductive FileSt | absent | begun | complete
  deriving DecidableEq, Repr

/-- Which attributes the data set has: `data`, `mat`, `nb_users` and `nb_items`. -/
structure NcfAttrs where
  data : Bool
  mat : Bool
  dims : Bool
  deriving DecidableEq, Repr

/-- `_load_train_matrix` (dataset.py:44-81) for the states of the `.pkl` and `.npz` files; `csv` tells whether the training file can be parsed.
Loading an incomplete file raises inside of the block; without `mat` line 54 raises.  Otherwise the file is parsed; if that
fails, the following blocks fail in turn, the `.pkl` file having been opened for writing. -/
def loadTrain (csv : Bool) (pkl npz : FileSt) : Except Err NcfAttrs × FileSt × FileSt :=
  if pkl ≠ .absent ∧ npz ≠ .absent then
    (if npz = .complete then .ok ⟨pkl = .complete, true, true⟩ else .error .attribute, pkl, npz)
  else if csv then (.ok ⟨true, true, true⟩, .complete, .complete)
  else (.ok ⟨false, false, false⟩, .begun, npz)

/-- The states of the files between the steps of a run that parses the training file, in order: it can be stopped in each of them. -/
def loadSteps (pkl npz : FileSt) : List (FileSt × FileSt) :=
  if pkl ≠ .absent ∧ npz ≠ .absent then [(pkl, npz)]
  else [(pkl, npz), (.begun, npz), (.complete, npz), (.complete, .begun), (.complete, .complete)]

end Verif
