import Verif.Basic.Py
import Mathlib.Data.List.Sort
/-!
# Samplers of the examples
(examples/GNMT/seq2seq/data/sampler.py: `BucketingSampler` 7-85; examples/object_detection_compression/group_by_aspect_ratio.py:
`GroupedBatchSampler` 17-78)
-/
namespace Verif

/-! ## BucketingSampler -/

/-- `t.view(-1, n)` of a vector whose length is a multiple of `n`, as the list of its rows; `k` rows. -/
def rowsOf {α : Type} (n : ℕ) : ℕ → List α → List (List α)
  | 0, _ => []
  | k + 1, l => l.take n :: rowsOf n k (l.drop n)

/-- `l[r::w]` (Python slicing): `⌈(len(l) - r) / w⌉` elements. -/
def strided {α : Type} (r w : ℕ) (l : List α) : List α := (List.range ((l.length - r + w - 1) / w)).filterMap fun k => l[r + k * w]?

/-- `num_samples` (sampler.py:20-24). -/
def bucketNum (n b W : ℕ) : ℕ := n / (b * W) * (b * W)

/-- Sorting one shard (lines 51-56): `sortIdx` gives the indices returned by `torch.sort` of the lengths. -/
def sortShard (sortIdx : List ℕ → List ℕ) (lens : ℕ → ℕ) (shard : List ℕ) : List ℕ := (sortIdx (shard.map lens)).filterMap (shard[·]?)

/-- The bucketing (lines 40-62): shards of 80 global batches are sorted by length, the global batches are then shuffled by `order`. -/
def bucketize (sortIdx : List ℕ → List ℕ) (lens : ℕ → ℕ) (gb : ℕ) (order : List ℕ) (indices : List ℕ) : List ℕ :=
  let shardSize := gb * 80
  let nshards := (indices.length + shardSize - 1) / shardSize
  let sorted := ((rowsOf shardSize nshards indices).map (sortShard sortIdx lens)).flatten
  (order.filterMap ((rowsOf gb (indices.length / gb) sorted)[·]?)).flatten

/-- `__iter__` (sampler.py:26-78) for a data set of `n` samples with the given lengths: `perm` and `order` are drawn from a generator seeded with the epoch
(so they are the same for all ranks).  With `batch_size * world_size` zero the constructor divides by zero; without a complete global batch
`torch.cat` of nothing (line 58) is a RuntimeError, while without bucketing the result is empty (`view(-1, n)` of an empty vector has no rows). -/
def bucketIter (sortIdx : List ℕ → List ℕ) (n b W : ℕ) (bucket : Bool) (lens : ℕ → ℕ) (perm order : List ℕ) (rank : ℕ) : Except Err (List ℕ) :=
  if b * W = 0 then .error .zeroDiv
  else
    let indices := perm.take (bucketNum n b W)
    if bucket ∧ indices.length = 0 then .error .runtime
    else
      let indices := if bucket then bucketize sortIdx lens (b * W) order indices else indices
      if indices.length ≠ bucketNum n b W then .error .assertion
      else
        let mine := (strided rank W (rowsOf b (indices.length / b) indices)).flatten
        if mine.length ≠ bucketNum n b W / W then .error .assertion else .ok mine

/-! ## GroupedBatchSampler -/

/-- The two dictionaries of lists and the batches yielded (lines 42-53). -/
structure GroupSt where
  buffer : Dict ℕ (List ℕ)
  samples : Dict ℕ (List ℕ)
  out : List (List ℕ)
  deriving DecidableEq, Repr

/-- `d[g]` of a `defaultdict(list)`. -/
def dget (d : Dict ℕ (List ℕ)) (g : ℕ) : List ℕ := (Dict.get? d g).getD []

/-- The body of the loop (lines 46-54).  After a batch is yielded its buffer is deleted, and made anew, empty, by the assertion (line 54), at the end of the
dictionary. -/
def groupStep (group : ℕ → ℕ) (bs : ℕ) (s : GroupSt) (i : ℕ) : Except Err GroupSt :=
  let g := group i
  let buf := Dict.set s.buffer g (dget s.buffer g ++ [i])
  let sam := Dict.set s.samples g (dget s.samples g ++ [i])
  if (dget buf g).length = bs then
    .ok ⟨(buf.filter fun kv => kv.1 ≠ g) ++ [(g, [])], sam, s.out ++ [dget buf g]⟩
  else if (dget buf g).length < bs then .ok ⟨buf, sam, s.out⟩
  else .error .assertion

/-- The remaining batches (lines 64-76): `l` are the buffers still to be considered, `k` is `num_remaining`. -/
def groupRest (bs : ℕ) (samples : Dict ℕ (List ℕ)) : List (ℕ × List ℕ) → ℕ → Except Err (List (List ℕ))
  | [], k => if k = 0 then .ok [] else .error .assertion
  | (g, buf) :: l, k => do
    let full := buf ++ (dget samples g).take (bs - buf.length)
    if full.length ≠ bs then throw .assertion
    if k - 1 = 0 then return [full]
    else do
      let rest ← groupRest bs samples l (k - 1)
      return full :: rest

/-- `__iter__` (lines 41-76): the batches of a pass over the samples `l` in the order of the wrapped sampler.  Batch size zero fails in
the assertion of the first sample, or in the division of `__len__`. -/
def groupIter (group : ℕ → ℕ) (bs : ℕ) (l : List ℕ) : Except Err (List (List ℕ)) := do
  let s ← l.foldlM (groupStep group bs) ⟨[], [], []⟩
  if bs = 0 then throw .zeroDiv
  let k : ℤ := (l.length / bs : ℕ) - (s.out.length : ℤ)
  if 0 < k then do
    let rest ← groupRest bs s.samples (s.buffer.insertionSort fun x y => y.2.length ≤ x.2.length) k.toNat
    return s.out ++ rest
  else if k = 0 then return s.out
  else throw .assertion

end Verif
