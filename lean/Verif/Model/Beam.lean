import Verif.Model.Seq2Seq
import Mathlib.Algebra.Order.Monoid.Unbundled.WithTop
import Mathlib.Algebra.Field.Rat
import Mathlib.Algebra.Order.Ring.Rat
/-!
# Beam search (examples/GNMT)
(seq2seq/inference/beam_search.py: `SequenceGenerator.beam_search` 80-238)

The rows of one sentence: row `b * beam_size + j` of the tensors of the code is the beam `j` of sentence `b`, and every operation of the
code stays within these blocks (`view(-1, beam_size)`, `global_offset`); sentences that are finished are taken out of the batch as a whole.  The
removal of rows from the batch is modelled for the greedy search (`Model/Seq2Seq`), here a finished sentence just stays as it is.
Scores are rational numbers or `-inf`.
-/
namespace Verif

variable {C : Type}

/-- A row of `translation`, `lengths`, `scores`, `accu_attn_scores`, `words` and `context[2]` (lines 87-89, 141, 112). -/
structure Beam (C : Type) where
  tr : List ℕ
  len : ℕ
  score : WithBot ℚ
  attn : List ℚ
  word : ℕ
  ctx : C

/-- The rows at the start (lines 87-141): `initial_input` is `BOS` for every row (inference.py:44), the context is replicated. -/
def beamInit (maxLen srcLen : ℕ) (ctx : C) : ℕ → Beam C := fun _ =>
  ⟨(List.replicate maxLen 0).set 0 tokBOS, 1, ((0 : ℚ) : WithBot ℚ), List.replicate srcLen 0, tokBOS, ctx⟩

/-- Entry `i` of `words.view(-1, beam * beam)` and `new_scores` (lines 164-190) of the rows `b`: `gen word ctx` are the candidates with their
log-probabilities, best first, the attention and the new hidden state. -/
def beamCell (gen : ℕ → C → (ℕ → ℕ × ℚ) × List ℚ × C) (k idx : ℕ) (b : ℕ → Beam C) (i : ℕ) : ℕ × WithBot ℚ :=
  let r := b (i / k)
  let g := (gen r.word r.ctx).1 (i % k)
  let lp : WithBot ℚ := if r.word = tokEOS then (if i % k = 0 then ((0 : ℚ) : WithBot ℚ) else ⊥) else (g.2 : WithBot ℚ)
  (if r.word = tokEOS then tokEOS else g.1, if idx = 1 ∧ 0 < i / k then ⊥ else r.score + lp)

/-- One pass of the loop up to line 204.  `topk f j` is the index that `topk` (line 183) puts in place `j`. -/
def beamStep (gen : ℕ → C → (ℕ → ℕ × ℚ) × List ℚ × C) (topk : (ℕ → WithBot ℚ) → ℕ → ℕ) (k idx : ℕ) (b : ℕ → Beam C) : ℕ → Beam C :=
  let index := topk fun i => (beamCell gen k idx b i).2
  fun j =>
    let cell := beamCell gen k idx b (index j)
    let src := b (index j / k)
    { tr := src.tr.set idx cell.1
      len := if src.word = tokEOS then src.len else src.len + 1
      score := cell.2
      attn := List.zipWith (· + ·) (b j).attn (if (b j).word = tokEOS then (b j).attn.map (fun _ => 0) else (gen (b j).word (b j).ctx).2.1)
      word := cell.1
      ctx := (gen src.word src.ctx).2.2 }

/-- Length normalization and coverage penalty (lines 211-227): `norm n` is `((norm_const + n) / (norm_const + 1)) ** norm_factor`, `pen` the sum of the
logarithms of the accumulated attentions. -/
def beamNorm (norm : ℕ → ℚ) (cov : ℚ) (pen : List ℚ → ℚ) (b : ℕ → Beam C) : ℕ → Beam C := fun j =>
  { b j with score := (b j).score.map fun s => s / norm (b j).len + cov * pen (b j).attn }

/-- `terminating` (lines 151-154): all beams ended before this pass. -/
def beamEnded (k : ℕ) (b : ℕ → Beam C) : Bool := (List.range k).all fun j => (b j).word == tokEOS

/-- One pass of the loop (lines 146-237): the rows, and whether the sentence has been finished. -/
def beamBody (gen : ℕ → C → (ℕ → ℕ × ℚ) × List ℚ × C) (topk : (ℕ → WithBot ℚ) → ℕ → ℕ) (norm : ℕ → ℚ) (cov : ℚ) (pen : List ℚ → ℚ) (k : ℕ)
    (s : (ℕ → Beam C) × Bool) (idx : ℕ) : (ℕ → Beam C) × Bool :=
  if s.2 then s
  else if beamEnded k s.1 then (beamNorm norm cov pen (beamStep gen topk k idx s.1), true)
  else (beamStep gen topk k idx s.1, false)

/-- The loop (line 146). -/
def beamLoop (gen : ℕ → C → (ℕ → ℕ × ℚ) × List ℚ × C) (topk : (ℕ → WithBot ℚ) → ℕ → ℕ) (norm : ℕ → ℚ) (cov : ℚ) (pen : List ℚ → ℚ)
    (k maxLen srcLen : ℕ) (ctx : C) : (ℕ → Beam C) × Bool :=
  (List.range' 1 (maxLen - 1)).foldl (beamBody gen topk norm cov pen k) (beamInit maxLen srcLen ctx, false)

/-- `beam_search` (lines 80-246) for one sentence: `argmax f` is the index that `scores.max(dim=1)` returns. -/
def beamSearch (gen : ℕ → C → (ℕ → ℕ × ℚ) × List ℚ × C) (topk : (ℕ → WithBot ℚ) → ℕ → ℕ) (argmax : (ℕ → WithBot ℚ) → ℕ) (norm : ℕ → ℚ) (cov : ℚ)
    (pen : List ℚ → ℚ) (k maxLen srcLen : ℕ) (ctx : C) : List ℕ × ℕ :=
  let b := (beamLoop gen topk norm cov pen k maxLen srcLen ctx).1
  let r := b (argmax fun j => (b j).score)
  (r.tr, r.len)

end Verif
