import Verif.Model.Beam
/-!
# Beam search on a batch (examples/GNMT)
(seq2seq/inference/beam_search.py: `SequenceGenerator.beam_search` 80-246, the flat tensors and their indices)

Tensors over rows are functions of the row number; `active` is a list as in the code.  `context[0]`, `context[1]` (encoder output and
lengths) and `context[2]` (hidden state) are functions of the position in `active`.
-/
namespace Verif

variable {A B C : Type}

/-- The variables of the loop. -/
structure BeamBatch (A B C : Type) where
  tr : ℕ → List ℕ
  len : ℕ → ℕ
  score : ℕ → WithBot ℚ
  attn : ℕ → List ℚ
  active : List ℕ
  words : ℕ → ℕ
  c0 : ℕ → A
  c1 : ℕ → B
  c2 : ℕ → C

/-- `x[active] = v`: the row number `active[p]` gets `v[p]`. -/
def scatter {X : Type} (active : List ℕ) (x : ℕ → X) (v : ℕ → X) : ℕ → X := fun i => if i ∈ active then v (active.idxOf i) else x i

/-- The start (lines 87-141): every row of sentence `b` gets its context (`expand`), row `r` belonging to sentence `r / beam_size`. -/
def batchInit (k maxLen srcLen nb : ℕ) (c0 : ℕ → A) (c1 : ℕ → B) (c2 : ℕ → C) : BeamBatch A B C :=
  { tr := fun _ => (List.replicate maxLen 0).set 0 tokBOS
    len := fun _ => 1
    score := fun _ => ((0 : ℚ) : WithBot ℚ)
    attn := fun _ => List.replicate srcLen 0
    active := List.range (nb * k)
    words := fun _ => tokBOS
    c0 := fun p => c0 (p / k)
    c1 := fun p => c1 (p / k)
    c2 := fun p => c2 (p / k) }

/-- One pass of the loop (lines 147-237).  The two assignments to `translation` are one here, and the part after line 206 is executed also if no
sentence is finished, when it changes nothing. -/
def batchStep (gen : ℕ → A → B → C → (ℕ → ℕ × ℚ) × List ℚ × C) (topk : (ℕ → WithBot ℚ) → ℕ → ℕ) (norm : ℕ → ℚ) (cov : ℚ) (pen : List ℚ → ℚ) (k : ℕ)
    (st : BeamBatch A B C) (idx : ℕ) : BeamBatch A B C :=
  if st.active.length = 0 then st
  else
    let act := fun p => st.active.getD p 0
    let term := fun t => (List.range k).all fun j => st.words (t * k + j) == tokEOS
    let len1 := scatter st.active st.len fun p => if st.words p = tokEOS then st.len (act p) else st.len (act p) + 1
    let out := fun p => gen (st.words p) (st.c0 p) (st.c1 p) (st.c2 p)
    let attn := scatter st.active st.attn fun p =>
      List.zipWith (· + ·) (st.attn (act p)) (if st.words p = tokEOS then (st.attn (act p)).map (fun _ => 0) else (out p).2.1)
    let cell := fun t i =>
      let p := t * k + i / k
      let g := (out p).1 (i % k)
      let lp : WithBot ℚ := if st.words p = tokEOS then (if i % k = 0 then ((0 : ℚ) : WithBot ℚ) else ⊥) else (g.2 : WithBot ℚ)
      (if st.words p = tokEOS then tokEOS else g.1, if idx = 1 ∧ 0 < i / k then ⊥ else st.score (act p) + lp)
    let index := fun t j => topk (fun i => (cell t i).2) j
    let src := fun p => index (p / k) (p % k) / k + p / k * k
    let words := fun p => (cell (p / k) (index (p / k) (p % k))).1
    let score1 := scatter st.active st.score fun p => (cell (p / k) (index (p / k) (p % k))).2
    let tr := scatter st.active st.tr fun p => (st.tr (act (src p))).set idx (words p)
    let len2 := scatter st.active len1 fun p => len1 (act (src p))
    let c2 := fun p => (out (src p)).2.2
    let ended := ((List.range st.active.length).filter fun p => term (p / k)).map act
    let score2 := fun i => if i ∈ ended then (score1 i).map (fun s => s / norm (len2 i) + cov * pen (attn i)) else score1 i
    let keep := (List.range st.active.length).filter fun p => !term (p / k)
    let sel := fun q => keep.getD q 0
    { tr := tr, len := len2, score := score2, attn := attn, active := keep.map act
      words := fun q => words (sel q), c0 := fun q => st.c0 (sel q), c1 := fun q => st.c1 (sel q), c2 := fun q => c2 (sel q) }

/-- `beam_search` (lines 80-246). -/
def beamSearchBatch (gen : ℕ → A → B → C → (ℕ → ℕ × ℚ) × List ℚ × C) (topk : (ℕ → WithBot ℚ) → ℕ → ℕ) (argmax : (ℕ → WithBot ℚ) → ℕ) (norm : ℕ → ℚ)
    (cov : ℚ) (pen : List ℚ → ℚ) (k maxLen srcLen nb : ℕ) (c0 : ℕ → A) (c1 : ℕ → B) (c2 : ℕ → C) : List (List ℕ × ℕ) :=
  let st := (List.range' 1 (maxLen - 1)).foldl (batchStep gen topk norm cov pen k) (batchInit k maxLen srcLen nb c0 c1 c2)
  (List.range nb).map fun s =>
    let r := argmax (fun j => st.score (s * k + j)) + s * k
    (st.tr r, st.len r)

end Verif
