import Verif.Basic.Py
import Verif.Basic.Tensor
/-!
# Model of `distiller/quantization/quantizer.py`: per-layer overrides and training-time
weight quantization

Python's `re` module is modelled by a small syntax of regular expressions with its leftmost,
priority-ordered (backtracking) matching and its numbering of capture groups.
-/
namespace Verif

/-! ## Regular expressions -/

/-- Syntax.  `alt` at the top of an expression is an unparenthesised `|`; a parenthesised one is
`ncg (alt ..)` for `(?:..|..)` or `grp (alt ..)` for `(..|..)`. -/
inductive Re where
  | eps | chr (c : Char) | any | cls (cs : List Char) | bol | eol
  | cat (r s : Re) | alt (r s : Re) | star (r : Re) | ncg (r : Re) | grp (r : Re)
  deriving DecidableEq, Repr

namespace Re

/-- Number of capture groups. -/
def ngroups : Re → ℕ
  | cat r s => r.ngroups + s.ngroups
  | alt r s => r.ngroups + s.ngroups
  | star r => r.ngroups
  | ncg r => r.ngroups
  | grp r => r.ngroups + 1
  | _ => 0

end Re

/-- Matcher state: position, rest of the subject, participating groups. -/
structure MState where
  pos : ℕ
  rest : List Char
  caps : List ℕ
  deriving DecidableEq, Repr

/-- Greedy repetition of `f` with progress, at most `n` times: longer matches first. -/
def starRun (f : MState → List MState) : ℕ → MState → List MState
  | 0, st => [st]
  | n + 1, st =>
    ((f st).filter fun st' => st'.rest.length < st.rest.length).flatMap (starRun f n) ++ [st]

/-- All ways to match, in the order in which the backtracking matcher of Python's `re` tries them;
`b` is the number of the first group of the expression. -/
def Re.run : Re → ℕ → MState → List MState
  | .eps, _, st => [st]
  | .chr c, _, st =>
    match st.rest with
    | d :: t => if d = c then [⟨st.pos + 1, t, st.caps⟩] else []
    | [] => []
  | .any, _, st =>
    match st.rest with
    | _ :: t => [⟨st.pos + 1, t, st.caps⟩]
    | [] => []
  | .cls cs, _, st =>
    match st.rest with
    | d :: t => if d ∈ cs then [⟨st.pos + 1, t, st.caps⟩] else []
    | [] => []
  | .bol, _, st => if st.pos = 0 then [st] else []
  | .eol, _, st => if st.rest = [] then [st] else []
  | .cat r s, b, st => (r.run b st).flatMap (s.run (b + r.ngroups))
  | .alt r s, b, st => r.run b st ++ s.run (b + r.ngroups) st
  | .star r, b, st => starRun (r.run b) st.rest.length st
  | .ncg r, b, st => r.run b st
  | .grp r, b, st => (r.run (b + 1) st).map fun st' => { st' with caps := b :: st'.caps }

/-- Text-level effect of writing `^` before a pattern: it binds to the first alternative only. -/
def Re.prependBol : Re → Re
  | .alt r s => .alt r.prependBol s
  | r => .cat .bol r

/-- Text-level effect of writing `$` after a pattern: it binds to the last alternative only. -/
def Re.appendEol : Re → Re
  | .alt r s => .alt r s.appendEol
  | r => .cat r .eol

/-- `'(^{0}$)'.format(pattern)` (quantizer.py:155). -/
def Re.wrap (r : Re) : Re := .grp r.prependBol.appendEol

/-- `'|'.join(['(^{0}$)'.format(pattern) for pattern in patterns])` (quantizer.py:155); only used
with at least one pattern. -/
def joinPatterns : List Re → Re
  | [] => .eps
  | [r] => r.wrap
  | r :: rs => .alt r.wrap (joinPatterns rs)

/-- `regex.match(name)` and the loop over `groups()` (quantizer.py:168-173): number of the first
participating group, or `none` if there is no match.  (All groups `None` would be an `IndexError`;
with `joinPatterns` the outer group of the matching alternative always participates.) -/
def firstGroup (r : Re) (name : List Char) : Option (Except Err ℕ) :=
  match r.run 0 ⟨0, name, []⟩ with
  | [] => none
  | st :: _ => some (match (List.range r.ngroups).find? fun i => decide (i ∈ st.caps) with
    | some i => .ok i
    | none => .error .index)

/-! ## Overrides (quantizer.py:141-200) -/

/-- `QBits` (quantizer.py:30). -/
structure QBits where
  acts : Option ℕ
  wts : Option ℕ
  bias : Option ℕ
  deriving DecidableEq, Repr

/-- One item of the `overrides` dictionary: key text, the regular expression it denotes, and the bits
of the entry after defaults were filled in (quantizer.py:146-149).  Further override arguments are
carried opaquely in `extra`. -/
structure Override where
  key : List Char
  re : Re
  bits : QBits
  extra : ℕ
  deriving DecidableEq, Repr

/-- One user item: bits that may be missing. -/
structure UserBits where
  acts : Option (Option ℕ)
  wts : Option (Option ℕ)
  bias : Option (Option ℕ)
  deriving DecidableEq, Repr

/-- `v.pop('bits_...', default)` (quantizer.py:146-148). -/
def fillBits (d : QBits) (u : UserBits) : QBits :=
  ⟨u.acts.getD d.acts, u.wts.getD d.wts, u.bias.getD d.bias⟩

/-- `s.replace(pat, '', 1)`: delete the first occurrence. -/
def removeFirst (pat : List Char) : List Char → List Char
  | [] => []
  | c :: s => if pat.isPrefixOf (c :: s) then (c :: s).drop pat.length else c :: removeFirst pat s

/-- `name_to_match` (quantizer.py:163). -/
def nameToMatch (full : List Char) : List Char := removeFirst ['m', 'o', 'd', 'u', 'l', 'e', '.'] full

/-- The entry chosen for a module and its bits (quantizer.py:161-178, 195-200).
`supported`: the module is a Conv2d, Conv3d, Linear or Embedding. -/
def moduleBits (ovs : List Override) (dflt : QBits) (supported : Bool) (full : List Char) :
    Except Err (QBits × Option Override) := do
  let name := nameToMatch full
  let exact := ovs.find? fun o => o.key = name
  let r ← (match (if ovs.isEmpty then none else firstGroup (joinPatterns (ovs.map (·.re))) name) with
    | none => .ok (dflt, exact)
    | some (.error e) => .error e
    | some (.ok g) =>
      match exact with
      | some o => .ok (o.bits, some o)
      | none =>
        match ovs[g]? with
        | some o => .ok (o.bits, some o)
        | none => .error .index : Except Err (QBits × Option Override))
  pure (if supported then r.1 else ⟨r.1.acts, none, none⟩, r.2)

/-! ## Training-time quantization of parameters (quantizer.py:39-59, 232-251, 362-371) -/

/-- A module's tensors: its parameters and buffers, by attribute name. -/
structure QModule where
  params : Dict String Tensor
  buffers : Dict String Tensor
  deriving DecidableEq, Repr

/-- `hack_float_backup_parameter` (quantizer.py:39-51): the parameter is re-registered under
`float_<name>`, deleted under its own name, and a buffer of zeros takes its place. -/
def floatBackup (m : QModule) (name : String) : Except Err QModule := do
  let p ← (match m.params.get? name with
    | some p => .ok p
    | none => .error .value : Except Err Tensor)
  .ok ⟨((m.params.set ("float_" ++ name) p).filter fun kv => kv.1 ≠ name),
    m.buffers.set name (p.map fun _ => 0)⟩

/-- Which parameters of a module are quantized, with how many bits (quantizer.py:232-247):
`param_name.endswith('bias')` is given as a predicate. -/
def bitsOfParam (isBias : String → Bool) (q : QBits) (name : String) : Option ℕ :=
  if isBias name then q.bias else q.wts

/-- The parameter loop of `prepare_model` for one leaf module with `train_with_fp_copy`
(quantizer.py:234-247): names are those present before the loop. Returns the parameters to quantize. -/
def prepareParams (isBias : String → Bool) (q : QBits) : List String → QModule →
    Except Err (QModule × List (String × ℕ))
  | [], m => .ok (m, [])
  | n :: ns, m =>
    match bitsOfParam isBias q n with
    | none => prepareParams isBias q ns m
    | some b => do
      let m1 ← floatBackup m n
      let r ← prepareParams isBias q ns m1
      pure (r.1, (n, b) :: r.2)

/-- `quantize_params` with `train_with_fp_copy` (quantizer.py:362-369), on one module. -/
def quantizeParams (qfn : Tensor → ℕ → Tensor) : List (String × ℕ) → QModule → Except Err QModule
  | [], m => .ok m
  | (n, b) :: ps, m =>
    match m.params.get? ("float_" ++ n) with
    | some p => quantizeParams qfn ps { m with buffers := m.buffers.set n (qfn p b) }
    | none => .error .attribute

end Verif
