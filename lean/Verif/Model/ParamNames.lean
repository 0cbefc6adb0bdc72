import Verif.Model.Embedding
import Verif.Model.Scheduler
/-!
# Listing and setting quantization parameters by name
(distiller/quantization/range_linear.py: wrappers 489-548, 837-898, 1361-1423; quantizer 1805-1885)

Modelled: per-tensor weights (one scale and one zero-point per layer).  A wrapper's clipping settings, which the
`output_clipping` setter also resets (line 531), are not read after construction with preset statistics and are left out.
`UnsatisfiedRequirements` is `Err.runtime`.
-/
namespace Verif

/-- The wrapper classes: activations only, parameter layer, embedding. -/
inductive WKind where
  | act | layer | emb
  deriving DecidableEq, Repr

/-- A wrapper: its settings, its two pairs (scale, zero-point), the stored weights and the `force_readjust` flag. -/
structure PW where
  kind : WKind
  actBits : Option ℕ
  preset : Bool
  actMode : QMode
  half : Bool
  approx : Option ℕ
  wBits : ℕ
  wMode : QMode
  saveFp : Bool
  floatW : List ℚ
  outP : ℚ × ℚ
  wP : ℚ × ℚ
  w : List ℚ
  readjust : Bool
  deriving DecidableEq, Repr

/-- `RangeLinearQuantWrapper.named_linear_quant_params` (489-494). -/
def PW.outParams (p : PW) (filter : Bool) : List (String × ℚ) :=
  if p.actBits.isSome ∧ p.preset then
    ("output_scale", p.outP.1) ::
      (if filter = false ∨ (p.actMode.isSym = false ∧ p.half = false) then [("output_zero_point", p.outP.2)] else [])
  else []

/-- The weight parameters listed (838-841, 1362-1364). -/
def PW.wParams (p : PW) (filter : Bool) : List (String × ℚ) :=
  ("w_scale", p.wP.1) :: (if filter = false ∨ p.wMode.isSym = false then [("w_zero_point", p.wP.2)] else [])

/-- `named_linear_quant_params` of the three classes (489-494, 837-842, 1361-1364). -/
def PW.params (p : PW) (filter : Bool) : List (String × ℚ) :=
  match p.kind with
  | .act => p.outParams filter
  | .layer => (if p.saveFp then p.wParams filter else []) ++ p.outParams filter
  | .emb => p.wParams filter

/-- The `output_clipping` property (505-518); `not num_bits` holds of `None` and of `0`. -/
def PW.outClip (p : PW) : Except Err (ℚ × ℚ) :=
  if p.actBits.getD 0 = 0 then .error .runtime
  else if p.preset = false then .error .runtime
  else .ok (clippingValues p.outP.1 p.outP.2 (p.actBits.getD 0) p.actMode)

/-- The `weight_clipping` property (862-874, 1392-1404). -/
def PW.wClip (p : PW) : Except Err (ℚ × ℚ) :=
  if p.wBits = 0 then .error .runtime else .ok (clippingValues p.wP.1 p.wP.2 p.wBits p.wMode)

/-- A listed clipping value: both bounds, or the upper one (537-538, 896-897). -/
def clipListed (one : Bool) (v : ℚ × ℚ) : List ℚ := if one then [v.2] else [v.1, v.2]

/-- The entry of `RangeLinearQuantWrapper.named_clipping` (535-539). -/
def PW.outClips (p : PW) (filter : Bool) : Except Err (List (String × List ℚ)) := do
  let v ← p.outClip
  return [("output_clipping", clipListed (filter && (p.actMode.isSym || p.half)) v)]

/-- The entry for the weights (895-898, 1419-1423). -/
def PW.wClips (p : PW) (filter : Bool) : Except Err (List (String × List ℚ)) := do
  let v ← p.wClip
  return [("weight_clipping", clipListed (filter && p.wMode.isSym) v)]

/-- A parameter layer only warns if its output has no clipping values (891-894). -/
def PW.outClipsWarn (p : PW) (filter : Bool) : List (String × List ℚ) :=
  match p.outClips filter with
  | .ok l => l
  | .error _ => []

/-- `named_clipping` of the three classes (535-539, 890-898, 1419-1423). -/
def PW.clips (p : PW) (filter : Bool) : Except Err (List (String × List ℚ)) :=
  match p.kind with
  | .act => p.outClips filter
  | .layer => (p.wClips filter).map fun l => p.outClipsWarn filter ++ l
  | .emb => p.wClips filter

/-- The weights quantized with the current parameters (845-853, 1375-1377): from the saved float weights; de-quantized again if
the activations of the layer are not quantized. -/
def PW.requant (p : PW) : List ℚ :=
  let r := modeRange p.wMode p.wBits
  p.floatW.map fun x =>
    let y := linearQuantizeClamp x p.wP.1 p.wP.2 r.1 r.2
    if p.kind = .layer ∧ p.actBits = none then linearDequantize y p.wP.1 p.wP.2 else y

/-- Setting the weight parameters in a wrapper (`w_scale`, then `w_zero_point`: 889-890, 1416-1417): refused without saved float
weights; embeddings have no `force_readjust`. -/
def PW.setWP (p : PW) (v : ℚ × ℚ) : Except Err PW :=
  if p.saveFp then
    let p := { p with wP := v }
    .ok { p with w := p.requant, readjust := if p.kind = .emb then p.readjust else true }
  else .error .runtime

/-- The parameters computed from two clipping values by the setters (883-888, 1410-1415). -/
def PW.wClipParams (p : PW) (lo hi : ℚ) : Except Err (ℚ × ℚ) :=
  if p.kind = .emb then embClipParams p.wBits p.wMode lo hi else layerClipParams p.wBits p.wMode lo hi

/-- The `weight_clipping` setter (876-890, 1406-1417). -/
def PW.setWClip (p : PW) (arg : ClipArg) : Except Err PW := do
  let _ ← p.wClip
  let v ← checkClip arg p.wMode false
  let s ← p.wClipParams v.1 v.2
  p.setWP s

/-- The `output_clipping` setter (520-533). -/
def PW.setOutClip (p : PW) (arg : ClipArg) : Except Err PW := do
  let _ ← p.outClip
  let v ← checkClip arg p.actMode p.half
  let s ← outputClipParams (p.actBits.getD 0) p.actMode p.approx v.1 v.2
  return { p with outP := s, readjust := true }

/-- `setattr(module, clip_name, val)` for a clipping name (1840). -/
def PW.setClipNamed (p : PW) (n : String) (arg : ClipArg) : Except Err PW :=
  if n = "output_clipping" then p.setOutClip arg else p.setWClip arg

/-- `buffer.data.fill_(val)` on one of the listed buffers (1875). -/
def PW.fill (p : PW) (n : String) (v : ℚ) : PW :=
  if n = "w_scale" then { p with wP := (v, p.wP.2) }
  else if n = "w_zero_point" then { p with wP := (p.wP.1, v) }
  else if n = "output_scale" then { p with outP := (v, p.outP.2) }
  else { p with outP := (p.outP.1, v) }

/-- The quantizer after preparation: the modules of its model (`none`: not an integer wrapper) and the keys of
`linear_quant_params`, whose values are the buffers of the wrappers (2156). -/
structure PQ where
  modules : Dict Name (Option PW)
  keys : List (Name × String)

/-- The parameters of one module (1809-1813). -/
def listModule (filter : Bool) (m : Name × Option PW) : List ((Name × String) × ℚ) :=
  match m.2 with
  | some p => (p.params filter).map fun e => ((m.1, e.1), e.2)
  | none => []

/-- `PostTrainLinearQuantizer.named_linear_quant_params` (1805-1813). -/
def PQ.listed (q : PQ) (filter : Bool) : List ((Name × String) × ℚ) := q.modules.flatMap (listModule filter)

/-- The clipping values of one module (1820-1824). -/
def clipModule (filter : Bool) (m : Name × Option PW) : Except Err (List ((Name × String) × List ℚ)) :=
  match m.2 with
  | some p => (p.clips filter).map fun l => l.map fun e => ((m.1, e.1), e.2)
  | none => .ok []

/-- `PostTrainLinearQuantizer.named_clipping`, consumed as a whole (1815-1824). -/
def PQ.clipping (q : PQ) (filter : Bool) : Except Err (List ((Name × String) × List ℚ)) :=
  (q.modules.mapM (clipModule filter)).map List.flatten

/-- `_post_prepare_model` (2156). -/
def prepared (modules : Dict Name (Option PW)) : PQ := ⟨modules, (PQ.listed ⟨modules, []⟩ false).map Prod.fst⟩

/-- `clip_name in dict(module.named_clipping())` (1838, 1856). -/
def PW.hasClip (p : PW) (n : String) : Except Err Bool := do
  let l ← p.clips false
  return (l.map Prod.fst).contains n

/-- Replacing a module in the model. -/
def PQ.put (q : PQ) (m : Name) (p : PW) : PQ := { q with modules := q.modules.set m (some p) }

/-- `set_clipping` on the wrapper found (1838-1840). -/
def PQ.setClipOn (q : PQ) (m : Name) (n : String) (arg : ClipArg) (p : PW) : Except Err PQ := do
  let b ← p.hasClip n
  if b then do
    let p ← p.setClipNamed n arg
    return q.put m p
  else .error .value

/-- `set_clipping` (1826-1840).  The name is given `'.'`-split: module and last component. -/
def PQ.setClipping (q : PQ) (m : Name) (n : String) (arg : ClipArg) : Except Err PQ := do
  let o ← Dict.getE q.modules m
  match o with
  | none => .error .value
  | some p => q.setClipOn m n arg p

/-- `_is_clipping_parameter` (1852-1856). -/
def PQ.isClip (q : PQ) (m : Name) (n : String) : Except Err Bool := do
  let o ← Dict.getE q.modules m
  match o with
  | none => return false
  | some p => p.hasClip n

/-- `_force_readjust` on one wrapper (1859-1861); embeddings have no such flag. -/
def PW.rd (p : PW) : PW := if p.kind = .emb then p else { p with readjust := true }

/-- `force_readjust_wrappers` (1858-1862). -/
def PQ.forceReadjust (q : PQ) : PQ :=
  { q with modules := q.modules.map fun e => (e.1, e.2.map PW.rd) }

/-- `self.linear_quant_params[name].data.fill_(val)` (1875): a missing key raises `KeyError`, a value that is not a number
`TypeError`. -/
def PQ.fillParam (q : PQ) (m : Name) (n : String) (arg : ClipArg) : Except Err PQ :=
  if (m, n) ∈ q.keys then
    match arg, Dict.get? q.modules m with
    | .float v, some (some p) => .ok (q.put m (p.fill n v))
    | .float _, _ => .error .key
    | _, _ => .error .type
  else .error .key

/-- `set_linear_quant_param` (1864-1876). -/
def PQ.setParam (q : PQ) (m : Name) (n : String) (arg : ClipArg) : Except Err PQ := do
  let b ← q.isClip m n
  let q ← (if b then q.setClipping m n arg else q.fillParam m n arg)
  return q.forceReadjust

/-- `update_linear_quant_params` (1878-1885): what was set before an exception stays set. -/
def PQ.update (q : PQ) : List ((Name × String) × ClipArg) → PQ × Except Err Unit
  | [] => (q, .ok ())
  | (n, a) :: l =>
    match q.setParam n.1 n.2 a with
    | .ok q => q.update l
    | .error e => (q, .error e)

end Verif
