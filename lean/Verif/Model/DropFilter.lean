import Verif.Basic.Py
import Mathlib.Data.Rat.Lemmas
import Mathlib.Algebra.Order.Field.Rat
import Mathlib.Algebra.BigOperators.Group.List.Basic
/-!
# Drop-filter regularization (distiller/regularization/drop_filter.py)

A weight tensor is the list of its filters, each flattened; arithmetic is exact.
-/
namespace Verif

/-- `Conv2dWithMask` (drop_filter.py:8-18): the weights and the counter. -/
structure DFLayer where
  weight : List (List ℚ)
  frequency : ℤ := 16
  deriving DecidableEq, Repr

/-- `.norm(p=1, dim=1).sum()` of the flattened filters (drop_filter.py:25, 31). -/
def l1Total (w : List (List ℚ)) : ℚ := (w.map fun f => (f.map fun x => |x|).sum).sum

/-- `self.weight * mask` (drop_filter.py:26-30): the sample is expanded over the filters. -/
def maskFilters (w : List (List ℚ)) (sample : List Bool) : List (List ℚ) :=
  List.zipWith (fun f b => f.map fun x => x * (if b then 1 else 0)) w sample

/-- `max(0.2, masked_l1norm.sum() / l1norm.sum())` (drop_filter.py:32-33).  For an all-zero tensor the
quotient is a NaN and Python's `max` returns 0.2, as here with `0 / 0 = 0`. -/
def pruningFactor (w : List (List ℚ)) (sample : List Bool) : ℚ :=
  max (1 / 5) (l1Total (maskFilters w sample) / l1Total w)

/-- `Conv2dWithMask.forward` (drop_filter.py:20-43): the weights handed to the convolution.  `sample` is
the outcome of `np.random.binomial`, one value per filter, used in masked passes only. -/
def DFLayer.forward (l : DFLayer) (training : Bool) (sample : List Bool) : DFLayer × List (List ℚ) :=
  if training then
    let l := { l with frequency := l.frequency - 1 }
    if l.frequency = 0 then
      ({ l with frequency := 16 },
        (maskFilters l.weight sample).map fun f => f.map fun x => x / pruningFactor l.weight sample)
    else (l, l.weight)
  else (l, l.weight)

/-- What happens to a layer: a pass (with the random draw it would use), or new weights (optimizer,
masks, checkpoint). -/
inductive DFEv where
  | pass (training : Bool) (sample : List Bool)
  | write (w : List (List ℚ))
  deriving DecidableEq, Repr

/-- One event; passes append the weights they used. -/
def dfStep (acc : DFLayer × List (List (List ℚ))) (e : DFEv) : DFLayer × List (List (List ℚ)) :=
  match e with
  | .pass t s => ((acc.1.forward t s).1, acc.2 ++ [(acc.1.forward t s).2])
  | .write w => ({ acc.1 with weight := w }, acc.2)

/-- A history of a freshly constructed layer: the weights used in its passes, in order. -/
def dfRun (w : List (List ℚ)) (evs : List DFEv) : DFLayer × List (List (List ℚ)) :=
  evs.foldl dfStep (⟨w, 16⟩, [])

/-! ## Switching a model over -/

/-- A convolution: arguments of `nn.Conv2d` and its parameters. -/
structure DConv where
  inCh : ℕ
  outCh : ℕ
  kernel : ℕ × ℕ
  stride : ℕ × ℕ
  padding : ℕ × ℕ
  dilation : ℕ × ℕ
  groups : ℕ
  weight : List (List ℚ)
  bias : Option (List ℚ)
  deriving DecidableEq, Repr

/-- `if bias:` on what the caller passes as `bias`, here the bias parameter itself: `None` is false, a
tensor of one element is its value, any other tensor raises. -/
def truthBias (b : Option (List ℚ)) : Except Err Bool :=
  match b with
  | none => .ok false
  | some [x] => .ok (x ≠ 0)
  | some _ => .error .runtime

/-- The `Conv2dWithMask` built for a convolution (drop_filter.py:51-54); `init` is the random
initialization of a new convolution (weight and bias of the given sizes). -/
def replaceConv (init : DConv → DConv) (c : DConv) : Except Err DConv :=
  (truthBias c.bias).map fun b =>
    init { c with dilation := (1, 1), groups := 1, weight := [], bias := if b then some [] else none }

/-- A random initialization fills in the parameters and nothing else. -/
structure FreshInit (init : DConv → DConv) : Prop where
  args : ∀ c, (init c).inCh = c.inCh ∧ (init c).outCh = c.outCh ∧ (init c).kernel = c.kernel ∧
    (init c).stride = c.stride ∧ (init c).padding = c.padding ∧ (init c).dilation = c.dilation ∧
    (init c).groups = c.groups ∧ (init c).bias.isSome = c.bias.isSome
  shape : ∀ c, (init c).weight.length = c.outCh ∧
    ∀ f ∈ (init c).weight, f.length = c.inCh / c.groups * (c.kernel.1 * c.kernel.2)

/-- `replace_conv2d` (drop_filter.py:47-56) on the convolutions of a model, in the order in which the
recursion meets them. -/
def replaceConvs (init : DConv → DConv) (m : Dict (List String) DConv) : Except Err (Dict (List String) DConv) :=
  m.mapM fun kv => (replaceConv init kv.2).map fun c => (kv.1, c)

end Verif
