import Verif.Basic.Tensor
/-!
# Shaped tensors and row-major views

Nothing here models a particular distiller function; it fixes the meaning of the torch
primitives `view`, `transpose`, `expand` used by the structured pruners and metrics.
-/
namespace Verif

/-- Row `i` of `t.view(-1, size)`. -/
def chunk (size i : ℕ) (l : Tensor) : Tensor := (l.drop (i * size)).take size

/-- The rows of `t.view(n, size)`. -/
def chunks (n size : ℕ) (l : Tensor) : List Tensor := (List.range n).map fun i => chunk size i l

/-- `b.expand(k, n).t()` flattened row-major (`n × k`): every entry repeated `k` times. -/
def repeatEach (k : ℕ) (b : List ℚ) : Tensor := b.flatMap fun x => List.replicate k x

/-- `b.expand(k, n)` flattened row-major (`k × n`): the whole list `k` times. -/
def repeatAll (k : ℕ) (b : List ℚ) : Tensor := (List.replicate k b).flatten

/-- A 4-D weights tensor of shape `(F, C, H, W)`. -/
structure T4 where
  F : ℕ
  C : ℕ
  H : ℕ
  W : ℕ
  data : Tensor
  deriving DecidableEq, Repr

/-- Well-formedness of a torch tensor: as many entries as the shape says. -/
def T4.WF (t : T4) : Prop := t.data.length = t.F * t.C * t.H * t.W

/-- The entry `t[f, c, h, w]` (row-major strides); only used inside the bounds. -/
def T4.at (t : T4) (f c h w : ℕ) : Option ℚ := t.data[((f * t.C + c) * t.H + h) * t.W + w]?

/-- A 2-D weights tensor of shape `(R, C)`. -/
structure T2 where
  R : ℕ
  C : ℕ
  data : Tensor
  deriving DecidableEq, Repr

def T2.WF (t : T2) : Prop := t.data.length = t.R * t.C

/-- The entry `t[r, c]`. -/
def T2.at (t : T2) (r c : ℕ) : Option ℚ := t.data[r * t.C + c]?

instance (t : T4) : Decidable t.WF := by unfold T4.WF; infer_instance
instance (t : T2) : Decidable t.WF := by unfold T2.WF; infer_instance

/-- `t.transpose(0, 1).contiguous()` flattened: kernels in channel-major order. -/
def T4.transposed (t : T4) : Tensor :=
  (List.range t.C).flatMap fun c => (List.range t.F).flatMap fun f =>
    chunk (t.H * t.W) (f * t.C + c) t.data

/-- Column `c` of a matrix. -/
def T2.col (t : T2) (c : ℕ) : Tensor :=
  (List.range t.R).filterMap fun r => t.data[r * t.C + c]?

end Verif
