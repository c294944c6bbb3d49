import Verif.Spec.TensorOps
/-!
# Dequantization; stacking

Written from the ONNX operator specification, independently of `tf2onnx`.
-/
namespace Verif.Tensor

/-- ONNX `DequantizeLinear` per axis: element at index `idx` becomes `(q - zero_point[c]) * scale[c]` with `c` the component of `idx` at `axis`. `deq c`
is that function for channel `c`. -/
def dequantAxis {α β : Type} (deq : Nat → α → β) (axis : Nat) (x : T α) : T β :=
  { shape := x.shape, get := fun idx => deq (nth idx axis) (x.get idx) }

/-- ONNX `DequantizeLinear` with one scale. -/
def dequant {α β : Type} (deq : α → β) (x : T α) : T β := { shape := x.shape, get := fun idx => deq (x.get idx) }

/-- A scan output of an ONNX `Loop` that ran `n` times, giving tensors of shape `s`: the tensors, stacked along a new first axis. -/
def stacked {α : Type} (n : Nat) (s : List Nat) (xs : Nat → T α) : T α :=
  { shape := n :: s, get := fun idx => (xs (nth idx 0)).get (idx.drop 1) }

end Verif.Tensor
