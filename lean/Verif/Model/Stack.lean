import Verif.Spec.Stack
import Verif.Spec.Einsum
/-!
# Model: stacking, unstacking, largest elements (tf2onnx/onnx_opset/tensor.py)

What the handlers emit, as functions of the operands. `Except.error`: the handler raises. `none`: the emitted operators do not accept their operands.
-/
namespace Verif.Stack
open Verif.Tensor Verif.Emit Verif.Einsum

variable {α : Type}

/-- The attribute `axis`, made non-negative with the recorded rank (tensor.py:1284-1286, 1329-1333). `more`: 1 for the axis that stacking adds. -/
def axisOf (rank : Option Nat) (more : Nat) (axis : Int) : Except String Int :=
  if axis < 0 then (match rank with | none => .error "the rank is not known" | some r => .ok (axis + (r + more : Nat))) else .ok axis

/-- `Pack.any_version` (tensor.py:1280-1320). `rank`: the recorded rank of the first operand. Simplified: an axis that is still negative is not accepted. -/
def pack (fill : α) (rank : Option Nat) (axis : Int) (xs : List (T α)) : Except String (Option (T α)) :=
  match axisOf rank 1 axis with
  | .error e => .error e
  | .ok a => .ok (if a < 0 then none else (xs.mapM (unsqueezeT [a.toNat])).bind (concatT fill a.toNat))

/-- `Unpack.version_1` (tensor.py:1323-1362): all outputs. -/
def unpack (rank : Option Nat) (axis : Int) (num : Nat) (x : T α) : Except String (Option (List (T α))) :=
  match axisOf rank 0 axis with
  | .error e => .error e
  | .ok a => .ok (if a < 0 then none else (splitT a.toNat num x).bind (fun l => l.mapM (squeezeT [a.toNat])))

/-- `TopKV2.any_version_after10` (tensor.py:1236-1252): values and positions of a line of the last axis. `cast` and `back`: the casts to and from single precision, which are made where the
element type is another (1245-1248). Simplified: one line; the cast of the positions to 32 bits is left out. -/
def topKV2 {K F : Type} [LinearOrder K] [LinearOrder F] (isFloat : Bool) (cast : K → F) (back : F → K) (n k : Nat) (l : Nat → K) : Option (List K × List Nat) :=
  if n < k then none
  else if isFloat then some ((topk n k l).map l, topk n k l)
  else some ((topk n k (fun i => cast (l i))).map (fun i => back (cast (l i))), topk n k (fun i => cast (l i)))

end Verif.Stack
