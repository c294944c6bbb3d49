import Verif.Spec.Bits
/-!
# Model: shifts (tf2onnx/onnx_opset/math.py)

The operators emitted for `LeftShift` and `RightShift`, for one pair of elements. Both operands have the type of the result, as in TensorFlow. `Except.error`: the handler
raises. `none`: the emitted `BitShift` has no defined result.
-/
namespace Verif.Bits

/-- `supported` (math.py:799-800). -/
def supported : List IType := [⟨false, 8⟩, ⟨false, 16⟩, ⟨false, 32⟩, ⟨false, 64⟩]

/-- `type_map` (math.py:801-803). -/
def typeMap (t : IType) : Option IType :=
  if t = ⟨true, 8⟩ then some ⟨false, 8⟩ else if t = ⟨true, 16⟩ then some ⟨false, 32⟩ else if t = ⟨true, 32⟩ then some ⟨false, 64⟩ else none

/-- `Node.maybe_cast_input` (graph.py:422-441) for one input: the type after the `Cast`, if one is inserted. -/
def maybeCast (t : IType) : Except String (Option IType) :=
  if t ∈ supported then .ok none else
    match typeMap t with
    | none => .error "don't know how to cast type"
    | some u => .ok (some u)

/-- `BitShift.version_11` (math.py:793-817). -/
def shift (left : Bool) (t : IType) (x y : Int) : Except String (Option Int) :=
  match maybeCast t with
  | .error e => .error e
  | .ok none => .ok (bitShift left t.bits x y)
  | .ok (some u) => .ok ((bitShift left u.bits (u.wrap x) (u.wrap y)).map t.wrap)

end Verif.Bits
