import Verif.Spec.Patches
import Verif.Spec.Einsum
import Verif.Model.Conv
/-!
# Model: `ExtractImagePatches` (tf2onnx/onnx_opset/nn.py:2099-2184)

`Except.error`: the handler raises. `none`: the emitted operators do not accept their operands.
-/
namespace Verif.Patches
open Verif.Tensor Verif.Conv Verif.Einsum

variable {R : Type}

/-- What the handler reads: the attributes and the recorded shapes of the image and of the result. -/
structure PatchNode where
  sizes : List Int
  strides : List Int
  rates : List Int
  padding : String
  inShape : Option (List Int)
  outShape : Option (List Int)

/-- The kernel (nn.py:2138-2153): a unit matrix, reshaped. -/
def kernel [Zero R] [One R] (kh kw : Int) : Option (T R) := reshapeTo [kh, kw, 1, kh * kw] (eye (kh * kw).toNat)

/-- The convolution (nn.py:2155-2159, 2178-2184), with the shapes recorded for the operands and the result. `add_padding` and `conv_convert_inputs` are called as for a `Conv2D`; the group is
left out, which means 1, and 1 is what `Conv2D` would set for one channel. -/
def convNode (n : PatchNode) (s o : List Int) (kh kw : Int) : Node :=
  ⟨"NHWC", n.strides, some n.rates, n.padding, [], some [s.getD 0 0 * s.getD 3 0, s.getD 1 0, s.getD 2 0, 1], some [s.getD 0 0 * s.getD 3 0, o.getD 1 0, o.getD 2 0, kh * kw],
    some [kh, kw, 1, kh * kw]⟩

/-- The image as one-channel images (nn.py:2127-2135). -/
def single (s : List Int) (x : T R) : Option (T R) := (transposeT [0, 3, 1, 2] x).bind (reshapeTo [s.getD 0 0 * s.getD 3 0, s.getD 1 0, s.getD 2 0, 1])

/-- The convolved images as channels (nn.py:2162-2174). -/
def arrange (s o : List Int) (k : Int) (z : T R) : Option (T R) :=
  (reshapeTo [s.getD 0 0, s.getD 3 0, o.getD 1 0, o.getD 2 0, k] z).bind (fun z => (transposeT [0, 2, 3, 4, 1] z).bind (reshapeTo o))

/-- What is emitted for recorded shapes `s`, `o` and a window of `kh` rows and `kw` columns. -/
def emit [Add R] [Mul R] [Zero R] [One R] (n : PatchNode) (s o : List Int) (kh kw : Int) (x : T R) : Except String (Option (T R)) :=
  match single s x, (kernel kh kw : Option (T R)) with
  | some y, some w => (convertedConv sumOfProducts 0 (convNode n s o kh kw) 2 y w).map (fun z => z.bind (arrange s o (kh * kw)))
  | _, _ => (convAttrs (convNode n s o kh kw) 2).map (fun _ => none)

/-- `ExtractImagePatches.version_9` (nn.py:2099-2184). Simplified: recorded shapes have four dimensions. -/
def extractPatches [Add R] [Mul R] [Zero R] [One R] (n : PatchNode) (x : T R) : Except String (Option (T R)) :=
  match n.outShape with
  | none => .error "TypeError: argument of type 'NoneType' is not iterable"
  | some o =>
    if 0 ∈ o then .error "Empty ExtractImagePatches output is unsupported."
    else match n.sizes with
      | [_, kh, kw, _] =>
        (match n.inShape with
        | none => .error "TypeError: 'NoneType' object is not subscriptable"
        | some s => emit n s o kh kw x)
      | _ => .error "ValueError: not enough values to unpack"

end Verif.Patches
