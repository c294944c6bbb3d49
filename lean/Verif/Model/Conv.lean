import Verif.Spec.Conv
import Verif.Spec.TensorOps
import Verif.Model.Padding
/-!
# Model of the handlers of convolution and pooling (tf2onnx/onnx_opset/nn.py)

A handler reads the attributes and the recorded shapes of a node (`-1`: unknown dimension; none: nothing recorded), sets the attributes of the ONNX
operator and puts transposes around it.
-/
namespace Verif.Conv
open Verif.Tensor Verif.Nn

/-- What the handlers read. Simplified: attributes TensorFlow always writes are there (`strides`, `data_format`); a kernel behind a `DequantizeLinear` is
not modelled (nn.py:145-158). -/
structure Node where
  dataFormat : String
  strides : List Int
  dilations : Option (List Int)
  padding : String
  explicit : List Int
  inShape : Option (List Int)
  outShape : Option (List Int)
  kernelShape : Option (List Int)

/-- `is_channels_last` (tf2onnx/onnx_opset/nn.py:32-35). -/
def Node.last (n : Node) : Bool := !("NC".toList.isPrefixOf n.dataFormat.toList)

/-- `parse_dims_attr` (tf2onnx/onnx_opset/nn.py:276-285). -/
def parseDims (last : Bool) (dims : List Int) (spatial : Nat) : List Int :=
  if dims.length ≠ spatial then (if last then dims.dropLast.drop 1 else dims.drop 2) else dims

/-- `conv_kernel_shape` (tf2onnx/onnx_opset/nn.py:305-318): the spatial part of the recorded shape of the kernel, and the attribute, set if all of it is
known. -/
def convKernelShape (kernelShape : Option (List Int)) (spatial : Nat) : Except String (List Int × Option (List Int)) :=
  match kernelShape with
  | none => .error "TypeError: object of type 'NoneType' has no len()"
  | some k =>
    if k.length ≠ spatial + 2 then .error "ValueError: kernel rank must be spatial+2"
    else
      let k := k.take spatial
      .ok (k, if k.all (fun d => 0 < d) then some k else none)

/-- `add_padding` (tf2onnx/onnx_opset/nn.py:199-274) on a node: see `Nn.addPadding`. `SAME` asks for the length of the recorded shapes. -/
def padding (n : Node) (kernel strides : List Int) (dilations : Option (List Int)) (spatial : Nat) : Except String Padding :=
  if n.padding = "SAME" ∧ (n.inShape = none ∨ n.outShape = none) then .error "TypeError: object of type 'NoneType' has no len()"
  else addPadding n.padding n.last (n.inShape.getD []) (n.outShape.getD []) kernel strides dilations n.explicit spatial

/-- The attributes `add_padding` leaves. -/
def Attrs.withPadding (a : Attrs) : Padding → Attrs
  | .nothing => a
  | .autoPadSameUpper => { a with sameUpper := true }
  | .pads l => { a with pads := some l }

/-- The number of groups (tf2onnx/onnx_opset/nn.py:379-391): only for these two formats, and if both numbers of channels are known. -/
def groupOf (n : Node) : Except String Int :=
  if n.dataFormat = "NHWC" ∨ n.dataFormat = "NCHW" then
    match n.inShape with
    | none => .error "TypeError: 'NoneType' object is not subscriptable"
    | some s =>
      let dim := if n.dataFormat = "NHWC" then s.getD (s.length - 1) 0 else s.getD 1 0
      if dim ≠ -1 then
        let k := n.kernelShape.getD []
        let cin := k.getD (k.length - 2) 0
        if cin = 0 then .error "ZeroDivisionError" else if cin ≠ -1 then .ok (dim / cin) else .ok 1
      else .ok 1
  else .ok 1

/-- `conv_convert_inputs` asks for the recorded shape of the output of a channels-last node (tf2onnx/onnx_opset/nn.py:179-192). -/
def outKnown (n : Node) : Except String Unit :=
  if n.last ∧ n.outShape = none then .error "TypeError: 'NoneType' object is not subscriptable" else .ok ()

/-- `ConvOp.any_version` (tf2onnx/onnx_opset/nn.py:348-397): the attributes of the `Conv`. Not modelled: an input that has no batch axis (367-372). -/
def convAttrs (n : Node) (spatial : Nat) : Except String Attrs := do
  let (kernel, ks) ← convKernelShape n.kernelShape spatial
  let strides := parseDims n.last n.strides spatial
  let dilations := n.dilations.map (fun d => parseDims n.last d spatial)
  let pad ← padding n kernel strides dilations spatial
  let group ← groupOf n
  outKnown n
  .ok (Attrs.withPadding { kernelShape := ks, strides := some strides, dilations := dilations, group := group } pad)

/-- `conv_convert_inputs` on the image (tf2onnx/onnx_opset/nn.py:85-115): channels-last images are transposed (if the image is a constant that nothing else
reads the constant is transposed instead; the value is the same). -/
def toOnnx {α : Type} (last : Bool) (spatial : Nat) (x : T α) : T α := if last then transpose (channelsFirstPermutation spatial) x else x

/-- `conv_convert_inputs` on the result (tf2onnx/onnx_opset/nn.py:173-196). -/
def fromOnnx {α : Type} (last : Bool) (spatial : Nat) (x : T α) : T α := if last then transpose (channelsLastPermutation spatial) x else x

/-- The permutation `conv_convert_inputs` applies to the kernel (tf2onnx/onnx_opset/nn.py:139-140). -/
def kernelPerm (spatial : Nat) : List Nat := [spatial + 1, spatial] ++ List.range spatial

/-- The value the converted `Conv2D`, `Conv3D` computes: the transposes of `conv_convert_inputs` (tf2onnx/onnx_opset/nn.py:62-197) around the `Conv`. -/
def convertedConv {α : Type} (acc : Acc α) (zero : α) (n : Node) (spatial : Nat) (x w : T α) : Except String (Option (T α)) := do
  let a ← convAttrs n spatial
  .ok ((onnxConv acc zero a (toOnnx n.last spatial x) (transpose (kernelPerm spatial) w)).map (fromOnnx n.last spatial))

/-- `DepthwiseConv2d.version_1` (tf2onnx/onnx_opset/nn.py:598-628): the attributes of the `Conv` and the new shape of the kernel. `mult` is the attribute
`depth_multiplier`. -/
def depthwiseAttrs (n : Node) (mult : Option Int) : Except String (Attrs × List Int) :=
  match n.inShape, n.kernelShape with
  | some s, some [kh, kw, kc, km] => do
    if s.length ≠ 4 then .error "ValueError: only Conv2D is supported"
    if mult = some 0 then .error "ZeroDivisionError"
    let cin := match mult with | none => kc | some d => kc / d
    let m := match mult with | none => km | some d => km * d
    if cin < 1 then .error "ValueError: input channel must be positive"
    let strides := parseDims n.last n.strides 2
    let dilations := n.dilations.map (fun d => parseDims n.last d 2)
    let pad ← padding n [kh, kw, kc, km] strides dilations 2
    outKnown n
    .ok (Attrs.withPadding { kernelShape := if 0 < kh ∧ 0 < kw then some [kh, kw] else none, strides := some strides, dilations := dilations, group := cin } pad,
      [kh, kw, 1, cin * m])
  | some _, some _ => .error "ValueError: only Conv2D is supported"
  | _, _ => .error "TypeError: object of type 'NoneType' has no len()"

/-- The value the converted `DepthwiseConv2dNative` computes: the kernel is reshaped, then as for `Conv` (tf2onnx/onnx_opset/nn.py:117-137). A `Reshape`
that does not fit is not valid. Simplified: so is one with an unknown dimension. -/
def convertedDepthwise {α : Type} (acc : Acc α) (zero : α) (n : Node) (mult : Option Int) (x w : T α) : Except String (Option (T α)) := do
  let (a, shape) ← depthwiseAttrs n mult
  let s := shape.map Int.toNat
  .ok (if (∀ d ∈ shape, 0 < d) ∧ Tensor.size s = Tensor.size w.shape then
    (onnxConv acc zero a (toOnnx n.last 2 x) (transpose (kernelPerm 2) (Tensor.reshape s w))).map (fromOnnx n.last 2) else none)

/-- `PoolOp._convert` (tf2onnx/onnx_opset/nn.py:648-690): the attributes of the `MaxPool` or `AveragePool`. `ksize` is the attribute of that name, or the
constant second input. Not modelled: the casts around a pool of integers. -/
def poolAttrs (n : Node) (ksize : List Int) (spatial : Nat) : Except String Attrs := do
  let kernel := parseDims n.last ksize spatial
  let strides := parseDims n.last n.strides spatial
  let dilations := n.dilations.map (fun d => parseDims n.last d spatial)
  let pad ← padding n kernel strides dilations spatial
  outKnown n
  .ok (Attrs.withPadding { kernelShape := some kernel, strides := some strides, dilations := dilations } pad)

/-- The value the converted pool computes. -/
def convertedPool {α : Type} (pool : Pool α) (n : Node) (ksize : List Int) (spatial : Nat) (x : T α) : Except String (Option (T α)) := do
  let a ← poolAttrs n ksize spatial
  .ok ((onnxPool pool a (toOnnx n.last spatial x)).map (fromOnnx n.last spatial))

end Verif.Conv
