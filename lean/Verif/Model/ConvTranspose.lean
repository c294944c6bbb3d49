import Verif.Model.Conv
import Verif.Spec.ConvTranspose
/-!
# Model of the handler of transposed convolutions (tf2onnx/onnx_opset/nn.py, `ConvTranspose`)

`inShape` and `kernelShape` of a `Node` are the recorded shapes of the operands `out_backprop` and `filter`, `outShape` that of the result.
-/
namespace Verif.Conv
open Verif.Tensor Verif.Nn

/-- The spatial part of a shape (tf2onnx/onnx_opset/nn.py:452-455, 461-468). Simplified: a list that is too short is filled up. -/
def spatialOf (last : Bool) (spatial : Nat) (l : List Int) : List Int := (List.range spatial).map (fun i => l.getD (if last then i + 1 else i + 2) 0)

/-- The total padding along an axis (tf2onnx/onnx_opset/nn.py:487-489). -/
def totalPadding (stride inDim kernel dilation outDim : Int) : Int := stride * (inDim - 1) + ((kernel - 1) * dilation + 1) - outDim

/-- What the handler reads from the node in all cases (tf2onnx/onnx_opset/nn.py:447-455): the spatial dimensions of the operand and the attribute
`kernel_shape`. -/
def transposeReads (n : Node) (spatial : Nat) : Except String (List Int × Option (List Int)) := do
  let (_, ks) ← convKernelShape n.kernelShape spatial
  match n.inShape with
  | none => .error "TypeError: 'NoneType' object is not subscriptable"
  | some s => .ok (spatialOf n.last spatial s, ks)

/-- The pads (tf2onnx/onnx_opset/nn.py:482-495); `int(x / 2)` rounds towards zero. -/
def transposePads (strides dilations kernel inDims outDims : List Int) (spatial : Nat) : List Int :=
  let total := fun i => totalPadding (strides.getD i 0) (inDims.getD i 0) (kernel.getD i 0) (dilations.getD i 0) (outDims.getD i 0)
  (List.range spatial).map (fun i => (total i).tdiv 2) ++ (List.range spatial).map (fun i => total i - (total i).tdiv 2)

/-- `ConvTranspose.version_1` (tf2onnx/onnx_opset/nn.py:435-497, 606-617) if the shape of the result is known, as a constant or a concatenation of constants
(`sizes`): the attributes of the `ConvTranspose`. -/
def transposeAttrs (n : Node) (spatial : Nat) (sizes : List Int) : Except String TAttrs := do
  let (inDims, ks) ← transposeReads n spatial
  let outDims := spatialOf n.last spatial sizes
  let strides := parseDims n.last n.strides spatial
  let dilations := n.dilations.map (fun d => parseDims n.last d spatial)
  if -1 ∈ outDims then .error "ValueError: output dims need to be known"
  else if (List.range spatial).any (fun i => outDims.getD i 0 < inDims.getD i 0) then .error "ValueError: output dims cannot be smaller than input dims."
  else if -1 ∈ inDims then
    (outKnown n).map (fun _ => { kernelShape := ks, strides := some strides, dilations := dilations, outputShape := some outDims })
  else
    match ks with
    | none => .error "AttributeError: 'NoneType' object has no attribute 'ints'"
    | some kernel =>
      (outKnown n).map (fun _ => { kernelShape := ks, strides := some strides, dilations := dilations,
                                   pads := some (transposePads strides (dilations.getD (List.replicate spatial 1)) kernel inDims outDims spatial) })

/-- The value of the converted operator: transposes around the `ConvTranspose` (tf2onnx/onnx_opset/nn.py:609-617). -/
def convertedTranspose {α : Type} (acc : Acc α) (zero : α) (strict : Bool) (opset : Nat) (n : Node) (spatial : Nat) (sizes : List Int) (w y : T α) :
    Except String (Option (T α)) := do
  let a ← transposeAttrs n spatial sizes
  .ok ((onnxConvTranspose acc zero strict opset a (toOnnx n.last spatial y) (transpose (kernelPerm spatial) w)).map (fromOnnx n.last spatial))

/-- `ConvTranspose.version_1` (tf2onnx/onnx_opset/nn.py:499-523) if the shape of the result is computed: the attributes of the `ConvTranspose`. Not modelled: the
shape recorded for its result. -/
def dynamicAttrs (n : Node) (opset spatial : Nat) : Except String TAttrs := do
  let (_, ks) ← transposeReads n spatial
  if opset < 10 then .error "ValueError: Opset 10 needed for Conv Backprop Input with non-constant shape"
  else
    match ks with
    | none => .error "AttributeError: 'NoneType' object has no attribute 'ints'"
    | some _ =>
      (outKnown n).map (fun _ => { kernelShape := ks, strides := some (parseDims n.last n.strides spatial),
                                   dilations := n.dilations.map (fun d => parseDims n.last d spatial) })

/-- `use_strides_workaround` (tf2onnx/onnx_opset/nn.py:514-523). -/
def workaround (opset : Nat) (strides : List Int) : Bool := strides.any (fun d => d > 1) && 12 ≤ opset

/-- The slice, and the padding of the workaround (tf2onnx/onnx_opset/nn.py:524-604), of the transposed convolution `r`; `sizes` is the value of the operand with
the shape of the result. Axes 1, 2 (and 3) are sliced. Simplified: arithmetic on tensors with one element is written as arithmetic. -/
def cropTo {α : Type} (zero : α) (work : Bool) (spatial : Nat) (sizes : List Int) (r : T α) : T α :=
  let diff := fun i => (nth r.shape (i + 1) : Int) - sizes.getD (i + 1) 0
  let nonneg := fun i => if work then max (diff i) 0 else diff i
  let start := fun i => (nonneg i).tdiv 2
  let sliced := Tensor.slice zero ((List.range spatial).map (fun i => ((i + 1 : Nat) : Int)))
    ((List.range spatial).map (fun i => ⟨start i, start i + sizes.getD (i + 1) 0, 1⟩)) r
  if work then
    Tensor.pad .constant zero (List.replicate (spatial + 2) 0 ++ [0] ++ (List.range spatial).map (fun i => max (-(diff i)) 0) ++ [0]) sliced
  else sliced

/-- The value of the converted operator if the shape of the result is computed. -/
def convertedDynamic {α : Type} (acc : Acc α) (zero : α) (strict : Bool) (opset : Nat) (n : Node) (spatial : Nat) (sizes : List Int) (w y : T α) :
    Except String (Option (T α)) := do
  let a ← dynamicAttrs n opset spatial
  .ok ((onnxConvTranspose acc zero strict opset a (toOnnx n.last spatial y) (transpose (kernelPerm spatial) w)).map (fun r =>
    cropTo zero (workaround opset (parseDims n.last n.strides spatial)) spatial sizes (fromOnnx n.last spatial r)))

end Verif.Conv
