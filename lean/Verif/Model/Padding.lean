import Verif.Spec.Tensor
/-!
# Model of the layout helpers and of `add_padding` in tf2onnx/onnx_opset/nn.py
-/
namespace Verif.Nn

/-- `make_shape_channels_first` (tf2onnx/onnx_opset/nn.py:38-41): `shape[:1] + shape[-1:] + shape[1:-1]`. -/
def makeShapeChannelsFirst {α : Type} (s : List α) : List α :=
  s.take 1 ++ s.drop (s.length - 1) ++ (s.dropLast).drop 1

/-- `make_shape_channels_last` (tf2onnx/onnx_opset/nn.py:44-47): `shape[:1] + shape[1:-1] + shape[1:2]`. -/
def makeShapeChannelsLast {α : Type} (s : List α) : List α :=
  s.take 1 ++ (s.dropLast).drop 1 ++ (s.take 2).drop 1

/-- `get_channels_first_permutation` (tf2onnx/onnx_opset/nn.py:50-53). -/
def channelsFirstPermutation (spatial : Nat) : List Nat := [0, spatial + 1] ++ List.range' 1 spatial

/-- `get_channels_last_permutation` (tf2onnx/onnx_opset/nn.py:56-59). -/
def channelsLastPermutation (spatial : Nat) : List Nat := [0] ++ List.range' 2 spatial ++ [1]

/-- What `add_padding` does to the node: nothing, or one of two attributes. -/
inductive Padding
  | nothing
  | autoPadSameUpper
  | pads (l : List Int)
  deriving DecidableEq

/-- The total padding of one axis (tf2onnx/onnx_opset/nn.py:251-256). -/
def padTotal (out stride dilation kernel inp : Int) : Int :=
  max ((out - 1) * stride + dilation * (kernel - 1) + 1 - inp) 0

/-- The `SAME` branch (tf2onnx/onnx_opset/nn.py:208-261). Shapes are as `get_shape` gives them (`-1` for an unknown
dimension). -/
def samePads (channelsLast : Bool) (inputShape outputShape kernel strides dilations : List Int) (spatial : Nat) :
    Except String Padding :=
  if inputShape.length ≠ spatial + 2 then .error "ValueError: input rank"
  else if outputShape.length ≠ spatial + 2 then .error "ValueError: output rank"
  else
    let inp := if channelsLast then makeShapeChannelsFirst inputShape else inputShape
    let out := if channelsLast then makeShapeChannelsFirst outputShape else outputShape
    if (List.range spatial).any (fun i => inp.getD (i + 2) 0 = -1 || out.getD (i + 2) 0 = -1) then .ok .autoPadSameUpper
    else
      let pad := fun i => padTotal (out.getD (i + 2) 0) (strides.getD i 0) (dilations.getD i 0) (kernel.getD i 0) (inp.getD (i + 2) 0)
      .ok (.pads ((List.range spatial).map (fun i => pad i / 2) ++ (List.range spatial).map (fun i => pad i - pad i / 2)))

/-- The `EXPLICIT` branch (tf2onnx/onnx_opset/nn.py:264-272). -/
def explicitPads (channelsLast : Bool) (pads : List Int) (spatial : Nat) : List Int :=
  let d := if channelsLast then 1 else 2
  (List.range spatial).map (fun i => pads.getD ((d + i) * 2) 0) ++
    (List.range spatial).map (fun i => pads.getD ((d + i) * 2 + 1) 0)

/-- `add_padding` (tf2onnx/onnx_opset/nn.py:199-274). -/
def addPadding (padding : String) (channelsLast : Bool) (inputShape outputShape kernel strides : List Int)
    (dilations : Option (List Int)) (explicit : List Int) (spatial : Nat) : Except String Padding :=
  if padding = "" then .ok .nothing
  else if padding = "SAME" then
    samePads channelsLast inputShape outputShape kernel strides (dilations.getD (List.replicate spatial 1)) spatial
  else if padding = "VALID" then .ok .nothing
  else if padding = "EXPLICIT" then .ok (.pads (explicitPads channelsLast explicit spatial))
  else .error "ValueError: invalid padding value"

end Verif.Nn
