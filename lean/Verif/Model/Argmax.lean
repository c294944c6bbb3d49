import Verif.Spec.Argmax
import Verif.Model.Conv
/-!
# Model: `MaxPoolWithArgmax` (tf2onnx/onnx_opset/nn.py:727-784)

`Except.error`: the handler raises. `none`: the emitted operators do not accept their operands. Simplified: positions are naturals.
-/
namespace Verif.Argmax
open Verif.Tensor Verif.Conv Verif.Emit

variable {α : Type}

/-- What the handler reads. `batch`: the attribute `include_batch_in_index`; absent, it counts as set. -/
structure ArgNode where
  opset : Nat
  ksize : List Int
  strides : List Int
  padding : String
  batch : Option Bool
  inShape : Option (List Int)
  outShape : Option (List Int)

/-- The node as `add_padding` and `conv_convert_inputs` see it (nn.py:733-744, 783-784): always channels last. -/
def ArgNode.node (n : ArgNode) : Node := ⟨"NHWC", n.strides, none, n.padding, [], n.inShape, n.outShape, none⟩

/-- A vector with one element. -/
def one (v : Nat) : T Nat := ⟨[1], fun _ => v⟩

/-- The position within an image of one channel (nn.py:753-758). -/
def xyOf (opset hw : Nat) (ind : T Nat) : Option (T Nat) :=
  if 10 ≤ opset then zipT (· % ·) ind (one hw)
  else (zipT (· / ·) ind (one hw)).bind (fun q => (zipT (· * ·) q (one hw)).bind (fun m => zipT (· - ·) ind m))

/-- The numbers of the channels (nn.py:762-768): a constant, if their number is known. `c`: what it is. -/
def channels (opset : Nat) (guess : Option (List Int)) (c : Nat) : Except String (T Nat) :=
  if 0 < (guess.getD []).getD 3 0 then .ok ⟨[((guess.getD []).getD 3 0).toNat], fun i => nth i 0⟩
  else if 11 ≤ opset then .ok ⟨[c], fun i => nth i 0⟩
  else .error "opset 11 required for MaxPoolWithArgmax with non-const num channels"

/-- The positions where the numbers of the images start (nn.py:774-777): a range, with three axes of length 1 behind it, times the size of an image; nothing if the batch is not included
or there is one image (nn.py:770-773). -/
def images (n : ArgNode) (N chw : Nat) : Except String (Option (T Nat)) :=
  if n.batch.getD true && !((n.inShape.getD []).getD 0 0 == 1) then
    if 11 ≤ n.opset then .ok (zipT (· * ·) (⟨[N, 1, 1, 1], fun i => nth i 0⟩ : T Nat) (one chw)) else .error "opset 11 required for MaxPoolWithArgmax with include_batch_in_index"
  else .ok (some ⟨[], fun _ => 0⟩)

/-- The positions in TensorFlow's order (nn.py:746-780), from the transposed ones. `s` is the shape of the image at run time. Simplified: adding nothing is adding the scalar 0. -/
def convertIndices (n : ArgNode) (s : List Nat) (ind : T Nat) : Except String (Option (T Nat)) :=
  match channels n.opset n.inShape (nth s 3), images n (nth s 0) (nth s 1 * nth s 2 * nth s 3) with
  | .error e, _ => .error e
  | .ok _, .error e => .error e
  | .ok c, .ok im => .ok ((xyOf n.opset (nth s 1 * nth s 2) ind).bind (fun xy => (zipT (· * ·) xy (one (nth s 3))).bind (fun xy => (zipT (· + ·) xy c).bind (fun xyc =>
      im.bind (fun im => zipT (· + ·) xyc im)))))

/-- `MaxPoolWithArgmaxOp.version_8` (nn.py:729-784): the values and the positions. -/
def maxPoolWithArgmax (ch : Choice α) (d : Nat × α) (n : ArgNode) (x : T α) : Except String (Option (T α × T Nat)) :=
  match poolAttrs n.node n.ksize 2 with
  | .error e => .error e
  | .ok a =>
    match onnxMaxArg ch d a (toOnnx true 2 x) with
    | none => .ok none
    | some r => (convertIndices n x.shape (fromOnnx true 2 (mapT Prod.fst r))).map (fun i => i.map (fun i => (fromOnnx true 2 (mapT Prod.snd r), i)))

end Verif.Argmax
