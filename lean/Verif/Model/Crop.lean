import Verif.Spec.Crop
import Verif.Spec.Einsum
import Verif.Spec.Fourier
/-!
# Model: cutting boxes out of images (tf2onnx/onnx_opset/nn.py: CropAndResize)

The emitted `Loop` as a function of the operands. `none`: the emitted operators do not accept their operands. Numbers are exact. Simplified: tensors of rank 1 and 2 are lists.
-/
namespace Verif.Crop
open Verif.Tensor Verif.Resize Verif.Einsum Verif.Emit Verif.Fourier

/-- `build_dynamic_target_size` (nn.py:322-347). -/
def targetSize (t : T ℚ) (hw : List Int) : List Int := sliceVec (t.shape.map Int.ofNat) 0 2 ++ hw

/-- The region of interest: the box in channels-first order (nn.py:1314-1321). -/
def roiOf (box : List ℚ) : List ℚ := ([0, 0] ++ rows box 0 2) ++ ([1, 1] ++ rows box 2 4)

/-- The body of the loop, in iteration `k` (nn.py:1291-1331). -/
def cropBody (nearest : Bool) (extra : ℚ) (size : List Int) (x : T ℚ) (boxes : List (List ℚ)) (ind : List Int) (k : Nat) : Option (T ℚ) :=
  match rows ind k (k + 1) with
  | [b] =>
    (sliceT [b] [b + 1] [0] x).bind (fun target => (transposeT [0, 3, 1, 2] target).bind (fun t =>
      let box := (rows boxes k (k + 1)).flatten
      if box.length = 4 then
        (resizeRoi (!nearest) extra (roiOf box) (targetSize t size) t).bind (fun r => (transposeT [0, 2, 3, 1] r).bind (fun r => squeezeT [0] r))
      else none))
  | _ => none

/-- `CropAndResize.any_version_after11` (nn.py:1274-1344): the loop over the boxes, and the `Reshape` of what it gives. `size`: the operand `crop_size`, `nearest`: whether the attribute
`method` is `nearest`. -/
def crop (nearest : Bool) (extra : ℚ) (empty : List Nat) (size : List Int) (x : T ℚ) (boxes : List (List ℚ)) (ind : List Int) : Option (T ℚ) :=
  ((List.range ind.length).mapM (cropBody nearest extra size x boxes ind)).bind (fun ts => (scanOutput empty ts).bind (fun out =>
    reshapeT ([-1] ++ size ++ sliceVec (x.shape.map Int.ofNat) 3 4) out))

end Verif.Crop
