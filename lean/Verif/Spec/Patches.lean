import Verif.Spec.Conv
import Mathlib.Algebra.BigOperators.Group.List.Lemmas
/-!
# Patches of images: what TensorFlow and ONNX compute
-/
namespace Verif.Patches
open Verif.Tensor Verif.Conv

variable {R : Type}

/-- `tf.image.extract_patches`: at every place of the window the elements it covers, one after the other, the channels innermost; zero outside of the image. Channel `q` of the result is
channel `q % C` of the element in row `q / C / kw` and column `q / C % kw` of the window, if there are `C` channels and the window is `kw` wide. -/
def tfPatches [Zero R] (p : TfPad) (sizes strides rates : List Nat) (x : T R) : T R :=
  windowed true (tfGeom p true x.shape (spatialPart true 2 sizes) (spatialPart true 2 strides) (spatialPart true 2 rates)) (nth sizes 1 * nth sizes 2 * nth x.shape 3)
    (fun q r => (r [q / nth x.shape 3 / nth sizes 2, q / nth x.shape 3 % nth sizes 2] (q % nth x.shape 3)).getD 0) x

/-- What a convolution does with a window: the sum of the products. -/
def sumOfProducts [Add R] [Mul R] [Zero R] : Acc R := fun K C f => ((allIdx K).map (fun k => ((List.range C).map (fun c => (f k c).1 * (f k c).2)).sum)).sum

/-- ONNX `EyeLike` of a matrix of `k` rows and columns. -/
def eye [Zero R] [One R] (k : Nat) : T R := ⟨[k, k], fun i => if nth i 0 = nth i 1 then 1 else 0⟩

end Verif.Patches
