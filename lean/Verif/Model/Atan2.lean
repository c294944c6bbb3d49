import Verif.Spec.Atan2
import Verif.Spec.ScanOps
/-!
# Model: the arc tangent of two arguments (tf2onnx/onnx_opset/math.py:905-1013)

Over the real numbers: rounding, infinities and signed zeros are not modelled. `Sign` keeps the element type, so the `Cast`s (math.py:944-949) change
nothing.
-/
namespace Verif.Scan
open Verif.Tensor Verif.Emit

/-- The constant of shape `[1]` (math.py:953-955). -/
def atanOne : T ℝ := ⟨[1], fun _ => 1⟩

/-- The scalar constant (math.py:957-959). -/
noncomputable def atanHalf : T ℝ := ⟨[], fun _ => -Real.pi / 2⟩

/-- `pi_part` (math.py:961-985). -/
noncomputable def atanPi (sx sy : T ℝ) : Option (T ℝ) :=
  (zipT (· - ·) sx atanOne).bind (fun sxm1 =>
    (zipT (· * ·) sy sy).bind (fun sy2 =>
      (zipT (· - ·) sy2 atanOne).bind (fun sy2m1 =>
        (zipT (· * ·) sx sy2m1).bind (fun sxsy2m1 =>
          (zipT (· + ·) sy sxsy2m1).bind (fun s =>
            (zipT (· * ·) s sxm1).bind (fun m1 => zipT (· * ·) m1 atanHalf))))))

/-- `atan_part` (math.py:987-1006). -/
noncomputable def atanPart (sx y x : T ℝ) : Option (T ℝ) :=
  (zipT (· * ·) sx sx).bind (fun sx2 =>
    (zipT (· - ·) sx2 atanOne).bind (fun sx2m1 =>
      (zipT (· + ·) x sx2m1).bind (fun d =>
        (zipT (· / ·) y d).bind (fun q => zipT (· * ·) sx2 (mapT Real.arctan q)))))

/-- `Atan2Op.version_9` (math.py:909-1013): the inputs are `y`, `x` in this order. -/
noncomputable def atan2 (y x : T ℝ) : Option (T ℝ) :=
  (atanPi (mapT onnxSign x) (mapT onnxSign y)).bind (fun p => (atanPart (mapT onnxSign x) y x).bind (fun a => zipT (· + ·) a p))

end Verif.Scan
