import Mathlib.Analysis.SpecialFunctions.Complex.Arg
import Mathlib.Analysis.SpecialFunctions.Trigonometric.Arctan
/-!
# The arc tangent of two arguments
-/
namespace Verif.Scan

/-- `tf.math.atan2`: the angle between the positive x-axis and the point `(x, y)`, between `-π` (exclusive) and `π`; 0 at the origin. -/
noncomputable def tfAtan2 (y x : ℝ) : ℝ := Complex.arg ⟨x, y⟩

/-- ONNX `Sign`. -/
noncomputable def onnxSign (x : ℝ) : ℝ := if 0 < x then 1 else if x < 0 then -1 else 0

end Verif.Scan
