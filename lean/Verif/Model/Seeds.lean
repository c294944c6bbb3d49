/-!
# Model of `utils.combine_seeds`
-/
namespace Verif.Seeds

/-- `utils.combine_seeds` (tf2onnx/utils.py:309-315): Python ints, `//` is floor division.
Simplification: the final `float(...)` conversion is left out (exact up to 2^53). -/
def combineSeeds (seed seed2 : Int) : Option Int :=
  if seed ≠ 0 ∨ seed2 ≠ 0 then
    some (Int.fdiv ((seed + seed2 + 1) * (seed + seed2 + 2)) 2 - seed)
  else none

end Verif.Seeds
