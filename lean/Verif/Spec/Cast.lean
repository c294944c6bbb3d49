import Mathlib.Data.Rat.Floor
import Mathlib.Algebra.Order.Ring.Rat
/-!
# What an ONNX `Cast` guarantees

Values are exact numbers (or NaN, infinities, strings), types are sets of values. A runtime's `Cast` is any function
that lands in the target type, keeps every value the target can represent, truncates towards zero when converting a
finite number to an integer type that can hold the truncated value, and maps numbers to booleans by "is not zero"
(ONNX operator documentation of Cast). What happens to other values (rounding of floats, overflow) is left to the
runtime: the theorems hold for every choice.
-/
namespace Verif.Cast

/-- ONNX element types (the ones tf2onnx names, tf2onnx/utils.py:59-75, plus bfloat16). -/
inductive DT
  | float | float16 | double | bfloat16 | int8 | int16 | int32 | int64 | uint8 | uint16 | uint32 | uint64 | string | bool
  | complex64 | complex128
  deriving DecidableEq, Repr

/-- Element values. -/
inductive Val
  | num (q : ℚ) | nan | posInf | negInf | str (s : String) | cplx (re im : ℚ)

/-- Integer types: inclusive bounds. -/
def intRange : DT → Option (Int × Int)
  | .int8 => some (-2 ^ 7, 2 ^ 7 - 1)
  | .int16 => some (-2 ^ 15, 2 ^ 15 - 1)
  | .int32 => some (-2 ^ 31, 2 ^ 31 - 1)
  | .int64 => some (-2 ^ 63, 2 ^ 63 - 1)
  | .uint8 => some (0, 2 ^ 8 - 1)
  | .uint16 => some (0, 2 ^ 16 - 1)
  | .uint32 => some (0, 2 ^ 32 - 1)
  | .uint64 => some (0, 2 ^ 64 - 1)
  | _ => none

/-- IEEE formats: significand bits `p`, exponent `b` of the smallest subnormal `2 ^ -b`, and `k`, such that the finite
numbers are `m * 2 ^ e / 2 ^ b` with `|m| < 2 ^ p` and `e ≤ k`. -/
def floatFormat : DT → Option (Nat × Nat × Nat)
  | .float16 => some (11, 24, 29)
  | .bfloat16 => some (8, 133, 253)
  | .float => some (24, 149, 253)
  | .double => some (53, 1074, 2045)
  | _ => none

/-- `q` is a finite number of the format. -/
def FloatRep (p b k : Nat) (q : ℚ) : Prop := ∃ (m : Int) (e : Nat), |m| < 2 ^ p ∧ e ≤ k ∧ q * 2 ^ b = m * 2 ^ e

/-- `v` is a value of the type. -/
def HasType (t : DT) (v : Val) : Prop :=
  match v with
  | .num q =>
    (∃ r, intRange t = some r ∧ ∃ i : Int, q = i ∧ r.1 ≤ i ∧ i ≤ r.2) ∨
    (∃ f, floatFormat t = some f ∧ FloatRep f.1 f.2.1 f.2.2 q) ∨
    (t = .bool ∧ (q = 0 ∨ q = 1))
  | .nan => (floatFormat t).isSome
  | .posInf => (floatFormat t).isSome
  | .negInf => (floatFormat t).isSome
  | .str _ => t = .string
  | .cplx _ _ => t = .complex64 ∨ t = .complex128

/-- Rounding towards zero. -/
def trunc (q : ℚ) : Int := if 0 ≤ q then ⌊q⌋ else ⌈q⌉

/-- A conforming `Cast`. -/
structure Conforming (cast : DT → Val → Val) : Prop where
  typed : ∀ t v, HasType t (cast t v)
  exact : ∀ t v, HasType t v → cast t v = v
  toInt : ∀ t r (q : ℚ), intRange t = some r → r.1 ≤ trunc q → trunc q ≤ r.2 → cast t (.num q) = .num (trunc q)
  toBool : ∀ q : ℚ, cast .bool (.num q) = .num (if q = 0 then 0 else 1)

end Verif.Cast
