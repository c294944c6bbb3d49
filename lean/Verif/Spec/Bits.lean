import Mathlib.Algebra.Order.Ring.Int
/-!
# Integers of a fixed width, and shifts
-/
namespace Verif.Bits

/-- An integer type. -/
structure IType where
  signed : Bool
  bits : Nat
  deriving DecidableEq

/-- The least value of a type. -/
def IType.lo (t : IType) : Int := if t.signed then -2 ^ (t.bits - 1) else 0

/-- The values of a type: `2 ^ bits` numbers from the least one on. -/
def IType.Has (t : IType) (n : Int) : Prop := t.lo ≤ n ∧ n < t.lo + 2 ^ t.bits

/-- The value of the type that a number is turned into by keeping the lowest bits (two's complement): what a cast between integer types does, in TensorFlow and ONNX. -/
def IType.wrap (t : IType) (n : Int) : Int := (n - t.lo) % 2 ^ t.bits + t.lo

/-- The integer types that have shifts in TensorFlow. -/
def IType.Known (t : IType) : Prop := t.bits = 8 ∨ t.bits = 16 ∨ t.bits = 32 ∨ t.bits = 64

/-- `tf.bitwise.left_shift`: the lowest bits of `x * 2 ^ y`. What happens with `y` negative or not below the width is left to the implementation. -/
def tfLeft (t : IType) (x : Int) (y : Nat) : Int := t.wrap (x * 2 ^ y)

/-- `tf.bitwise.right_shift`: `x / 2 ^ y`, rounded down (the sign is kept). -/
def tfRight (x : Int) (y : Nat) : Int := x / 2 ^ y

/-- ONNX `BitShift` on unsigned numbers of a width: with 0 moved in. An amount that is not below the width has no defined result. -/
def bitShift (left : Bool) (bits : Nat) (x y : Int) : Option Int :=
  if 0 ≤ y ∧ y < bits then some (if left then (x * 2 ^ y.toNat) % 2 ^ bits else x / 2 ^ y.toNat) else none

end Verif.Bits
