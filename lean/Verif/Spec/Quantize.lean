import Verif.Spec.TensorOps
import Mathlib.Data.Rat.Floor
/-!
# Quantization

ONNX `QuantizeLinear` and `DequantizeLinear`, and TensorFlow's `QuantizeAndDequantizeV2/3/4` and `FakeQuantWithMinMaxArgs/Vars`, for exact rational numbers: rounding of
floating-point numbers is left out.
-/
namespace Verif.Quant
open Verif.Tensor

/-- Round to the nearest integer, ties to an even one. -/
def halfEven (q : Rat) : Int :=
  if q - ⌊q⌋ < 1 / 2 then ⌊q⌋ else if 1 / 2 < q - ⌊q⌋ then ⌊q⌋ + 1 else if ⌊q⌋ % 2 = 0 then ⌊q⌋ else ⌊q⌋ + 1

/-- Round to the nearest integer, ties up. -/
def halfUp (q : Rat) : Int := ⌊q + 1 / 2⌋

/-- A number that is half-way between two integers. -/
def Tie (q : Rat) : Prop := q - ⌊q⌋ = 1 / 2

/-- Move into a range. -/
def clamp {α : Type} [LinearOrder α] (lo hi x : α) : α := max lo (min hi x)

/-! ## ONNX -/

/-- The values of `int8` and `uint8`. -/
def bounds (signed : Bool) : Int × Int := if signed then (-128, 127) else (0, 255)

/-- `QuantizeLinear` of one element: `saturate(round(x / scale) + zero_point)`. -/
def quantize (signed : Bool) (scale : Rat) (zero : Int) (x : Rat) : Int := clamp (bounds signed).1 (bounds signed).2 (halfEven (x / scale) + zero)

/-- `DequantizeLinear` of one element. -/
def dequantize (scale : Rat) (zero q : Int) : Rat := ((q - zero : Int) : Rat) * scale

/-- Which scale belongs to an element: one for all, or one for each position on an axis. -/
def channel (axis : Int) (idx : List Nat) : Nat := if axis = -1 then 0 else nth idx axis.toNat

/-- Number of scales. -/
def channels (axis : Int) (s : List Nat) : Nat := if axis = -1 then 1 else nth s axis.toNat

/-- `DequantizeLinear(QuantizeLinear(x))` with zero points 0: one scale for all elements, or a vector of scales and an axis. -/
def onnxQdq (signed : Bool) (axis : Int) (scales : List Rat) (x : T Rat) : Option (T Rat) :=
  if scales.length = 1 then some ⟨x.shape, fun i => dequantize (scales.getD 0 0) 0 (quantize signed (scales.getD 0 0) 0 (x.get i))⟩
  else if 0 ≤ axis ∧ axis < x.shape.length ∧ scales.length = nth x.shape axis.toNat then
    some ⟨x.shape, fun i => dequantize (scales.getD (channel axis i) 0) 0 (quantize signed (scales.getD (channel axis i) 0) 0 (x.get i))⟩
  else none

/-! ## `tf.quantization.quantize_and_dequantize` -/

/-- Options of the operator. -/
structure Options where
  signed : Bool
  narrow : Bool
  bits : Nat
  /-- rounding mode `HALF_UP` instead of `HALF_TO_EVEN` -/
  up : Bool
  /-- -1: one range for the tensor -/
  axis : Int

/-- The integers that are used. -/
def Options.fixed (o : Options) : Int × Int :=
  if o.signed then (if o.narrow then -(2 ^ (o.bits - 1)) + 1 else -(2 ^ (o.bits - 1)), 2 ^ (o.bits - 1) - 1) else (0, 2 ^ o.bits - 1)

/-- Scale and inverse scale of a range: "the scale from the min side if it is smaller, otherwise the one from the max side"; a side that does not restrict has the
largest float, here `none`. No value if neither side restricts. -/
def tfScale (qlo qhi : Int) (lo hi : Rat) : Option (Rat × Rat) :=
  let a : Option Rat := if 0 < qlo * lo then some (qlo / lo) else none
  let b : Option Rat := if 0 < qhi * hi then some (qhi / hi) else none
  match a, b with
  | none, none => none
  | some a, none => some (a, lo / qlo)
  | none, some b => some (b, hi / qhi)
  | some a, some b => if a < b then some (a, lo / qlo) else some (b, hi / qhi)

/-- One element: with a given range it is first moved into the range of the integers. -/
def tfQdq1 (o : Options) (given : Bool) (lo hi x : Rat) : Option Rat :=
  (tfScale o.fixed.1 o.fixed.2 lo hi).map (fun (s, inv) =>
    let y := if given then clamp (o.fixed.1 * inv) (o.fixed.2 * inv) x else x
    (if o.up then halfUp (y * s) else halfEven (y * s) : Int) * inv)

/-- The elements of a channel. -/
def members (axis : Int) (x : T Rat) (c : Nat) : List Rat := ((allIdx x.shape).filter (fun i => decide (channel axis i = c))).map x.get

/-- Ranges: given ones, or the smallest and the largest element of a channel. -/
def rangeOf (axis : Int) (given : Option (List Rat × List Rat)) (x : T Rat) (c : Nat) : Option (Rat × Rat) :=
  match given with
  | some (lo, hi) => if c < lo.length ∧ c < hi.length then some (lo.getD c 0, hi.getD c 0) else none
  | none => do some (← (members axis x c).min?, ← (members axis x c).max?)

/-- `v` is what the operator gives: every element by the range of its channel. -/
def IsQdq (o : Options) (given : Option (List Rat × List Rat)) (x v : T Rat) : Prop :=
  v.shape = x.shape ∧ ∀ i, InB x.shape i → ∃ lo hi, rangeOf o.axis given x (channel o.axis i) = some (lo, hi) ∧ tfQdq1 o given.isSome lo hi (x.get i) = some (v.get i)

/-! ## `tf.quantization.fake_quant_with_min_max_args` -/

/-- The lower end of the range after it has been moved so that 0 is one of its points. -/
def minAdj (lo hi scale : Rat) : Rat := if 0 < lo then 0 else if hi < 0 then lo - hi else scale * halfUp (lo / scale)

/-- One element, for 8 bits: into the moved range, then to the nearest of 256 points, then back. -/
def fakeQuant (lo hi x : Rat) : Rat :=
  let scale := (hi - lo) / 255
  let m := minAdj lo hi scale
  halfUp ((clamp m (m + (hi - lo)) x - m) / scale) * scale + m

end Verif.Quant
