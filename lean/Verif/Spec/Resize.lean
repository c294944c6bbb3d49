import Verif.Spec.TensorOps
import Mathlib.Data.Rat.Floor
import Mathlib.Algebra.Order.Ring.Rat
/-!
# Resizing images: what TensorFlow and ONNX compute

Numbers are exact. An element of the result is a weighted sum of elements of the operand, axis by axis; the weights of an axis of `n` elements that becomes one of `m` elements are a list
of pairs of a weight and a position ("taps").
-/
namespace Verif.Resize
open Verif.Tensor

/-- The weighted sum. -/
def tapSum (taps : List (ℚ × Nat)) (f : Nat → ℚ) : ℚ := (taps.map (fun p => p.1 * f p.2)).sum

/-- A position kept inside of an axis. -/
def inside (n : Nat) (z : Int) : Nat := (max 0 (min z ((n : Int) - 1))).toNat

/-- Keys' cubic convolution with the parameter `a`, at a distance up to 1, and from 1 to 2. -/
def cubicNear (a t : ℚ) : ℚ := ((a + 2) * t - (a + 3)) * t * t + 1
def cubicFar (a t : ℚ) : ℚ := ((a * t - 5 * a) * t + 8 * a) * t - 4 * a

/-- The four taps around `x`. -/
def cubicTaps (a x : ℚ) : List (ℚ × Int) :=
  let t := x - ⌊x⌋
  [(cubicFar a (t + 1), ⌊x⌋ - 1), (cubicNear a t, ⌊x⌋), (cubicNear a (1 - t), ⌊x⌋ + 1), (cubicFar a (2 - t), ⌊x⌋ + 2)]

/-- Taps outside of the axis are dropped, and the others divided by their sum. -/
def normalised (n : Nat) (taps : List (ℚ × Int)) : List (ℚ × Nat) :=
  let kept : List (ℚ × Int) := taps.map (fun p => (if 0 ≤ p.2 ∧ p.2 < (n : Int) then p.1 else 0, p.2))
  kept.map (fun p => (p.1 / (kept.map Prod.fst).sum, inside n p.2))

/-! ## TensorFlow -/

/-- The operators. -/
inductive Kind where
  | bilinear | nearest | bicubic | area
  deriving DecidableEq

/-- The options `align_corners` and `half_pixel_centers`, of which at most one is set. -/
inductive Grid where
  | legacy | corners | halfPixel
  deriving DecidableEq

/-- `CalculateResizeScale`. -/
def tfScale (g : Grid) (n m : Nat) : ℚ := if g = .corners ∧ 1 < m then ((n : ℚ) - 1) / ((m : ℚ) - 1) else (n : ℚ) / m

/-- Where element `i` lies in the operand. -/
def tfCoord (g : Grid) (n m i : Nat) : ℚ := if g = .halfPixel then ((i : ℚ) + 1 / 2) * tfScale g n m - 1 / 2 else i * tfScale g n m

/-- `ResizeBilinear` (`compute_interpolation_weights`). -/
def tfBilinear (g : Grid) (n m i : Nat) : List (ℚ × Nat) :=
  let x := tfCoord g n m i
  [(1 - (x - ⌊x⌋), (max ⌊x⌋ 0).toNat), (x - ⌊x⌋, (min ⌈x⌉ ((n : Int) - 1)).toNat)]

/-- C's `roundf`: halves away from zero. -/
def roundAway (x : ℚ) : Int := if 0 ≤ x then ⌊x + 1 / 2⌋ else ⌈x - 1 / 2⌉

/-- `ResizeNearestNeighbor`. -/
def tfNearest (g : Grid) (n m i : Nat) : List (ℚ × Nat) :=
  match g with
  | .corners => [(1, (min (roundAway (i * tfScale g n m)) ((n : Int) - 1)).toNat)]
  | .halfPixel => [(1, (max 0 (min ⌊((i : ℚ) + 1 / 2) * tfScale g n m⌋ ((n : Int) - 1))).toNat)]
  | .legacy => [(1, (min ⌊i * tfScale g n m⌋ ((n : Int) - 1)).toNat)]

/-- `ResizeBicubic`: Keys' parameter -1/2 and dropped taps with `half_pixel_centers`, otherwise the parameter -3/4 and repeated pixels. (TensorFlow takes the weights from a table
with 1024 entries for the distance; here they are exact.) -/
def tfBicubic (g : Grid) (n m i : Nat) : List (ℚ × Nat) :=
  if g = .halfPixel then normalised n (cubicTaps (-1 / 2) (tfCoord g n m i))
  else (cubicTaps (-3 / 4) (tfCoord g n m i)).map (fun p => (p.1, inside n p.2))

/-- `ResizeArea` of an axis: every element of the operand weighted with its part of the interval from `i * scale` to `(i + 1) * scale`. -/
def tfArea (g : Grid) (n m i : Nat) : List (ℚ × Nat) :=
  let s := tfScale g n m
  (List.range n).map (fun (k : Nat) => ((max 0 (min ((k : ℚ) + 1) (((i : ℚ) + 1) * s) - max (k : ℚ) ((i : ℚ) * s))) / s, k))

def tfTaps : Kind → Grid → Nat → Nat → Nat → List (ℚ × Nat)
  | .bilinear => tfBilinear
  | .nearest => tfNearest
  | .bicubic => tfBicubic
  | .area => tfArea

/-- The resized image, `x` of shape `[b, h, w, c]`. -/
def tfResize (k : Kind) (g : Grid) (nh nw : Nat) (x : T ℚ) : T ℚ :=
  ⟨[nth x.shape 0, nh, nw, nth x.shape 3], fun i =>
    tapSum (tfTaps k g (nth x.shape 1) nh (nth i 1)) (fun y => tapSum (tfTaps k g (nth x.shape 2) nw (nth i 2)) (fun z => x.get [nth i 0, y, z, nth i 3]))⟩

/-! ## ONNX -/

inductive Mode where
  | nearest | linear | cubic
  deriving DecidableEq

inductive Coord where
  | asymmetric | alignCorners | halfPixel | tfHalfPixelForNn
  deriving DecidableEq

inductive Nearest where
  | floor | roundPreferCeil
  deriving DecidableEq

/-- The attributes of `Resize`. -/
structure Attrs where
  mode : Mode
  coord : Coord
  nearest : Nearest
  cubicA : ℚ
  excludeOutside : Bool

/-- Where element `i` of an axis of `m` elements lies in the operand, an axis of `n` elements. -/
def coordOf (c : Coord) (n m : Nat) (s : ℚ) (i : Nat) : ℚ :=
  match c with
  | .asymmetric => i / s
  | .halfPixel => ((i : ℚ) + 1 / 2) / s - 1 / 2
  | .tfHalfPixelForNn => ((i : ℚ) + 1 / 2) / s
  | .alignCorners => if m = 1 then 0 else (i : ℚ) * ((n : ℚ) - 1) / ((m : ℚ) - 1)

def onnxTaps (a : Attrs) (n m : Nat) (s : ℚ) (i : Nat) : List (ℚ × Nat) :=
  let x := coordOf a.coord n m s i
  match a.mode with
  | .nearest => [(1, inside n (match a.nearest with | .floor => ⌊x⌋ | .roundPreferCeil => ⌊x + 1 / 2⌋))]
  | .linear => [(1 - (x - ⌊x⌋), inside n ⌊x⌋), (x - ⌊x⌋, inside n (⌊x⌋ + 1))]
  | .cubic => if a.excludeOutside then normalised n (cubicTaps a.cubicA x) else (cubicTaps a.cubicA x).map (fun p => (p.1, inside n p.2))

/-- Interpolation axis by axis. -/
def interp : List (List (ℚ × Nat)) → (List Nat → ℚ) → ℚ
  | [], f => f []
  | a :: as, f => tapSum a (fun k => interp as (fun i => f (k :: i)))

/-- The interpolated tensor. -/
def interpT (a : Attrs) (dims : List Nat) (scales : List ℚ) (x : T ℚ) : T ℚ :=
  ⟨dims, fun i => interp ((List.range dims.length).map (fun k => onnxTaps a (nth x.shape k) (nth dims k) (scales.getD k 0) (nth i k))) x.get⟩

/-- ONNX `Resize` with the operand `scales`: a dimension is rounded down. -/
def resizeScales (a : Attrs) (scales : List ℚ) (x : T ℚ) : Option (T ℚ) :=
  if scales.length = x.shape.length ∧ ∀ s ∈ scales, 0 < s then some (interpT a (List.zipWith (fun (n : Nat) (s : ℚ) => (⌊(n : ℚ) * s⌋).toNat) x.shape scales) scales x) else none

/-- ONNX `Resize` with the operand `sizes`. -/
def resizeSizes (a : Attrs) (sizes : List Int) (x : T ℚ) : Option (T ℚ) :=
  if sizes.length = x.shape.length ∧ (∀ s ∈ sizes, 0 ≤ s) then
    some (interpT a (sizes.map Int.toNat) (List.zipWith (fun (n : Nat) (s : Int) => (s : ℚ) / n) x.shape sizes) x)
  else none

/-- ONNX `Upsample`, for scales not below 1. -/
def upsample (linear : Bool) (scales : List ℚ) (x : T ℚ) : Option (T ℚ) :=
  if ∀ s ∈ scales, 1 ≤ s then resizeScales ⟨if linear then .linear else .nearest, .asymmetric, .floor, -3 / 4, false⟩ scales x else none

/-! ## Single precision -/

/-- Rounding to an integer, halves to even. -/
def roundEven (q : ℚ) : Int := if Int.fract q < 1 / 2 then ⌊q⌋ else if 1 / 2 < Int.fract q then ⌊q⌋ + 1 else if ⌊q⌋ % 2 = 0 then ⌊q⌋ else ⌊q⌋ + 1

/-- The number of binary places behind the point: the least with a significand of 24 bits (for `0 < q < 2 ^ 24`, not smaller than the normal numbers). -/
def places (q : ℚ) : Nat := ((List.range 150).find? (fun k => decide (2 ^ 23 ≤ q * 2 ^ k))).getD 149

/-- The nearest number of single precision, for `0 < q < 2 ^ 24`. -/
def f32 (q : ℚ) : ℚ := (roundEven (q * 2 ^ places q) : ℚ) / 2 ^ places q

end Verif.Resize
