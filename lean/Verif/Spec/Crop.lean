import Verif.Spec.Resize
/-!
# Cutting boxes out of images: what TensorFlow and ONNX compute

Numbers are exact.
-/
namespace Verif.Crop
open Verif.Tensor Verif.Resize

/-! ## TensorFlow -/

/-- Where element `i` of `m` elements from `s` to `e` (fractions of the image) lies on an axis of `n` elements. -/
def cropCoord (s e : ℚ) (n m i : Nat) : ℚ :=
  if 1 < m then s * ((n : ℚ) - 1) + i * ((e - s) * ((n : ℚ) - 1) / ((m : ℚ) - 1)) else 1 / 2 * (s + e) * ((n : ℚ) - 1)

/-- Between `u` and `v`. -/
def lerp (u v t : ℚ) : ℚ := u + (v - u) * t

/-- A position inside of an axis. -/
def Within (n : Nat) (x : ℚ) : Prop := 0 ≤ x ∧ x ≤ (n : ℚ) - 1

instance (n : Nat) (x : ℚ) : Decidable (Within n x) := inferInstanceAs (Decidable (_ ∧ _))

/-- The image `f` at the position `y`, `x`, bilinear. -/
def bilinearAt (f : Nat → Nat → ℚ) (y x : ℚ) : ℚ :=
  lerp (lerp (f ⌊y⌋.toNat ⌊x⌋.toNat) (f ⌊y⌋.toNat ⌈x⌉.toNat) (x - ⌊x⌋)) (lerp (f ⌈y⌉.toNat ⌊x⌋.toNat) (f ⌈y⌉.toNat ⌈x⌉.toNat) (x - ⌊x⌋)) (y - ⌊y⌋)

/-- The nearest pixel. -/
def nearestAt (f : Nat → Nat → ℚ) (y x : ℚ) : ℚ := f (roundAway y).toNat (roundAway x).toNat

/-- `CropAndResize`: box `k` is `[y1, x1, y2, x2]`, `boxes[k]`, of the image `ind[k]` of `x`, of shape `[b, h, w, c]`. -/
def tfCrop (nearest : Bool) (extra : ℚ) (ch cw : Nat) (x : T ℚ) (boxes : List (List ℚ)) (ind : List Int) : T ℚ :=
  ⟨[ind.length, ch, cw, nth x.shape 3], fun i =>
    let box := boxes.getD (nth i 0) []
    let y := cropCoord (box.getD 0 0) (box.getD 2 0) (nth x.shape 1) ch (nth i 1)
    let z := cropCoord (box.getD 1 0) (box.getD 3 0) (nth x.shape 2) cw (nth i 2)
    let f := fun (p q : Nat) => x.get [(ind.getD (nth i 0) 0).toNat, p, q, nth i 3]
    if Within (nth x.shape 1) y ∧ Within (nth x.shape 2) z then (if nearest then nearestAt f y z else bilinearAt f y z) else extra⟩

/-! ## ONNX -/

/-- `tf_crop_and_resize`: the coordinate on an axis of `n` elements that becomes one of `m`. -/
def roiCoord (s e : ℚ) (n m i : Nat) : ℚ :=
  if 1 < m then s * ((n : ℚ) - 1) + i * (e - s) * ((n : ℚ) - 1) / ((m : ℚ) - 1) else 1 / 2 * (s + e) * ((n : ℚ) - 1)

/-- `round_prefer_floor`, the default of `nearest_mode`. -/
def roundPreferFloor (x : ℚ) : Int := ⌈x - 1 / 2⌉

/-- The taps of an axis at the coordinate `x`. -/
def roiTaps (linear : Bool) (n : Nat) (x : ℚ) : List (ℚ × Nat) :=
  if linear then [(1 - (x - ⌊x⌋), inside n ⌊x⌋), (x - ⌊x⌋, inside n (⌊x⌋ + 1))] else [(1, inside n (roundPreferFloor x))]

/-- ONNX `Resize` with `coordinate_transformation_mode = tf_crop_and_resize`: `roi` has the starts of all axes and then the ends. An element with a coordinate outside of the operand
is `extra`. -/
def resizeRoi (linear : Bool) (extra : ℚ) (roi : List ℚ) (sizes : List Int) (x : T ℚ) : Option (T ℚ) :=
  if sizes.length = x.shape.length ∧ roi.length = 2 * x.shape.length ∧ (∀ s ∈ sizes, 0 ≤ s) then
    some ⟨sizes.map Int.toNat, fun i =>
      let coord := fun (k : Nat) => roiCoord (roi.getD k 0) (roi.getD (x.shape.length + k) 0) (nth x.shape k) ((sizes.getD k 0).toNat) (nth i k)
      if ∀ k ∈ List.range x.shape.length, Within (nth x.shape k) (coord k) then
        interp ((List.range x.shape.length).map (fun k => roiTaps linear (nth x.shape k) (coord k))) x.get
      else extra⟩
  else none

/-- `Slice` of the first axis of a list of rows, from `s` to `e`. -/
def rows {α : Type} (l : List α) (s e : Nat) : List α := (l.take e).drop s

/-- The scan output of a `Loop`: the tensors stacked along a new first axis, which have to have the same shape; without an iteration a tensor without elements, whose other dimensions
(`empty`) ONNX does not say. -/
def scanOutput (empty : List Nat) : List (T ℚ) → Option (T ℚ)
  | [] => some ⟨0 :: empty, fun _ => 0⟩
  | t :: ts => if ∀ u ∈ ts, u.shape = t.shape then some ⟨(ts.length + 1) :: t.shape, fun i => ((t :: ts).getD (nth i 0) t).get (i.drop 1)⟩ else none

end Verif.Crop
