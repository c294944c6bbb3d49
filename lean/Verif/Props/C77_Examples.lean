import Verif.Props.C77_Crop
/-!
# C77: examples, and the defect of the nearest pixel
-/
namespace Verif.Crop
open Verif.Tensor Verif.Resize Verif.Einsum Verif.Emit Verif.Fourier

/-- Two images of three rows and two columns. -/
def pair : T ℚ := ⟨[2, 3, 2, 1], fun i => 100 * (nth i 0 : ℚ) + 10 * (nth i 1 : ℚ) + (nth i 2 : ℚ)⟩

/-- All elements, with the shape. -/
def elements (z : T ℚ) : List Nat × List ℚ := (z.shape, (allIdx z.shape).map z.get)

/-- The hypotheses of `crop_sound_partial` in a case with two boxes, of which one is mirrored and reaches out of the image, and the result. -/
theorem ex_crop : (∀ b ∈ [[0, 0, 1 / 2, 1], [(3 / 2 : ℚ), 1, 0, 1 / 2]], b.length = 4) ∧ (∀ b ∈ [(1 : Int), 0], 0 ≤ b ∧ b < (2 : Nat)) ∧
    (crop false (-7) [5] [2, 2] pair [[0, 0, 1 / 2, 1], [3 / 2, 1, 0, 1 / 2]] [1, 0]).map elements =
      some ([2, 2, 2, 1], [100, 101, 110, 111, -7, -7, 1, 1 / 2]) ∧
    elements (tfCrop false (-7) 2 2 pair [[0, 0, 1 / 2, 1], [3 / 2, 1, 0, 1 / 2]] [1, 0]) = ([2, 2, 2, 1], [100, 101, 110, 111, -7, -7, 1, 1 / 2]) := by
  refine ⟨by decide +kernel, by decide +kernel, by decide +kernel, by decide +kernel⟩

/-- A single pixel of a crop is the middle of the box; without boxes the result is empty. -/
theorem ex_crop_one : (crop false 0 [5] [1, 1] pair [[0, 0, 1, 1]] [0]).map elements = some ([1, 1, 1, 1], [21 / 2]) ∧
    (crop false 0 [5] [1, 1] pair [] []).map elements = some ([0, 1, 1, 1], []) := by
  refine ⟨by decide +kernel, by decide +kernel⟩

/-- The nearest pixel where no coordinate is in the middle. -/
theorem ex_crop_nearest : NoTies 3 2 2 2 [0, 0, 1 / 2, 1] ∧ (crop true 0 [] [2, 2] pair [[0, 0, 1 / 2, 1]] [0]).map elements = some ([1, 2, 2, 1], [0, 1, 10, 11]) := by
  refine ⟨⟨?_, ?_⟩, by decide +kernel⟩
  · have : ∀ p ∈ List.range 2, Int.fract (cropCoord ([0, 0, 1 / 2, 1].getD 0 0) ([0, 0, 1 / 2, 1].getD 2 0) 3 2 p) ≠ 1 / 2 := by decide +kernel
    exact fun p hp => this p (List.mem_range.2 hp)
  · have : ∀ p ∈ List.range 2, Int.fract (cropCoord ([0, 0, 1 / 2, 1].getD 1 0) ([0, 0, 1 / 2, 1].getD 3 0) 2 2 p) ≠ 1 / 2 := by decide +kernel
    exact fun p hp => this p (List.mem_range.2 hp)

/-- With `method = nearest` a coordinate in the middle between two pixels is rounded down by the emitted `Resize` (whose `nearest_mode` is not written, so `round_prefer_floor`) and up by
TensorFlow: the middle of three rows out of two. -/
theorem crop_nearest_violated : (crop true 0 [] [3, 1] ⟨[1, 2, 1, 1], fun i => (nth i 1 : ℚ)⟩ [[0, 0, 1, 1]] [0]).map elements = some ([1, 3, 1, 1], [0, 0, 1]) ∧
    elements (tfCrop true 0 3 1 ⟨[1, 2, 1, 1], fun i => (nth i 1 : ℚ)⟩ [[0, 0, 1, 1]] [0]) = ([1, 3, 1, 1], [0, 1, 1]) := by
  refine ⟨by decide +kernel, by decide +kernel⟩

end Verif.Crop
