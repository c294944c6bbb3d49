import Verif.Props.C76_Sound
/-!
# C76: examples, and what the conversion of the resize operators gets wrong
-/
namespace Verif.Resize
open Verif.Tensor Verif.Einsum Verif.Emit Verif.Channels Verif.Fourier

/-- A column of pixels, of the given values. -/
def column (l : List ℚ) : T ℚ := ⟨[1, l.length, 1, 1], fun i => l.getD (nth i 1) 0⟩

/-- The values of a column. -/
def values (z : T ℚ) : List Nat × List ℚ := (z.shape, (List.range (nth z.shape 1)).map (fun k => z.get [0, k, 0, 0]))

/-- What the handler gives. -/
def outcome (r : Except String (Option (T ℚ))) : Option (List Nat × List ℚ) := match r with | .ok (some z) => some (values z) | _ => none

/-- The hypotheses of `resize11_sound_partial` in a case, and its result: two pixels become four, bilinear, with `half_pixel_centers`. -/
theorem ex_resize11 : Exact 2 1 4 1 ∧ Agrees (some [-1, 2, 1, 1]) (column [0, 4]).shape ∧ Expressible .bilinear true false ∧
    outcome (resize11 .bilinear false true false (some [-1, 2, 1, 1]) true 4 1 (column [0, 4])) = some ([1, 4, 1, 1], [0, 1, 3, 4]) ∧
    values (tfResize .bilinear .halfPixel 4 1 (column [0, 4])) = ([1, 4, 1, 1], [0, 1, 3, 4]) := by
  refine ⟨exact_whole (h := 2) (w := 1) (k := 2) (l := 1) (by omega) (by omega) (by omega) (by omega), ?_, .inl rfl, by decide +kernel, by decide +kernel⟩
  intro l hl
  injection hl with hl
  subst hl
  exact .cons (.inl rfl) (.cons (.inr rfl) (.cons (.inr rfl) (.cons (.inr rfl) .nil)))

/-- Likewise for the nearest pixel with `align_corners`, where the sizes are read at run time, and for the other two grids and bicubic interpolation. -/
theorem ex_nearest11 : outcome (resize11 .nearest true false false none false 4 1 (column [1, 2, 3])) = some ([1, 4, 1, 1], [1, 2, 2, 3]) ∧
    outcome (resize11 .nearest false true false none false 4 1 (column [1, 2, 3])) = some ([1, 4, 1, 1], [1, 2, 2, 3]) ∧
    outcome (resize11 .nearest false false false none false 4 1 (column [1, 2, 3])) = some ([1, 4, 1, 1], [1, 1, 2, 3]) ∧
    outcome (resize11 .bicubic false true false none false 4 1 (column [0, 1])) = some (values (tfResize .bicubic .halfPixel 4 1 (column [0, 1]))) := by
  refine ⟨by decide +kernel, by decide +kernel, by decide +kernel, by decide +kernel⟩

/-- `version_9` enlarges. -/
theorem ex_resize9 : outcome (resize9 9 .bilinear false false none false 4 1 (column [0, 4])) = some ([1, 4, 1, 1], [0, 2, 4, 4]) ∧
    outcome (resize9 10 .nearest false false none false 1 1 (column [7, 4])) = some ([1, 1, 1, 1], [7]) := by
  refine ⟨by decide +kernel, by decide +kernel⟩

/-! ## What the conversion gets wrong -/

/-- `ResizeArea` averages; it is converted to the nearest pixel, at every operator set. -/
theorem area_defect : outcome (resize11 .area false false false none false 1 1 (column [0, 4])) = some ([1, 1, 1, 1], [0]) ∧
    outcome (resize9 10 .area false false none false 1 1 (column [0, 4])) = some ([1, 1, 1, 1], [0]) ∧
    values (tfResize .area .legacy 1 1 (column [0, 4])) = ([1, 1, 1, 1], [2]) := by
  refine ⟨by decide +kernel, by decide +kernel, by decide +kernel⟩

/-- `ResizeBicubic` without `half_pixel_centers` has Keys' parameter -3/4 and repeats the outermost pixels; it is converted with -1/2 and without these pixels. -/
theorem bicubic_defect : outcome (resize11 .bicubic false false false none false 4 1 (column [0, 1])) ≠ some (values (tfResize .bicubic .legacy 4 1 (column [0, 1]))) ∧
    outcome (resize11 .bicubic true false false none false 4 1 (column [0, 1])) ≠ some (values (tfResize .bicubic .corners 4 1 (column [0, 1]))) := by
  refine ⟨by decide +kernel, by decide +kernel⟩

/-- For TensorRT the nearest pixel with `half_pixel_centers` is rounded down after half a pixel was subtracted: another pixel. -/
theorem tensorrt_defect : outcome (resize11 .nearest false true true none false 4 1 (column [1, 2])) = some ([1, 4, 1, 1], [1, 1, 1, 2]) ∧
    values (tfResize .nearest .halfPixel 4 1 (column [1, 2])) = ([1, 4, 1, 1], [1, 1, 2, 2]) := by
  refine ⟨by decide +kernel, by decide +kernel⟩

/-- `version_7` has no look at `align_corners` and `half_pixel_centers`. -/
theorem grid7_defect : outcome (resize7 .bilinear (some [1, 2, 1, 1]) (some (4, 1)) (column [0, 4])) = some ([1, 4, 1, 1], [0, 2, 4, 4]) ∧
    values (tfResize .bilinear .halfPixel 4 1 (column [0, 4])) = ([1, 4, 1, 1], [0, 1, 3, 4]) := by
  refine ⟨by decide +kernel, by decide +kernel⟩

/-- `Upsample` cannot reduce an image: at operator sets 7 to 9 the model is not accepted. -/
theorem shrink_defect {v : Nat} (hv : v < 10) : resize9 v .bilinear false false none false 1 1 (column [0, 4]) = .ok none ∧
    resize7 .bilinear (some [1, 2, 1, 1]) (some (1, 1)) (column [0, 4]) = .ok none := by
  have h0 : between (upsample true (runScales 1 1 (column [0, 4]))) (column [0, 4]) = none := by
    have : (between (upsample true (runScales 1 1 (column [0, 4]))) (column [0, 4])).isNone = true := by decide +kernel
    exact Option.isNone_iff_eq_none.1 this
  have h1 : between (upsample true (constScales 2 1 1 1)) (column [0, 4]) = none := by
    have : (between (upsample true (constScales 2 1 1 1)) (column [0, 4])).isNone = true := by decide +kernel
    exact Option.isNone_iff_eq_none.1 this
  refine ⟨?_, congrArg Except.ok h1⟩
  show (Except.ok (between (if v < 10 then upsample true (runScales 1 1 (column [0, 4])) else _) (column [0, 4])) : Except String _) = _
  rw [if_pos hv, h0]

/-- A scale that is rounded down when it is stored loses a row: ten rows become six and not seven. -/
theorem rounded_defect : f32 (7 / 10) < 7 / 10 ∧
    (outcome (resize11 .bilinear false true false (some [1, 10, 1, 1]) true 7 1 (column [0, 1, 2, 3, 4, 5, 6, 7, 8, 9]))).map Prod.fst = some [1, 6, 1, 1] ∧
    (outcome (resize11 .bilinear false true false (some [1, -1, 1, 1]) true 7 1 (column [0, 1, 2, 3, 4, 5, 6, 7, 8, 9]))).map Prod.fst = some [1, 7, 1, 1] := by
  refine ⟨by decide +kernel, by decide +kernel, by decide +kernel⟩

end Verif.Resize
