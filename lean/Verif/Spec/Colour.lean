import Mathlib.Data.Rat.Floor
/-!
# Colours of a pixel: what TensorFlow computes, and ONNX operators on three channels
-/
namespace Verif.Colour

/-- Three channels, or three numbers taken from them. -/
structure Px where
  x0 : ℚ
  x1 : ℚ
  x2 : ℚ
  deriving DecidableEq

/-- A channel. -/
def Px.get (p : Px) : Nat → ℚ
  | 0 => p.x0
  | 1 => p.x1
  | _ => p.x2

/-! ## TensorFlow -/

/-- The greatest channel. -/
def Px.max (p : Px) : ℚ := Max.max p.x0 (Max.max p.x1 p.x2)

/-- The smallest channel. -/
def Px.min (p : Px) : ℚ := Min.min p.x0 (Min.min p.x1 p.x2)

/-- Hue (in turns), saturation and value (`adjust_saturation_op.cc`, `rgb_to_hsv`). -/
def hsv (p : Px) : Px :=
  let v := p.max
  let range := v - p.min
  let s := if 0 < v then range / v else 0
  let hh := if range ≤ 0 then 0 else if p.x0 = v then (p.x1 - p.x2) / (6 * range) else if p.x1 = v then (p.x2 - p.x0) / (6 * range) + 2 / 6 else (p.x0 - p.x1) / (6 * range) + 4 / 6
  ⟨if hh < 0 then hh + 1 else hh, s, v⟩

/-- The pixel with a hue, a saturation and a value (`adjust_saturation_op.cc`, `hsv_to_rgb`). -/
def rgb (h s v : ℚ) : Px :=
  let c := s * v
  let m := v - c
  let dh := h * 6
  let x := c * (1 - |dh - 2 * ⌊dh / 2⌋ - 1|)
  let q : Px := match ⌊dh⌋ with
    | 0 => ⟨c, x, 0⟩
    | 1 => ⟨x, c, 0⟩
    | 2 => ⟨0, c, x⟩
    | 3 => ⟨0, x, c⟩
    | 4 => ⟨x, 0, c⟩
    | 5 => ⟨c, 0, x⟩
    | _ => ⟨0, 0, 0⟩
  ⟨q.x0 + m, q.x1 + m, q.x2 + m⟩

/-- `AdjustSaturation`: the saturation is multiplied and kept between 0 and 1. -/
def tfSaturation (factor : ℚ) (p : Px) : Px := rgb (hsv p).x0 (Min.min 1 (Max.max 0 ((hsv p).x1 * factor))) (hsv p).x2

/-- Sector and the number that is in the middle (`adjust_hue_op.cc`, `rgb_to_hv_range`). -/
def sector (p : Px) : Nat × ℚ :=
  if p.x0 < p.x1 then
    if p.x2 < p.x0 then (1, p.x0) else if p.x1 < p.x2 then (3, p.x1) else (2, p.x2)
  else
    if p.x2 < p.x1 then (0, p.x1) else if p.x0 < p.x2 then (4, p.x0) else (5, p.x2)

/-- Hue, from 0 to 6 (`adjust_hue_op.cc`, `rgb_to_hv_range`). -/
def hue (p : Px) : ℚ :=
  if p.max = p.min then 0 else
    let ratio := ((sector p).2 - p.min) / (p.max - p.min)
    (sector p).1 + (if (sector p).1 % 2 = 0 then ratio else 1 - ratio)

/-- The pixel with a hue from 0 to 6 and the range of the channels (`adjust_hue_op.cc`, `hv_range_to_rgb`). -/
def ofHue (h lo hi : ℚ) : Px :=
  let k := ⌊h⌋
  let mid := lo + (if k % 2 = 0 then h - k else 1 - (h - k)) * (hi - lo)
  match k with
  | 0 => ⟨hi, mid, lo⟩
  | 1 => ⟨mid, hi, lo⟩
  | 2 => ⟨lo, hi, mid⟩
  | 3 => ⟨lo, mid, hi⟩
  | 4 => ⟨mid, lo, hi⟩
  | _ => ⟨hi, lo, mid⟩

/-- `AdjustHue`: the hue is turned, and brought back to the interval from 0 to 6. -/
def tfHue (delta : ℚ) (p : Px) : Px := ofHue ((hue p + delta * 6) - 6 * ⌊(hue p + delta * 6) / 6⌋) p.min p.max

/-! ## ONNX -/

/-- Three positions. -/
structure Ix where
  i0 : Nat
  i1 : Nat
  i2 : Nat
  deriving DecidableEq

/-- The positions that `TopK` with `k = 3` gives for three channels: from the greatest to the smallest, equal ones in the order of the channels. -/
def topK (p : Px) : Ix :=
  if p.x1 ≤ p.x0 then
    if p.x2 ≤ p.x1 then ⟨0, 1, 2⟩ else if p.x2 ≤ p.x0 then ⟨0, 2, 1⟩ else ⟨2, 0, 1⟩
  else
    if p.x2 ≤ p.x0 then ⟨1, 0, 2⟩ else if p.x2 ≤ p.x1 then ⟨1, 2, 0⟩ else ⟨2, 1, 0⟩

/-- `GatherElements` on three channels. -/
def gatherElements (p : Px) (i : Ix) : Px := ⟨p.get i.i0, p.get i.i1, p.get i.i2⟩

/-- `Mod` with `fmod = 1`: the remainder has the sign of the dividend. -/
def fmod (a b : ℚ) : ℚ := if 0 ≤ a / b then a - b * ⌊a / b⌋ else a - b * ⌈a / b⌉

/-- `Clip`. -/
def clip (x lo hi : ℚ) : ℚ := Min.min (Max.max x lo) hi

end Verif.Colour
