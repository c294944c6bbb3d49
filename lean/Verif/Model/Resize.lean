import Verif.Spec.Resize
import Verif.Spec.Einsum
import Verif.Spec.VecOps
import Verif.Spec.Fourier
/-!
# Model: resizing images (tf2onnx/onnx_opset/nn.py)

What the handlers emit for `ResizeBilinear`, `ResizeNearestNeighbor`, `ResizeBicubic`, `ResizeArea`, as functions of the operands. `Except.error`: the handler raises. `none`: the
emitted operators do not accept their operands. Numbers are exact, except for the scales, which are rounded to single precision. `align`, `half`: the attributes `align_corners` and
`half_pixel_centers` (false if missing).
-/
namespace Verif.Resize
open Verif.Tensor Verif.Einsum Verif.Emit Verif.Fourier

/-- `Transpose` to and from the channels-first layout, around an operator. -/
def between (f : T ℚ → Option (T ℚ)) (x : T ℚ) : Option (T ℚ) := (transposeT [0, 3, 1, 2] x).bind (fun t => (f t).bind (fun t => transposeT [0, 2, 3, 1] t))

/-- The constant scales (nn.py:1364, 1399, 1477): Python divides in double precision, the constant is stored in single precision. Simplified: rounded once. -/
def constScales (h w nh nw : Int) : List ℚ := [1, 1, f32 ((nh : ℚ) / h), f32 ((nw : ℚ) / w)]

/-- The recorded height and width and the constant size, where all of them are known (nn.py:1389, 1470). `recorded`: the recorded shape of the image, `size`: the value of the second
operand, if it is a constant. Simplified: a recorded shape that is empty or not of rank 4 is an error in any case. -/
def known (recorded : Option (List Int)) (size : Option (Int × Int)) : Except String (Option (Int × Int × Int × Int)) :=
  match recorded, size with
  | some [_, h, w, _], some (nh, nw) =>
    if w ≠ -1 ∧ h ≠ -1 then (if h = 0 ∨ w = 0 then .error "ZeroDivisionError" else .ok (some (h, w, nh, nw))) else .ok none
  | some [_, _, _, _], none => .ok none
  | some _, _ => .error "ValueError: not enough values to unpack"
  | none, _ => .ok none

/-- `Resize.version_7` (nn.py:1350-1367). -/
def resize7 (kind : Kind) (recorded : Option (List Int)) (size : Option (Int × Int)) (x : T ℚ) : Except String (Option (T ℚ)) :=
  if kind = .bicubic then .error "Opset 11 is required for bicubic interpolation" else
    match recorded, size with
    | some [_, h, w, _], some (nh, nw) =>
      if nh = -1 ∨ nw = -1 then .error "h and w need to be known" else
        if h = 0 ∨ w = 0 then .error "ZeroDivisionError" else .ok (between (upsample (decide (kind = .bilinear)) (constScales h w nh nw)) x)
    | _, _ => .error "the shape of the image or the size is not known"

/-- The scales at run time (nn.py:1482-1497). Simplified: the quotients are rounded once. -/
def runScales (nh nw : Int) (x : T ℚ) : List ℚ := [1, 1, f32 ((nh : ℚ) / (nth x.shape 1 : Nat)), f32 ((nw : ℚ) / (nth x.shape 2 : Nat))]

/-- `_convert_since_9` (nn.py:1442-1515) with `use_target_size=False`, which `version_9` and `version_10` call (nn.py:1370-1376). `nh`, `nw`: the second operand. -/
def resize9 (v : Nat) (kind : Kind) (align half : Bool) (recorded : Option (List Int)) (isConst : Bool) (nh nw : Int) (x : T ℚ) : Except String (Option (T ℚ)) :=
  if kind = .bicubic then .error "Opset 11 is required for bicubic interpolation" else
    if align then .error "Opset 11 is required for align_corners=True" else
      if half then .error "Opset 11 is required for half_pixel_centers=True" else
        match known recorded (if isConst then some (nh, nw) else none) with
        | .error e => .error e
        | .ok s =>
          let scales := match s with | some (h, w, nh, nw) => constScales h w nh nw | none => runScales nh nw x
          .ok (between (if v < 10 then upsample (decide (kind = .bilinear)) scales
            else resizeScales ⟨if kind = .bilinear then .linear else .nearest, .asymmetric, .floor, -3 / 4, false⟩ scales) x)

/-- The attributes of the emitted `Resize` (nn.py:1379-1387, 1421-1437). -/
def attrs11 (kind : Kind) (align half tensorrt : Bool) : Attrs :=
  { mode := match kind with | .bilinear => .linear | .bicubic => .cubic | _ => .nearest
    coord := if half then (if kind = .nearest ∧ tensorrt = false then .tfHalfPixelForNn else .halfPixel) else if align then .alignCorners else .asymmetric
    nearest := if align then .roundPreferCeil else .floor
    cubicA := if kind = .bicubic then -1 / 2 else -3 / 4
    excludeOutside := decide (kind = .bicubic) }

/-- `Resize.version_11` (nn.py:1378-1440). -/
def resize11 (kind : Kind) (align half tensorrt : Bool) (recorded : Option (List Int)) (isConst : Bool) (nh nw : Int) (x : T ℚ) : Except String (Option (T ℚ)) :=
  match known recorded (if isConst then some (nh, nw) else none) with
  | .error e => .error e
  | .ok (some (h, w, nh, nw)) => .ok (between (resizeScales (attrs11 kind align half tensorrt) (constScales h w nh nw)) x)
  | .ok none => .ok (between (fun t => resizeSizes (attrs11 kind align half tensorrt) (sliceVec (t.shape.map Int.ofNat) 0 2 ++ [nh, nw]) t) x)

end Verif.Resize
