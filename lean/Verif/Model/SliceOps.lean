import Verif.Spec.TensorOps
/-!
# Model of the TF slicing handlers of tf2onnx/onnx_opset/tensor.py

The handlers are modelled down to the parameters of the ONNX nodes they make; what these nodes compute is in
`Verif.Spec.TensorOps`.
-/
namespace Verif.SliceOps
open Verif.Tensor

/-- Bit `i` of a mask attribute. -/
def bit (mask i : Nat) : Bool := (mask >>> i) % 2 = 1

/-- Parameters of the emitted `Slice` and `Squeeze`. -/
structure Emitted where
  axes : List Int
  starts : List Int
  ends : List Int
  squeeze : List Int
  deriving DecidableEq

/-- The attributes of a `StridedSlice`. -/
structure Masks where
  begin_ : Nat
  end_ : Nat
  ellipsis : Nat
  shrink : Nat

/-- State of the loop of `StridedSlice.version_1`: what was emitted so far, and `ellipsis_gap`. -/
structure LoopState where
  out : Emitted
  gap : Int

/-- One axis that is not an ellipsis (tf2onnx/onnx_opset/tensor.py:871-897). -/
def stepAxis (m : Masks) (maxSize : Int) (idx : Nat) (b e : Int) (s : LoopState) : LoopState :=
  let endItem := if b < 0 ∧ e = 0 then maxSize else e
  let o := { s.out with axes := s.out.axes ++ [idx + s.gap] }
  if bit m.shrink idx then
    { s with out := { o with starts := o.starts ++ [b], ends := o.ends ++ [if b ≠ -1 then b + 1 else maxSize],
                             squeeze := o.squeeze ++ [idx + s.gap] } }
  else
    { s with out := { o with starts := o.starts ++ [if bit m.begin_ idx then 0 else b],
                             ends := o.ends ++ [if bit m.end_ idx then maxSize else endItem] } }

/-- The loop (tf2onnx/onnx_opset/tensor.py:859-897). `n` is `len(begin)`, `rank` the rank of the input. -/
def loop (m : Masks) (maxSize : Int) (rank n : Nat) : Nat → List Int → List Int → List Int → LoopState → Except String LoopState
  | _, [], _, _, s => .ok s
  | idx, b :: bs, es, strides, s =>
    if strides.headD 0 ≠ 1 then .error "ValueError: StridedSlice: only strides=1 is supported"
    else if bit m.ellipsis idx then
      loop m maxSize rank n (idx + 1) bs es.tail strides.tail { s with gap := (rank : Int) - n }
    else loop m maxSize rank n (idx + 1) bs es.tail strides.tail (stepAxis m maxSize idx b (es.headD 0) s)

/-- `StridedSlice.version_1` (tf2onnx/onnx_opset/tensor.py:825-925), without the casts of opset < 9: the parameters of the
emitted nodes. The rank of the input is taken as known. -/
def stridedSlice (m : Masks) (newAxisMask : Nat) (maxSize : Int) (rank : Nat) (begin_ end_ strides : List Int) :
    Except String Emitted :=
  if newAxisMask ≠ 0 then .error "ValueError: StridedSlice: attribute new_axis_mask not supported" else
  (loop m maxSize rank begin_.length 0 begin_ end_ strides ⟨⟨[], [], [], []⟩, 0⟩).map (·.out)

/-- What the emitted nodes compute: `Identity` if there are no axes, else `Slice`; then `Squeeze` if needed
(tf2onnx/onnx_opset/tensor.py:903-922). -/
def Emitted.run {α : Type} (fill : α) (o : Emitted) (x : T α) : T α :=
  let y := if o.axes = [] then x else
    slice fill o.axes ((o.starts.zip o.ends).map (fun p => ⟨p.1, p.2, 1⟩)) x
  if o.squeeze = [] then y else Tensor.squeeze (fun i => o.squeeze.any (fun a => normAxis y.shape.length a = i)) y

/-! ## Slice -/

/-- `Slice.version_1` with constant `begin` and `size` (tf2onnx/onnx_opset/tensor.py:330-342). `np.iinfo(dtype)` is called
with the ONNX type *number*, a Python int, so it describes int64 whatever the type. -/
def sliceEnds (starts sizes : List Int) : List Int :=
  (starts.zip sizes).map (fun p => if p.2 = -1 then 2 ^ 63 - 1 else p.1 + p.2)

/-- Two's complement wrap-around of `bits`-bit integers (ONNX `Add`, `Mul`). -/
def wrap (bits : Nat) (i : Int) : Int := (i + 2 ^ (bits - 1)) % 2 ^ bits - 2 ^ (bits - 1)

/-- The ends computed at run time when `begin` or `size` is not constant (tf2onnx/onnx_opset/tensor.py:344-355), for
integers of `bits` bits: `starts + (size + INT_MAX * (size == -1))`. -/
def dynamicEnds (bits : Nat) (starts sizes : List Int) : List Int :=
  (starts.zip sizes).map (fun p =>
    wrap bits (p.1 + wrap bits (p.2 + wrap bits ((2 ^ (bits - 1) - 1) * (if p.2 = -1 then 1 else 0)))))

/-- The emitted `Slice` (no `axes` input: all axes in order). -/
def runSlice {α : Type} (fill : α) (starts ends : List Int) (x : T α) : T α :=
  slice fill ((List.range starts.length).map (fun (i : Nat) => (i : Int))) ((starts.zip ends).map (fun p => ⟨p.1, p.2, 1⟩)) x

/-! ## Roll -/

/-- The nodes emitted for one axis (tf2onnx/onnx_opset/tensor.py:402-412): `Mod` with `fmod = 0` has the sign of the
divisor; two slices and a concat. -/
def rollAxis {α : Type} (fill : α) (axis : Nat) (shift : Int) (x : T α) (shape : List Nat) : T α :=
  let len : Int := nth shape axis
  let shiftMod := Int.fmod shift len
  let remaining := len - shiftMod
  let one := slice fill [(axis : Int)] [⟨0, remaining, 1⟩] x
  let two := slice fill [(axis : Int)] [⟨remaining, len, 1⟩] x
  concat fill axis [two, one]

/-- `Roll.any_version` (tf2onnx/onnx_opset/tensor.py:372-415): what the emitted nodes compute. -/
def roll {α : Type} (fill : α) (axes : List Int) (shifts : List Int) (x : T α) : T α :=
  ((axes.map (fun (a : Int) => (if a ≥ 0 then a else a + (x.shape.length : Int)).toNat)).zip shifts).foldl
    (fun d p => rollAxis fill p.1 p.2 d x.shape) x

/-! ## SplitV -/

/-- `SplitV.version_1` (tf2onnx/onnx_opset/tensor.py:745-754): the sizes of the emitted `Split`. `shape` may hold `-1`.
A negative `split_dim` counts from the back (Python indexing). -/
def splitSizes (shape : List Int) (split : List Int) (splitDim : Int) : List Int :=
  if (-1) ∈ split then
    let finalSum := shape.getD (normAxis shape.length splitDim) 0
    let sums := (split.filter (fun i => 0 ≤ i)).sum
    split.map (fun v => if v = -1 then finalSum - sums else v)
  else split

end Verif.SliceOps
