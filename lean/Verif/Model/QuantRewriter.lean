import Verif.Spec.Quantize
/-!
# Quantization: `rewriter/quantization_ops_rewriter.py`, `onnx_opset/quantize.py`

Exact rational numbers: rounding to 32-bit floats of scales is left out. The range constants are those of the first channel on (`extract_numpy_array`).
-/
namespace Verif.Quant
open Verif.Tensor

/-- `min_quantized`, `max_quantized` (quantization_ops_rewriter.py:33-38): the number of bits is not looked at. -/
def quantRange (o : Options) : Int × Int :=
  let lo := if !o.narrow && o.signed then -128 else -127
  if !o.signed then (0, 255) else (lo, 127)

/-- The scale of a given range (quantization_ops_rewriter.py:93-99). -/
def givenScale (q : Int × Int) (lo hi : Rat) : Rat :=
  let a := if q.1 < 0 then lo / q.1 else 0
  let b := if 0 < q.2 then hi / q.2 else 0
  if b < a then a else b

/-- The loop over the channels (quantization_ops_rewriter.py:88-102). -/
def givenScales (q : Int × Int) (lo hi : List Rat) : Except String (List Rat) :=
  (List.range lo.length).mapM (fun i =>
    if hi.length ≤ i then .error "IndexError: index out of bounds"
    else if 0 < givenScale q (lo.getD i 0) (hi.getD i 0) then .ok (givenScale q (lo.getD i 0) (hi.getD i 0))
    else .error "Quantize/Dequantize scale must be greater than zero")

/-- The scales computed at run time (quantization_ops_rewriter.py:51-75): `ReduceMax`, `ReduceMin` over all axes, or all but one. A reduction of nothing has no value. -/
def computedScales (o : Options) (x : T Rat) : Option (List Rat) :=
  (List.range (channels o.axis x.shape)).mapM (fun c =>
    match (members o.axis x c).min?, (members o.axis x c).max? with
    | some lo, some hi =>
      some (if o.signed then max (lo / (quantRange o).1) (hi / (quantRange o).2) else hi / (quantRange o).2)
    | _, _ => none)

/-- The test of lines 105-110: several scales need an axis. -/
def scalesOk (o : Options) (l : List Rat) : Except String (List Rat) :=
  if l.length ≠ 1 ∧ o.axis = -1 then .error "Axis must be specified for per channel quantization" else .ok l

/-- `create_qdq_nodes` on a match (quantization_ops_rewriter.py:20-139). -/
def qdqRewrite (opset : Nat) (o : Options) (given : Option (List Rat × List Rat)) (x : T Rat) : Except String (Option (T Rat)) :=
  if o.axis ≠ -1 ∧ opset < 13 then .error "Opset >= 13 is required for per channel quantization"
  else match given with
    | none => .ok ((computedScales o x).bind (fun s => onnxQdq o.signed o.axis s x))
    | some (lo, hi) => do
      let s ← givenScales (quantRange o) lo hi
      let s ← scalesOk o s
      .ok (onnxQdq o.signed o.axis s x)

/-- `FakeQuantWithMinMaxArgs.version_10` (onnx_opset/quantize.py:26-92), one element; ranges of two different ends. -/
def fakeQuantConvert (narrow : Bool) (bits : Nat) (amin amax x : Rat) : Except String Rat :=
  if narrow then .error "Unable to convert node FakeQuantWithMinMaxArgs with narrow_range"
  else if bits ≠ 8 then .error "Unable to convert node FakeQuantWithMinMaxArgs with num_bits"
  else
    let scale := (amax - amin) / (2 ^ bits - 1)
    let zero := -halfEven (amin / scale)
    if 0 ≤ zero ∧ zero ≤ 255 then .ok (dequantize scale zero (quantize false scale zero x)) else .error "zero_scale is outside uint8 boundary"

end Verif.Quant
