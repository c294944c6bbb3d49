import Verif.Model.Conv
/-!
# Model of the rewriter of dilated convolutions (tf2onnx/rewriter/conv_dilations_rewriter.py)

TensorFlow writes a dilated convolution as `SpaceToBatchND`, a convolution and `BatchToSpaceND`. The rewriter looks for these three (in one dimension with an
`ExpandDims` and a `Squeeze` around the convolution), puts the dilations into the convolution and takes the other operators away.
-/
namespace Verif.Conv

/-- The expression that computes the paddings: constants (does it have an element that is not zero?) and operators. -/
inductive PadExpr
  | const (nonzero : Bool)
  | op (type : String) (inputs : List PadExpr)

namespace PadExpr

/-- `type` (the name of the type of a constant is `Const`). -/
def type : PadExpr → String
  | .const _ => "Const"
  | .op t _ => t

/-- `is_const`. -/
def isConst : PadExpr → Bool
  | .const _ => true
  | .op .. => false

/-- The operators `determine_pad_mode` looks through (tf2onnx/rewriter/conv_dilations_rewriter.py:124). -/
def tensorOps : List String := ["Concat", "ConcatV2", "ConcatV3", "StridedSlice", "Pack", "ExpandDims", "Identity"]

/-- The summand that is not a `FloorMod` must be a constant without elements other than zero (tf2onnx/rewriter/conv_dilations_rewriter.py:132-144). -/
def addMode (a b : PadExpr) : Option String :=
  let pad := if a.type = "FloorMod" then some b else if b.type = "FloorMod" then some a else none
  match pad with
  | some (.const false) => some "VALID"
  | _ => none

mutual
/-- `determine_pad_mode` (tf2onnx/rewriter/conv_dilations_rewriter.py:123-145). -/
def mode : PadExpr → Option String
  | .const _ => none
  | .op t inputs =>
    if t ∈ tensorOps then firstMode inputs
    else if t = "FloorMod" then some "VALID"
    else if t = "Add" ∨ t = "AddV2" then
      match inputs with
      | a :: b :: _ => addMode a b
      | _ => none
    else none

/-- The loop of `determine_pad_mode` goes on with the first input that is not a constant (tf2onnx/rewriter/conv_dilations_rewriter.py:125-129). -/
def firstMode : List PadExpr → Option String
  | [] => none
  | e :: l => if e.isConst then firstMode l else mode e
end

end PadExpr

/-- What the rewriter reads from the other operators of a match. `none`: the operand is not a constant. -/
structure DMatch where
  conv1d : Bool
  expandAxis : Int
  squeezeDims : List Int
  block1 : List Int
  block2 : List Int
  paddings : Option (List (Int × Int))
  crops : Option (List (Int × Int))
  padExpr : PadExpr

/-- The constant paddings and crops (tf2onnx/rewriter/conv_dilations_rewriter.py:75-88). -/
def explicitOf (m : DMatch) (p c : List (Int × Int)) : Option (List Int) :=
  if c.any (fun q => q.1 ≠ 0) then none
  else
    let start := p.map (·.1)
    let stop := (p.zip c).map (fun q => q.1.2 - q.2.2)
    if (p.zip (stop.zip m.block1)).all (fun q => 0 ≤ q.1.2 - q.2.1 ∧ q.1.2 - q.2.1 < q.2.2) then
      let start := if m.conv1d then 0 :: start else start
      let stop := if m.conv1d then 0 :: stop else stop
      some ([0, 0] ++ (start.zip stop).flatMap (fun q => [q.1, q.2]) ++ [0, 0])
    else none

/-- The padding of the new convolution, and `explicit_paddings`, if they are set (tf2onnx/rewriter/conv_dilations_rewriter.py:75-92, 117-119). -/
def padOf (m : DMatch) : Option (String × Option (List Int)) :=
  match m.paddings, m.crops with
  | some p, some c => (explicitOf m p c).map (fun l => ("EXPLICIT", some l))
  | _, _ => m.padExpr.mode.map (fun s => (s, none))

/-- `rewrite_conv_dilations` on one match (tf2onnx/rewriter/conv_dilations_rewriter.py:55-119): the new attributes of the convolution; `none` if the match is left
alone. The new input of the convolution is the input of `SpaceToBatchND`, what read the result of `BatchToSpaceND` reads the result of the convolution. The
recorded shape of that result is copied; what is recorded for the input is that of the new input. -/
def rewriteDilations (m : DMatch) (n : Node) (inShape outShape : Option (List Int)) : Option Node :=
  if m.conv1d ∧ (¬ (m.expandAxis = 1 ∨ m.expandAxis = -3) ∨ ¬ (m.squeezeDims = [1] ∨ m.squeezeDims = [-3])) then none
  else if m.block1 ≠ m.block2 then none
  else if n.padding ≠ "VALID" then none
  else
    (padOf m).map (fun r =>
      let block := if m.conv1d then 1 :: m.block1 else m.block1
      let dilations := if n.dataFormat = "NCHW" ∨ n.dataFormat = "NCDHW" then 1 :: block else 1 :: (block ++ [1])
      { n with padding := r.1, explicit := r.2.getD n.explicit, dilations := some dilations, inShape := inShape, outShape := outShape })

end Verif.Conv
