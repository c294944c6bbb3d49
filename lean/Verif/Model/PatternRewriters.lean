import Verif.Spec.PatternOps
import Verif.Model.Conv
import Verif.Spec.SegmentOps
import Mathlib.Algebra.Order.Field.Rat
import Mathlib.Algebra.Order.Group.Unbundled.Abs
/-!
# Rewriters that replace a recognized subgraph (`tf2onnx/rewriter/*.py`)

A rewriter is modelled by the values of the tensors of a match, by what the graph has recorded about them, and by the conditions of the code; the result is the value
of the operators it puts in. How a subgraph is recognized is the matter of C21; which nodes are removed is not modelled here.
-/
namespace Verif.Patt
open Verif.Tensor Verif.Emit Verif.Conv

/-! ## `gemm_rewriter.py` -/

/-- A match of one of the patterns of `rewrite_gemm` (gemm_rewriter.py:20-65): `alpha` and `beta` if the pattern has them, `bias`: the sum is a `BiasAdd`. The flags
`flip..` say in which order the operands were found (`allow_reorder`). -/
structure GemmMatch (α : Type) where
  a : T α
  b : T α
  c : T α
  alpha : Option (T α)
  beta : Option (T α)
  transA : Bool
  transB : Bool
  bias : Bool
  flipAlpha : Bool
  flipBeta : Bool
  flipAdd : Bool
  /-- element type of `a` is a 32-bit float -/
  float : Bool
  abShape : Option (List Int)
  cShape : Option (List Int)
  aRank : Option Nat
  bRank : Option Nat

/-- What `get_gemm_attr` makes of a constant (gemm_rewriter.py:108-120): a number, a list (which is no value of a float attribute), or the match is given up. -/
inductive Arg (α : Type)
  | number (v : α)
  | list
  | giveUp

/-- `get_tensor_value` and the test for a list of length 1 (gemm_rewriter.py:114-119). -/
def constArg {α : Type} (t : T α) : Arg α :=
  match t.shape with
  | [] => .number (t.get [])
  | [1] => .number (t.get [0])
  | 1 :: _ => .list
  | _ => .giveUp

/-- An attribute that is absent has the value 1. -/
def optArg {α : Type} [One α] : Option (T α) → Arg α
  | none => .number 1
  | some t => constArg t

/-- The loop over the dimensions of `C` (gemm_rewriter.py:92-95): `a_mul_b_shape[-i]` raises if there are too few. -/
def compatible (c ab : List Int) : Except String Bool :=
  if ab.length < c.length then .error "IndexError: list index out of range"
  else .ok ((List.range c.length).all (fun i : Nat => c.getD (c.length - 1 - i) 0 = 1 || c.getD (c.length - 1 - i) 0 = ab.getD (ab.length - 1 - i) 0))

/-- The conditions on recorded shapes (gemm_rewriter.py:86-96). -/
def gemmShapes {α : Type} (m : GemmMatch α) : Except String Bool :=
  match m.cShape, m.abShape with
  | some c, some ab => if -1 ∈ c ++ ab then .ok false else if m.aRank ≠ some 2 ∨ m.bRank ≠ some 2 then .ok false else compatible c ab
  | _, _ => .ok false

/-- The new node (gemm_rewriter.py:98-101); `none`: the attributes are no numbers. -/
def gemmNode {α : Type} [CommSemiring α] (dot : Dot α) (m : GemmMatch α) : Arg α → Arg α → Option (T α)
  | .number x, .number y => gemm dot x y m.transA m.transB m.a m.b m.c
  | _, _ => none

/-- `rewrite_gemm` on a match (gemm_rewriter.py:70-106): raises, leaves it alone, or puts in a node with the given value. -/
def gemmRewrite {α : Type} [CommSemiring α] (dot : Dot α) (m : GemmMatch α) : Except String (Option (Option (T α))) :=
  if m.float then
    match optArg m.alpha, optArg m.beta with
    | .giveUp, _ => .ok none
    | _, .giveUp => .ok none
    | x, y => (gemmShapes m).map (fun ok => if ok then some (gemmNode dot m x y) else none)
  else .ok none

/-! ## `flatten_rewriter.py` -/

/-- A match of `rewrite_flatten` (flatten_rewriter.py:19-45): `Reshape(x, Pack(StridedSlice(s, begin, end, strides), last))`. `fixed`: first pattern. Constants only. -/
structure FlattenMatch (α : Type) where
  x : T α
  fixed : Bool
  /-- the sliced vector, its value if it is constant -/
  s : List Int
  sConst : Bool
  last : Option Int
  begin_ : List Int
  end_ : List Int
  strides : List Int
  xShape : Option (List Int)

/-- The conditions (flatten_rewriter.py:58-80). -/
def flattenOk {α : Type} (m : FlattenMatch α) : Bool :=
  decide (m.last = some (-1)) && m.xShape.isSome && (!m.fixed || (m.sConst && decide (m.xShape = some m.s))) &&
    decide (m.begin_ = [0]) && decide (m.end_.length = 1) && decide (m.strides = [1]) && decide (m.end_.getD 0 0 - m.begin_.getD 0 0 = 1)

/-- `rewrite_flatten` on a match (flatten_rewriter.py:53-103). -/
def flattenRewrite {α : Type} (m : FlattenMatch α) : Option (Option (T α)) := if flattenOk m then some (flatten m.x) else none

/-! ## `transpose_rewriter.py` -/

/-- `rewrite_transpose` (transpose_rewriter.py:14-33): the permutation becomes the reversal, whatever is subtracted; `len(None)` raises. -/
def transposeRewrite {α : Type} (xShape : Option (List Int)) (x : T α) : Except String (T α) :=
  match xShape with
  | none => .error "TypeError: object of type 'NoneType' has no len()"
  | some s => .ok (transpose (List.range s.length).reverse x)

/-! ## `eye_rewriter.py` -/

/-- `rewrite_eye` on a match (eye_rewriter.py:119-153): only the value of the fill and the two operands of the minimum matter. -/
def eyeRewrite {β : Type} [DecidableEq β] [Zero β] [One β] (fillValue : β) (rows cols : Int) : Option (Option (T β)) :=
  if fillValue = 1 then some ((Seg.constOfShape (0 : Int) [rows, cols]).bind (eyeLike (0 : β) 1)) else none

/-! ## `conv2d_with_pad_rewriter.py` -/

/-- The conditions and the pads (conv2d_with_pad_rewriter.py:30-56). `mode` is the attribute of `Pad`; `inputs` the number of its inputs. -/
def padOf (n : Node) (mode : Option String) (inputs : Nat) (paddings : List (Int × Int)) : Option (List Int) :=
  let at_ := fun i => paddings.getD i (0, 0)
  if (mode = none ∨ mode = some "constant") ∧ inputs < 3 ∧ n.padding ≠ "SAME" then
    let (batch, channel, h, w) := if n.dataFormat = "NHWC" then (at_ 0, at_ 3, at_ 1, at_ 2) else (at_ 0, at_ 1, at_ 2, at_ 3)
    if batch = (0, 0) ∧ channel = (0, 0) then some [h.1, w.1, h.2, w.2] else none
  else none

/-- `rewrite_conv2d_with_pad` on a match (conv2d_with_pad_rewriter.py:19-66): `n` is the convolution, already reading the input of the `Pad`; after its handler has run,
`auto_pad` and `pads` are overwritten. -/
def padConv {α : Type} (acc : Acc α) (zero : α) (n : Node) (mode : Option String) (inputs : Nat) (paddings : List (Int × Int)) (x w : T α) :
    Option (Except String (Option (T α))) :=
  (padOf n mode inputs paddings).map (fun p => do
    let a ← convAttrs n 2
    .ok ((onnxConv acc zero { a with sameUpper := false, pads := some p } (toOnnx n.last 2 x) (transpose (kernelPerm 2) w)).map (fromOnnx n.last 2)))

/-! ## `conv2d_with_add_rewriter.py` -/

/-- `rewrite_biasadd_with_conv2d` (conv2d_with_add_rewriter.py:17-56) and the conversion of the new node: the bias is the third input of the `Conv`; the data format of
the `BiasAdd` is forgotten. -/
def biasConv {α : Type} [Add α] (acc : Acc α) (zero : α) (n : Node) (spatial : Nat) (x w b : T α) : Except String (Option (T α)) := do
  let a ← convAttrs n spatial
  .ok ((onnxConvBias acc zero a (toOnnx n.last spatial x) (transpose (kernelPerm spatial) w) b).map (fromOnnx n.last spatial))

/-! ## `layer_normalization_rewriter.py` -/

/-- Which of the three patterns (layer_normalization_rewriter.py:39-82): `r * scale * d`, `r * d * scale`, `scale * d * r`. -/
inductive LnForm
  | scaleFirst
  | scaleLast
  | rsqrtLast

/-- A match of one of the patterns of `rewrite_layer_normalization` (layer_normalization_rewriter.py:20-82). All tensors called `input..` are the same one, and so are
the means (lines 92-95). The flags `flip..` say in which order the operands were found: the pattern of the last difference does not forbid reordering. -/
structure LnMatch (α : Type) where
  form : LnForm
  x : T α
  meanAxes : List Int
  meanKeep : Bool
  varAxes : List Int
  varKeep : Bool
  eps : T α
  scale : T α
  bias : T α
  flipEps : Bool
  flipInner : Bool
  flipOuter : Bool
  flipSub : Bool
  flipBias : Bool
  /-- recorded rank -/
  rank : Option Nat
  /-- the element type is a 32-bit float -/
  float : Bool

/-- The conditions (layer_normalization_rewriter.py:90-107); `%` of Python is not negative. -/
def lnOk {α : Type} (m : LnMatch α) : Bool :=
  decide (m.rank = some 3) && decide (m.meanAxes.map (· % 3) = [2]) && decide (m.varAxes.map (· % 3) = [2]) && decide (Tensor.size m.eps.shape = 1)

/-- The new nodes (layer_normalization_rewriter.py:108-122). The ones and zeros are 32-bit floats, so the node is not valid for other types; rounding of `epsilon` to
the attribute's type is not modelled. -/
def lnRewrite {α : Type} [CommRing α] (mean : List α → α) (div : α → α → α) (sqrt : α → α) (m : LnMatch α) : Option (Option (T α)) :=
  if lnOk m then
    some (if m.float then
      (instanceNorm mean div sqrt (m.eps.get (List.replicate m.eps.shape.length 0)) m.x ⟨[nth m.x.shape 1], fun _ => 1⟩ ⟨[nth m.x.shape 1], fun _ => 0⟩).bind (fun n =>
        (zipT (· * ·) n m.scale).bind (fun y => zipT (· + ·) y m.bias))
      else none)
  else none

/-! ## `dropout_rewriter.py` -/

/-- `np.allclose([1], [v])` with its default tolerances. -/
def closeToOne (v : Rat) : Bool := decide (|1 - v| ≤ 1 / 100000000 + 1 / 100000 * |v|)

/-- `rewrite_dropout` on a match (dropout_rewriter.py:46-101), element-wise: `scaling` is the constant next to the data, `ratio` the constant next to the random
numbers. `none`: left alone. Whether the nodes are used elsewhere is not modelled here. -/
def dropoutRewrite (scaling ratio x : Rat) : Option Rat := if closeToOne (scaling * (1 - ratio)) then some (onnxDropout x) else none

/-! ## `random_uniform.py`, `random_normal_rewriter.py` -/

/-- `create_onnx_random_uniform_op` (random_uniform.py:70-114) for scalar bounds: `constShape`: the shape operand is a constant, then the shape recorded for the result
is used; otherwise it comes from a tensor of that shape. Rank 0 goes through shape [1] and a `Squeeze`. -/
def uniformOp {α : Type} [CommRing α] (u : List Nat → α) (low high : α) (constShape : Bool) (recorded : Option (List Int)) (dims : List Nat) : Except String (Option (T α)) :=
  if constShape then
    match recorded with
    | none => .error "TypeError: object of type 'NoneType' has no len()"
    | some [] => .ok (some (let y := onnxUniform (fun _ => u []) low high [1]; ⟨[], fun _ => y.get [0]⟩))
    | some s => .ok (if ∀ z ∈ s, 0 ≤ z then some (onnxUniform u low high (s.map Int.toNat)) else none)
  else .ok (some (onnxUniform u low high dims))

/-- `rewrite_random_uniform` (random_uniform.py:16-39): the bounds are those of the difference; what is added is not looked at. -/
def uniformRewrite {α : Type} [CommRing α] (u : List Nat → α) (tmax tmin : α) (constShape : Bool) (recorded : Option (List Int)) (dims : List Nat) :
    Except String (Option (T α)) := uniformOp u tmin tmax constShape recorded dims

/-- `rewrite_random_uniform_fold_const` (random_uniform.py:42-67). -/
def uniformFoldRewrite {α : Type} [CommRing α] (u : List Nat → α) (diff tmin : α) (constShape : Bool) (recorded : Option (List Int)) (dims : List Nat) :
    Except String (Option (T α)) := uniformOp u tmin (tmin + diff) constShape recorded dims

/-- `rewrite_random_normal` on a match with scalar constants (random_normal_rewriter.py:14-73): left alone if the shape is not known. -/
def normalRewrite {α : Type} [CommRing α] (u : List Nat → α) (consts : Option (α × α)) (fromShape : Bool) (recorded : Option (List Int)) (dims : List Nat) :
    Option (Option (T α)) :=
  let mean := (consts.map Prod.fst).getD 0
  let scale := (consts.map Prod.snd).getD 1
  if fromShape then some (some (onnxNormal u mean scale dims))
  else match recorded with
    | none => none
    | some s => if -1 ∈ s then none else some (if ∀ z ∈ s, 0 ≤ z then some (onnxNormal u mean scale (s.map Int.toNat)) else none)

/-! ## `ragged_variant_shape_rewriter.py` -/

/-- `rewrite_ragged_variant_shape` (ragged_variant_shape_rewriter.py:15-42): the shape of the row splits, minus 1. -/
def variantShape (batched : Bool) (raggedRank : Nat) (splits : T Int) : Option (List Int) :=
  if batched ∧ raggedRank = 1 then some (splits.shape.map (fun d : Nat => (d : Int) - 1)) else none

end Verif.Patt
