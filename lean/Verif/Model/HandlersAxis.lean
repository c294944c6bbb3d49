import Verif.Model.HandlersElem
import Verif.Model.ControlFlow
import Verif.Model.MergeDup
/-!
# Handlers of operators with axes, permutations and target shapes (`tf2onnx/onnx_opset/reduction.py`, `tensor.py`) as sequences of calls

`v` is `ctx.opset`. Conventions as in `Model/HandlersElem`. Inputs are looked up in the graph itself, not in outer graphs.
-/
namespace Verif.Graph
open Verif

/-- `node.inputs[i].get_tensor_value()` (tf2onnx/graph.py:59-65, 303-323): an input that is not a constant raises. -/
def G.constAt (g : G) (r : Ref) (i : Nat) : Except String Tensor :=
  match g.inputNode r i with
  | none => .error "AttributeError"
  | some q =>
    if (g.node q).op = "Const" then
      match (g.node q).tensorValue with
      | some T => .ok T
      | none => .error "TypeError"
    else .error "must be Const"

/-- `[x] if np.isscalar(x) else x` for the value of a constant: a scalar or a vector. -/
def Tensor.vec (T : Tensor) : Except String (List Int) :=
  if T.dims = [] then
    match T.data with
    | z :: _ => .ok [z]
    | [] => .error "ValueError"
  else if T.dims.length = 1 then .ok T.data
  else .error "TypeError"

/-- The value of a constant that must be a scalar. -/
def Tensor.int (T : Tensor) : Except String Int :=
  match T.dims, T.data with
  | [], z :: _ => .ok z
  | _, _ => .error "TypeError"

/-- `len(ctx.get_shape(x))`, `ctx.get_rank(x)`; none if there is no recorded shape. -/
def G.rankOf (g : G) (x : String) : Option Nat :=
  match g.shapes.get x with
  | some (some d) => some d.length
  | _ => none

/-- `ctx.get_shape(x)`: unknown dimensions are -1 (tf2onnx/graph.py:984-1001). -/
def G.shapeOf (g : G) (x : String) : Option (List Int) :=
  match g.shapes.get x with
  | some (some d) => some (d.map (·.getD (-1)))
  | _ => none

/-- `[a + rank if a < 0 else a for a in axes]`. -/
def addRank (rank : Nat) (l : List Int) : List Int := l.map (fun a => if a < 0 then a + rank else a)

/-- `node.get_attr_value("keep_dims", 0)`, then `del node.attr["keep_dims"]`, which raises if it is not there. -/
def G.keepDims (g : G) (r : Ref) : Except String Attr :=
  match (g.node r).attr.get "keep_dims" with
  | some k => .ok k
  | none => .error "KeyError"

/-- `ReduceOpBase.version_1`, `version_11` (reduction.py:24-49): the axes become an attribute. -/
def reduceAttrActs (v : Nat) : G → Ref → Except String (List Act) := fun g r => do
  let T ← g.constAt r 1
  let l ← T.vec
  let x ← g.inp r 0
  let axes ← match g.rankOf x with
    | none => if l.any (· < 0) && v < 11 then .error "reduce_op: cannot have negative axis if opset < 11" else .ok l
    | some n => .ok (addRank n l)
  let k ← g.keepDims r
  .ok [.setAttr "axes" (.ints axes), .dropInput 1, .setAttr "keepdims" k,
    .attrs ((((g.node r).attr.set "axes" (.ints axes)).set "keepdims" k).erase "keep_dims")]

/-- `ctx.replace_input` at the first slot that reads `x`, as in `insert_new_node_on_input` without index (tf2onnx/graph.py:1334-1338). -/
def onFirst (xs : List String) (x z : String) : List Act :=
  match xs.findIdx? (· = x) with
  | some i => [.inputAt i z]
  | none => []

/-- The inputs after that. -/
def subFirst (xs : List String) (x z : String) : List String :=
  match xs.findIdx? (· = x) with
  | some i => xs.set i z
  | none => xs

/-- The calls that make input 1 an INT64 tensor (reduction.py:59-60, 77-78; tensor.py:815-816): `insert_new_node_on_input(node, "Cast", node.input[1])`
unless it is recorded as one. -/
def castActs (fresh : Nat → String) (g : G) (r : Ref) (x : String) : List Act :=
  if g.dtypes.get x = some 7 then [] else .make (castSpec x 7) :: onFirst (g.node r).input x (port fresh g.heap.length)

/-- The inputs after `castActs`. -/
def castIns (fresh : Nat → String) (g : G) (r : Ref) (x : String) : List String :=
  if g.dtypes.get x = some 7 then (g.node r).input else subFirst (g.node r).input x (port fresh g.heap.length)

/-- Number of node objects after `castActs`. -/
def castLen (g : G) (x : String) : Nat := if g.dtypes.get x = some 7 then g.heap.length else g.heap.length + 1

/-- `get_shape(node.input[1])` after `castActs`: the shape recorded for the operand of the `Cast`, if inference of shapes gives it to the result. -/
def castShape (infer : Bool) (g : G) (x y : String) : Option (List Int) := if y = x then g.shapeOf x else if infer then g.shapeOf x else none

/-- `ReduceOpBase.version_13` for `ReduceSum`, `version_18` (reduction.py:51-84): the axes stay an input. -/
def reduceInActs (fresh : Nat → String) (infer : Bool) : G → Ref → Except String (List Act) := fun g r => do
  let k ← g.keepDims r
  let x ← g.inp r 1
  let xs := castIns fresh g r x
  let y := xs.getD 1 ""
  let n := castLen g x
  .ok ([.setAttr "keepdims" k, .attrs (((g.node r).attr.set "keepdims" k).erase "keep_dims"), .setAttr "noop_with_empty_axes" (.int 1)] ++
    castActs fresh g r x ++
    if (castShape infer g x y).map List.length = some 1 then []
    else [.make (.const ⟨7, [1], [-1]⟩), .make (.mk' "Reshape" [y, fresh n])] ++ onFirst xs y (port fresh (n + 1)))

/-- `ReduceOpBase` for operator set `v` (reduction.py:19-84). The node has been renamed by the table. -/
def reduceActs (fresh : Nat → String) (infer : Bool) (v : Nat) : G → Ref → Except String (List Act) := fun g r =>
  if 18 ≤ v ∨ 13 ≤ v ∧ (g.node r).op = "ReduceSum" then reduceInActs fresh infer g r else reduceAttrActs v g r

/-- The axis `ArgMax.version_1` writes (reduction.py:93-97): `len(shape) if shape else 0`, added if the axis is negative. -/
def argAxis (rank : Option Nat) (a : Int) : Int := if a < 0 then (rank.getD 0 : Nat) + a else a

/-- `ArgMax.version_1`, `version_11`, `version_12` (reduction.py:86-124). -/
def argActs : G → Ref → Except String (List Act) := fun g r => do
  let T ← g.constAt r 1
  let a ← T.int
  let x ← g.inp r 0
  let o ← g.outp r
  match (g.node r).attr.get "output_type" with
  | none => .error "attribute output_type not found"
  | some t =>
    .ok ((if t = .int 6 then [.make (castSpec o 6), .insertOut o] else []) ++
      [.setAttr "axis" (.int (argAxis (g.rankOf x) a)), .setAttr "keepdims" (.int 0), .dropInput 1])

/-- The axes `AllAny.version_6` writes (reduction.py:137-142). -/
def allAnyAxes (v : Nat) (rank : Option Nat) (l : List Int) : List Int :=
  if v < 11 then (match rank with | none => l | some n => addRank n l) else l

/-- `AllAny.version_6` (reduction.py:126-163); only used below operator set 13, where `make_reduce_sum` writes the axes as an attribute
(graph_builder.py:85-122). -/
def allAny6Acts (fresh : Nat → String) (v : Nat) : G → Ref → Except String (List Act) := fun g r => do
  let T ← g.constAt r 1
  let l ← T.vec
  let x ← g.inp r 0
  let o ← g.outp r
  let axes := allAnyAxes v (g.rankOf x) l
  if v < 11 ∧ axes.any (· < 0) then .error "negative reduce axis is not supported in onnx for now"
  else do
    let k ← g.keepDims r
    let n := g.heap.length
    .ok [.make (castSpec x 1),
      .make (.mk' (if (g.node r).op = "All" then "ReduceMin" else "ReduceSum") [port fresh n] [("axes", .ints axes), ("keepdims", k)]),
      .make (scalarSpec 1 0), .remove, .makeOut "Greater" [port fresh (n + 1), fresh (n + 2)] [] (g.node r).name o]

/-- `Squeeze.version_1`, `version_11`, `version_13` (tensor.py:192-226). -/
def squeezeActs (fresh : Nat → String) (v : Nat) : G → Ref → Except String (List Act) := fun g r => do
  let x ← g.inp r 0
  match (g.node r).attr.get "squeeze_dims" with
  | none => .ok []
  | some (.ints l) =>
    let del : Act := .attrs ((g.node r).attr.erase "squeeze_dims")
    if l = [] then .ok [del]
    else do
      let axes ← if l.any (· < 0) && v < 11 then
          match g.rankOf x with
          | none => .error "squeeze with negative axes and unknown rank requires opset >= 11"
          | some n => .ok (addRank n l)
        else .ok l
      if v < 13 then .ok [del, .setAttr "axes" (.ints axes)]
      else .ok [del, .make (.const ⟨7, [axes.length], axes⟩), .inputs [x, fresh g.heap.length]]
  | some _ => .error "TypeError"

/-- `ExpandDims.version_1`, `version_7`, `version_11` (tensor.py:785-811): the axis is any tensor with one element, negative axes count from the end
of the recorded output shape. -/
def expandDimsActs (v : Nat) : G → Ref → Except String (List Act) := fun g r => do
  let T ← g.constAt r 1
  let o ← g.outp r
  match T.data with
  | [] => .error "IndexError"
  | a :: _ => do
    let axis ← if a < 0 ∧ v < 11 then
        match g.rankOf o with
        | none => .error "ExpandDims with negative axes and unknown rank requires opset >= 11"
        | some n => .ok (a + n)
      else .ok a
    .ok [.setType "Unsqueeze", .setAttr "axes" (.ints [axis]), .dropInput 1]

/-- `ExpandDims.version_13` (tensor.py:813-822). -/
def expandDims13Acts (fresh : Nat → String) (infer : Bool) : G → Ref → Except String (List Act) := fun g r => do
  let x ← g.inp r 1
  let xs := castIns fresh g r x
  let y := xs.getD 1 ""
  let n := castLen g x
  .ok (castActs fresh g r x ++
    (if castShape infer g x y = some [1] then []
     else [.make (.const ⟨7, [1], [1]⟩), .make (.mk' "Reshape" [y, fresh n]), .inputs [xs.getD 0 "", port fresh (n + 1)]]) ++
    [.setType "Unsqueeze"])

/-- `Transpose.version_1` (tensor.py:229-246) of a permutation given as an input. -/
def transposeActs : G → Ref → Except String (List Act) := fun g r =>
  if (g.node r).input.length > 1 then do
    let T ← g.constAt r 1
    let l ← T.vec
    .ok [.dropInput 1, .setAttr "perm" (.ints l)]
  else .ok []

/-- The axis `Concat` and `ConcatV2` write (tensor.py:258-262, 294-304): `len(shape) + axis` if it is negative. -/
def concatAxis (rank : Option Nat) (a : Int) : Except String Int :=
  if a < 0 then
    match rank with
    | some n => .ok (n + a)
    | none => .error "no shape"
  else .ok a

/-- `Concat.version_1`, `version_11` (tensor.py:249-272), from operator set 8 on: the axis is input 0. -/
def concatActs : G → Ref → Except String (List Act) := fun g r => do
  let T ← g.constAt r 0
  let a ← T.int
  match (g.node r).input with
  | _ :: y :: _ =>
    let axis ← concatAxis (g.rankOf y) a
    .ok [.setType "Concat", .dropInput 0, .setAttr "axis" (.int axis)]
  | _ => .error "IndexError"

/-- The slots that read empty constants (tensor.py:284-287). -/
def G.emptyConst (g : G) (x : String) : Bool :=
  match g.getNodeByOutput x with
  | none => false
  | some q => (g.node q).op = "Const" && (match (g.node q).tensorValue with | some T => T.data = [] | none => false)

/-- `reversed(removed_indices)`: positions of the inputs that are empty constants, last first. -/
def G.emptySlots (g : G) (xs : List String) : List Nat := ((List.range xs.length).filter (fun i => g.emptyConst (xs.getD i ""))).reverse

/-- `ConcatV2.version_1` (tensor.py:275-313), from operator set 8 on: empty constants are dropped, the axis is the last input, its sign is judged with
the first recorded shape. -/
def concatV2Acts : G → Ref → Except String (List Act) := fun g r => do
  let xs := (g.node r).input
  let ys := xs.filter (fun x => !g.emptyConst x)
  match ys.getLast? with
  | none => .error "all inputs are empty"
  | some c => do
    match g.getNodeByOutput c with
    | none => .error "AttributeError"
    | some q =>
      if (g.node q).op ≠ "Const" then .error "needs to be const"
      else
        match (g.node q).tensorValue with
        | none => .error "TypeError"
        | some T => do
          let a ← T.int
          let axis ← concatAxis (ys.dropLast.findSome? g.rankOf) a
          .ok (.setType "Concat" :: (g.emptySlots xs).map .dropInput ++ [.dropInput (ys.length - 1), .setAttr "axis" (.int axis)])

/-- `Gather.version_1`, `version_11` (tensor.py:431-440). -/
def gatherActs : G → Ref → Except String (List Act) := renameActs "Gather"

/-- `GatherV2.version_1`, `version_11`, and `version_12` without batch dimensions (tensor.py:443-466). -/
def gatherV2Acts : G → Ref → Except String (List Act) := fun g r => do
  if (g.node r).attr.get "batch_dims" = none ∨ (g.node r).attr.get "batch_dims" = some (.int 0) then do
    let T ← g.constAt r 2
    let a ← T.int
    .ok [.setType "Gather", .dropInput 2, .setAttr "axis" (.int a)]
  else .error "batch_dims"

/-- `_convert_shapenode_to_int64` (tensor.py:27-33). -/
def shapeCastActs (fresh : Nat → String) (g : G) (xs : List String) (x : String) : List Act :=
  .make (castSpec x 7) :: onFirst xs x (port fresh g.heap.length)

/-- `Reshape.version_5` (tensor.py:159-189), from operator set 8 on. -/
def reshapeActs (fresh : Nat → String) : G → Ref → Except String (List Act) := fun g r => do
  let x ← g.inp r 0
  let s ← g.inp r 1
  let useless : Bool := match g.constAt r 1 with
    | .ok T => T.dims.length = 1 && g.shapeOf x = some T.data
    | .error _ => false
  .ok (if useless then [.setType "Identity", .inputs [x]] else shapeCastActs fresh g (g.node r).input s)

/-- `Tile.version_1` (tensor.py:1271-1276). -/
def tileActs (fresh : Nat → String) : G → Ref → Except String (List Act) := fun g r => do
  let s ← g.inp r 1
  .ok (shapeCastActs fresh g (g.node r).input s)

/-- `BroadcastTo.version_8` (tensor.py:4012-4018). -/
def broadcastToActs (fresh : Nat → String) : G → Ref → Except String (List Act) := fun g r => do
  let s ← g.inp r 1
  .ok (.setType "Expand" :: shapeCastActs fresh g (g.node r).input s)

/-- `EnsureShape.version_1` (tensor.py:137-141). -/
def ensureShapeActs : G → Ref → Except String (List Act) := renameActs "Identity"

/-- `Size.version_1` (tensor.py:58-70). -/
def sizeActs : G → Ref → Except String (List Act) := fun g r => do
  let o ← g.outp r
  match g.dtypes.get o with
  | none => .error "TypeError"
  | some t => .ok (if t = 7 then [] else [.make (castSpec o t), .insertOut o])

end Verif.Graph
