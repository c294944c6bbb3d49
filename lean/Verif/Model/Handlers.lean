import Verif.Model.QDQ
/-!
# Model of the operator handlers of `tf2onnx/onnx_opset/`: common part

A handler replaces one node by nodes of the target operator set. Names of new nodes (`utils.make_name`): `fresh k` for the node that
becomes object number `k`; its output is `fresh k ++ ":0"`, or `fresh k` for a constant (tf2onnx/graph.py:594-596, 619-629). Shapes and
dtypes recorded for tensors inside the new group are left out; those of the tensors the rest of the graph reads are kept.
-/
namespace Verif.Graph
open Verif

/-- A call of `make_node` with generated name, or of `make_const`. -/
structure Spec where
  op : String
  xs : List String
  attr : Dict String Attr := []
  isConst : Bool := false

/-- `ctx.make_node(op, xs, attr=attr)`. -/
def Spec.mk' (op : String) (xs : List String) (attr : Dict String Attr := []) : Spec := ⟨op, xs, attr, false⟩

/-- `ctx.make_const(utils.make_name(..), value)` (tf2onnx/graph.py:575-600). -/
def Spec.const (t : Tensor) : Spec := ⟨"Const", [], [("value", .tensor t)], true⟩

/-- The node made by a call when `k` node objects exist. -/
def Spec.node (fresh : Nat → String) (s : Spec) (k : Nat) : Node :=
  ⟨fresh k, s.op, "", s.attr, s.xs, [if s.isConst then fresh k else fresh k ++ ":0"]⟩

/-- A sequence of `make_node`/`make_const` calls. -/
def G.makeSeq (fresh : Nat → String) : List Spec → G → Except String G
  | [], g => .ok g
  | s :: ss, g => do
    let k := g.heap.length
    let (g, _) ← g.makeNode s.op s.xs (fresh k) [if s.isConst then fresh k else fresh k ++ ":0"] s.attr
    G.makeSeq fresh ss g

/-- What is recorded for `o` in `src` is recorded for `dst`: `copy_shape`, `copy_dtype` (tf2onnx/graph.py:979-982, 1019-1022), or the
`shapes`, `dtypes` arguments of `make_node` (tf2onnx/graph.py:664-671). -/
def G.copyInfo (g : G) (src : G) (o dst : String) : Except String G := do
  let g ← g.setShapeOpt dst (src.shapes.get o)
  g.setDtypeOpt dst (src.dtypes.get o)

/-- `make_node(...)` followed by `insert_node_on_output`, as in `insert_new_node_on_output(op, o, inputs=xs, **attr)`
(tf2onnx/graph.py:1343-1384), followed by `copy_shape` and `copy_dtype` to the new tensor, as the handlers do. -/
def G.newOnOutput (fresh : Nat → String) (g : G) (op : String) (o : String) (xs : List String) (attr : Dict String Attr := []) :
    Except String G := do
  let out := fresh g.heap.length ++ ":0"
  let (g, r) ← g.makeNode op xs (fresh g.heap.length) [out] attr
  let g ← g.insertNodeOnOutput r o
  g.copyInfo g o out

/-- `insert_new_node_on_input(node, op, x, **attr)` (tf2onnx/graph.py:1313-1341) without index: the first slot reading `x`. -/
def G.newOnInput (fresh : Nat → String) (g : G) (r : Ref) (op : String) (x : String) (attr : Dict String Attr := []) :
    Except String G := do
  let k := g.heap.length
  let (g, _) ← g.makeNode op [x] (fresh k) [fresh k ++ ":0"] attr
  match (g.node r).input.findIdx? (· = x) with
  | none => .ok g
  | some i => g.replaceInputAt r x (fresh k ++ ":0") i

/-- `insert_new_node_on_input(node, op, node.input[i], input_index=i, **attr)` (tf2onnx/graph.py:1313-1341). -/
def G.newOnInputAt (fresh : Nat → String) (g : G) (r : Ref) (op : String) (x : String) (i : Nat) (attr : Dict String Attr := []) :
    Except String G := do
  let k := g.heap.length
  let (g, _) ← g.makeNode op [x] (fresh k) [fresh k ++ ":0"] attr
  g.replaceInputAt r x (fresh k ++ ":0") i

/-- `make_node(..., outputs=outs, shapes=node.output_shapes, dtypes=node.output_dtypes)`, with what was recorded before. -/
def G.copyInfos (g : G) (src : G) : List String → Except String G
  | [] => .ok g
  | o :: os => do
    let g ← g.copyInfo src o o
    g.copyInfos src os

/-- The pattern of many handlers: make nodes, remove the node, make the last node with the node's outputs. `pre` are the calls
before `ctx.remove_node(node.name)`, `post` those after it; the last node is called `name`. -/
def G.replaceBy (fresh : Nat → String) (g : G) (r : Ref) (pre post : List Spec) (op : String) (xs : List String) (name : Nat → String)
    (attr : Dict String Attr := []) (outs : List String := (g.node r).output) : Except String G := do
  let g0 := g
  let g ← G.makeSeq fresh pre g
  let g ← g.removeNode (g0.node r).name
  let g ← G.makeSeq fresh post g
  let (g, _) ← g.makeNode op xs (name g.heap.length) outs attr
  g.copyInfos g0 outs

/-- `get_dtype(x) in [FLOAT, FLOAT16, DOUBLE]`, as several handlers ask. -/
def G.isFloat (g : G) (x : String) : Bool := g.dtypes.get x = some 1 || g.dtypes.get x = some 10 || g.dtypes.get x = some 11

end Verif.Graph

namespace Verif.Graph
open Verif

/-- `for inp in node.input: graph.insert_new_node_on_input(node, "Cast", inp, to=target)`: the loop runs over the live list of inputs, here by
index (tf2onnx/onnx_opset/logical.py:27-30). -/
def G.castInputs (fresh : Nat → String) (r : Ref) (target : Nat) : List Nat → G → Except String G
  | [], g => .ok g
  | i :: is, g =>
    match (g.node r).input[i]? with
    | none => .ok g
    | some x => do
      let g ← g.newOnInput fresh r "Cast" x [("to", .int target)]
      G.castInputs fresh r target is g

/-- `node.maybe_cast_input(supported, type_map)` (tf2onnx/graph.py:422-441) for the same supported types at every input; tells whether a
cast was inserted. -/
def G.maybeCastInput (fresh : Nat → String) (r : Ref) (supported : List Nat) (typeMap : Dict Nat Nat) :
    List Nat → G → Except String (G × Bool)
  | [], g => .ok (g, false)
  | i :: is, g =>
    match (g.node r).input[i]? with
    | none => .ok (g, false)
    | some x =>
      match g.dtypes.get x with
      | none => .error "RuntimeError: don't know how to cast type None"
      | some t =>
        if t ∈ supported then G.maybeCastInput fresh r supported typeMap is g
        else match typeMap.get t with
          | none => .error "RuntimeError: don't know how to cast type"
          | some u => do
            let g ← g.newOnInput fresh r "Cast" x [("to", .int u)]
            let (g, _) ← G.maybeCastInput fresh r supported typeMap is g
            .ok (g, true)

end Verif.Graph
