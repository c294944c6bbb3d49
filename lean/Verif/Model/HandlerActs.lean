import Verif.Model.Handlers
/-!
# Handlers as sequences of calls

Most handlers look at the node, at recorded shapes, element types and constants, and then make a fixed sequence of calls on the graph.
Such a handler is modelled by the sequence of calls it makes. Names of new nodes are as in `Model/Handlers`.
-/
namespace Verif.Graph
open Verif

/-- A call a handler makes for the node it converts. -/
inductive Act
  /-- `node.type = op` (tf2onnx/graph.py:153-157) -/
  | setType (op : String)
  /-- `node.set_attr(k, v)` (tf2onnx/graph.py:326-330) -/
  | setAttr (k : String) (v : Attr)
  /-- no call: from here on the node is read as a node of the ONNX operator set. The code has no such mark; the model marks nodes still
  to be converted by the domain "tf" -/
  | onnx
  /-- direct change of the attributes, as `del node.attr[k]` -/
  | attrs (a : Dict String Attr)
  /-- `ctx.make_node(..)`, `ctx.make_const(..)` with a generated name (tf2onnx/graph.py:575-678) -/
  | make (s : Spec)
  /-- direct change of the list of inputs, as `node.input.append(x)` -/
  | rawInputs (xs : List String)
  /-- `ctx.replace_inputs(node, xs)` (tf2onnx/graph.py:1497-1512) -/
  | inputs (xs : List String)
  /-- `ctx.replace_input(node, node.input[i], x, i)` (tf2onnx/graph.py:1469-1495) -/
  | inputAt (i : Nat) (x : String)
  /-- `ctx.remove_input(node, node.input[i], i)` (tf2onnx/graph.py:1282-1299) -/
  | dropInput (i : Nat)
  /-- `ctx.insert_node_on_output(last, o)` with the node made last (tf2onnx/graph.py:1343-1356), and what is recorded for `o` is recorded
  for the output of that node: by `copy_shape`, `copy_dtype`, or by inference in `make_node`, which gives the type of `o` to operators that
  keep the type -/
  | insertOut (o : String)
  /-- `ctx.remove_node(node.name)` (tf2onnx/graph.py:694-724) -/
  | remove
  /-- `ctx.make_node(op, xs, attr=attr, name=name, outputs=[o], shapes=node.output_shapes, dtypes=node.output_dtypes)` -/
  | makeOut (op : String) (xs : List String) (attr : Dict String Attr) (name : String) (o : String)

/-- The call, in a graph that was `g0` when the handler started. -/
def G.act (fresh : Nat → String) (g0 : G) (r : Ref) (g : G) : Act → Except String G
  | .setType op => .ok (g.setType r op)
  | .setAttr k v => .ok (g.setAttr r k v)
  | .onnx => .ok (g.rawFields r (g.node r).attr "")
  | .attrs a => .ok (g.rawFields r a (g.node r).domain)
  | .make s => (g.makeNode s.op s.xs (fresh g.heap.length)
      [if s.isConst then fresh g.heap.length else fresh g.heap.length ++ ":0"] s.attr).map Prod.fst
  | .rawInputs xs => .ok (g.rawInputs r xs)
  | .inputs xs => .ok (g.replaceInputs r xs)
  | .inputAt i x =>
    match (g.node r).input[i]? with
    | some y => g.replaceInputAt r y x i
    | none => .error "IndexError"
  | .dropInput i =>
    match (g.node r).input[i]? with
    | some y => g.removeInputAt r y i
    | none => .error "IndexError"
  | .insertOut o => do
    let g1 ← g.insertNodeOnOutput (g.heap.length - 1) o
    g1.copyInfo g1 o ((g.node (g.heap.length - 1)).output.headD "")
  | .remove => g.removeNode (g0.node r).name
  | .makeOut op xs attr name o => do
    let (g, _) ← g.makeNode op xs name [o] attr
    g.copyInfo g0 o o

/-- The calls, one after the other. -/
def G.runActs (fresh : Nat → String) (g0 : G) (r : Ref) : List Act → G → Except String G
  | [], g => .ok g
  | a :: as, g => do
    let g ← G.act fresh g0 r g a
    G.runActs fresh g0 r as g

/-- A handler: what it decides to do for the node, or the exception it raises before. -/
def G.handle (fresh : Nat → String) (decide : G → Ref → Except String (List Act)) (g : G) (r : Ref) : Except String G := do
  let as ← decide g r
  G.runActs fresh g r (.onnx :: as) g

end Verif.Graph
