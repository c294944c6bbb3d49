import Verif.Spec.Dict
import Verif.Model.Shapes
/-!
# Model of `tf2onnx/graph.py`: class `Graph` (one graph, no nested body graphs)

Python `Node` objects are mutable and shared between `Graph._nodes`, `Graph._nodes_by_name` and `Graph.inputs`.
They live in an append-only `heap`; an object reference is an index into it. Sets (the values of
`_output_to_consumers`) are lists without duplicates. Scope of this file: graphs whose nodes carry no body graphs
and that have no parent graph (nested graphs are modelled in `Verif.Model.NestedGraph`). ONNX shape inference for
newly made nodes (`update_node_shape_dtype`, an external library) only writes shapes/dtypes and is not modelled.
-/
namespace Verif.Graph
open Verif

/-- A literal tensor: element type, dimensions, raw elements. -/
structure Tensor where
  dtype : Nat
  dims : List Nat
  data : List Int
  deriving DecidableEq, Repr

/-- Attribute values (`AttributeProto`): the kinds used by the modelled code. -/
inductive Attr where
  | int (i : Int)
  | ints (l : List Int)
  | str (s : String)
  | tensor (t : Tensor)
  deriving DecidableEq, Repr

/-- `Node` (tf2onnx/graph.py:33-53). `name`/`op`/`domain` are the fields of the wrapped `NodeProto`. -/
structure Node where
  name : String
  op : String
  domain : String := ""
  attr : Dict String Attr := []
  input : List String
  output : List String
  deriving DecidableEq, Repr

/-- `Node.is_const` (tf2onnx/graph.py:184-187). -/
def Node.isConst (n : Node) : Bool := n.op = "Const" || n.op = "ConstV2"

/-- `Node.is_graph_input` (tf2onnx/graph.py:198-200). -/
def Node.isGraphInput (n : Node) : Bool :=
  n.op = "Placeholder" || n.op = "PlaceholderWithDefault" || n.op = "PlaceholderV2"

/-- Reference to a node object. -/
abbrev Ref := Nat

/-- State of a `Graph` object (tf2onnx/graph.py:444-486). -/
structure G where
  heap : List Node := []
  /-- `_nodes` -/
  nodes : List Ref := []
  /-- `_nodes_by_name` -/
  byName : Dict String Ref := []
  /-- `_output_to_node_name` -/
  outToName : Dict String String := []
  /-- `_output_to_consumers` -/
  consumers : Dict String (List String) := []
  /-- `_output_shapes` -/
  shapes : Dict String Shapes.Shape := []
  /-- `_dtypes` -/
  dtypes : Dict String Nat := []
  /-- `inputs` -/
  inputs : List Ref := []
  /-- `outputs` -/
  outputs : List String := []
  deriving Repr

/-- A node that is never looked at: the value of a dangling reference. -/
def noNode : Node := { name := "", op := "", input := [], output := [] }

/-- Dereference. -/
def G.node (g : G) (r : Ref) : Node := (g.heap[r]?).getD noNode

/-- In-place mutation of a node object. -/
def G.setNode (g : G) (r : Ref) (n : Node) : G := { g with heap := g.heap.set r n }

/-- `Graph.get_node_by_name` (tf2onnx/graph.py:870-873). -/
def G.getNodeByName (g : G) (name : String) : Option Ref := g.byName.get name

/-- `Graph.get_node_by_output_in_current_graph` (tf2onnx/graph.py:862-868). `if name:` is false for the empty string. -/
def G.getNodeByOutput (g : G) (o : String) : Option Ref :=
  match g.outToName.get o with
  | none => none
  | some name => if name = "" then none else g.byName.get name

/-- `set.add`. -/
def setAdd (s : List String) (x : String) : List String := if x ∈ s then s else s ++ [x]

/-- `Graph._register_input_name` without parent graph (tf2onnx/graph.py:1406-1411). -/
def G.registerInput (g : G) (i : String) (nodeName : String) : G :=
  { g with consumers := g.consumers.set i (setAdd ((g.consumers.get i).getD []) nodeName) }

/-- Registering a list of inputs, as done by `for name in node.input: self._register_input_name(name, node)`. -/
def G.registerInputs (g : G) (is : List String) (nodeName : String) : G :=
  is.foldl (fun g i => g.registerInput i nodeName) g

/-- `Graph._unregister_input_name` without parent graph (tf2onnx/graph.py:1418-1424), with its actual test
`if input_name in self._output_to_consumers[input_name]`, which asks for the *tensor* name in the set of node names. -/
def G.unregisterInput (g : G) (i : String) (nodeName : String) : Except String G :=
  match g.consumers.get i with
  | none => .error "KeyError"
  | some s =>
    if i ∈ s then
      if nodeName ∈ s then .ok { g with consumers := g.consumers.set i (s.filter (· ≠ nodeName)) } else .ok g
    else .ok g

/-- `Graph.set_node_by_name` (tf2onnx/graph.py:875-881): called by the `Node` constructor. -/
def G.setNodeByName (g : G) (r : Ref) : G :=
  let n := g.node r
  let g := { g with byName := g.byName.set n.name r
                    outToName := n.output.foldl (fun d o => d.set o n.name) g.outToName }
  g.registerInputs n.input n.name

/-- `Graph.set_shape` (tf2onnx/graph.py:1009-1017). -/
def G.setShape (g : G) (name : String) (s : Shapes.Shape) : Except String G :=
  match g.getNodeByOutput name with
  | none => .error "make_sure failure: cannot find node by output id"
  | some _ => .ok { g with shapes := g.shapes.set name s }

/-- `Graph.set_dtype` (tf2onnx/graph.py:974-977): `node.graph` of `None` raises. -/
def G.setDtype (g : G) (name : String) (t : Nat) : Except String G :=
  match g.getNodeByOutput name with
  | none => .error "AttributeError"
  | some _ => .ok { g with dtypes := g.dtypes.set name t }

/-- `Graph.make_node` (tf2onnx/graph.py:607-678) with explicit `name` and `outputs` (generated names: see
`Verif.Names`); `shapes`/`dtypes` are not passed here (callers use `set_shape`/`set_dtype`). Returns the new node. -/
def G.makeNode (g : G) (op : String) (input : List String) (name : String) (output : List String)
    (attr : Dict String Attr := []) (domain : String := "") : Except String (G × Ref) :=
  if (g.getNodeByName name).isSome then .error "make_sure failure: name already exists"
  else if output.any (fun o => (g.getNodeByOutput o).isSome) then
    .error "make_sure failure: output tensor already exists"
  else
    let g := g.registerInputs input name
    let r := g.heap.length
    let g := { g with heap := g.heap ++ [Node.mk name op domain attr input output] }
    let g := g.setNodeByName r
    .ok ({ g with nodes := g.nodes ++ [r] }, r)

/-- The `for op_output in node.output` loop of `remove_node` (tf2onnx/graph.py:705-713). -/
def G.removeOutputs (g : G) : List String → Except String G
  | [] => .ok g
  | o :: os =>
    if o = "" then g.removeOutputs os
    else if (g.outToName.get o).isNone then .error "KeyError"
    else
      let g' : G := { g with
        outToName := g.outToName.erase o, shapes := g.shapes.erase o, dtypes := g.dtypes.erase o }
      g'.removeOutputs os

/-- The `for op_input in node.input` loop of `remove_node` (tf2onnx/graph.py:715-721). -/
def G.removeInputs (g : G) (nodeName : String) : List String → Except String G
  | [] => .ok g
  | i :: is =>
    if i = "" then g.removeInputs nodeName is
    else if (g.consumers.get i).isNone then .error "make_sure failure: Input not found"
    else do
      let g ← g.unregisterInput i nodeName
      g.removeInputs nodeName is

/-- `Graph.remove_node` (tf2onnx/graph.py:694-724). `list.remove` drops the first occurrence. -/
def G.removeNode (g : G) (name : String) : Except String G :=
  match g.byName.get name with
  | none => .error "make_sure failure: node not in current graph, cannot remove"
  | some r => do
    let n := g.node r
    let g := { g with byName := g.byName.erase name, inputs := g.inputs.erase r }
    let g ← g.removeOutputs n.output
    let g ← g.removeInputs name n.input
    .ok { g with nodes := g.nodes.erase r }

/-- Entries of a table that survive `reset_nodes`: one for each output of each op that has one
(tf2onnx/graph.py:731-737). -/
def keep {β} (d : Dict String β) (outs : List String) : Dict String β :=
  outs.foldl (fun acc o => match d.get o with | some v => acc.set o v | none => acc) []

/-- `Graph.reset_nodes` (tf2onnx/graph.py:726-762), for graphs without body graphs. -/
def G.resetNodes (g : G) (ops : List Ref) : Except String G :=
  let outs := ops.flatMap (fun r => (g.node r).output)
  let g' : G := { g with
    nodes := ops
    byName := ops.foldl (fun d r => d.set (g.node r).name r) []
    outToName := ops.foldl (fun d r => (g.node r).output.foldl (fun d o => d.set o (g.node r).name) d) []
    consumers := [] }
  let g' := ops.foldl (fun g' r => g'.registerInputs (g.node r).input (g.node r).name) g'
  if g.inputs.any (fun r => r ∉ ops) then .error "graph input not exist"
  else if g.outputs.any (fun o => (g'.outToName.get o).isNone) then .error "graph output not exist"
  else .ok { g' with shapes := keep g.shapes outs, dtypes := keep g.dtypes outs }

/-- Overwrite one input slot. -/
def Node.setInput (n : Node) (i : Nat) (x : String) : Node := { n with input := n.input.set i x }

/-- `to_ops = self._output_to_consumers.get(x); if to_ops is not None: if nm in to_ops: to_ops.remove(nm)`, the step
shared by `replace_input`, `replace_inputs` and `remove_input` (tf2onnx/graph.py:1294-1297, 1488-1492, 1501-1506). -/
def G.dropConsumer (g : G) (x nm : String) : G :=
  match g.consumers.get x with
  | none => g
  | some s => { g with consumers := g.consumers.set x (s.filter (· ≠ nm)) }

/-- The shared tail of `replace_input` (tf2onnx/graph.py:1488-1494): the node is dropped from the consumers of the
old input (even if it still reads it through another slot), and registered for the new one. -/
def G.moveConsumer (g : G) (old new nodeName : String) : G :=
  (g.dropConsumer old nodeName).registerInput new nodeName

/-- `Graph.replace_input(node, old, new, input_index)` (tf2onnx/graph.py:1469-1495) with an index. -/
def G.replaceInputAt (g : G) (r : Ref) (old new : String) (idx : Nat) : Except String G :=
  let n := g.node r
  if n.input[idx]? = some old then
    .ok ((g.setNode r (n.setInput idx new)).moveConsumer old new n.name)
  else .error "RuntimeError: Unable to replace input"

/-- `Graph.replace_input(node, old, new)` (tf2onnx/graph.py:1469-1495) without an index: every slot. -/
def G.replaceInput (g : G) (r : Ref) (old new : String) : G :=
  let n := g.node r
  (g.setNode r { n with input := n.input.map (fun x => if x = old then new else x) }).moveConsumer old new n.name

/-- `Graph.replace_inputs` (tf2onnx/graph.py:1497-1513), with its actual test `if ... old_input in to_ops`, which asks
for the *tensor* name in the set of node names (and then removes that name). -/
def G.replaceInputs (g : G) (r : Ref) (new : List String) : G :=
  let n := g.node r
  let g := n.input.foldl (fun g old => g.dropConsumer old old) g
  let g := g.registerInputs new n.name
  g.setNode r { n with input := new }

/-- `Graph.remove_input(node, name, input_index)` (tf2onnx/graph.py:1282-1299) with an index. -/
def G.removeInputAt (g : G) (r : Ref) (x : String) (idx : Nat) : Except String G :=
  let n := g.node r
  if n.input[idx]? = some x then
    .ok ((g.dropConsumer x n.name).setNode r { n with input := n.input.eraseIdx idx })
  else .error "AssertionError"

/-- `Graph.remove_input(node, name)` (tf2onnx/graph.py:1301-1309) without an index: the first occurrence, which must be
the only one. -/
def G.removeInput (g : G) (r : Ref) (x : String) : Except String G :=
  let n := g.node r
  if x ∈ n.input then
    if n.input.count x ≤ 1 then do
      let g ← g.unregisterInput x n.name
      .ok (g.setNode r { n with input := n.input.erase x })
    else .error "make_sure failure: takes multiple times the same input"
  else .ok g

/-- The slots loop of `replace_all_inputs` for one node (tf2onnx/graph.py:1459-1461): every slot that reads `old`,
in order, through `replace_input` with an index. `slots` is the list of slot indices still to look at. -/
def G.replaceSlots (g : G) (r : Ref) (old new : String) : List Nat → Except String G
  | [] => .ok g
  | i :: is =>
    if (g.node r).input[i]? = some old then do
      let g ← g.replaceInputAt r old new i
      g.replaceSlots r old new is
    else g.replaceSlots r old new is

/-- The `for node in ops` loop of `replace_all_inputs` (tf2onnx/graph.py:1453-1461). -/
def G.replaceAllIn (g : G) (old new : String) : List Ref → Except String G
  | [] => .ok g
  | r :: rs =>
    let n := g.node r
    if old ∈ n.input ∧ new ∈ n.output then .error "RuntimeError: creating a circle in the graph is not allowed"
    else do
      let g := g.registerInput new n.name
      let g ← g.replaceSlots r old new (List.range n.input.length)
      g.replaceAllIn old new rs

/-- Nodes `replace_all_inputs` visits when `ops` is not given (tf2onnx/graph.py:1442-1451). -/
def G.consumerRefs (g : G) (o : String) : List Ref :=
  ((g.consumers.get o).getD []).filterMap g.getNodeByName

/-- `if new_input not in self._output_to_consumers: self._output_to_consumers[new_input] = set()`
(tf2onnx/graph.py:1439-1440). -/
def G.ensureConsumers (g : G) (new : String) : G :=
  match g.consumers.get new with
  | none => { g with consumers := g.consumers.set new [] }
  | some _ => g

/-- `Graph.replace_all_inputs` (tf2onnx/graph.py:1431-1467), for graphs without nested graphs. -/
def G.replaceAllInputs (g : G) (old new : String) (ops : Option (List Ref) := none) : Except String G :=
  if old = new then .ok g
  else
    let g := g.ensureConsumers new
    g.replaceAllIn old new (ops.getD (g.consumerRefs old))

/-- `Graph.find_output_consumers` (tf2onnx/graph.py:1386-1398) for graphs without nested graphs. -/
def G.findOutputConsumers (g : G) (o : String) : List Ref :=
  (g.consumerRefs o).filter (fun r => o ∈ (g.node r).input)

/-- `for o in self._output: del self.graph._output_to_node_name[o]` (tf2onnx/graph.py:77-78). -/
def G.delOutputs (g : G) : List String → Except String G
  | [] => .ok g
  | o :: os =>
    if (g.outToName.get o).isNone then .error "KeyError"
    else
      let g' : G := { g with outToName := g.outToName.erase o }
      g'.delOutputs os

/-- `for o in self._output: make_sure(o not in ...); ...[o] = self.name` (tf2onnx/graph.py:81-83). -/
def G.addOutputs (g : G) (name : String) : List String → Except String G
  | [] => .ok g
  | o :: os =>
    if (g.outToName.get o).isSome then .error "make_sure failure: output already in output mapping"
    else
      let g' : G := { g with outToName := g.outToName.set o name }
      g'.addOutputs name os

/-- `Node.output` setter (tf2onnx/graph.py:71-83). -/
def G.setOutputs (g : G) (r : Ref) (outs : List String) : Except String G := do
  let n := g.node r
  let g ← g.delOutputs n.output
  let g := g.setNode r { n with output := outs }
  g.addOutputs n.name outs

/-- `Graph.insert_new_node_on_input` (tf2onnx/graph.py:1313-1341) with an explicit `name` for the new node and no
`input_index`: only the first slot that reads `input_name[0]` is redirected (`break`). `newOut` is `port_name(name)`. -/
def G.insertNewNodeOnInput (g : G) (r : Ref) (op : String) (inputName : List String) (name newOut : String) :
    Except String (G × Ref) := do
  let (g, nr) ← g.makeNode op inputName name [newOut]
  match inputName with
  | [] => .error "IndexError"
  | i0 :: _ =>
    match (g.node r).input.findIdx? (· = i0) with
    | none => .ok (g, nr)
    | some i => do
      let g ← g.replaceInputAt r i0 newOut i
      .ok (g, nr)

/-- `Graph.insert_node_on_output(node, output_name)` (tf2onnx/graph.py:1343-1356): every consumer but the node itself is
redirected. `self._output_to_consumers[output_name]` raises when missing and a stale consumer name makes
`replace_all_inputs` hit `assert node is not None`. -/
def G.insertNodeOnOutput (g : G) (r : Ref) (outName : String) : Except String G :=
  match g.consumers.get outName, (g.node r).output with
  | none, _ => .error "KeyError"
  | some _, [] => .error "IndexError"
  | some s, newOut :: _ =>
    let refs := s.map g.getNodeByName
    if refs.any Option.isNone ∧ outName ≠ newOut then .error "AssertionError"
    else g.replaceAllInputs outName newOut (some ((refs.filterMap id).filter (· ≠ r)))

end Verif.Graph

namespace Verif.Graph

/-- `Node.set_attr` (tf2onnx/graph.py:267-272). -/
def G.setAttr (g : G) (r : Ref) (k : String) (v : Attr) : G :=
  g.setNode r { g.node r with attr := (g.node r).attr.set k v }

/-- `Node.type` setter (tf2onnx/graph.py:153-156). -/
def G.setType (g : G) (r : Ref) (op : String) : G := g.setNode r { g.node r with op := op }

/-- Direct mutation of the live list `node.input` (tf2onnx/graph.py:54-56), as many handlers do (`node.input.append(x)`): the
consumer index is not told. -/
def G.rawInputs (g : G) (r : Ref) (xs : List String) : G := g.setNode r { g.node r with input := xs }

/-- Direct mutation of `node.attr` (`del node.attr[k]`, tf2onnx/graph.py:92-94) and `node.domain` (tf2onnx/graph.py:162-170). -/
def G.rawFields (g : G) (r : Ref) (attr : Dict String Attr) (domain : String) : G :=
  g.setNode r { g.node r with attr := attr, domain := domain }

/-- `Graph.add_graph_input` (tf2onnx/graph.py:923-934); the node name, which `make_node` generates, is given. -/
def G.addGraphInput (g : G) (nodeName name : String) : Except String G := do
  let (g, r) ← g.makeNode "Placeholder" [] nodeName [name]
  .ok { g with inputs := g.inputs ++ [r] }

/-- `Graph.add_graph_output` (tf2onnx/graph.py:950-967), shape and dtype already known. -/
def G.addGraphOutput (g : G) (name : String) : Except String G :=
  if (g.outToName.get name).isNone then .error "make_sure failure: output not exist in the graph"
  else if name ∈ g.outputs then .error "graph output already exists"
  else .ok { g with outputs := g.outputs ++ [name] }

/-- `Graph.insert_new_node_on_output` (tf2onnx/graph.py:1358-1384); `newOut` is `port_name(name)`. -/
def G.insertNewNodeOnOutput (g : G) (op outName : String) (name newOut : String) : Except String (G × Ref) := do
  let (g, r) ← g.makeNode op [outName] name [newOut]
  let g ← g.insertNodeOnOutput r outName
  .ok (g, r)

/-- `for j, k in enumerate(self.outputs): if k == old: self.outputs[j] = new; break` (tf2onnx/graph.py:916-919). -/
def renameFirst (old new : String) : List String → List String
  | [] => []
  | k :: ks => if k = old then new :: ks else k :: renameFirst old new ks

/-- The loop of `change_node_name` over the outputs of the renamed node (tf2onnx/graph.py:914-920). -/
def G.moveOutputs (g : G) : List (String × String) → Except String G
  | [] => .ok g
  | (old, new) :: ps => do
    let g : G := { g with outputs := renameFirst old new g.outputs }
    let g ← g.replaceAllInputs old new (some g.nodes)
    g.moveOutputs ps

/-- `Graph.change_node_name` (tf2onnx/graph.py:906-921). `newOuts` is `[port_name(new_name, i) for i ...]`. The new node
is made with the default domain. -/
def G.changeNodeName (g : G) (r : Ref) (newName : String) (newOuts : List String) : Except String G := do
  if (g.byName.get newName).isSome then .error "make_sure failure: node not unique"
  else
    let n := g.node r
    let g ← g.removeNode n.name
    let (g, _) ← g.makeNode n.op n.input newName newOuts n.attr
    g.moveOutputs (n.output.zip newOuts)

/-- `self.reset_nodes(ops)` on the empty tables of a new graph, as `Graph.__init__` does after it has made its node
objects `ns` (tf2onnx/graph.py:456-482, 501). -/
def G.load (ns : List Node) (inputs : List Ref) (outputs : List String) (shapes : Dict String Shapes.Shape)
    (dtypes : Dict String Nat) : Except String G :=
  G.resetNodes { heap := ns, inputs := inputs, outputs := outputs, shapes := shapes, dtypes := dtypes }
    (List.range ns.length)

/-- The edit API of `Graph`, as commands. -/
inductive Edit where
  | makeNode (op : String) (input : List String) (name : String) (output : List String)
      (attr : Dict String Attr) (domain : String)
  | removeNode (name : String)
  | resetNodes (ops : List Ref)
  | replaceInputAt (r : Ref) (old new : String) (idx : Nat)
  | replaceInput (r : Ref) (old new : String)
  | replaceInputs (r : Ref) (new : List String)
  | removeInputAt (r : Ref) (x : String) (idx : Nat)
  | removeInput (r : Ref) (x : String)
  | replaceAllInputs (old new : String) (ops : Option (List Ref))
  | setOutputs (r : Ref) (outs : List String)
  | insertNewNodeOnInput (r : Ref) (op : String) (inputName : List String) (name newOut : String)
  | insertNodeOnOutput (r : Ref) (outName : String)
  | insertNewNodeOnOutput (op outName name newOut : String)
  | setAttr (r : Ref) (k : String) (v : Attr)
  | setType (r : Ref) (op : String)
  | rawInputs (r : Ref) (xs : List String)
  | rawFields (r : Ref) (attr : Dict String Attr) (domain : String)
  | setShape (name : String) (s : Shapes.Shape)
  | setDtype (name : String) (t : Nat)
  | changeNodeName (r : Ref) (newName : String) (newOuts : List String)
  | addGraphInput (nodeName name : String)
  | addGraphOutput (name : String)

/-- Executing one edit (the functions above). -/
def G.apply (g : G) : Edit → Except String G
  | .makeNode op input name output attr domain => (g.makeNode op input name output attr domain).map (·.1)
  | .removeNode name => g.removeNode name
  | .resetNodes ops => g.resetNodes ops
  | .replaceInputAt r old new idx => g.replaceInputAt r old new idx
  | .replaceInput r old new => .ok (g.replaceInput r old new)
  | .replaceInputs r new => .ok (g.replaceInputs r new)
  | .removeInputAt r x idx => g.removeInputAt r x idx
  | .removeInput r x => g.removeInput r x
  | .replaceAllInputs old new ops => g.replaceAllInputs old new ops
  | .setOutputs r outs => g.setOutputs r outs
  | .insertNewNodeOnInput r op i name newOut => (g.insertNewNodeOnInput r op i name newOut).map (·.1)
  | .insertNodeOnOutput r o => g.insertNodeOnOutput r o
  | .insertNewNodeOnOutput op o name newOut => (g.insertNewNodeOnOutput op o name newOut).map (·.1)
  | .setAttr r k v => .ok (g.setAttr r k v)
  | .setType r op => .ok (g.setType r op)
  | .rawInputs r xs => .ok (g.rawInputs r xs)
  | .rawFields r attr domain => .ok (g.rawFields r attr domain)
  | .setShape name s => g.setShape name s
  | .setDtype name t => g.setDtype name t
  | .changeNodeName r newName newOuts => g.changeNodeName r newName newOuts
  | .addGraphInput nodeName name => g.addGraphInput nodeName name
  | .addGraphOutput name => g.addGraphOutput name

end Verif.Graph
