import Verif.Model.Graph
/-!
# Model of nested graphs: `parent_graph`, `_input_to_graph` (tf2onnx/graph.py)

A world is a set of `Graph` objects, numbered in the order of their creation. Each has the tables of `Verif.Model.Graph`,
a parent (`none` for a main graph, or while the parent has not been set) and `_input_to_graph`, the table of the body
graphs that are known to read a tensor. A missing key of `_input_to_graph` is the empty list.

The edits of one graph do what they do without nesting (`Verif.Model.Graph`), because the parent's tables never
influence them, and then pass every registered or unregistered input on to the ancestors. Registering the same pair again
has no effect, so each name is passed on once per edit.
-/
namespace Verif.Nested
open Verif Verif.Graph

structure World where
  /-- number of graphs made so far -/
  size : Nat := 0
  g : Nat → G := fun _ => {}
  /-- `parent_graph` -/
  parent : Nat → Option Nat := fun _ => none
  /-- `_input_to_graph` of a graph -/
  i2g : Nat → String → List Nat := fun _ _ => []

/-- `d[k] = v` for a function. -/
def upd {α β : Type} [DecidableEq α] (f : α → β) (a : α) (b : β) : α → β := fun x => if x = a then b else f x

def World.setG (w : World) (c : Nat) (g : G) : World := { w with g := upd w.g c g }

/-- `self._input_to_graph[input_name][id(child)] = child` of graph `p`. -/
def World.addChild (w : World) (p : Nat) (x : String) (c : Nat) : World :=
  { w with i2g := upd w.i2g p (upd (w.i2g p) x (if c ∈ w.i2g p x then w.i2g p x else w.i2g p x ++ [c])) }

/-- `del self._input_to_graph[input_name][id(child)]` of graph `p`. -/
def World.delChild (w : World) (p : Nat) (x : String) (c : Nat) : World :=
  { w with i2g := upd w.i2g p (upd (w.i2g p) x ((w.i2g p x).filter (· ≠ c))) }

/-- The part of `_register_input_name` that goes up (tf2onnx/graph.py:1412-1416). The fuel is the nesting depth that is
followed; parents have smaller numbers, so `c` is enough. -/
def World.regUp (x : String) : Nat → World → Nat → World
  | 0, w, _ => w
  | fuel + 1, w, c =>
    match w.parent c with
    | none => w
    | some p => World.regUp x fuel (w.addChild p x c) p

/-- The part of `_unregister_input_name` that goes up (tf2onnx/graph.py:1425-1429). -/
def World.unregUp (x : String) : Nat → World → Nat → World
  | 0, w, _ => w
  | fuel + 1, w, c =>
    match w.parent c with
    | none => w
    | some p => if c ∈ w.i2g p x then World.unregUp x fuel (w.delChild p x c) p else w

/-- `_register_input_name` / `_unregister_input_name`, upwards, for several names in order. -/
def World.regUps (w : World) (c : Nat) (xs : List String) : World := xs.foldl (fun w x => w.regUp x (c + 1) c) w
def World.unregUps (w : World) (c : Nat) (xs : List String) : World := xs.foldl (fun w x => w.unregUp x (c + 1) c) w

/-- What an edit of a graph passes on to its ancestors: names unregistered, then names registered. `none` for the edits
that are sequences of other edits (`insert_...`, `change_node_name`) or that go down into body graphs
(`replace_all_inputs`), and for direct mutation of an input list, which tells no graph at all. -/
def upNames (g : G) : Edit → Option (List String × List String)
  | .makeNode _ input _ _ _ _ => some ([], input)
  | .removeNode name =>
    match g.byName.get name with
    | none => some ([], [])
    | some r => some ((g.node r).input.filter (· ≠ ""), [])
  | .resetNodes ops => some ([], ops.flatMap (fun r => (g.node r).input))
  | .replaceInputAt _ _ new _ => some ([], [new])
  | .replaceInput _ _ new => some ([], [new])
  | .replaceInputs _ new => some ([], new)
  | .removeInputAt _ _ _ => some ([], [])
  | .removeInput r x => some (if x ∈ (g.node r).input then [x] else [], [])
  | .setOutputs _ _ => some ([], [])
  | .setAttr _ _ _ => some ([], [])
  | .setType _ _ => some ([], [])
  | .rawFields _ _ _ => some ([], [])
  | .setShape _ _ => some ([], [])
  | .setDtype _ _ => some ([], [])
  | .addGraphInput _ _ => some ([], [])
  | .addGraphOutput _ => some ([], [])
  | .replaceAllInputs _ _ _ | .insertNewNodeOnInput .. | .insertNodeOnOutput .. | .insertNewNodeOnOutput ..
  | .changeNodeName .. | .rawInputs .. => none

/-- An edit of graph `c`. -/
def World.edit (w : World) (c : Nat) (e : Edit) : Except String World :=
  match upNames (w.g c) e with
  | none => .error "not a single edit"
  | some (un, reg) => do
    let g ← (w.g c).apply e
    .ok (((w.setG c g).unregUps c un).regUps c reg)

/-- The own part of `replace_all_inputs` on graph `c` (tf2onnx/graph.py:1437-1461): the new name is passed on to the
ancestors if at least one node is visited. -/
def World.replaceOwn (w : World) (c : Nat) (old new : String) (ops : Option (List Ref)) : Except String World := do
  let g ← (w.g c).replaceAllInputs old new ops
  .ok (if ops.getD ((w.g c).consumerRefs old) = [] then w.setG c g else (w.setG c g).regUps c [new])

/-- `for g in self._input_to_graph[old_input].values(): g.replace_all_inputs(old_input, new_input, ops=...)`
(tf2onnx/graph.py:1464-1467); `f` is the recursive call. -/
def World.replaceEach (f : World → Nat → Option (List Ref) → Except String World) : World → List Nat → Bool →
    Except String World
  | w, [], _ => .ok w
  | w, d :: ds, keepOps => do
    let w ← f w d (if keepOps then some (w.g d).nodes else none)
    World.replaceEach f w ds keepOps

/-- `Graph.replace_all_inputs` (tf2onnx/graph.py:1431-1467): the graph itself, then the body graphs known to read the
tensor. The fuel is Python's recursion limit. -/
def World.replaceAll (old new : String) : Nat → World → Nat → Option (List Ref) → Except String World
  | 0, _, _, _ => .error "RecursionError"
  | fuel + 1, w, c, ops =>
    if old = new then .ok w
    else do
      let w ← w.replaceOwn c old new ops
      World.replaceEach (World.replaceAll old new fuel) w (w.i2g c old) ops.isSome

/-- `Graph.find_output_consumers` (tf2onnx/graph.py:1386-1404): pairs of a graph and a node of it; first the own
consumers, then those of the body graphs known to read the tensor. -/
def World.findConsumers (w : World) (o : String) : Nat → Nat → List (Nat × Ref)
  | 0, _ => []
  | fuel + 1, c => ((w.g c).findOutputConsumers o).map (fun r => (c, r)) ++
      (w.i2g c o).flatMap (fun d => World.findConsumers w o fuel d)

/-- A new graph with the tables of the given graph, and its parent set at once (`g.parent_graph = ctx` right after
`create_new_graph_with_same_config()`, for example tf2onnx/onnx_opset/controlflow.py:71-72) or not (`none`). -/
def World.newGraph (w : World) (g : G) (parent : Option Nat) : World :=
  { w with size := w.size + 1, g := upd w.g w.size g, parent := upd w.parent w.size parent }

/-- `graph.parent_graph = self.graph` (tf2onnx/graph.py:365, tf2onnx/utils.py:371). Nothing is registered. -/
def World.attach (w : World) (c p : Nat) : World := { w with parent := upd w.parent c (some p) }

/-- Edits of a world. -/
inductive NEdit where
  | newGraph (parent : Option Nat)
  | edit (c : Nat) (e : Edit)
  | replaceAll (c : Nat) (old new : String) (ops : Option (List Ref))

def World.apply (w : World) : NEdit → Except String World
  | .newGraph parent => .ok (w.newGraph {} parent)
  | .edit c e => w.edit c e
  | .replaceAll c old new ops => World.replaceAll old new (w.size + 1) w c ops

end Verif.Nested
