import Verif.Model.Graph
import Verif.Model.Prune
/-!
# Model of `tf2onnx/optimizer/merge_duplicated_nodes_optimizer.py` (one graph level)

`hash` is Python's `hash` of a constant's raw bytes: an arbitrary function.
-/
namespace Verif.Graph
open Verif

/-- Python dict equality: same keys, same values. -/
def dictEq {κ β : Type} [DecidableEq κ] [DecidableEq β] (a b : Dict κ β) : Bool :=
  a.all (fun p => b.get p.1 = a.get p.1) && b.all (fun p => a.get p.1 = b.get p.1)

/-- `Node.get_tensor_value(as_list=False)` of a constant (tf2onnx/graph.py:303-323): the tensor of attribute `value`.
(The tensor's own name, which the real comparison skips, is not part of the model's `Tensor`.) -/
def Node.tensorValue (n : Node) : Option Tensor :=
  match n.attr.get "value" with
  | some (.tensor t) => some t
  | _ => none

/-- `Node.is_graph_input_default_const` (tf2onnx/graph.py:202-205). -/
def G.isDefaultConst (g : G) (r : Ref) : Except String Bool :=
  if (g.node r).isConst then
    match (g.node r).output with
    | [] => .error "IndexError"
    | o :: _ => .ok ((g.findOutputConsumers o).any (fun q => (g.node q).isGraphInput))
  else .ok false

/-- The dictionary key of a group: type, inputs, hash of the constant. -/
abbrev GroupKey := String × List String × Option Int

/-- `_group_nodes_by_type_inputs` (tf2onnx/optimizer/merge_duplicated_nodes_optimizer.py:49-61). The domain of the node is
not part of the key. -/
def G.groupNodes (g : G) (hash : List Int → Int) : List Ref → Dict GroupKey (List Ref) →
    Except String (Dict GroupKey (List Ref))
  | [], res => .ok res
  | r :: rs, res => do
    if ← g.isDefaultConst r then g.groupNodes hash rs res
    else if (g.node r).isConst then
      match (g.node r).tensorValue with
      | none => .error "KeyError"
      | some t =>
        let key : GroupKey := ((g.node r).op, (g.node r).input, some (hash t.data))
        g.groupNodes hash rs (res.set key ((res.get key).getD [] ++ [r]))
    else
      let key : GroupKey := ((g.node r).op, (g.node r).input, none)
      g.groupNodes hash rs (res.set key ((res.get key).getD [] ++ [r]))

/-- `_skip_node_type` (tf2onnx/optimizer/merge_duplicated_nodes_optimizer.py:109-116). -/
def Node.skipMerge (n : Node) : Bool := n.op = "Identity" || n.isGraphInput

/-- `graph.get_shape(node.output[0])`. -/
def G.firstShape (g : G) (r : Ref) : Option Shapes.Shape :=
  match (g.node r).output with
  | [] => none
  | o :: _ => g.shapes.get o

/-- `_have_equal_attr` (tf2onnx/optimizer/merge_duplicated_nodes_optimizer.py:78-94). Element comparison is exact
(`np.array_equal` also equates `0.0` and `-0.0`). -/
def G.haveEqualAttr (g : G) (a b : Ref) : Bool :=
  let n := g.node a
  let m := g.node b
  if dictEq n.attr m.attr then true
  else if n.isConst && m.isConst then
    match g.firstShape a, g.firstShape b with
    | some s, some t => if s ≠ t then false else
      match n.tensorValue, m.tensorValue with
      | some x, some y => x = y
      | _, _ => false
    | _, _ =>
      match n.tensorValue, m.tensorValue with
      | some x, some y => x = y
      | _, _ => false
  else false

/-- Stable insertion, most outputs first. -/
def insertByOutputs (len : Ref → Nat) (r : Ref) : List Ref → List Ref
  | [] => [r]
  | q :: qs => if len q ≤ len r then r :: q :: qs else q :: insertByOutputs len r qs

/-- `nodes_to_process.sort(key=len(node.output), reverse=True)`: stable
(tf2onnx/optimizer/merge_duplicated_nodes_optimizer.py:98). -/
def sortByOutputs (len : Ref → Nat) : List Ref → List Ref
  | [] => []
  | r :: rs => insertByOutputs len r (sortByOutputs len rs)

/-- `for old_input, new_input in zip(...): graph.replace_all_inputs(old_input, new_input)`
(tf2onnx/optimizer/merge_duplicated_nodes_optimizer.py:104-105). -/
def G.redirectPairs (g : G) : List (String × String) → Except String G
  | [] => .ok g
  | (old, new) :: ps => do
    let g ← g.replaceAllInputs old new none
    g.redirectPairs ps

/-- The loop of `_merge_nodes_that_are_duplicated` over the nodes to delete
(tf2onnx/optimizer/merge_duplicated_nodes_optimizer.py:100-107). -/
def G.mergeInto (g : G) (k : Ref) : List Ref → Bool → Except String (G × Bool)
  | [], upd => .ok (g, upd)
  | d :: ds, upd =>
    if (g.node d).output.any (· ∈ g.outputs) then g.mergeInto k ds upd
    else do
      let g' ← g.redirectPairs ((g.node d).output.zip (g.node k).output)
      let g' ← g'.removeNode (g.node d).name
      g'.mergeInto k ds true

/-- `_merge_nodes_that_are_duplicated` (tf2onnx/optimizer/merge_duplicated_nodes_optimizer.py:96-107). -/
def G.mergeNodes (g : G) (l : List Ref) (upd : Bool) : Except String (G × Bool) :=
  match sortByOutputs (fun r => (g.node r).output.length) l with
  | [] => .error "IndexError"
  | k :: ds => g.mergeInto k ds upd

/-- `_del_nodes_if_duplicated` (tf2onnx/optimizer/merge_duplicated_nodes_optimizer.py:63-76). Every turn drops the first
node of the group; the fuel passed below is the length of the group. -/
def G.delDuplicated : Nat → G → List Ref → Bool → Except String (G × Bool)
  | _, g, [], upd => .ok (g, upd)
  | _, g, [_], upd => .ok (g, upd)
  | 0, g, _, upd => .ok (g, upd)
  | fuel + 1, g, r :: r' :: rs, upd => do
    let same := (r' :: rs).filter (fun q => g.haveEqualAttr q r)
    let rest := (r' :: rs).filter (fun q => !g.haveEqualAttr q r)
    let (g, upd) ← g.mergeNodes (r :: same) upd
    delDuplicated fuel g rest upd

/-- The loop over the groups (tf2onnx/optimizer/merge_duplicated_nodes_optimizer.py:43-47). -/
def G.mergeGroups (g : G) : List (List Ref) → Bool → Except String (G × Bool)
  | [], upd => .ok (g, upd)
  | l :: ls, upd =>
    match l with
    | [] => .error "IndexError"
    | r :: _ =>
      if (g.node r).skipMerge then g.mergeGroups ls upd
      else do
        let (g, upd) ← G.delDuplicated l.length g l upd
        g.mergeGroups ls upd

/-- `_optimize_at_current_graph_level` (tf2onnx/optimizer/merge_duplicated_nodes_optimizer.py:31-37) with
`_merge_duplicated_nodes` (39-47). One unit of fuel per turn; every turn but the last removes a node. -/
def G.mergeLoop (hash : List Int → Int) : Nat → G → Except String G
  | 0, _ => .error "out of fuel"
  | fuel + 1, g => do
    let groups ← g.groupNodes hash g.nodes []
    let (g', upd) ← g.mergeGroups (groups.map (·.2)) false
    if upd then mergeLoop hash fuel g' else .ok g'

/-- `MergeDuplicatedNodesOptimizer.optimize` (tf2onnx/optimizer/optimizer_base.py:36-47) on one graph. -/
def G.mergeOptimize (hash : List Int → Int) (g : G) : Except String G := do
  let g ← G.mergeLoop hash (g.nodes.length + 1) g
  g.deleteUnusedNodes (fun _ => []) g.outputs

end Verif.Graph
