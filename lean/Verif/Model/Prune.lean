import Verif.Model.Graph
/-!
# Model of `Graph.extract_sub_graph_nodes` and `Graph.delete_unused_nodes` (tf2onnx/graph.py:1515-1585)

`implicit r` stands for `node.get_implicit_inputs()`. The recursive pruning of body graphs is not modelled here.
Python sets of nodes are lists without duplicates; `set.pop` takes the head.
-/
namespace Verif.Graph
open Verif

/-- The `for input_id in all_inputs` loop (tf2onnx/graph.py:1533-1544), without `input_checker`. -/
def G.pushInputs (g : G) (res : List Ref) : List String → List Ref → List Ref
  | [], p => p
  | x :: xs, p =>
    match g.getNodeByOutput x with
    | none => g.pushInputs res xs p
    | some n => if n ∈ res then g.pushInputs res xs p
                else if n ∈ p then g.pushInputs res xs p else g.pushInputs res xs (n :: p)

/-- The `while processing_set` loop (tf2onnx/graph.py:1529-1545). The fuel passed below suffices
(`Verif.Graph.extractLoop_spec`). -/
def G.extractLoop (g : G) (implicit : Ref → List String) : Nat → List Ref → List Ref → List Ref
  | 0, _, res => res
  | _ + 1, [], res => res
  | fuel + 1, t :: ps, res =>
    let res := if t ∈ res then res else t :: res
    g.extractLoop implicit fuel (g.pushInputs res ((g.node t).input ++ implicit t) ps) res

/-- `Graph._extract_sub_graph_nodes(dest_node)` (tf2onnx/graph.py:1515-1545). -/
def G.extractFrom (g : G) (implicit : Ref → List String) : Option Ref → List Ref
  | none => []
  | some d => g.extractLoop implicit (g.nodes.length + 1) [d] []

/-- `set.union`. -/
def unionRefs (a b : List Ref) : List Ref := a ++ b.filter (· ∉ a)

/-- `Graph.extract_sub_graph_nodes` (tf2onnx/graph.py:1547-1569) with `remove_unused_inputs=False`; a graph input without
outputs raises `IndexError` in the code and contributes nothing here. -/
def G.extractSubGraphNodes (g : G) (implicit : Ref → List String) (outputs : List String) : List Ref :=
  let keep := outputs ++ g.inputs.filterMap (fun r => (g.node r).output.head?)
  keep.foldl (fun res o => unionRefs res (g.extractFrom implicit (g.getNodeByOutput o))) []

/-- `Graph.delete_unused_nodes` (tf2onnx/graph.py:1571-1585) on a graph without body graphs. -/
def G.deleteUnusedNodes (g : G) (implicit : Ref → List String) (outputs : List String) : Except String G :=
  if outputs = [] then .ok g else g.resetNodes (g.extractSubGraphNodes implicit outputs)

end Verif.Graph
