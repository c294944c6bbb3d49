import Verif.Model.Graph
import Verif.Model.Prune
/-!
# Model of `tf2onnx/optimizer/identity_optimizer.py` (one graph level)
-/
namespace Verif.Graph
open Verif

/-- `_handle_non_graph_output_identity` (tf2onnx/optimizer/identity_optimizer.py:43-49). -/
def G.identityInner (g : G) (r : Ref) : Except String G :=
  match (g.node r).output, (g.node r).input with
  | old :: _, new :: _ => do
    let g' ← g.replaceAllInputs old new (some g.nodes)
    g'.removeNode (g.node r).name
  | _, _ => .error "IndexError"

/-- `graph.set_shape(output_id, output_shape)`, where the shape may be `None` (not recorded). -/
def G.setShapeOpt (g : G) (name : String) : Option Shapes.Shape → Except String G
  | some s => g.setShape name s
  | none => .ok g

/-- `graph.set_dtype(output_id, output_dtype)`, where the dtype may be `None` (not recorded). -/
def G.setDtypeOpt (g : G) (name : String) : Option Nat → Except String G
  | some t => g.setDtype name t
  | none => .ok g

/-- `_handle_graph_output_identity` (tf2onnx/optimizer/identity_optimizer.py:51-82), no parent graph: `input_node` is
looked up in this graph only and `None.graph` raises. A shape or dtype that is not recorded (`None`) is not recorded
afterwards either. -/
def G.identityOuter (g : G) (r : Ref) : Except String (G × Bool) :=
  match (g.node r).output, (g.node r).input with
  | outputId :: _, inputId :: _ =>
    match g.getNodeByOutput inputId with
    | none => .error "AttributeError"
    | some p =>
      if (g.node p).isGraphInput then .ok (g, false)
      else if inputId ∈ g.outputs then .ok (g, false)
      else do
        let shape := g.shapes.get outputId
        let dtype := g.dtypes.get outputId
        let g ← g.removeNode (g.node r).name
        let g ← g.setOutputs p ((g.node p).output.map (fun o => if o = inputId then outputId else o))
        let g ← g.setShapeOpt outputId shape
        let g ← g.setDtypeOpt outputId dtype
        let g ← g.replaceAllInputs inputId outputId (some g.nodes)
        .ok (g, true)
  | _, _ => .error "IndexError"

/-- The body of the `for n in nodes` loop (tf2onnx/optimizer/identity_optimizer.py:27-40). `n.graph is None` holds
exactly for nodes that were removed from the graph. The second component is `has_update`. -/
def G.identityStep (g : G) (r : Ref) (upd : Bool) : Except String (G × Bool) :=
  if r ∉ g.nodes then .ok (g, upd)
  else if (g.node r).output.any (· ∈ g.outputs) then g.identityOuter r
  else do
    let g' ← g.identityInner r
    .ok (g', true)

/-- The `for n in nodes` loop; `has_update = ret` keeps only the last result. -/
def G.identityPass (g : G) : List Ref → Bool → Except String (G × Bool)
  | [], upd => .ok (g, upd)
  | r :: rs, upd => do
    let (g, upd) ← g.identityStep r upd
    g.identityPass rs upd

/-- `_optimize_at_current_graph_level` (tf2onnx/optimizer/identity_optimizer.py:22-41). One unit of fuel per turn of the
`while has_update` loop. -/
def G.identityLoop : Nat → G → Except String G
  | 0, _ => .error "out of fuel"
  | fuel + 1, g => do
    let (g', upd) ← g.identityPass (g.nodes.filter (fun r => (g.node r).op = "Identity")) false
    if upd then identityLoop fuel g' else .ok g'

/-- `IdentityOptimizer.optimize` (tf2onnx/optimizer/optimizer_base.py:36-47): the pass, then
`delete_unused_nodes(graph.outputs)`. A graph of `n` nodes needs at most `n + 1` turns
(`Verif.Graph.identityLoop_fuel`). -/
def G.identityOptimize (g : G) : Except String G := do
  let g ← identityLoop (g.nodes.length + 1) g
  g.deleteUnusedNodes (fun _ => []) g.outputs

end Verif.Graph
