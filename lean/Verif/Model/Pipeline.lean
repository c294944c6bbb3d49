import Verif.Model.Mapping
import Verif.Model.TopoSort
import Verif.Model.Driver
import Verif.Model.IdentityOpt
import Verif.Model.MergeDup
/-!
# Model of the conversion of a parsed graph and of the optimization after it

`process_parsed_graph` (tf2onnx/tfonnx.py:522-660) from the point where the rewriters have run, for a graph without bodies and targets
without late rewriters, and `optimize_graph` (tf2onnx/optimizer/__init__.py:45-88) with the optimizers that merge duplicate nodes and remove
identities.
-/
namespace Verif.Graph
open Verif

/-- `topological_sort(g, continue_on_error)` (tf2onnx/tfonnx.py:356-366): a failure is ignored when told to continue. -/
def G.topoSort (cont : Bool) (g : G) : Except String G :=
  match g.topologicalSort (fun _ => []) g.nodes with
  | .ok g' => .ok g'
  | .error e => if cont then .ok g else .error e

/-- `process_parsed_graph` after the rewriters (tf2onnx/tfonnx.py:614-642): unused nodes are deleted, the rest is sorted and converted; the
first exception is raised unless told to continue; the result is sorted. Operators without handler are only logged. -/
def G.processParsed (table : String → Option MapInfo) (skip : Ref → Bool) (cont : Bool) (g : G) : Except String G := do
  let g ← g.deleteUnusedNodes (fun _ => []) g.outputs
  let g ← G.topoSort cont g
  let s := g.mapping table skip
  match s.exceptions with
  | [] => G.topoSort cont s.g
  | ex :: _ => if cont then G.topoSort cont s.g else .error ex

/-- `opt.optimize(graph, iteration)` (tf2onnx/optimizer/optimizer_base.py:36-47) of an optimizer that runs `loop` on the graph, and whose steps
set `graph_been_opt` exactly when they have removed a node (tf2onnx/optimizer/identity_optimizer.py:38-40,
tf2onnx/optimizer/merge_duplicated_nodes_optimizer.py:31-37, 96-107). What an optimizer that raises leaves behind is not looked at: it worked
on a copy. -/
def passOf (loop : G → Except String G) : Driver.Pass G := fun g _ =>
  match loop g with
  | .error e => ⟨g, .error e⟩
  | .ok g1 =>
    match g1.deleteUnusedNodes (fun _ => []) g1.outputs with
    | .error e => ⟨g1, .error e⟩
    | .ok g2 => ⟨g2, .ok (some g2, decide (g1.nodes.length < g.nodes.length))⟩

/-- `IdentityOptimizer` as a pass. -/
def identityPassRun : Driver.Pass G := passOf (fun g => G.identityLoop (g.nodes.length + 1) g)

/-- `MergeDuplicatedNodesOptimizer` as a pass. -/
def mergePassRun (hash : List Int → Int) : Driver.Pass G := passOf (fun g => G.mergeLoop hash (g.nodes.length + 1) g)

/-- `optimize_graph(g, catch_errors=True, optimizers=passes)` (tf2onnx/optimizer/__init__.py:45-88). -/
def G.optimizeWith (passes : List (Driver.Pass G)) (fuel : Nat) (g : G) : Option (Except (Driver.Raised G) G) :=
  Driver.optimizeGraph (fun g => g.topologicalSort (fun _ => []) g.nodes) true passes fuel g

end Verif.Graph
