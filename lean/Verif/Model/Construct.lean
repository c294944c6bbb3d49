import Verif.Model.Graph
/-!
# Model of `Graph.__init__` (tf2onnx/graph.py:447-534)

Generated names (`@@ALLOC...`, `..._raw_output_...:0`, the identity nodes' names) are given by the caller; how they are
generated is modelled in `Verif.Names`. Not modelled: shapes and dtypes handed to the new nodes, body graphs.
-/
namespace Verif.Graph
open Verif

/-- One visited node of the loop over `ops` (tf2onnx/graph.py:490-496): unless it is a graph input, each of its outputs
named in `input_names` gets a generated name. Simplification: the generated name is given as a function of the replaced
name (tensors have distinct names, so every replacement has its own). -/
def cutNode (names : List String) (alloc : String → String) (n : Node) : Node :=
  if n.isGraphInput then n else { n with output := n.output.map (fun o => if o ∈ names then alloc o else o) }

/-- The placeholders appended for that node (tf2onnx/graph.py:495). -/
def cutHolders (names : List String) (n : Node) : List Node :=
  if n.isGraphInput then []
  else (n.output.filter (· ∈ names)).map (fun o => { name := o, op := "Placeholder", input := [], output := [o] })

/-- `ops` after the loop (tf2onnx/graph.py:490-496); the loop also visits the appended placeholders, and skips them. -/
def cutNodes (names : List String) (alloc : String → String) (ns : List Node) : List Node :=
  ns.map (cutNode names alloc) ++ ns.flatMap (cutHolders names)

/-- `input_nodes = {n.output[0]: n for n in ops if n.is_graph_input()}` (tf2onnx/graph.py:498). -/
def inputNodes (ns : List Node) : Dict String Ref :=
  (List.range ns.length).foldl (fun d r => match ns[r]? with
    | some n => if n.isGraphInput then d.set (n.output.headD "") r else d
    | none => d) []

/-- `[input_nodes[n] for n in input_names]` (tf2onnx/graph.py:500); a missing key raises. -/
def lookupAll (d : Dict String Ref) : List String → Except String (List Ref)
  | [] => .ok []
  | x :: xs => match d.get x with
    | none => .error "KeyError"
    | some r => do
      let rs ← lookupAll d xs
      .ok (r :: rs)

/-- One round of the loop over `self.outputs` (tf2onnx/graph.py:507-534). -/
def G.wrapOutput (g : G) (o raw idName : String) : Except String G :=
  match g.getNodeByOutput o with
  | none => .error "AttributeError"
  | some r =>
    let n := g.node r
    if n.isGraphInput then .ok g
    else do
      let g1 ← g.removeNode n.name
      let (g2, _) ← g1.makeNode n.op n.input n.name (n.output.map (fun x => if x = o then raw else x)) n.attr n.domain
      let g3 ← g2.replaceAllInputs o raw (some g2.nodes)
      let (g4, _) ← g3.makeNode "Identity" [raw] idName [o]
      .ok g4

/-- The loop (tf2onnx/graph.py:506): one `(raw, idName)` for each output. -/
def G.wrapOutputs : G → List (String × String × String) → Except String G
  | g, [] => .ok g
  | g, (o, raw, idName) :: os => do
    let g ← g.wrapOutput o raw idName
    g.wrapOutputs os

/-- `Graph(nodes, ..., input_names, output_names)`: `wraps` lists for each output name its generated names. -/
def G.construct (ns : List Node) (inputNames : Option (List String)) (alloc : String → String)
    (wraps : List (String × String × String)) : Except String G :=
  match inputNames with
  | none => do
    let g ← G.load ns ((inputNodes ns).map Prod.snd) (wraps.map Prod.fst) [] []
    g.wrapOutputs wraps
  | some names => do
    let inputs ← lookupAll (inputNodes (cutNodes names alloc ns)) names
    let g ← G.load (cutNodes names alloc ns) inputs (wraps.map Prod.fst) [] []
    g.wrapOutputs wraps

end Verif.Graph
