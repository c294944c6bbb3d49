import Verif.Model.Graph
import Verif.Model.Matcher
/-!
# Model of the pattern rewriters of `tf2onnx/rewriter/` that replace a matched region by one operator

`rewrite_leakyrelu`, `rewrite_thresholded_relu`. `ops` is the graph's live node list (`run_rewriters` passes
`g.get_nodes()`, tf2onnx/tfonnx.py:375, and `get_nodes` returns `self._nodes` itself). Names of new nodes (`make_node` without a name): `fresh k` for the
node that becomes object number `k` of the heap, with output `name + ":0"` (tf2onnx/graph.py:619-629). Shapes and dtypes handed to
`make_node` are left out. `fuel` is Python's recursion limit for the matcher. The iteration order of Python sets of nodes is
a parameter `order`.
-/
namespace Verif.Graph
open Verif

/-- What the matcher reads of a node: `op.type`, `op.input`, `op.inputs` (tf2onnx/graph.py:54-56, 85-90, 148-151). -/
def G.gr (g : G) : Matcher.Gr Ref := fun r =>
  { type := (g.node r).op, input := (g.node r).input, inputs := (g.node r).input.map g.getNodeByOutput }

/-- `list(matcher.match_ops(ops))` (tf2onnx/graph_matcher.py:248-260). -/
def G.matchOps (g : G) (fuel : Nat) (allow : Bool) (p : Matcher.Pat) : List Ref → Except String (List (Matcher.Result Ref))
  | [] => .ok []
  | r :: rs => do
    let m ← Matcher.matchOp g.gr allow fuel p r
    let ms ← g.matchOps fuel allow p rs
    .ok (m.toList ++ ms)

/-- The loop of `safe_remove_nodes` (tf2onnx/graph.py:1600-1608): `all` is the set to delete, the list is what is left of it. -/
def G.safeRemoveLoop (all : List Ref) : List Ref → G → Except String G
  | [], g => .ok g
  | r :: rs, g =>
    if (g.node r).output.all (fun o => (g.findOutputConsumers o).all (· ∈ all)) then do
      let g ← g.removeNode (g.node r).name
      G.safeRemoveLoop all rs g
    else G.safeRemoveLoop all rs g

/-- `ops.append(node)` on the live node list (leakyrelu_rewriter.py:40, gemm_rewriter.py:105): the node, already appended by
`make_node`, is listed twice. -/
def G.appendAgain (g : G) (again : Bool) (r : Ref) : G := if again then { g with nodes := g.nodes ++ [r] } else g

/-- The common tail of the rewriters (leakyrelu_rewriter.py:38-43, thresholded_relu_rewriter.py:38-43,
gemm_rewriter.py:100-108): make the new node, redirect all readers of the root's first output to it, remove the nodes of
`del` that nobody else reads. `again`: the rewriter also appends the new node to `ops`. -/
def G.rewriteTo (fresh : Nat → String) (order : List Ref → List Ref) (again : Bool) (g : G) (root : Ref) (op : String)
    (xs : List String) (attr : Dict String Attr) (del : List Ref) : Except String G :=
  match (g.node root).output with
  | [] => .error "IndexError"
  | o :: _ => do
    let (g, r) ← g.makeNode op xs (fresh g.heap.length) [fresh g.heap.length ++ ":0"] attr
    let g := g.appendAgain again r
    let g ← g.replaceAllInputs o (fresh r ++ ":0") (some g.nodes)
    G.safeRemoveLoop del (order del) g

/-- The constant of a matched `Const` as a Python value: `get_tensor_value()` (tf2onnx/graph.py:303-327). -/
def constTensor (n : Node) : Except String Tensor :=
  if n.isConst then
    match n.attr.get "value" with
    | some (.tensor t) => .ok t
    | _ => .error "ValueError: attribute value not found"
  else .error "ValueError: get tensor value: must be Const"

/-- Pattern of `rewrite_leakyrelu` (tf2onnx/rewriter/leakyrelu_rewriter.py:17-24). -/
def leakyPat : Matcher.Pat :=
  .mk 0 (some ["Maximum"]) (some "max") none [
    .mk 1 (some ["Mul"]) (some "mul") none [
      .mk 2 (some ["Const"]) (some "alpha") none [],
      .mk 3 (some ["*"]) (some "mul_input") none []],
    .mk 4 (some ["*"]) (some "max_input") none []]

/-- The loop body of `rewrite_leakyrelu` (leakyrelu_rewriter.py:28-43). `ge1 v` is `alpha >= 1` for the stored element `v`;
a non-scalar constant is a Python list, and comparing it with a number raises. The attribute keeps the literal. -/
def G.leakyMatch (fresh : Nat → String) (order : List Ref → List Ref) (ge1 : Tensor → Bool) (g : G)
    (m : Matcher.Result Ref) : Except String G :=
  match m.getOp "max", m.getOp "mul", m.getOp "alpha", m.getTensor "max_input", m.getTensor "mul_input" with
  | some mx, some ml, some al, some x, some y =>
    if x = y then do
      let t ← constTensor (g.node al)
      if t.dims ≠ [] then .error "TypeError: '>=' not supported between instances of 'list' and 'int'"
      else if ge1 t then .ok g
      else g.rewriteTo fresh order true mx "LeakyRelu" [x] [("alpha", .tensor t)] [mx, ml]
    else .ok g
  | _, _, _, _, _ => .error "AttributeError"

/-- `for match in match_results`. -/
def forMatches (f : G → Matcher.Result Ref → Except String G) : List (Matcher.Result Ref) → G → Except String G
  | [], g => .ok g
  | m :: ms, g => do
    let g ← f g m
    forMatches f ms g

/-- `rewrite_leakyrelu` (leakyrelu_rewriter.py:13-45), opset at least 6. -/
def G.rewriteLeakyRelu (fresh : Nat → String) (order : List Ref → List Ref) (ge1 : Tensor → Bool) (fuel : Nat) (g : G) :
    Except String G := do
  let ms ← g.matchOps fuel true leakyPat g.nodes
  forMatches (G.leakyMatch fresh order ge1) ms g

/-- Pattern of `rewrite_thresholded_relu` (tf2onnx/rewriter/thresholded_relu_rewriter.py:17-26). -/
def thresholdedPat : Matcher.Pat :=
  .mk 0 (some ["Mul"]) (some "mul") none [
    .mk 1 (some ["Cast"]) (some "cast") none [
      .mk 2 (some ["Greater"]) (some "greater") none [
        .mk 3 (some ["*"]) (some "greater_input") none [],
        .mk 4 (some ["Const"]) (some "theta") none []]],
    .mk 5 (some ["*"]) (some "mul_input") none []]

/-- The loop body of `rewrite_thresholded_relu` (thresholded_relu_rewriter.py:30-43). -/
def G.thresholdedMatch (fresh : Nat → String) (order : List Ref → List Ref) (g : G) (m : Matcher.Result Ref) :
    Except String G :=
  match m.getOp "mul", m.getOp "cast", m.getOp "theta", m.getTensor "greater_input", m.getTensor "mul_input" with
  | some ml, some cs, some th, some x, some y =>
    if x = y then do
      let t ← constTensor (g.node th)
      g.rewriteTo fresh order false ml "ThresholdedRelu" [y] [("alpha", .tensor t)] [cs, ml]
    else .ok g
  | _, _, _, _, _ => .error "AttributeError"

/-- `rewrite_thresholded_relu` (thresholded_relu_rewriter.py:13-44), opset at least 10. -/
def G.rewriteThresholdedRelu (fresh : Nat → String) (order : List Ref → List Ref) (fuel : Nat) (g : G) : Except String G := do
  let ms ← g.matchOps fuel true thresholdedPat g.nodes
  forMatches (G.thresholdedMatch fresh order) ms g

end Verif.Graph
