import Verif.Model.IdentityOpt
/-!
# Model of `tf2onnx/optimizer/q_dq_optimizer.py` (one graph level)

Names of new nodes (`make_node` without a name): `fresh k` for the node that becomes object number `k` of the heap; their
output is `name + ":0"` as in `Graph.make_node` (tf2onnx/graph.py:629). Shape and dtype inference for new nodes is left out.
-/
namespace Verif.Graph
open Verif

/-- `is_tensor_op` (tf2onnx/optimizer/q_dq_optimizer.py:136-155): the data inputs and outputs of an operator that only moves
elements around. -/
def tensorIdx (n : Node) : Option (List Nat × List Nat) :=
  if n.op ∈ ["Identity", "Reshape", "Flatten", "Expand", "Transpose", "Squeeze", "Unsqueeze", "Slice"] then some ([0], [0])
  else if n.op ∈ ["Gather", "GatherND", "GatherElements"] then some ([0], [0])
  else if n.op ∈ ["Scatter", "ScatterND", "ScatterElements"] then some ([0, 2], [0])
  else if n.op = "Concat" then some (List.range n.input.length, [0])
  else if n.op = "Split" then some ([0], List.range n.output.length)
  else if n.op ∈ ["Compress", "Tile", "ReverseSequence", "DepthToSpace"] then some ([0], [0])
  else none

/-- `has_same_quantization_params` (q_dq_optimizer.py:120-124). -/
def sameParams (n m : Node) : Bool := n.attr.get "axis" = m.attr.get "axis" && n.input.drop 1 = m.input.drop 1

/-- `graph.copy_dtype(src, dst)` (tf2onnx/graph.py:979-982); a dtype that is not recorded stays unrecorded. -/
def G.copyDtype (g : G) (src dst : String) : Except String G := g.setDtypeOpt dst (g.dtypes.get src)

/-- The attributes `make_q_or_dq` copies (q_dq_optimizer.py:126-131). -/
def qdqAttr (reference : Node) : Dict String Attr :=
  match reference.attr.get "axis" with
  | none => []
  | some a => [("axis", a)]

/-- `make_q_or_dq` (q_dq_optimizer.py:126-133). -/
def G.makeQDQ (g : G) (fresh : Nat → String) (op : String) (inp : String) (reference : Node) : Except String (G × Ref) :=
  g.makeNode op (inp :: reference.input.drop 1) (fresh g.heap.length) [fresh g.heap.length ++ ":0"] (qdqAttr reference)

/-- First `for i in inp_indices` loop of the upward push (q_dq_optimizer.py:70-72). -/
def G.pushUpInputs (fresh : Nat → String) (t : Ref) (qn : Node) : List Nat → G → Except String G
  | [], g => .ok g
  | i :: is, g =>
    match (g.node t).input[i]? with
    | none => .error "IndexError"
    | some x => do
      let (g, r) ← g.makeQDQ fresh "QuantizeLinear" x qn
      match (g.node r).output with
      | [] => .error "IndexError"
      | o :: _ => do
        let g ← g.replaceInputAt t x o i
        G.pushUpInputs fresh t qn is g

/-- `for c in consumers: graph.replace_all_inputs(c.output[0], node.output[i])` (q_dq_optimizer.py:77-78). -/
def G.skipConsumers (o : String) : List Ref → G → Except String G
  | [], g => .ok g
  | c :: cs, g =>
    match (g.node c).output with
    | [] => .error "IndexError"
    | old :: _ => do
      let g ← g.replaceAllInputs old o
      G.skipConsumers o cs g

/-- Second `for i in out_indices` loop of the upward push (q_dq_optimizer.py:74-78). -/
def G.pushUpOutputs (t : Ref) (qout : String) : List Nat → G → Except String G
  | [], g => .ok g
  | i :: is, g =>
    match (g.node t).output[i]? with
    | none => .error "IndexError"
    | some o => do
      let g ← g.copyDtype qout o
      let g ← G.skipConsumers o (g.findOutputConsumers o) g
      G.pushUpOutputs t qout is g

/-- The checks on one output of the operator in the upward push (q_dq_optimizer.py:58-68). -/
def G.quantizedOnly (g : G) (qn : Node) (o : String) : Bool :=
  !(o ∈ g.outputs) && (g.findOutputConsumers o).all (fun c =>
    (g.node c).op = "QuantizeLinear" && sameParams (g.node c) qn && !((g.node c).output.headD "" ∈ g.outputs))

/-- All outputs named by `is` pass (q_dq_optimizer.py:58-68). -/
def G.allQuantized (g : G) (t : Ref) (qn : Node) : List Nat → Except String Bool
  | [] => .ok true
  | i :: is =>
    match (g.node t).output[i]? with
    | none => .error "IndexError"
    | some o => if g.quantizedOnly qn o then g.allQuantized t qn is else .ok false

/-- `if not graph.find_output_consumers(o): graph.remove_node(name)` (q_dq_optimizer.py:47-50). -/
def G.removeIfUnread (g : G) (r : Ref) (o : String) : Except String G :=
  if g.findOutputConsumers o = [] then g.removeNode (g.node r).name else .ok g

/-- `_optimize_quantize` (q_dq_optimizer.py:36-80). -/
def G.optimizeQuantize (fresh : Nat → String) (g : G) (q : Ref) : Except String (G × Bool) :=
  if ((g.node q).attr.get "axis").isSome then .ok (g, false)
  else
    match (g.node q).input, (g.node q).output with
    | x :: _, qout :: _ =>
      match g.getNodeByOutput x with
      | none => .error "AttributeError"
      | some t =>
        if (g.node t).op = "DequantizeLinear" then
          if !sameParams (g.node q) (g.node t) then .ok (g, false)
          else
            match (g.node t).input, (g.node t).output with
            | y :: _, tout :: _ =>
              if qout ∈ g.outputs ∨ tout ∈ g.outputs then .ok (g, false)
              else do
                let g ← g.replaceAllInputs qout y
                let g ← g.removeIfUnread q qout
                let g ← g.removeIfUnread t tout
                .ok (g, true)
            | _, _ => .error "IndexError"
        else
          match tensorIdx (g.node t) with
          | none => .ok (g, false)
          | some (inps, outs) => do
            let b ← g.allQuantized t (g.node q) outs
            if !b then .ok (g, false)
            else do
              let g' ← G.pushUpInputs fresh t (g.node q) inps g
              let g' ← G.pushUpOutputs t qout outs g'
              .ok (g', true)
    | _, _ => .error "IndexError"

/-- The checks on one data input of the operator in the downward push (q_dq_optimizer.py:97-104). -/
def G.dequantizedInput (g : G) (dn : Node) (x : String) : Except String Bool :=
  match g.getNodeByOutput x with
  | none => .error "AttributeError"
  | some d =>
    .ok ((g.node d).op = "DequantizeLinear" && sameParams (g.node d) dn && !((g.node d).output.headD "" ∈ g.outputs))

/-- All data inputs named by `is` pass (q_dq_optimizer.py:97-104). -/
def G.allDequantized (g : G) (t : Ref) (dn : Node) : List Nat → Except String Bool
  | [] => .ok true
  | i :: is =>
    match (g.node t).input[i]? with
    | none => .error "IndexError"
    | some x => do
      let b ← g.dequantizedInput dn x
      if b then g.allDequantized t dn is else .ok false

/-- No output named by `is` is a graph output (q_dq_optimizer.py:105-107). -/
def G.noGraphOutput (g : G) (t : Ref) : List Nat → Except String Bool
  | [] => .ok true
  | i :: is =>
    match (g.node t).output[i]? with
    | none => .error "IndexError"
    | some o => if o ∈ g.outputs then .ok false else g.noGraphOutput t is

/-- First loop of the downward push (q_dq_optimizer.py:109-111). -/
def G.pushDownInputs (t : Ref) : List Nat → G → Except String G
  | [], g => .ok g
  | i :: is, g =>
    match (g.node t).input[i]? with
    | none => .error "IndexError"
    | some x =>
      match g.getNodeByOutput x with
      | none => .error "AttributeError"
      | some d =>
        match (g.node d).input with
        | [] => .error "IndexError"
        | y :: _ => do
          let g ← g.replaceInputAt t x y i
          G.pushDownInputs t is g

/-- Second loop of the downward push (q_dq_optimizer.py:113-116). -/
def G.pushDownOutputs (fresh : Nat → String) (t : Ref) (src : String) (dn : Node) : List Nat → G → Except String G
  | [], g => .ok g
  | i :: is, g =>
    match (g.node t).output[i]? with
    | none => .error "IndexError"
    | some o => do
      let g ← g.copyDtype src o
      let (g, r) ← g.makeQDQ fresh "DequantizeLinear" o dn
      let g ← g.insertNodeOnOutput r o
      G.pushDownOutputs fresh t src dn is g

/-- `_optimize_dequantize_and_node` (q_dq_optimizer.py:92-118). -/
def G.optimizeDequantizeAndNode (fresh : Nat → String) (g : G) (d t : Ref) : Except String (G × Bool) :=
  match tensorIdx (g.node t) with
  | none => .ok (g, false)
  | some (inps, outs) => do
    let b ← g.allDequantized t (g.node d) inps
    if !b then .ok (g, false)
    else do
      let b ← g.noGraphOutput t outs
      if !b then .ok (g, false)
      else
        match (g.node d).input with
        | [] => .error "IndexError"
        | src :: _ => do
          let g' ← G.pushDownInputs t inps g
          let g' ← G.pushDownOutputs fresh t src (g.node d) outs g'
          .ok (g', true)

/-- The loop over the consumers (q_dq_optimizer.py:86-90). -/
def G.tryConsumers (fresh : Nat → String) (g : G) (d : Ref) : List Ref → Except String (G × Bool)
  | [] => .ok (g, false)
  | t :: ts => do
    let (g', b) ← g.optimizeDequantizeAndNode fresh d t
    if b then .ok (g', true) else g.tryConsumers fresh d ts

/-- `_optimize_dequantize` (q_dq_optimizer.py:82-90). -/
def G.optimizeDequantize (fresh : Nat → String) (g : G) (d : Ref) : Except String (G × Bool) :=
  if ((g.node d).attr.get "axis").isSome then .ok (g, false)
  else
    match (g.node d).output with
    | [] => .error "IndexError"
    | o :: _ => g.tryConsumers fresh d (g.findOutputConsumers o)

/-- The body of the `for op in ops` loop (q_dq_optimizer.py:28-33). -/
def G.qdqStep (fresh : Nat → String) (g : G) (r : Ref) : Except String (G × Bool) :=
  if (g.node r).op = "QuantizeLinear" then g.optimizeQuantize fresh r
  else if (g.node r).op = "DequantizeLinear" then g.optimizeDequantize fresh r
  else .ok (g, false)

/-- The `for op in ops` loop (q_dq_optimizer.py:26-33). `graph.get_nodes()` is the live list: nodes made meanwhile are
visited, and a removal shifts the rest. `i` is the position of the iterator; one unit of fuel per element. -/
def G.qdqPass (fresh : Nat → String) : Nat → G → Nat → Bool → Except String (G × Bool)
  | 0, _, _, _ => .error "out of fuel"
  | fuel + 1, g, i, changed =>
    match g.nodes[i]? with
    | none => .ok (g, changed)
    | some r => do
      let (g', b) ← g.qdqStep fresh r
      G.qdqPass fresh fuel g' (i + 1) (changed || b)

/-- The `while graph_changed` loop (q_dq_optimizer.py:23-34). -/
def G.qdqLoop (fresh : Nat → String) : Nat → G → Except String G
  | 0, _ => .error "out of fuel"
  | fuel + 1, g => do
    let (g', changed) ← G.qdqPass fresh (fuel + 1) g 0 false
    if changed then G.qdqLoop fresh fuel g' else .ok g'

/-- `QDQOptimizer.optimize` (q_dq_optimizer.py:19-34, tf2onnx/optimizer/optimizer_base.py:36-47). The loops need not end
(`fuel`). -/
def G.qdqOptimize (fresh : Nat → String) (fuel : Nat) (g : G) : Except String G := do
  let g ← G.qdqLoop fresh fuel g
  g.deleteUnusedNodes (fun _ => []) g.outputs

end Verif.Graph
