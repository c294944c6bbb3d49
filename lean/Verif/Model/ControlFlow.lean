import Verif.Model.Handlers
/-!
# Model of `tf2onnx/onnx_opset/controlflow.py`: `If`, `StatelessIf`, `While`, `StatelessWhile`

The branches and the loop condition and body are functions: graphs of their own, converted before the graph that calls them
(tf2onnx/tfonnx.py:512-517). They are looked up by name (tf2onnx/tf_loader.py:927-928); here they are parameters. Scope of this file: function
graphs without nested body graphs; no tensor lists (`TensorListReserve`, `TensorListSetItem`, ..), no ragged tensors. Names of new nodes
(`utils.make_name`) are parameters.
-/
namespace Verif.Graph
open Verif

/-- `Graph.input_names` (tf2onnx/graph.py:553-556); an input always has an output. -/
def G.inputNames (g : G) : List String := g.inputs.map (fun r => (g.node r).output.headD "")

/-- The loop of `parameter_binding` (controlflow.py:760-768); `inputs` are those from position `i` on. `make_sure(i == len(inputs))` is the
test for the rest at the end. -/
def bindLoop (stateVars : Dict String String) : List String → List String → Dict String String → Except String (Dict String String)
  | [], [], b => .ok b
  | [], _ :: _, _ => .error "make_sure failure: Parameter count mismatch while binding controlflow"
  | k :: ks, inputs, b =>
    match stateVars.get k with
    | some x => bindLoop stateVars ks inputs (b.set k x)
    | none =>
      match inputs with
      | [] => .error "IndexError"
      | i :: is => bindLoop stateVars ks is (b.set k i)

/-- `parameter_binding` (controlflow.py:759-769). -/
def parameterBinding (g : G) (inputs : List String) (stateVars : Dict String String := []) : Except String (Dict String String) :=
  bindLoop stateVars g.inputNames inputs []

/-- `if parent_name and parent_name != "@@ALLOC"` (controlflow.py:699, 723). -/
def boundTo (b : Dict String String) (x : String) : Option String :=
  match b.get x with
  | none => none
  | some p => if p = "" ∨ p = "@@ALLOC" then none else some p

/-- The placeholder becomes a copy of the tensor it is bound to (controlflow.py:700-701, 724-725). -/
def G.bindInput (g : G) (r : Ref) (p : String) : G := (g.replaceInputs r [p]).setType r "Identity"

/-- The loop over the inputs of the function (controlflow.py:696-703, 720-727). Returns the graph and the nodes to remove. -/
def G.bindInputs (b : Dict String String) : List Ref → G → G × List Ref
  | [], g => (g, [])
  | r :: rs, g =>
    match boundTo b ((g.node r).output.headD "") with
    | some p => G.bindInputs b rs (g.bindInput r p)
    | none => let (g', rm) := G.bindInputs b rs g; (g', r :: rm)

/-- `for node in to_remove: g.remove_node(node.name)` (controlflow.py:705-706, 728-729, 796-797). -/
def G.removeAll : List String → G → Except String G
  | [], g => .ok g
  | n :: ns, g => do
    let g ← g.removeNode n
    G.removeAll ns g

/-- `[name + ":" + str(i) for i in range(output_count)]` (tf2onnx/graph.py:628-629). -/
def ports (name : String) (k : Nat) : List String := (List.range k).map (fun i => name ++ ":" ++ toString i)

/-- `if op_name_scope: name = "_".join([op_name_scope, name])` (tf2onnx/graph.py:623-624). -/
def scopedName (scope name : String) : String := if scope = "" then name else scope ++ "_" ++ name

/-- The loop of `prefix_graph` over the outputs of a node (controlflow.py:789-794). -/
def G.prefixOutputs (ops : List Ref) : List (String × String) → G → Except String G
  | [], g => .ok g
  | (old, new) :: ps, g => do
    let g : G := { g with outputs := renameFirst old new g.outputs }
    let g ← g.replaceAllInputs old new (some ops)
    G.prefixOutputs ops ps g

/-- `shapes=output_shapes, dtypes=output_dtypes` for the new outputs (controlflow.py:776-777, 787). -/
def G.copyPorts (src : G) : List (String × String) → G → Except String G
  | [], g => .ok g
  | (old, new) :: ps, g => do
    let g ← g.copyInfo src old new
    G.copyPorts src ps g

/-- The loop of `prefix_graph` over the nodes (controlflow.py:775-795). The domain of the node is not passed on. -/
def G.prefixNodes (scope : String) (ops : List Ref) : List Ref → G → Except String G
  | [], g => .ok g
  | r :: rs, g =>
    let n := g.node r
    if n.isGraphInput then G.prefixNodes scope ops rs g
    else do
      let name := scopedName scope n.name
      let new := ports name n.output.length
      let (g1, _) ← g.makeNode n.op n.input name new n.attr
      let g1 ← G.copyPorts g (n.output.zip new) g1
      let g1 ← G.prefixOutputs ops (n.output.zip new) g1
      G.prefixNodes scope ops rs g1

/-- `prefix_graph` (controlflow.py:772-797). -/
def G.prefixGraph (g : G) (scope : String) : Except String G := do
  let ops := g.nodes
  let g1 ← G.prefixNodes scope ops ops g
  G.removeAll ((ops.filter (fun r => !(g.node r).isGraphInput)).map (fun r => (g.node r).name)) g1

/-- The part shared by `wire_if_branch` and `inline_subgraph` (controlflow.py:696-708, 720-730). -/
def G.bindAndPrefix (g : G) (scope : String) (b : Dict String String) : Except String G := do
  let (g1, rm) := G.bindInputs b g.inputs g
  let g2 ← G.removeAll (rm.map (fun r => (g1.node r).name)) g1
  g2.prefixGraph scope

/-- `parent._output_shapes[name] = shape`, `parent._dtypes[name] = dtype` for all outputs of the nodes moved (controlflow.py:731-746). -/
def G.recordAll (src : G) : List String → G → G
  | [], g => g
  | o :: os, g =>
    G.recordAll src os { g with
      shapes := match src.shapes.get o with | some s => g.shapes.set o s | none => Dict.erase g.shapes o
      dtypes := match src.dtypes.get o with | some t => g.dtypes.set o t | none => Dict.erase g.dtypes o }

/-- Nodes of another graph become nodes of this one: `n.graph = parent` for each (controlflow.py:731-746), `parent.reset_nodes(parent nodes +
nodes)` (controlflow.py:748-749). The node objects of the other graph get new numbers. -/
def G.adopt (parent g : G) : Except String G :=
  let k := parent.heap.length
  let p : G := { parent with heap := parent.heap ++ g.heap }
  (G.recordAll g (g.nodes.flatMap (fun r => (g.node r).output)) p).resetNodes (parent.nodes ++ g.nodes.map (k + ·))

/-- `inline_subgraph` (controlflow.py:717-756). Returns the parent and the names of the outputs. -/
def G.inlineSubgraph (parent g : G) (scope : String) (b : Dict String String) : Except String (G × List String) := do
  let g2 ← g.bindAndPrefix scope b
  let p ← parent.adopt g2
  let p ← p.copyInfos g2 g2.outputs
  .ok (p, g2.outputs)

/-- `g.set_shape(output_name, shape)`, `g.set_dtype(output_name, dtype)` (tf2onnx/graph.py:974-977, 1009-1017) where shape and dtype may be `None`:
what was recorded before is forgotten. -/
def G.putInfo (g : G) (o : String) (s : Option Shapes.Shape) (t : Option Nat) : Except String G :=
  match g.getNodeByOutput o with
  | none => .error "make_sure failure: cannot find node by output id"
  | some _ => .ok { g with
      shapes := match s with | some s => g.shapes.set o s | none => Dict.erase g.shapes o
      dtypes := match t with | some t => g.dtypes.set o t | none => Dict.erase g.dtypes o }

/-- `for shape, dtype, output_name in zip(output_shapes, output_dtypes, g.outputs)` (controlflow.py:710-712). -/
def G.setInfos : List (Option Shapes.Shape × Option Nat) → List String → G → Except String G
  | (s, t) :: ps, o :: os, g => do
    let g ← g.putInfo o s t
    G.setInfos ps os g
  | _, _, g => .ok g

/-- `wire_if_branch` (controlflow.py:693-714). -/
def G.wireIfBranch (g : G) (inputs : List String) (infos : List (Option Shapes.Shape × Option Nat)) (scope : String) : Except String G := do
  let b ← parameterBinding g inputs
  let g ← g.bindAndPrefix scope b
  G.setInfos infos g.outputs g

/-- What is recorded for the outputs of a node: `node.output_shapes`, `node.output_dtypes`. -/
def G.infos (g : G) (r : Ref) : List (Option Shapes.Shape × Option Nat) :=
  (g.node r).output.map (fun o => (g.shapes.get o, g.dtypes.get o))

/-- `StatelessIfOp.version_1` (controlflow.py:254-276) and the same code in `IfOp.version_1` (controlflow.py:289-307): the graph with its new node `If`, the
branch for true and the branch for false. `ft`, `fe` are the names of the functions `gt`, `ge`. -/
def G.convertIf (g : G) (r : Ref) (ft : String) (gt : G) (fe : String) (ge : G) : Except String (G × G × G) := do
  let n := g.node r
  let infos := g.infos r
  let g1 ← g.removeNode n.name
  let gt ← gt.wireIfBranch n.input.tail infos ft
  let ge ← ge.wireIfBranch n.input.tail infos fe
  let (g2, _) ← g1.makeNode "If" (n.input.take 1) n.name n.output
  let g2 ← G.copyInfos g2 g n.output
  .ok (g2, gt, ge)

/-- `IfOp.version_1` (controlflow.py:279-307): a node of type `If` without inputs besides the condition is taken for one made by the rewriters and
left alone (no branches are attached). -/
def G.handleIf (g : G) (r : Ref) (ft : String) (gt : G) (fe : String) (ge : G) : Except String (G × Option (G × G)) :=
  if (g.node r).op = "If" ∧ (g.node r).input.tail = [] then .ok (g, none)
  else do
    let (g', gt', ge') ← g.convertIf r ft gt fe ge
    .ok (g', some (gt', ge'))

/-- `Node.inputs[i]` (tf2onnx/graph.py:59-65). -/
def G.inputNode (g : G) (r : Ref) (i : Nat) : Option Ref := ((g.node r).input[i]?).bind g.getNodeByOutput

/-- The trip count of a loop whose bound is a constant other than -1 (controlflow.py:399-408): a constant of type int64, called like the tensor if
nobody else reads it. Returns the graph and the name of the constant. -/
def G.constBound (g : G) (r c : Ref) (mName fresh : String) (t : Tensor) : Except String (G × String) := do
  let ext := (g.findOutputConsumers mName).filter (fun q => q ≠ r && (g.node q).op ≠ "TensorListReserve")
  let g1 ← if ext = [] then g.removeNode (g.node c).name else .ok g
  let name := if ext = [] then mName else fresh
  let (g2, _) ← g1.makeNode "Const" [] name [name] [("value", .tensor { t with dtype := 7 })]
  let g3 ← g2.replaceInputAt r mName name 1
  .ok (g3, name)

/-- The bound of the loop (controlflow.py:391-416): the graph, the tensor the functions read as bound, and the trip count of `Loop` ("" for
none). -/
def G.loopBound (g : G) (r : Ref) (fresh : String) : Except String (G × String × String) :=
  match (g.node r).input[1]? with
  | none => .error "IndexError"
  | some mName =>
    match g.getNodeByOutput mName with
    | none => .error "AttributeError"
    | some c =>
      if (g.node c).isConst then
        match (g.node c).attr.get "value" with
        | some (.tensor t) =>
          if t.data = [-1] ∧ t.dims = [] then .ok (g, mName, "")
          else do
            let (g, name) ← g.constBound r c mName fresh t
            .ok (g, name, name)
        | _ => .error "ValueError"
      else do
        let (g1, _) ← g.makeNode "Cast" [mName] ((g.node r).name ++ "_cast") [(g.node r).name ++ "_cast:0"] [("to", .int 7)]
        .ok (g1, mName, (g.node r).name ++ "_cast:0")

/-- `for n in g.inputs: if n.output[0] in body_input_to_state_var: ...` (controlflow.py:557-562). -/
def G.bindState (b : Dict String String) : List Ref → G → G
  | [], g => g
  | r :: rs, g =>
    match b.get ((g.node r).output.headD "") with
    | some p => G.bindState b rs ((g.setType r "Identity").replaceInputs r [p])
    | none => G.bindState b rs g

/-- `wire_while_body` (controlflow.py:550-690) without tensor lists and ragged tensors: `condName` is the name of the new input for the
condition, `mName` the tensor of the outer graph that holds the bound. `g.copy_shape(p, c)` for the loop variables is left out. -/
def G.wireWhileBody (body cond : G) (mName condName : String) : Except String G := do
  match body.inputNames, cond.inputNames with
  | i0 :: i1 :: rest, _ :: c1 :: _ =>
    let body := G.bindState [(i1, mName)] body.inputs body
    let (body, rc) ← body.makeNode "Placeholder" [] condName [condName ++ ":0"]
    let body ← body.setDtype (condName ++ ":0") 9
    let vars := rest.filter (fun x => x ≠ i1)
    let body ← body.setDtype i0 7
    let refs := vars.filterMap body.getNodeByOutput
    match body.getNodeByOutput i0 with
    | none => .error "AttributeError"
    | some r0 =>
      let body : G := { body with inputs := r0 :: rc :: refs }
      if body.nodes.any (fun r => (body.node r).op = "TensorListSetItem") then .error "not modelled"
      else
        let b ← parameterBinding cond (i0 :: body.outputs.drop 2) [(c1, mName)]
        let (body, outs) ← body.inlineSubgraph cond "cond__" b
        match outs with
        | [] => .error "IndexError"
        | c :: _ => .ok { body with outputs := c :: body.outputs.drop 2 }
  | _, _ => .error "IndexError"

/-- `for k, v in output_map.items(): ctx.replace_all_inputs(k, v)` (controlflow.py:529-534). -/
def G.shiftConsumers : List (String × String) → G → Except String G
  | [], g => .ok g
  | (k, v) :: ps, g => do
    let g ← g.replaceAllInputs k v
    G.shiftConsumers ps g

/-- `While.version_7` (controlflow.py:367-547) without tensor lists and ragged tensors: the graph, the node `Loop` and its body. `cf` is the name
of the condition function, `fresh` the name `constBound` may need, `condName` that of the new body input. -/
def G.convertWhile (g : G) (r : Ref) (cf : String) (cond body : G) (fresh condName : String) : Except String (G × Ref × G) := do
  let outs := (g.node r).output
  let name := (g.node r).name
  let infos := (g.infos r).drop 2
  let (g, mName, trip) ← g.loopBound r fresh
  let ins := (g.node r).input
  let g ← g.removeNode name
  let b ← parameterBinding cond ins
  let (g, cs) ← g.inlineSubgraph cond cf b
  match cs with
  | [] => .error "IndexError"
  | c :: _ =>
    let new := ports (name ++ "_loop") (outs.length - 2)
    let (g, rl) ← g.makeNode "Loop" (trip :: c :: ins.drop 2) (name ++ "_loop") new
    let g ← G.setInfos infos new g
    let g ← G.shiftConsumers ((outs.drop 2).zip new) g
    let body ← body.wireWhileBody cond mName condName
    .ok (g, rl, body)

end Verif.Graph
