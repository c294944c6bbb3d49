import Verif.Spec.WhileFlow
import Verif.Model.CondRewriter
/-!
# Model of `rewriter/loop_rewriter_base.py` and `rewriter/loop_rewriter.py`

Loops without tensor arrays, none within another. A node object is identified by its first output. The Identity nodes `construct_graph_from_nodes` adds behind the outputs of
the body are left out. The nodes of a converted loop that stay behind in the graph are deleted at the end (loop_rewriter_base.py:245-247); here they stay, as they were.
`fresh` makes names nothing else has (`utils.make_name`).
-/
namespace Verif.While
variable {V : Type}
open Verif.Cond (closeLoop)

/-- What stands for the node object. -/
def Node.key (n : Node V) : String := n.outs.headD ""

/-- `find_output_consumers`. -/
def consumers (G : List (Node V)) (x : String) : List (Node V) := G.filter (fun n => decide (x ∈ n.ins))

/-- `LoopVariable` (loop_rewriter_base.py:136-180) with the output of its `Merge`. -/
structure Var where
  merge : String
  enterIn : String
  next : String
  stateIn : Option String
  exit : Option String

/-- The input of the `Enter` among the inputs of a `Merge` (loop_rewriter_base.py:411-412). -/
def enterOf (G : List (Node V)) (a b : String) : Option String :=
  match producer G a with
  | some (.enter _ i _) => some i
  | _ => match producer G b with
    | some (.enter _ i _) => some i
    | _ => none

/-- The input of the `NextIteration` among them (loop_rewriter_base.py:415-416). -/
def nextOf (G : List (Node V)) (a b : String) : Option String :=
  match producer G a with
  | some (.next i _) => some i
  | _ => match producer G b with
    | some (.next i _) => some i
    | _ => none

/-- The output of a node, if it is an Identity. -/
def identityOut : Node V → Option String
  | .op t _ _ outs => if t = "Identity" then outs.head? else none
  | _ => none

/-- What the body gets the variable from (loop_rewriter_base.py:387-407). For several consumers an Identity is inserted; its output stands for that of the `Switch`. -/
def stateInOf (G : List (Node V)) (o1 : String) : Option String :=
  match consumers G o1 with
  | [] => none
  | [n] => match identityOut n with
    | some y => some y
    | none => some o1
  | _ => some o1

/-- The output of `Exit` (loop_rewriter_base.py:418-432). -/
def exitOf (G : List (Node V)) (o0 : String) : Except String (Option String) :=
  match consumers G o0 with
  | [] => .ok none
  | [.exit _ x] => .ok (some x)
  | [_] => .error "switch false branch is followed by non-Exit"
  | _ => .error "unexpected number of switch false consumers"

/-- `_get_loop_var_from_switch` (loop_rewriter_base.py:373-460). -/
def varOf (G : List (Node V)) : Node V → Except String Var
  | .switch d _ o0 o1 =>
    match producer G d with
    | some (.merge a b _) =>
      match enterOf G a b, nextOf G a b with
      | some e, some nx => (exitOf G o0).map (fun ex => ⟨d, e, nx, stateInOf G o1, ex⟩)
      | _, _ => .error "IndexError: list index out of range"
    | _ => .error "AttributeError: 'NoneType' object has no attribute 'enter_name'"
  | _ => .error "LoopCond's output node should be followed with a Switch node"

/-- `_parse_loop_variables` (loop_rewriter_base.py:253-265, 59-73). -/
def varsOf (G : List (Node V)) (c : String) : Except String (List Var) :=
  ((consumers G c).mapM (varOf G)).bind (fun vs => if (vs.map Var.merge).Nodup then .ok vs else .error "variable already exists as state variable.")

/-- `_cut_off_connection_for_cell` (loop_rewriter_base.py:350-370): what brings the variables into the body is removed. -/
def cutOff (G : List (Node V)) (vs : List Var) : List (Node V) := G.filter (fun n => decide (∀ x ∈ vs.filterMap Var.stateIn, x ∉ n.outs))

/-- Is it a constant? -/
def Node.isConst : Node V → Bool
  | .op t _ _ _ => decide (t = "Const")
  | _ => false

/-- Where the search ends (loop_rewriter_base.py:470-490). The inputs of the body are not met: their producers have been removed. -/
def stops (mergeAsEnd : Bool) : Node V → Bool
  | .enter .. => true
  | .merge .. => mergeAsEnd
  | n => n.isConst

/-- The node objects among the producers of the inputs that are followed (graph.py:1529-1545). -/
def succs (G : List (Node V)) (mergeAsEnd : Bool) (k : String) : List String :=
  match producer G k with
  | none => []
  | some n => n.ins.filterMap (fun x => (producer G x).bind (fun m => if stops mergeAsEnd m then none else some m.key))

/-- `_extract_sub_graph_nodes` (graph.py:1515-1545) from the producer of a tensor. -/
def reach (G : List (Node V)) (mergeAsEnd : Bool) (x : String) : List String :=
  match producer G x with
  | none => []
  | some n => if stops mergeAsEnd n then [] else closeLoop (succs G mergeAsEnd) (G.length + 1) [n.key] []

/-- `find_subgraph` (loop_rewriter_base.py:462-495). -/
def subgraph (G : List (Node V)) (mergeAsEnd : Bool) (outs : List String) : List (Node V) :=
  ((outs.flatMap (reach G mergeAsEnd)).eraseDups).filterMap (producer G)

/-- An operator with other inputs and outputs. -/
def Node.renamed (σ τ : String → String) : Node V → Node V
  | .op t f ins outs => .op t f (ins.map σ) (outs.map τ)
  | n => n

/-- The output of `Enter` is replaced with its input (loop_rewriter_base.py:317-319, 331-333). -/
def enterIn (G : List (Node V)) (x : String) : String :=
  match producer G x with
  | some (.enter _ i _) => i
  | _ => x

/-- The same in the condition, where the output of `Merge` is replaced with what the body returns (loop_rewriter_base.py:335-348). -/
def condIn (G : List (Node V)) (vs : List Var) (x : String) : String :=
  match producer G x with
  | some (.enter _ i _) => i
  | some (.merge _ _ m) => match vs.find? (fun v => decide (v.merge = m)) with
    | some v => v.next
    | none => x
  | _ => x

/-- Is the tensor the output of a `Merge`? -/
def isMerge (G : List (Node V)) (x : String) : Bool :=
  match producer G x with
  | some (.merge ..) => true
  | _ => false

/-- The outputs of the `Merge` nodes the condition depends on (loop_rewriter_base.py:327-337). -/
def mergesMet (G : List (Node V)) (nodes : List (Node V)) (out : String) : List String := (out :: nodes.flatMap Node.ins).filter (isMerge G)

/-- The inputs of the copied condition (loop_rewriter.py:112-118, 136-140): of its own nodes, or the first values of the variables. -/
def firstIn (G : List (Node V)) (vs deps : List Var) (nodes : List (Node V)) (copy : String → String) (x : String) : String :=
  if (producer nodes (condIn G vs x)).isSome then copy (condIn G vs x)
  else match deps.find? (fun v => decide (v.next = condIn G vs x)) with
    | some v => v.enterIn
    | none => condIn G vs x

/-- The new graph (loop_rewriter.py:42-104, 147-177): the copied condition and the `Loop` node; the `Exit` nodes are gone. -/
def loopGraph (fresh : String → String → String → String) (G : List (Node V)) (c i : String) (vs : List Var) : List (Node V) :=
  let G1 := cutOff G vs
  let cell := subgraph G1 false (vs.map Var.next)
  let cond := subgraph G1 true [i]
  let deps := vs.filter (fun v => decide (v.merge ∈ mergesMet G cond i))
  G1.filter (fun n => decide (∀ x ∈ vs.filterMap Var.exit, x ∉ n.outs)) ++
    cond.map (Node.renamed (firstIn G vs deps cond (fresh "copy" c)) (fresh "copy" c)) ++
    [.loop (fresh "copy" c i) (vs.map Var.enterIn) (vs.map (fun v => v.exit.getD (fresh "out" c v.merge)))
      (cell.map (Node.renamed (enterIn G) id) ++ cond.map (Node.renamed (condIn G vs) id))
      (vs.map (fun v => v.stateIn.getD (fresh "in" c v.merge))) i (vs.map Var.next)]

/-- One loop (loop_rewriter_base.py:222-243, loop_rewriter.py:36-104). -/
def rewriteLoop (fresh : String → String → String → String) (shapeKnown : String → Bool) (G : List (Node V)) (c i : String) : Except String (List (Node V)) :=
  (varsOf G c).bind (fun vs =>
    if ¬ (∀ m ∈ mergesMet G (subgraph (cutOff G vs) true [i]) i, m ∈ vs.map Var.merge) then .error "KeyError"
    else if ¬ (∀ x ∈ i :: vs.map Var.next, shapeKnown x) then .error "Conversion of Loop requires output shape exists"
    else .ok (loopGraph fresh G c i vs))

/-- The `LoopCond` nodes (loop_rewriter_base.py:216-219). -/
def loopConds (G : List (Node V)) : List (String × String) :=
  G.filterMap (fun n => match n with
    | .loopCond i c => some (i, c)
    | _ => none)

/-- The loop over them (loop_rewriter_base.py:222-243). -/
def runLoops (fresh : String → String → String → String) (shapeKnown : String → Bool) : List (String × String) → List (Node V) → Except String (List (Node V))
  | [], G => .ok G
  | (i, c) :: l, G => (rewriteLoop fresh shapeKnown G c i).bind (runLoops fresh shapeKnown l)

/-- `LoopRewriter.run` (loop_rewriter.py:32-34). -/
def rewriteLoops (fresh : String → String → String → String) (shapeKnown : String → Bool) (G : List (Node V)) : Except String (List (Node V)) :=
  runLoops fresh shapeKnown (loopConds G) G

end Verif.While
