import Verif.Spec.CondFlow
/-!
# Model of `rewriter/cond_rewriter.py`

Sets of nodes are lists without duplicates. A node object is identified by its first output. The Identity nodes `construct_graph_from_nodes` adds behind the outputs of
a branch (utils.py:393-401) are left out: a branch has its outputs directly. The second output of `Merge` (`value_index`) is not modelled.
-/
namespace Verif.Cond
variable {V : Type}

/-! ## `graph.py`: `get_implicit_inputs`, `extract_sub_graph_nodes` -/

mutual
/-- The inputs and outputs of the nodes of all body graphs (graph.py:403-413). -/
def Node.inner : Node V → List String × List String
  | .op .. => ([], [])
  | .switch .. => ([], [])
  | .merge .. => ([], [])
  | .cond _ _ tn to_ en eo => ((innerAll tn).1 ++ to_ ++ ((innerAll en).1 ++ eo), (innerAll tn).2 ++ (innerAll en).2)

/-- The same for a list of nodes. -/
def innerAll : List (Node V) → List String × List String
  | [] => ([], [])
  | n :: l => (n.ins ++ n.inner.1 ++ (innerAll l).1, n.outs ++ n.inner.2 ++ (innerAll l).2)
end

/-- `top_node.input + top_node.get_implicit_inputs()` (graph.py:1532, 393-416). -/
def Node.uses (n : Node V) : List String := n.ins ++ n.inner.1.filter (fun x => decide (x ∉ n.inner.2))

/-- Is it a `Switch`? (cond_rewriter.py:220-221) -/
def Node.isSwitch : Node V → Bool
  | .switch .. => true
  | _ => false

/-- What stands for the node object. -/
def Node.key (n : Node V) : String := n.outs.headD ""

/-- One round of the loop over the inputs (graph.py:1533-1544): those that are neither done nor waiting are added. -/
def pushAll (res : List String) : List String → List String → List String
  | [], p => p
  | x :: xs, p => if x ∈ res ∨ x ∈ p then pushAll res xs p else pushAll res xs (x :: p)

/-- The `while` loop (graph.py:1529-1545). The fuel passed below suffices (`closeLoop_spec`). -/
def closeLoop (succ : String → List String) : Nat → List String → List String → List String
  | 0, _, res => res
  | _ + 1, [], res => res
  | k + 1, t :: ps, res => closeLoop succ k (pushAll (t :: res) (succ t) ps) (t :: res)

/-- The node objects among the producers of the inputs of a node that are followed: `stop_at_switch` refuses a `Switch` (cond_rewriter.py:268-272). -/
def succs (G : List (Node V)) (k : String) : List String :=
  match producer G k with
  | none => []
  | some n => n.uses.filterMap (fun x => (producer G x).bind (fun m => if m.isSwitch then none else some m.key))

/-- `extract_sub_graph_nodes([x], stop_at_switch)` (graph.py:1547-1569, cond_rewriter.py:274-281). -/
def branchKeys (G : List (Node V)) (x : String) : List String :=
  match producer G x with
  | none => []
  | some n => if n.isSwitch then [] else closeLoop (succs G) (G.length + 1) [n.key] []

/-- The node objects. -/
def nodesOf (G : List (Node V)) (keys : List String) : List (Node V) := keys.filterMap (producer G)

/-- The `Switch` nodes `stop_at_switch` has met. -/
def switchKeys (G : List (Node V)) (x : String) : List String :=
  (((x :: (nodesOf G (branchKeys G x)).flatMap Node.uses).filterMap (producer G)).filter Node.isSwitch).map Node.key

/-! ## Parsing -/

/-- `BranchType` (cond_rewriter.py:21-27). -/
inductive Branch
  | true
  | false
  | unknown
  deriving DecidableEq

/-- One input (cond_rewriter.py:318-328). A tensor nothing produces makes `_is_switch(None)` raise. -/
def typeStep (G : List (Node V)) (b : Branch) (x : String) : Except String Branch :=
  match producer G x with
  | none => .error "AttributeError: 'NoneType' object has no attribute 'type'"
  | some (.switch _ _ o0 _) =>
    if x = o0 then (if b = .true then .error "true and false graph intersect" else .ok .false)
    else (if b = .false then .error "true and false graph intersect" else .ok .true)
  | some _ => .ok b

/-- `_branch_type` (cond_rewriter.py:304-334). -/
def branchType (G : List (Node V)) (x : String) (nodes : List (Node V)) : Except String Branch :=
  if nodes.isEmpty then typeStep G .unknown x else (nodes.flatMap Node.ins).foldlM (typeStep G) .unknown

/-- What is known of one `Merge`. -/
structure Trace where
  trueKeys : List String
  trueOut : String
  falseKeys : List String
  falseOut : String
  switches : List String

/-- The comparison of the two types (cond_rewriter.py:284-301). -/
def decideBranches (t1 t2 : Branch) : Except String Bool :=
  if t1 = .unknown ∧ t2 = .unknown then .error "Cannot handle the case both true and false branchs only contain const nodes for now."
  else if t1 = t2 then .error "true graph and false graph are intersected"
  else .ok (decide (t1 = .true) || decide (t2 = .false))

/-- `_trace_back_from_one_merge` (cond_rewriter.py:256-302). -/
def traceOne (G : List (Node V)) (a b : String) : Except String Trace :=
  (branchType G a (nodesOf G (branchKeys G a))).bind (fun t1 =>
    (branchType G b (nodesOf G (branchKeys G b))).bind (fun t2 =>
      (decideBranches t1 t2).map (fun first =>
        if first then ⟨branchKeys G a, a, branchKeys G b, b, switchKeys G a ++ switchKeys G b⟩
        else ⟨branchKeys G b, b, branchKeys G a, a, switchKeys G a ++ switchKeys G b⟩)))

/-- `_trace_back` and `_parse_cond` (cond_rewriter.py:223-254): the traces of all `Merge` nodes of a scope. -/
def traceAll (G : List (Node V)) (ms : List (String × String × String)) : Except String (List Trace) :=
  ms.mapM (fun m => traceOne G m.1 m.2.1)

/-! ## Rewriting -/

/-- Recorded ranks and element types. -/
structure Info where
  rank : String → Option Nat
  dtype : String → Nat

/-- `_get_output_shape_dtype` (cond_rewriter.py:101-136). -/
def outputsOk (info : Info) (t : Trace) : Bool :=
  (info.rank t.trueOut).isSome && decide (info.rank t.trueOut = info.rank t.falseOut) && decide (info.dtype t.trueOut = info.dtype t.falseOut)

/-- The inputs and outputs of the `Switch` nodes. -/
def switchNodes (G : List (Node V)) (keys : List String) : List (String × String × String × String) :=
  keys.filterMap (fun k => match producer G k with
    | some (.switch d p o0 o1) => some (d, p, o0, o1)
    | _ => none)

/-- The Identity a `Switch` is replaced with (cond_rewriter.py:188-206). -/
def identity (x y : String) : Node V := .op "Identity" (fun vs => vs) [x] [y]

/-- The constant the predicate is, if it is one (cond_rewriter.py:140-143). -/
def constPred (G : List (Node V)) : Nat → String → Option (Node V)
  | 0, _ => none
  | fuel + 1, p =>
    match producer G p with
    | some (.op t f ins outs) =>
      if t = "Identity" then (ins.head?).bind (constPred G fuel) else if t = "Const" then some (.op t f ins outs) else none
    | _ => none

/-- What happens to one scope. -/
inductive Outcome (V : Type)
  /-- rewritten -/
  | done (G : List (Node V))
  /-- a warning is logged and the loop goes on (cond_rewriter.py:88-91) -/
  | skipped
  /-- the predicate is constant (cond_rewriter.py:143-151); not modelled further -/
  | folded
  /-- an exception leaves the rewriter -/
  | raised (e : String)

/-- The new graph (cond_rewriter.py:138-182, 92-98): the `If` node instead of the `Switch` and `Merge` nodes and those of the branches. -/
def ifGraph (G : List (Node V)) (ms : List (String × String × String)) (ts : List Trace) (p : String) : List (Node V) :=
  let tk := (ts.flatMap Trace.trueKeys).eraseDups
  let fk := (ts.flatMap Trace.falseKeys).eraseDups
  let sk := (ts.flatMap Trace.switches).eraseDups
  let sw := switchNodes G sk
  let gone := tk ++ fk ++ sk ++ ms.map (fun m => m.2.2)
  G.filter (fun n => decide (n.key ∉ gone)) ++
    [.cond p (ms.map (fun m => m.2.2)) (nodesOf G tk ++ sw.map (fun q => identity q.1 q.2.2.2)) (ts.map Trace.trueOut)
      (nodesOf G fk ++ sw.map (fun q => identity q.1 q.2.2.1)) (ts.map Trace.falseOut)]

/-- One round of the loop over the scopes (cond_rewriter.py:74-98); `ms` are the inputs and the output of its `Merge` nodes. A node of both branches is removed twice, which
raises; so does the removal of a `Merge` that is gone. -/
def rewriteScope (info : Info) (G : List (Node V)) (ms : List (String × String × String)) : Outcome V :=
  match traceAll G ms with
  | .error _ => .skipped
  | .ok ts =>
    match switchNodes G (ts.flatMap Trace.switches).eraseDups with
    | [] => .skipped
    | q :: _ =>
      if ¬ (∀ m ∈ ms, (producer G m.2.2).isSome) then .raised "node not in current graph, cannot remove"
      else if ¬ (∀ t ∈ ts, outputsOk info t) then .raised "Shape is None, or the rank or dtype of outputs mismatch"
      else if (constPred G (G.length + 1) q.2.1).isSome then .folded
      else if ∃ k ∈ ts.flatMap Trace.trueKeys, k ∈ ts.flatMap Trace.falseKeys then .raised "node not in current graph, cannot remove"
      else .done (ifGraph G ms ts q.2.1)

/-- The `Merge` nodes with their scopes, in the order of the sorted graph (cond_rewriter.py:61-70). -/
def merges (G : List (Node V)) : List (List String × String × String × String) :=
  G.filterMap (fun n => match n with
    | .merge name a b o => some (scopeOf name, a, b, o)
    | _ => none)

/-- The scopes in the order of their first `Merge`. -/
def scopes (G : List (Node V)) : List (List String) := ((merges G).map (fun m => m.1)).eraseDups

/-- The `Merge` nodes of a scope. -/
def mergesOf (G : List (Node V)) (s : List String) : List (String × String × String) :=
  ((merges G).filter (fun m => decide (m.1 = s))).map (fun m => m.2)

/-- The loop (cond_rewriter.py:74-98); `G₀` is the graph at the beginning. -/
def runScopes (info : Info) (G₀ : List (Node V)) : List (List String) → List (Node V) → Except String (List (Node V) × List (List String))
  | [], G => .ok (G, [])
  | s :: l, G =>
    match rewriteScope info G (mergesOf G₀ s) with
    | .done G' => runScopes info G₀ l G'
    | .skipped => (runScopes info G₀ l G).map (fun r => (r.1, s :: r.2))
    | .folded => .error "not modelled: constant predicate"
    | .raised e => .error e

/-- `CondRewriter.run` (cond_rewriter.py:53-100) on a sorted graph: the new graph and the scopes that are left as they are. -/
def rewriteCond (info : Info) (G : List (Node V)) : Except String (List (Node V) × List (List String)) := runScopes info G (scopes G) G

end Verif.Cond
