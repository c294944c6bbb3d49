import Verif.Model.Graph
/-!
# Model of `Graph.topological_sort` (tf2onnx/graph.py:1026-1086)

`implicit r` stands for `node.get_implicit_inputs()`: the outer-scope names used inside the node's body graphs.
The graph has no parent graph (the top-level graph being exported). Nodes are identified by object reference instead of
by list index.
-/
namespace Verif.Graph
open Verif

/-- All names a node depends on (tf2onnx/graph.py:1049-1053): `set(op.input) | set(implicit_inputs)` without `''`.
Python iterates over `sorted(all_input)`; the order of edges does not matter for what is proved. -/
def G.allInputs (g : G) (implicit : Ref → List String) (r : Ref) : List String :=
  ((g.node r).input ++ implicit r).filter (· ≠ "")

/-- Edges added for one op (tf2onnx/graph.py:1054-1061): `g[op_name_to_index[j.name]].append(i)`; the lookup raises
`KeyError` if the producer is not in `ops`. -/
def G.edgesOf (g : G) (ops : List Ref) (i : Ref) : List String → Except String (List (Ref × Ref))
  | [] => .ok []
  | x :: xs =>
    match g.getNodeByOutput x with
    | none => .error "make_sure failure: Cannot find node with output"
    | some j => if j ∈ ops then do
        let es ← g.edgesOf ops i xs
        .ok ((j, i) :: es)
      else .error "KeyError"

/-- The adjacency lists `g` (tf2onnx/graph.py:1043-1061), as a list of (producer, consumer) pairs. -/
def G.edges (g : G) (implicit : Ref → List String) (ops : List Ref) : List Ref → Except String (List (Ref × Ref))
  | [] => .ok []
  | i :: is => do
    let a ← g.edgesOf ops i (g.allInputs implicit i)
    let b ← g.edges implicit ops is
    .ok (a ++ b)

/-- `g[node]`. -/
def children (es : List (Ref × Ref)) (v : Ref) : List Ref := (es.filter (fun p => p.1 = v)).map (·.2)

/-- State of the depth first search. The head of `stack` is `stack[-1]`; `ret` lists the finished nodes by increasing
label (labels are handed out downwards from `n - 1`, so the last finished node comes first). `in_stack` always holds
exactly the elements of `stack`. -/
structure DFS where
  notVisited : List Ref
  stack : List Ref
  ret : List Ref

/-- The two nested `while` loops (tf2onnx/graph.py:1070-1083), one stack operation per unit of fuel. -/
def dfs (es : List (Ref × Ref)) : Nat → DFS → Except String (List Ref)
  | 0, _ => .error "out of fuel"
  | fuel + 1, s =>
    match s.stack with
    | [] =>
      match s.notVisited with
      | [] => .ok s.ret
      | v :: _ => dfs es fuel { s with stack := [v] }
    | t :: st =>
      match (children es t).find? (· ∈ s.notVisited) with
      | some c =>
        if c ∈ t :: st then .error "ValueError: Graph has cycles"
        else dfs es fuel { s with stack := c :: t :: st }
      | none => dfs es fuel { notVisited := s.notVisited.erase t, stack := st, ret := t :: s.ret }

/-- Insert into a list sorted by name, after equal keys' predecessors. -/
def G.insertByName (g : G) (r : Ref) : List Ref → List Ref
  | [] => [r]
  | a :: as => if (g.node r).name ≤ (g.node a).name then r :: a :: as else a :: g.insertByName r as

/-- `ops.sort(key=lambda op: op.name)` (tf2onnx/graph.py:1029); names are unique, so any sort gives this list. -/
def G.sortByName (g : G) : List Ref → List Ref
  | [] => []
  | r :: rs => g.insertByName r (g.sortByName rs)

/-- The list `ret` handed to `reset_nodes` (tf2onnx/graph.py:1026-1085). `2 n + 1` stack operations always suffice
(`Verif.Graph.dfs_fuel`). -/
def G.sortNodes (g : G) (implicit : Ref → List String) (ops : List Ref) : Except String (List Ref) := do
  let ops := g.sortByName ops
  let es ← g.edges implicit ops ops
  dfs es (2 * ops.length + 1) { notVisited := ops, stack := [], ret := [] }

/-- `Graph.topological_sort(ops)` (tf2onnx/graph.py:1026-1086). -/
def G.topologicalSort (g : G) (implicit : Ref → List String) (ops : List Ref) : Except String G := do
  let ret ← g.sortNodes implicit ops
  g.resetNodes ret

end Verif.Graph
