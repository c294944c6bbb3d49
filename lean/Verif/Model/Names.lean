import Verif.Spec.Decimal
/-!
# Model of the naming helpers of `tf2onnx/utils.py`
-/
namespace Verif.Names
open Verif Decimal

/-- `utils.make_name` (tf2onnx/utils.py:96-100).  The module global `INTERNAL_NAME` is the state:
`INTERNAL_NAME += 1; return "{}__{}".format(name, INTERNAL_NAME)`. -/
def makeName (counter : Nat) (base : Str) : Nat × Str :=
  let counter := counter + 1
  (counter, base ++ ['_', '_'] ++ render counter)

/-- A history of `make_name` calls from a given counter (tf2onnx/utils.py:96-100 iterated). -/
def makeNames (counter : Nat) : List Str → Nat × List Str
  | [] => (counter, [])
  | b :: bs =>
    let (c, n) := makeName counter b
    let (c', ns) := makeNames c bs
    (c', n :: ns)

/-- Matches `__(\d+)$` at the end of a *reversed* string: the maximal run of digits, then `__`
(tf2onnx/utils.py:244, the regex without its optional group).  Since the run of digits must be preceded by
an underscore, the maximal run is the only one that can match.
Simplification: ASCII digits; `$` does not match before a trailing newline. -/
def suffixRev (r : Str) : Option Nat :=
  let d := r.takeWhile isDigit
  match d, r.dropWhile isDigit with
  | [], _ => none
  | d, '_' :: '_' :: _ => some (parse d.reverse)
  | _, _ => none

/-- `suffix_regex.search(name)` with `suffix_regex = re.compile(r"__(\d+)(:\d+)?$")`; the result is
`int(suffix.group(1))` (tf2onnx/utils.py:244-249). First the form without the optional `:port` group,
then the form with it (at most one of the two can match). -/
def suffixNumber (name : Str) : Option Nat :=
  let r := name.reverse
  match suffixRev r with
  | some k => some k
  | none =>
    match r.takeWhile isDigit, r.dropWhile isDigit with
    | [], _ => none
    | _, ':' :: rest => suffixRev rest
    | _, _ => none

/-- `avoid_name` (tf2onnx/utils.py:245-249). -/
def avoidName (counter : Nat) (name : Str) : Nat :=
  match suffixNumber name with
  | some k => max counter (k + 1)
  | none => counter

/-- The part of an ONNX `GraphProto` the name counter looks at (plus the names it does not look at:
`inputs` and `initializers`). Bodies are reached through node attributes. -/
inductive ProtoGraph where
  | mk (inputs initializers : List Str) (nodes : List (Str × List Str)) (bodies : List ProtoGraph)

/-- Number of graphs in a nest (termination measure only). -/
def ProtoGraph.size : ProtoGraph → Nat
  | .mk _ _ _ bodies => 1 + (bodies.attach.map (fun b => b.1.size)).sum
decreasing_by
  have := List.sizeOf_lt_of_mem b.2
  simp; omega

/-- Bodies of a graph: `attr.g` / `attr.graphs` over the attributes of its nodes, in order. -/
def ProtoGraph.bodies : ProtoGraph → List ProtoGraph
  | .mk _ _ _ bs => bs

/-- Names `initialize_name_counter` looks at in one graph (tf2onnx/utils.py:251-254). -/
def ProtoGraph.nodeNames : ProtoGraph → List Str
  | .mk _ _ nodes _ => nodes.flatMap (fun n => n.1 :: n.2)

theorem ProtoGraph.size_bodies (g : ProtoGraph) : g.size = 1 + (g.bodies.map ProtoGraph.size).sum := by
  cases g; rw [ProtoGraph.size]; simp [ProtoGraph.bodies]

/-- `get_subgraphs_from_onnx` (tf2onnx/utils.py:228-239): depth first with an explicit stack. The head of the
list is the top of the stack; bodies are pushed in order, so they end up reversed on top.  Simplification: the
empty default `attr.g` of protobuf, which holds no node, is not pushed. -/
def subgraphsFrom (stack : List ProtoGraph) : List ProtoGraph :=
  match stack with
  | [] => []
  | g :: rest => g :: subgraphsFrom (g.bodies.reverse ++ rest)
termination_by (stack.map ProtoGraph.size).sum
decreasing_by
  simp [ProtoGraph.size_bodies g, List.sum_reverse]

/-- `initialize_name_counter` (tf2onnx/utils.py:242-254). -/
def initializeNameCounter (counter : Nat) (g : ProtoGraph) : Nat :=
  (subgraphsFrom [g]).foldl (fun c sg => sg.nodeNames.foldl avoidName c) counter

/-- `utils.node_name` (tf2onnx/utils.py:135-140): everything before the first `':'`. -/
def nodeName (name : Str) : Str := name.takeWhile (· != ':')

/-- `utils.port_name` (tf2onnx/utils.py:151-153) for `nr >= 0`. -/
def portName (name : Str) (nr : Nat := 0) : Str := name ++ [':'] ++ render nr

end Verif.Names
