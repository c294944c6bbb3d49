import Verif.Model.Graph
/-!
# What a graph computes

Independent of how `tf2onnx` is implemented: an operator is an arbitrary deterministic function of its type, domain,
attributes and input values, one value per output position; a graph is the system of equations its nodes state between
tensor values. `""` is an absent optional input or output (ONNX convention).
-/
namespace Verif.Graph
open Verif

/-- A meaning of all operators: `I op domain attributes inputs j` is the value of output `j`. -/
abbrev Interp (V : Type) := String → String → Dict String Attr → List (Option V) → Nat → V

/-- The value an input slot receives. -/
def argVal {V : Type} (e : String → V) (i : String) : Option V := if i = "" then none else some (e i)

/-- The values a node receives. -/
def argVals {V : Type} (e : String → V) (n : Node) : List (Option V) := n.input.map (argVal e)

/-- A node's equations: a graph input shows the value fed by the environment, any other node the value of its
operator applied to its inputs. -/
def NodeSat {V : Type} (I : Interp V) (env e : String → V) (n : Node) : Prop :=
  ∀ j o, n.output[j]? = some o → o ≠ "" →
    e o = if n.isGraphInput then env o else I n.op n.domain n.attr (argVals e n) j

/-- A tensor name nobody in the list produces (`""` is no tensor). -/
def Unproduced (ns : List Node) (x : String) : Prop := x = "" ∨ ∀ n ∈ ns, x ∉ n.output

/-- `e` is a valuation of the nodes: all equations hold, and names the nodes do not produce (values captured from an
outer scope) are the environment's. -/
def Sat {V : Type} (I : Interp V) (env e : String → V) (ns : List Node) : Prop :=
  (∀ n ∈ ns, NodeSat I env e n) ∧ ∀ x, Unproduced ns x → e x = env x

/-- The nodes of a graph, dereferenced. -/
def G.nodeList (g : G) : List Node := g.nodes.map g.node

/-- `out` is a result of the graph under the fed values `env`. -/
def Computes {V : Type} (I : Interp V) (g : G) (env : String → V) (out : List V) : Prop :=
  ∃ e, Sat I env e g.nodeList ∧ out = g.outputs.map e

/-- Two graphs are the same model: same output names in the same order, same graph inputs, and for every meaning of
the operators satisfying `P`, every fed values give the same results. -/
structure SameModel (P : ∀ V : Type, Interp V → Prop) (g g' : G) : Prop where
  outputs : g'.outputs = g.outputs
  inputs : g'.inputs.map (fun r => (g'.node r).output) = g.inputs.map (fun r => (g.node r).output)
  values : ∀ (V : Type) (I : Interp V), P V I → ∀ env out, Computes I g' env out ↔ Computes I g env out

/-- Nodes in executable order: each node only reads tensors produced strictly before it or by nobody. -/
def Executable : List Node → Prop
  | [] => True
  | n :: ns => (∀ i ∈ n.input, i ≠ "" → ∀ m ∈ n :: ns, i ∉ m.output) ∧ Executable ns

/-- Some order of the nodes is executable: the graph has no cycle. -/
def Acyclic (ns : List Node) : Prop := ∃ l, l.Perm ns ∧ Executable l

/-- Distinct nodes produce distinct tensors, and a node's own output names are distinct (C06). -/
def UniqueOutputs (ns : List Node) : Prop := (ns.flatMap (fun n => n.output.filter (· ≠ ""))).Nodup

/-- Running one node: bind its output names. -/
def execNode {V : Type} (I : Interp V) (env : String → V) (e : String → V) (n : Node) : String → V :=
  fun x => if x = "" then e x else
    match n.output.findIdx? (· = x) with
    | none => e x
    | some j => if n.isGraphInput then env x else I n.op n.domain n.attr (argVals e n) j

/-- Running the nodes in order, as an ONNX runtime does. -/
def exec {V : Type} (I : Interp V) (env : String → V) (ns : List Node) : String → V :=
  ns.foldl (execNode I env) env

end Verif.Graph
