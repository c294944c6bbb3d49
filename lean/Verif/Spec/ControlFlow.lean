import Verif.Spec.Semantics
/-!
# What functions, conditionals and loops mean

Independent of how `tf2onnx` is implemented. A function is a graph; calling it feeds its inputs, and names it reads but does not produce are those
of the surrounding graph.
-/
namespace Verif.Graph
open Verif
variable {V : Type}

/-- The tensors a function is called with, in order. -/
def G.params (f : G) : List String := f.inputs.flatMap (fun r => (f.node r).output)

/-- Called with `args` in a graph whose tensors have the values `outer`, the function returns `outs`. -/
def Returns (I : Interp V) (outer : String → V) (f : G) (args outs : List V) : Prop :=
  ∃ env, f.params.map env = args ∧ (∀ x, x ∉ f.params → env x = outer x) ∧ Computes I f env outs

/-- What a function graph looks like after conversion: its inputs are its placeholders, one tensor each; every other node reads tensors the graph
produces, in order; all tensors have names; it returns distinct tensors of its own. -/
structure Func (f : G) : Prop where
  inputs : ∀ r ∈ f.inputs, r ∈ f.nodes ∧ (f.node r).isGraphInput = true ∧ (f.node r).input = [] ∧ ∃ x, (f.node r).output = [x]
  all : ∀ r ∈ f.nodes, (f.node r).isGraphInput = true → r ∈ f.inputs
  nodup : f.inputs.Nodup
  exec : Executable f.nodeList
  closed : ∀ n ∈ f.nodeList, ∀ i ∈ n.input, i ≠ "" → ∃ m ∈ f.nodeList, i ∈ m.output
  named : ∀ n ∈ f.nodeList, "" ∉ n.output
  results : ∀ o ∈ f.outputs, ∃ m ∈ f.nodeList, o ∈ m.output
  distinct : f.outputs.Nodup

/-- All operators of the graph are of the ONNX domain. -/
def Plain (f : G) : Prop := ∀ n ∈ f.nodeList, n.isGraphInput = false → n.domain = ""

/-- A tensor the graph produces. -/
def G.Produces (f : G) (x : String) : Prop := ∃ n ∈ f.nodeList, x ∈ n.output

/-- The tensor passed for a parameter is not called like a tensor the function produces before the placeholder of that parameter. -/
def NoCapture (f : G) (args : List String) : Prop :=
  ∀ a n b, f.nodeList = a ++ n :: b → ∀ p ∈ n.output, ∀ x, (p, x) ∈ f.params.zip args → ∀ m ∈ a, x ∉ m.output

/-- The names of tensors of the surrounding graph that can be passed: not empty, not reserved. -/
def Passable (args : List String) : Prop := "" ∉ args ∧ "@@ALLOC" ∉ args

/-- TensorFlow's `If`, `StatelessIf`: the function chosen by the condition is called. -/
def TfIf (truth : V → Bool) (c : V) (thenF elseF : List V → List V → Prop) (args outs : List V) : Prop :=
  if truth c then thenF args outs else elseF args outs

/-- ONNX `If`: the branch chosen by the condition has no inputs. -/
def OnnxIf (truth : V → Bool) (c : V) (thenB elseB : List V → Prop) (outs : List V) : Prop :=
  if truth c then thenB outs else elseB outs

/-- The equations of all nodes except the one called `name`, whose outputs are related by `R`. -/
def SatWith (I : Interp V) (env e : String → V) (ns : List Node) (name : String) (R : List V → Prop) : Prop :=
  (∀ n ∈ ns, n.name ≠ name → NodeSat I env e n) ∧ (∀ n ∈ ns, n.name = name → R (n.output.map e)) ∧ ∀ x, Unproduced ns x → e x = env x

/-- TensorFlow's `While`: as long as the condition function holds of the loop variables, they become what the body function returns
(`truth` reads a boolean). -/
inductive TfWhile (truth : V → Bool) (cond : List V → V → Prop) (body : List V → List V → Prop) : List V → List V → Prop
  | done {s : List V} {c : V} : cond s c → truth c = false → TfWhile truth cond body s s
  | step {s s' t : List V} {c : V} : cond s c → truth c = true → body s s' → TfWhile truth cond body s' t → TfWhile truth cond body s t

/-- ONNX `Loop` before iteration `i`, with trip count `trip` (`none`: not given) and current condition `k`: the body gets the iteration number, the
condition and the loop variables, and returns the next condition and loop variables (`num i` is the int64 scalar `i`). -/
inductive OnnxLoop (truth : V → Bool) (num : Nat → V) (body : List V → List V → Prop) (trip : Option Int) : Nat → V → List V → List V → Prop
  | trips {i : Nat} {k : V} {s : List V} {m : Int} : trip = some m → m ≤ i → OnnxLoop truth num body trip i k s s
  | cond {i : Nat} {k : V} {s : List V} : truth k = false → OnnxLoop truth num body trip i k s s
  | step {i : Nat} {k k' : V} {s s' t : List V} : (∀ m, trip = some m → (i : Int) < m) → truth k = true →
      body (num i :: k :: s) (k' :: s') → OnnxLoop truth num body trip (i + 1) k' s' t → OnnxLoop truth num body trip i k s t

end Verif.Graph
