import Verif.Props.C44_LeakyRelu
import Verif.Props.C43_QDQ
import Mathlib.Data.List.Dedup
/-!
# C44: elementwise arithmetic satisfies the law, a concrete case, and the case in which the property is false
-/
namespace Verif.Graph
open Verif Matcher

/-! ## Elementwise arithmetic satisfies the law -/

/-- A binary operation elementwise, a one-element operand being broadcast. -/
def bcast (f : Rat → Rat → Rat) : List Rat → List Rat → List Rat
  | [a], ys => ys.map (f a)
  | xs, [b] => xs.map (f · b)
  | xs, ys => List.zipWith f xs ys

theorem bcast_scalar_left (f : Rat → Rat → Rat) (a : Rat) (ys : List Rat) : bcast f [a] ys = ys.map (f a) := by
  cases ys <;> rfl

theorem bcast_scalar_right (f : Rat → Rat → Rat) (xs : List Rat) (b : Rat) : bcast f xs [b] = xs.map (f · b) := by
  rcases xs with _ | ⟨a, _ | ⟨c, xs⟩⟩ <;> rfl

theorem bcast_map_left (f : Rat → Rat → Rat) (h : Rat → Rat) (xs : List Rat) :
    bcast f (xs.map h) xs = xs.map (fun x => f (h x) x) := by
  rcases xs with _ | ⟨a, _ | ⟨b, xs⟩⟩
  · rfl
  · rfl
  · simp only [List.map_cons, bcast, List.zipWith_cons_cons]
    congr 2
    induction xs with
    | nil => rfl
    | cons c xs ih => simp [ih]

theorem bcast_map_right (f : Rat → Rat → Rat) (h : Rat → Rat) (xs : List Rat) :
    bcast f xs (xs.map h) = xs.map (fun x => f x (h x)) := by
  rcases xs with _ | ⟨a, _ | ⟨b, xs⟩⟩
  · rfl
  · rfl
  · simp only [List.map_cons, bcast, List.zipWith_cons_cons]
    congr 2
    induction xs with
    | nil => rfl
    | cons c xs ih => simp [ih]

/-- The leaky rectifier of one number, as ONNX defines it. -/
def leaky (a x : Rat) : Rat := if 0 ≤ x then x else a * x

theorem leaky_eq_max {a x : Rat} (ha : a < 1) : max (a * x) x = leaky a x := by
  unfold leaky
  split
  · rename_i h
    refine max_eq_right ?_
    have := mul_le_mul_of_nonneg_right ha.le h
    simpa using this
  · rename_i h
    refine max_eq_left ?_
    have := mul_le_mul_of_nonpos_right ha.le (not_le.1 h).le
    simpa using this

/-- The element of a scalar literal; `val` decodes a stored element. -/
def litOf (val : Int → Rat) (t : Tensor) : Rat := val (t.data.headD 0)

/-- `Const`, `Mul`, `Maximum`, `LeakyRelu`, `Relu` on lists of numbers; everything else passes its first operand on. -/
def leakyInterp (val : Int → Rat) : Interp (List Rat) := fun op _ attr args _ =>
  if op = "Const" then
    match Dict.get attr "value" with
    | some (.tensor t) => if t.dims = [] then [litOf val t] else t.data.map val
    | _ => []
  else if op = "Mul" then bcast (· * ·) (operand args 0) (operand args 1)
  else if op = "Maximum" then bcast max (operand args 0) (operand args 1)
  else if op = "LeakyRelu" then
    match Dict.get attr "alpha" with
    | some (.tensor t) => (operand args 0).map (leaky (litOf val t))
    | _ => []
  else if op = "Relu" then (operand args 0).map (max 0)
  else operand args 0

theorem leakyInterp_law (val : Int → Rat) :
    LeakyLaw (fun t => decide (1 ≤ litOf val t)) (List Rat) (leakyInterp val) := by
  intro t ca ma xa x hd hge hc c m hm
  have hlt : litOf val t < 1 := by simpa using hge
  have hcv : c = [litOf val t] := by simp [c, leakyInterp, hc, hd]
  have hmv : m = x.map (litOf val t * ·) := by
    rcases hm with rfl | rfl
    · simp [leakyInterp, operand, hcv, bcast_scalar_left]
    · simp only [leakyInterp, operand, hcv]
      simp only [if_neg (show "Mul" ≠ "Const" by decide), if_true]
      show bcast _ x [_] = _
      rw [bcast_scalar_right]
      simp only [mul_comm]
  have hr : leakyInterp val "LeakyRelu" "" [("alpha", .tensor t)] [some x] 0 = x.map (leaky (litOf val t)) := by
    simp [leakyInterp, operand, Dict.get]
  rw [hr, hmv]
  constructor
  · show bcast max (x.map _) x = _
    rw [bcast_map_left]
    exact List.map_congr_left fun y _ => leaky_eq_max hlt
  · show bcast max x (x.map _) = _
    rw [bcast_map_right]
    refine List.map_congr_left fun y _ => ?_
    rw [max_comm]
    exact leaky_eq_max hlt

/-! ## A concrete case -/

/-- `out = Identity(max(r, r * a))` with `r = Relu(max(a * x, x))`: two leaky rectifiers, operands both ways round, sharing
the constant. -/
def leakyScript : List Edit :=
  [.addGraphInput "px" "x", .makeNode "Const" [] "ca" ["a"] [("value", .tensor ⟨1, [], [0]⟩)] "",
   .makeNode "Mul" ["a", "x"] "m1" ["ax"] [] "", .makeNode "Maximum" ["ax", "x"] "n1" ["y"] [] "",
   .makeNode "Relu" ["y"] "rl" ["r"] [] "",
   .makeNode "Mul" ["r", "a"] "m2" ["ar"] [] "", .makeNode "Maximum" ["r", "ar"] "n2" ["z"] [] "",
   .makeNode "Identity" ["z"] "id" ["out"] [] "", .addGraphOutput "out"]

/-- The graph of the script. -/
def leakyGraph : G := match G.run {} leakyScript with
  | .ok g => g
  | .error _ => {}

theorem leakyGraph_run : G.run {} leakyScript = .ok leakyGraph := rfl

theorem leakyGraph_nodes : leakyGraph.nodes = [0, 1, 2, 3, 4, 5, 6, 7] := rfl

/-- Sets of nodes are iterated in the order of the list they were made from. -/
def exOrder (l : List Ref) : List Ref := l.dedup

theorem exOrder_set : SetOrder exOrder := fun l => ⟨l.nodup_dedup, fun _ => List.mem_dedup⟩

/-- The names of the example's new tensors are longer than four characters. -/
theorem outName_long (k : Nat) : 5 ≤ (outName exFresh k).length := by
  have h3 : "new".length = 3 := rfl
  have h2 : ":0".length = 2 := rfl
  simp only [outName, exFresh, String.length_append, h3, h2]
  omega

/-- A graph of short tensor names uses none of the example's new names. -/
theorem unused_of_short {g : G}
    (h : ∀ r ∈ g.nodes, (∀ y ∈ (g.node r).input, y.length < 5) ∧ ∀ y ∈ (g.node r).output, y.length < 5)
    (ho : ∀ y ∈ g.outputs, y.length < 5) : Unused exFresh g := by
  intro k _
  have h5 := outName_long k
  refine ⟨fun r hr => ⟨fun hc => ?_, fun hc => ?_⟩, fun hc => ?_⟩
  · have := (h r hr).1 _ hc; omega
  · have := (h r hr).2 _ hc; omega
  · have := ho _ hc; omega

/-- Both rectifiers are found; the second is found with the operands exchanged. The new nodes are listed twice. -/
theorem leakyGraph_rewritten : ∃ g', leakyGraph.rewriteLeakyRelu exFresh exOrder (fun _ => false) 10 = .ok g' ∧
    g'.nodeList.map (fun n => (n.op, n.input, n.output)) =
      [("Placeholder", [], ["x"]), ("Const", [], ["a"]), ("Relu", ["new'''''''':0"], ["r"]),
       ("Identity", ["new''''''''':0"], ["out"]),
       ("LeakyRelu", ["x"], ["new'''''''':0"]), ("LeakyRelu", ["x"], ["new'''''''':0"]),
       ("LeakyRelu", ["r"], ["new''''''''':0"]), ("LeakyRelu", ["r"], ["new''''''''':0"])] := ⟨_, rfl, by decide⟩

/-- The theorem applies to the example, with arithmetic on lists of numbers. -/
example : ∃ g', leakyGraph.rewriteLeakyRelu exFresh exOrder (fun _ => false) 10 = .ok g' ∧
    SameModel (LeakyLaw (fun _ => false)) leakyGraph g' := by
  have hsafe := run_building (s := leakyScript) (by decide) .empty leakyGraph_run
  obtain ⟨g', hg', _⟩ := leakyGraph_rewritten
  refine ⟨g', hg', leakyrelu_preserves_model_partial exFresh_fresh exOrder_set hsafe.reachable hsafe.idx ⟨_, .refl _, by decide⟩
    (by decide) (unused_of_short (by decide) (by decide)) ?_ (by decide) (by decide) ?_ hg'⟩
  swap
  · have hd : ∀ r ∈ leakyGraph.nodes, ∀ q ∈ leakyGraph.nodes, (leakyGraph.node r).op = "Maximum" →
      (leakyGraph.node q).op = "Maximum" → ∀ o ∈ (leakyGraph.node r).output, o ∉ (leakyGraph.node q).input := by decide
    exact fun r hr q hq x y h1 h2 ho => hd r hr q hq h1.reads.1 h2.reads.1 y ho h2.reads.2
  intro r hr ho
  rw [leakyGraph_nodes] at hr
  simp only [List.mem_cons, List.not_mem_nil, or_false] at hr
  rcases hr with rfl | rfl | rfl | rfl | rfl | rfl | rfl | rfl
  · exact absurd ho (by decide)
  · exact ⟨rfl, ⟨"a", rfl, by decide⟩, by decide⟩
  · exact ⟨rfl, ⟨"ax", rfl, by decide⟩, by decide⟩
  · exact ⟨rfl, ⟨"y", rfl, by decide⟩, by decide⟩
  · exact absurd ho (by decide)
  · exact ⟨rfl, ⟨"ar", rfl, by decide⟩, by decide⟩
  · exact ⟨rfl, ⟨"z", rfl, by decide⟩, by decide⟩
  · exact absurd ho (by decide)

/-! ## Where it is false -/

/-- Two leaky rectifiers one after the other. -/
def leakyChainScript : List Edit :=
  [.addGraphInput "px" "x", .makeNode "Const" [] "ca" ["a"] [("value", .tensor ⟨1, [], [0]⟩)] "",
   .makeNode "Mul" ["a", "x"] "m1" ["ax"] [] "", .makeNode "Maximum" ["ax", "x"] "n1" ["y"] [] "",
   .makeNode "Mul" ["a", "y"] "m2" ["ay"] [] "", .makeNode "Maximum" ["ay", "y"] "n2" ["z"] [] "",
   .makeNode "Identity" ["z"] "id" ["out"] [] "", .addGraphOutput "out"]

/-- The rewriter breaks a chain of two leaky rectifiers: the second `LeakyRelu` reads a tensor that no node of the resulting graph
produces, because its name was taken from the match made before the first replacement. -/
theorem leakyrelu_chain_violated : ∃ g g', G.run {} leakyChainScript = .ok g ∧ ReachableSafe g ∧ Acyclic g.nodeList ∧
    g.rewriteLeakyRelu exFresh exOrder (fun _ => false) 10 = .ok g' ∧
    ∃ r ∈ g'.nodes, (g'.node r).op = "LeakyRelu" ∧ ∃ x ∈ (g'.node r).input, x ≠ "" ∧
      (∃ q ∈ g.nodes, x ∈ (g.node q).output) ∧ ∀ q ∈ g'.nodes, x ∉ (g'.node q).output := by
  refine ⟨_, _, rfl, run_building (s := leakyChainScript) (by decide) .empty rfl, ⟨_, .refl _, by decide⟩, rfl, 8, by decide, by rfl,
    "y", by decide, by decide, ⟨3, by decide, by decide⟩, by decide⟩

end Verif.Graph
