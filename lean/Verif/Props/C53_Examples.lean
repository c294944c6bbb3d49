import Verif.Props.AxisWitness
import Verif.Props.C49_Examples
import Verif.Props.C53_Reduce
import Verif.Props.C53_Tensor
import Verif.Props.C53_Shape
import Verif.Props.C53_Expand
import Verif.Props.C53_AllAny
import Verif.Props.C53_Concat
/-!
# C53: concrete cases
-/
namespace Verif.Graph
open Verif Verif.Elem Verif.Cast

/-- All hypotheses about operators can be met together, for every operator set. -/
theorem axis_exists (v : Nat) : ∃ I A T K cast, OnnxAxisOps v I A ∧ TfAxisOps I A ∧ ConstOps I ∧ ArrLaws A ∧ OnnxOps v I K cast ∧ TfOps I T ∧ ElemLaws T K := by
  obtain ⟨cast, hc⟩ := conforming_exists
  exact ⟨axInterp cast, exArr, exT, exK, cast, axInterp_onnxAxis cast v, axInterp_tfAxis cast, axInterp_const cast, exArr_laws, axInterp_onnx hc v,
    axInterp_tf cast, exLaws⟩

/-- A handler run on a concrete graph, with a meaning of the operators: what becomes of the graph, and for which operands it computes the same. -/
def ShownAx (v : Nat) (run : G → Ref → Except String G) (s : List Edit) (r : Ref) (view : List (String × String × List String × List String))
    (D : Arr → List (Option (Ten Val)) → Prop) : Prop :=
  ∃ g' I A T K cast, OnnxAxisOps v I A ∧ TfAxisOps I A ∧ ConstOps I ∧ ArrLaws A ∧ OnnxOps v I K cast ∧ TfOps I T ∧ ElemLaws T K ∧
    run (graphOf s) r = .ok g' ∧ g'.view = view ∧ ConvStep I (D A) exFresh (graphOf s) r g'

/-- The graph after a run. -/
def runView (run : G → Ref → Except String G) (s : List Edit) (r : Ref) : Option (List (String × String × List String × List String)) :=
  match run (graphOf s) r with
  | .ok g' => some g'.view
  | .error _ => none

theorem ShownAx.of {v : Nat} {run : G → Ref → Except String G} {s : List Edit} {r : Ref} {view : List (String × String × List String × List String)}
    {D : Arr → List (Option (Ten Val)) → Prop} (h1 : runView run s r = some view)
    (h : ∀ g' I A T K cast, OnnxAxisOps v I A → TfAxisOps I A → ConstOps I → ArrLaws A → OnnxOps v I K cast → TfOps I T → ElemLaws T K →
      run (graphOf s) r = .ok g' → ConvStep I (D A) exFresh (graphOf s) r g') : ShownAx v run s r view D := by
  unfold runView at h1
  obtain ⟨I, A, T, K, cast, a, b, c, d, e, f, k⟩ := axis_exists v
  cases hr : run (graphOf s) r with
  | error m => rw [hr] at h1; cases h1
  | ok g' =>
    rw [hr] at h1
    exact ⟨g', I, A, T, K, cast, a, b, c, d, e, f, k, hr, Option.some.inj h1, h g' I A T K cast a b c d e f k hr⟩

/-- `o = Identity(op(x, c))` with a constant `c`; a recorded shape of `x`. -/
def axScript (op : String) (attr : Dict String Attr) (W : Tensor) (t u : Nat) (sh : Shapes.Shape) : List Edit :=
  [.addGraphInput "px" "x", .makeNode "Const" [] "c" ["c"] [("value", .tensor W)] "", .makeNode op ["x", "c"] "nd" ["z"] attr "tf",
   .makeNode "Identity" ["z"] "id" ["o"] [] "", .addGraphOutput "o", .setDtype "x" t, .setDtype "c" W.dtype, .setDtype "z" u, .setShape "x" sh]

/-- `o = Identity(op(x))`. -/
def ax1Script (op : String) (attr : Dict String Attr) (t u : Nat) (sh : Shapes.Shape) : List Edit :=
  [.addGraphInput "px" "x", .makeNode op ["x"] "nd" ["z"] attr "tf",
   .makeNode "Identity" ["z"] "id" ["o"] [] "", .addGraphOutput "o", .setDtype "x" t, .setDtype "z" u, .setShape "x" sh]

/-- What `Site` asks of a node of a script, as a check. -/
def okSite (s : List Edit) (r : Ref) (nd : Node) : Bool :=
  decide ((G.run {} s).toBool = true ∧ (∀ e ∈ s, Building e) ∧ Executable (graphOf s).nodeList ∧
    (∀ r ∈ (graphOf s).inputs, ((graphOf s).node r).isGraphInput = true ∧ r ∈ (graphOf s).nodes) ∧
    (∀ r ∈ (graphOf s).nodes, (∀ y ∈ ((graphOf s).node r).input, y.length < 3) ∧ ∀ y ∈ ((graphOf s).node r).output, y.length < 3) ∧
    (∀ y ∈ (graphOf s).outputs, y.length < 3) ∧ r ∈ (graphOf s).nodes ∧ (graphOf s).node r = nd ∧ nd.domain = "tf" ∧ nd.name ≠ "" ∧
    nd.op ∉ ["Const", "Placeholder", "PlaceholderWithDefault", "PlaceholderV2"])

theorem graphOf_run {s : List Edit} (h : (G.run {} s).toBool = true) : G.run {} s = .ok (graphOf s) := by
  unfold graphOf
  cases e : G.run {} s with
  | ok g => rfl
  | error m => rw [e] at h; cases h

theorem Site.of_check {s : List Edit} {r : Ref} {name op o : String} {attr : Dict String Attr} {xs : List String}
    (h : okSite s r ⟨name, op, "tf", attr, xs, [o]⟩ = true) (ho : o ≠ "") : Site exFresh (graphOf s) r name op attr xs o := by
  obtain ⟨h1, h2, h3, h4, h5, h6, h7, h8, -, h9, h10⟩ := of_decide_eq_true h
  exact ⟨HInv.of_script h2 (graphOf_run h1) h3 h4 h5 h6, h7, h8, ho, h9, h10⟩

/-- A node of a script, checked by the kernel. -/
macro "ksite" xs:term:max attr:term:max : term => `(Site.of_check (name := "nd") (o := "z") (xs := $xs) (attr := $attr) (by decide +kernel) (by decide))

/-- The constant `x` of a graph, as a check. -/
def okConst (g : G) (x : String) (W : Tensor) : Bool :=
  decide (x ≠ "") && g.nodes.any (fun q => decide (g.node q = ⟨(g.node q).name, "Const", (g.node q).domain, (g.node q).attr, [], [x]⟩) &&
    decide ((g.node q).domain = "" ∨ (g.node q).domain = "tf") && decide ((g.node q).attr.get "value" = some (.tensor W)))

theorem ConstIn.of_check {g : G} {x : String} {W : Tensor} (h : okConst g x W = true) : ConstIn g x W := by
  simp only [okConst, Bool.and_eq_true, decide_eq_true_iff, List.any_eq_true] at h
  obtain ⟨h1, q, hq, ⟨h2, h3⟩, h4⟩ := h
  exact ⟨h1, q, hq, _, _, _, h2, h3, h4⟩

/-- A constant of a script, checked by the kernel. -/
macro "kconst" : term => `(ConstIn.of_check (by decide +kernel))

theorem rank_none {g : G} {x : String} {n : Nat} (h : g.rankOf x = none) : RankOk g x n := by
  intro m hm
  rw [h] at hm
  cases hm

theorem rank_known {g : G} {x : String} {n : Nat} (h : g.rankOf x = some n) : RankOk g x n := by
  intro m hm
  rw [h] at hm
  exact (Option.some.inj hm).symm

/-- Small integers. -/
theorem fits64 {z : Int} (h1 : -100 ≤ z) (h2 : z ≤ 100) : HasType .int64 (.num z) := by
  refine Or.inl ⟨_, rfl, z, rfl, ?_, ?_⟩
  · exact le_trans (by decide) h1
  · exact le_trans h2 (by decide)

/-! ## Reductions -/

/-- `tf.reduce_max(x, [-1, 0])` at operator set 9, the rank is recorded. -/
example : ShownAx 9 (byEntry (entry exFresh (some ("Reduce" ++ "Max")) (reduceAttrActs 9)))
    (axScript "Max" [("keep_dims", .int 1)] ⟨6, [2], [-1, 0]⟩ 1 1 (some [none, some 3, some 4])) 2
    [("Placeholder", "", [], ["x"]), ("Const", "", [], ["c"]), ("ReduceMax", "", ["x"], ["z"]), ("Identity", "", ["z"], ["o"])]
    (fun _ => RedArgs .float [-1, 0] (RankOk (graphOf (axScript "Max" [("keep_dims", .int 1)] ⟨6, [2], [-1, 0]⟩ 1 1 (some [none, some 3, some 4]))) "x")) :=
  .of (by decide +kernel) fun _ _ _ _ _ _ on tf co _ _ _ _ h => reduce_attr_converts (t := .float) (t' := .int32) (W := ⟨6, [2], [-1, 0]⟩) on tf co exFresh_tensors (by decide) (by decide)
    (ksite ["x", "c"] [("keep_dims", .int 1)]) (k := 1) rfl ⟨rfl, Or.inr rfl⟩ (by decide) kconst rfl h

/-- A tensor with these axes. -/
example : RedArgs .float [-1, 0] (RankOk (graphOf (axScript "Max" [("keep_dims", .int 1)] ⟨6, [2], [-1, 0]⟩ 1 1 (some [none, some 3, some 4]))) "x")
    [some ⟨.float, [4, 3, 2], fun i => .num (i 0)⟩, some ⟨.int32, [2], fun i => if i 0 = 0 then .num (-1) else .num 0⟩] := by
  refine ⟨_, _, rfl, rfl, ⟨by simp [AxisOk, Ten.rank], by decide⟩, ?_⟩
  exact rank_known (by decide)

/-- `tf.reduce_sum(x, 1)` at operator set 13: the axis stays an input, cast and made a vector. -/
example : ShownAx 13 (byEntry (entry exFresh (some ("Reduce" ++ "Sum")) (reduceInActs exFresh true)))
    (axScript "Sum" [("keep_dims", .int 0)] ⟨6, [], [1]⟩ 1 1 none) 2
    [("Placeholder", "", [], ["x"]), ("Const", "", [], ["c"]), ("ReduceSum", "", ["x", "new'''''':0"], ["z"]), ("Identity", "", ["z"], ["o"]),
     ("Cast", "", ["c"], ["new'''':0"]), ("Const", "", [], ["new'''''"]), ("Reshape", "", ["new'''':0", "new'''''"], ["new'''''':0"])]
    (fun _ => RedInArgs (graphOf (axScript "Sum" [("keep_dims", .int 0)] ⟨6, [], [1]⟩ 1 1 none)) "c" .float) :=
  .of (by decide +kernel) fun _ _ _ _ _ _ on tf co al oe _ _ h => reduce_in_converts (t := .float) on oe tf co al exFresh_tensors (by decide) (by decide)
    (ksite ["x", "c"] [("keep_dims", .int 0)]) (by decide) (k := 0) rfl rfl h

/-- The same in the form that chooses by the operator set, at operator set 18. -/
example : ShownAx 18 (byEntry (entry exFresh (some ("Reduce" ++ "Mean")) (reduceActs exFresh true 18)))
    (axScript "Mean" [("keep_dims", .int 0)] ⟨7, [1], [-1]⟩ 1 1 (some [some 2, none])) 2
    [("Placeholder", "", [], ["x"]), ("Const", "", [], ["c"]), ("ReduceMean", "", ["x", "new''''':0"], ["z"]), ("Identity", "", ["z"], ["o"]),
     ("Const", "", [], ["new''''"]), ("Reshape", "", ["c", "new''''"], ["new''''':0"])]
    (fun _ => RedArgs .float [-1] (RankOk (graphOf (axScript "Mean" [("keep_dims", .int 0)] ⟨7, [1], [-1]⟩ 1 1 (some [some 2, none]))) "x")) :=
  .of (by decide +kernel) fun _ _ _ _ _ _ on tf co al oe _ _ h => reduce_converts (t := .float) (t' := .int64) (W := ⟨7, [1], [-1]⟩) on oe tf co al exFresh_tensors
    (by decide) (ksite ["x", "c"] [("keep_dims", .int 0)]) (k := 0) rfl ⟨rfl, Or.inr rfl⟩
    (fun _ => by decide) (fun _ => by decide) kconst (fun _ => rfl) (rank_none (by decide))
    (fun z hz => fits64 (by revert z; decide) (by revert z; decide)) rfl h

/-! ## `ArgMax`, `ArgMin` -/

/-- `tf.argmax(x, -1)` at operator set 9. -/
example : ShownAx 9 (G.handle exFresh argActs) (axScript "ArgMax" [("output_type", .int 7)] ⟨6, [], [-1]⟩ 1 7 (some [none, some 3])) 2
    [("Placeholder", "", [], ["x"]), ("Const", "", [], ["c"]), ("ArgMax", "", ["x"], ["z"]), ("Identity", "", ["z"], ["o"])]
    (fun _ => AxisArgs .float (fun a => AxisOk a.rank (-1) ∧
      RankOk (graphOf (axScript "ArgMax" [("output_type", .int 7)] ⟨6, [], [-1]⟩ 1 7 (some [none, some 3]))) "x" a.rank)) :=
  .of (by decide +kernel) fun _ _ _ _ _ _ on tf co _ _ _ _ h => arg_converts (op := "ArgMax") (t := .float) (t' := .int32) (W := ⟨6, [], [-1]⟩) on tf co exFresh_tensors (by decide)
    (ksite ["x", "c"] [("output_type", .int 7)]) rfl ⟨rfl, rfl, rfl⟩ kconst
    (fun _ => ⟨2, by decide⟩) rfl h

/-- INT32 indices: a `Cast` after it. -/
example : ShownAx 9 (G.handle exFresh argActs) (axScript "ArgMin" [("output_type", .int 6)] ⟨6, [], [0]⟩ 1 6 none) 2
    [("Placeholder", "", [], ["x"]), ("Const", "", [], ["c"]), ("ArgMin", "", ["x"], ["z"]), ("Identity", "", ["new'''':0"], ["o"]),
     ("Cast", "", ["z"], ["new'''':0"])]
    (fun _ => AxisArgs .float (fun a => AxisOk a.rank 0 ∧ RankOk (graphOf (axScript "ArgMin" [("output_type", .int 6)] ⟨6, [], [0]⟩ 1 6 none)) "x" a.rank ∧
      a.size (axisOf a.rank 0) ≠ 0 ∧ a.size (axisOf a.rank 0) ≤ 2 ^ 31)) :=
  .of (by decide +kernel) fun _ _ _ _ _ _ on tf co al oe _ _ h => arg32_converts (op := "ArgMin") (t := .float) (t' := .int32) (W := ⟨6, [], [0]⟩) on oe tf co al exFresh_tensors
    (by decide) (ksite ["x", "c"] [("output_type", .int 6)]) (by decide) rfl ⟨rfl, rfl, rfl⟩ kconst
    (fun hz => absurd hz (by decide)) rfl h

/-! ## `Squeeze`, `ExpandDims` -/

example : ShownAx 9 (G.handle exFresh (squeezeActs exFresh 9)) (ax1Script "Squeeze" [("squeeze_dims", .ints [])] 1 1 none) 1
    [("Placeholder", "", [], ["x"]), ("Squeeze", "", ["x"], ["z"]), ("Identity", "", ["z"], ["o"])] (fun _ => OneArg .float (fun _ => True)) :=
  .of (by decide +kernel) fun _ _ _ _ _ _ on tf _ _ _ _ _ h => squeeze_all_converts (t := .float) on tf exFresh_tensors
    (ksite ["x"] [("squeeze_dims", .ints [])]) (Or.inr rfl) rfl rfl h

example : ShownAx 9 (G.handle exFresh (squeezeActs exFresh 9)) (ax1Script "Squeeze" [("squeeze_dims", .ints [-1])] 1 1 (some [none, some 1])) 1
    [("Placeholder", "", [], ["x"]), ("Squeeze", "", ["x"], ["z"]), ("Identity", "", ["z"], ["o"])]
    (fun _ => OneArg .float (fun a => AxesOk a.rank [-1] ∧ SqueezeOk a [-1] ∧
      RankOk (graphOf (ax1Script "Squeeze" [("squeeze_dims", .ints [-1])] 1 1 (some [none, some 1]))) "x" a.rank)) :=
  .of (by decide +kernel) fun _ _ _ _ _ _ on tf _ _ _ _ _ h => squeeze_attr_converts (t := .float) on tf exFresh_tensors (by decide)
    (ksite ["x"] [("squeeze_dims", .ints [-1])]) rfl (by decide) rfl h

example : ShownAx 13 (G.handle exFresh (squeezeActs exFresh 13)) (ax1Script "Squeeze" [("squeeze_dims", .ints [-1])] 1 1 none) 1
    [("Placeholder", "", [], ["x"]), ("Squeeze", "", ["x", "new'''"], ["z"]), ("Identity", "", ["z"], ["o"]), ("Const", "", [], ["new'''"])]
    (fun _ => OneArg .float (fun a => AxesOk a.rank [-1] ∧ SqueezeOk a [-1])) :=
  .of (by decide +kernel) fun _ _ _ _ _ _ on tf co _ _ _ _ h => squeeze_in_converts (t := .float) on tf co exFresh_tensors (by decide)
    (ksite ["x"] [("squeeze_dims", .ints [-1])]) (by decide) rfl (by decide) h

/-- A tensor with one dimension of size 1 at the end. -/
example : OneArg .float (fun a => AxesOk a.rank [-1] ∧ SqueezeOk a [-1]) [some ⟨.float, [1, 5], fun i => .num (i 1)⟩] :=
  ⟨_, rfl, rfl, ⟨by simp [AxisOk, Ten.rank], by decide⟩, by simp [SqueezeOk, Ten.size, Ten.rank, axisOf]⟩

example : ShownAx 9 (G.handle exFresh (expandDimsActs 9)) (axScript "ExpandDims" [] ⟨6, [], [-1]⟩ 1 1 none ++ [.setShape "z" (some [none, some 1])]) 2
    [("Placeholder", "", [], ["x"]), ("Const", "", [], ["c"]), ("Unsqueeze", "", ["x"], ["z"]), ("Identity", "", ["z"], ["o"])]
    (fun _ => AxisArgs .float (fun a => AxisOk (a.rank + 1) (-1) ∧
      RankOk (graphOf (axScript "ExpandDims" [] ⟨6, [], [-1]⟩ 1 1 none ++ [.setShape "z" (some [none, some 1])])) "z" (a.rank + 1))) :=
  .of (by decide +kernel) fun _ _ _ _ _ _ on tf co _ _ _ _ h => expandDims_attr_converts (t := .float) (t' := .int32) (W := ⟨6, [], [-1]⟩) on tf co exFresh_tensors
    (by decide) (ksite ["x", "c"] []) ⟨rfl, Or.inl ⟨rfl, rfl⟩⟩ rfl kconst rfl h

example : ShownAx 13 (G.handle exFresh (expandDims13Acts exFresh true)) (axScript "ExpandDims" [] ⟨6, [], [-1]⟩ 1 1 none) 2
    [("Placeholder", "", [], ["x"]), ("Const", "", [], ["c"]), ("Unsqueeze", "", ["x", "new'''''':0"], ["z"]), ("Identity", "", ["z"], ["o"]),
     ("Cast", "", ["c"], ["new'''':0"]), ("Const", "", [], ["new'''''"]), ("Reshape", "", ["new'''':0", "new'''''"], ["new'''''':0"])]
    (fun _ => ExpandArgs (graphOf (axScript "ExpandDims" [] ⟨6, [], [-1]⟩ 1 1 none)) "c") :=
  .of (by decide +kernel) fun _ _ _ _ _ _ on tf co al oe _ _ h => expandDims_in_converts on oe tf co al exFresh_tensors
    (by decide) (ksite ["x", "c"] []) (by decide) (by decide) h

/-! ## `Transpose`, `Gather`, `GatherV2` -/

example : ShownAx 9 (G.handle exFresh transposeActs) (axScript "Transpose" [] ⟨6, [3], [2, 0, 1]⟩ 1 1 none) 2
    [("Placeholder", "", [], ["x"]), ("Const", "", [], ["c"]), ("Transpose", "", ["x"], ["z"]), ("Identity", "", ["z"], ["o"])]
    (fun _ => AxisArgs .float (fun a => PermOk a.rank [2, 0, 1])) :=
  .of (by decide +kernel) fun _ _ _ _ _ _ on tf co _ _ _ _ h => transpose_converts (t := .float) (t' := .int32) (W := ⟨6, [3], [2, 0, 1]⟩) on tf co exFresh_tensors
    (ksite ["x", "c"] []) ⟨rfl, Or.inr rfl⟩ kconst rfl h

example : ShownAx 9 (G.handle exFresh gatherActs) (tfBinScript "Gather" 1 1) 2
    [("Placeholder", "", [], ["x"]), ("Placeholder", "", [], ["y"]), ("Gather", "", ["x", "y"], ["z"]), ("Identity", "", ["z"], ["o"])]
    (fun _ args => ∃ a ix : Ten Val, args = [some a, some ix] ∧ a.dt = .float ∧ a.rank ≠ 0 ∧ IdxOk a ix 0) :=
  .of (by decide +kernel) fun _ _ _ _ _ _ on tf _ _ _ _ _ h => gather_converts (t := .float) on tf exFresh_tensors (ksite ["x", "y"] []) rfl rfl h

/-- `o = Identity(GatherV2(x, y, c))`. -/
def gatherScript (z : Int) : List Edit :=
  [.addGraphInput "px" "x", .addGraphInput "py" "y", .makeNode "Const" [] "c" ["c"] [("value", .tensor ⟨6, [], [z]⟩)] "",
   .makeNode "GatherV2" ["x", "y", "c"] "nd" ["z"] [("batch_dims", .int 0)] "tf", .makeNode "Identity" ["z"] "id" ["o"] [] "", .addGraphOutput "o",
   .setDtype "x" 1, .setDtype "y" 7, .setDtype "c" 6, .setDtype "z" 1]

example : ShownAx 9 (G.handle exFresh gatherV2Acts) (gatherScript (-1)) 3
    [("Placeholder", "", [], ["x"]), ("Placeholder", "", [], ["y"]), ("Const", "", [], ["c"]), ("Gather", "", ["x", "y"], ["z"]), ("Identity", "", ["z"], ["o"])]
    (fun _ args => ∃ a ix ax : Ten Val, args = [some a, some ix, some ax] ∧ a.dt = .float ∧ AxisOk a.rank (-1) ∧ IdxOk a ix (axisOf a.rank (-1))) :=
  .of (by decide +kernel) fun _ _ _ _ _ _ on tf co _ _ _ _ h => gatherV2_converts (t := .float) (t' := .int32) (W := ⟨6, [], [-1]⟩) on tf co exFresh_tensors
    (ksite ["x", "y", "c"] [("batch_dims", .int 0)]) (Or.inr rfl) ⟨rfl, rfl, rfl⟩ kconst rfl h

/-- Indices 1, 0, 1 into a dimension of size 2. -/
example : IdxOk ⟨.float, [2, 3], fun i => .num (i 1)⟩ ⟨.int64, [3], fun i => .num ((i 0 + 1) % 2 : Nat)⟩ (axisOf 2 (-1)) :=
  ⟨rfl, fun i => ⟨_, rfl, by
    have : (⟨.float, [2, 3], fun i => .num (i 1)⟩ : Ten Val).size (axisOf 2 (-1)) = 2 := by decide
    rw [this]
    omega⟩⟩

/-! ## `Tile`, `BroadcastTo`, `Reshape`, `EnsureShape`, `Size` -/

example : ShownAx 9 (G.handle exFresh (tileActs exFresh)) (tfBinScript "Tile" 1 1) 2
    [("Placeholder", "", [], ["x"]), ("Placeholder", "", [], ["y"]), ("Tile", "", ["x", "new'''':0"], ["z"]), ("Identity", "", ["z"], ["o"]),
     ("Cast", "", ["y"], ["new'''':0"])]
    (fun _ args => ∃ a s : Ten Val, args = [some a, some s] ∧
      ShapeArgs (fun a l => moveTypes 9 a.dt = true ∧ l.length = a.rank ∧ ∀ z ∈ l, 0 ≤ z) a s) :=
  .of (by decide +kernel) fun _ _ _ _ _ _ on tf _ _ oe _ _ h => tile_converts on oe tf exFresh_tensors (ksite ["x", "y"] []) (by decide) h

example : ShownAx 9 (G.handle exFresh (broadcastToActs exFresh)) (tfBinScript "BroadcastTo" 1 1) 2
    [("Placeholder", "", [], ["x"]), ("Placeholder", "", [], ["y"]), ("Expand", "", ["x", "new'''':0"], ["z"]), ("Identity", "", ["z"], ["o"]),
     ("Cast", "", ["y"], ["new'''':0"])]
    (fun _ args => ∃ a s : Ten Val, args = [some a, some s] ∧ ShapeArgs (fun a l => moveTypes 9 a.dt = true ∧ ∀ z ∈ l, 0 ≤ z) a s) :=
  .of (by decide +kernel) fun _ _ _ _ _ _ on tf _ _ oe _ _ h => broadcastTo_converts on oe tf exFresh_tensors (by decide)
    (ksite ["x", "y"] []) (by decide) h

/-- Counts 2 and 3 for a matrix. -/
example : ShapeArgs (fun a l => moveTypes 9 a.dt = true ∧ l.length = a.rank ∧ ∀ z ∈ l, 0 ≤ z) ⟨.float, [4, 5], fun i => .num (i 1)⟩
    ⟨.int32, [2], fun i => if i 0 = 0 then .num (2 : Int) else .num (3 : Int)⟩ := by
  refine ⟨[2, 3], Or.inr ⟨rfl, ?_⟩, rfl, fun z hz => fits64 (by revert z; decide) (by revert z; decide), rfl, rfl, by decide⟩
  intro k z hk
  match k, hk with
  | 0, hk => simp at hk; subst hk; simp
  | 1, hk => simp at hk; subst hk; simp
  | k + 2, hk => simp at hk

example : ShownAx 9 (G.handle exFresh (reshapeActs exFresh)) (axScript "Reshape" [] ⟨6, [2], [-1, 3]⟩ 1 1 none) 2
    [("Placeholder", "", [], ["x"]), ("Const", "", [], ["c"]), ("Reshape", "", ["x", "new'''':0"], ["z"]), ("Identity", "", ["z"], ["o"]),
     ("Cast", "", ["c"], ["new'''':0"])]
    (fun _ args => ∃ a s : Ten Val, args = [some a, some s] ∧ ShapeOk (graphOf (axScript "Reshape" [] ⟨6, [2], [-1, 3]⟩ 1 1 none)) "x" a ∧
      ShapeArgs (fun a l => moveTypes 9 a.dt = true ∧ TargetOk l ∧ ZerosOk a l) a s) :=
  .of (by decide +kernel) fun _ _ _ _ _ _ on tf co al oe _ _ h => reshape_converts on oe tf co al exFresh_tensors
    (ksite ["x", "c"] []) rfl (by decide) (by decide) (fun W hW => by cases hW; exact ⟨.int32, ⟨rfl, Or.inr rfl⟩, kconst⟩) h

/-- A reshape to the recorded shape is dropped. -/
example : ShownAx 9 (G.handle exFresh (reshapeActs exFresh)) (axScript "Reshape" [] ⟨6, [2], [-1, 3]⟩ 1 1 (some [none, some 3])) 2
    [("Placeholder", "", [], ["x"]), ("Const", "", [], ["c"]), ("Identity", "", ["x"], ["z"]), ("Identity", "", ["z"], ["o"])]
    (fun _ args => ∃ a s : Ten Val, args = [some a, some s] ∧ ShapeOk (graphOf (axScript "Reshape" [] ⟨6, [2], [-1, 3]⟩ 1 1 (some [none, some 3]))) "x" a ∧
      ShapeArgs (fun a l => moveTypes 9 a.dt = true ∧ TargetOk l ∧ ZerosOk a l) a s) :=
  .of (by decide +kernel) fun _ _ _ _ _ _ on tf co al oe _ _ h => reshape_converts on oe tf co al exFresh_tensors
    (ksite ["x", "c"] []) rfl (by decide) (by decide)
    (fun W hW => by cases hW; exact ⟨.int32, ⟨rfl, Or.inr rfl⟩, kconst⟩) h

example : ShownAx 9 (G.handle exFresh ensureShapeActs) (ax1Script "EnsureShape" [] 1 1 none) 1
    [("Placeholder", "", [], ["x"]), ("Identity", "", ["x"], ["z"]), ("Identity", "", ["z"], ["o"])] (fun _ => OneArg .float (fun _ => True)) :=
  .of (by decide +kernel) fun _ _ _ _ _ _ _ tf _ _ oe _ _ h => ensureShape_converts oe tf exFresh_tensors (ksite ["x"] []) h

example : ShownAx 9 (G.handle exFresh sizeActs) (ax1Script "Size" [("out_type", .int 6)] 1 6 none) 1
    [("Placeholder", "", [], ["x"]), ("Size", "", ["x"], ["z"]), ("Identity", "", ["new''':0"], ["o"]), ("Cast", "", ["z"], ["new''':0"])]
    (fun A => OneArg .float (fun a => moveTypes 9 a.dt = true ∧ ((DT.int32 : DT) = .int32 → A.size a < 2 ^ 31))) :=
  .of (by decide +kernel) fun _ _ _ _ _ _ on tf _ _ oe _ _ h => size_converts on oe tf exFresh_tensors (ksite ["x"] [("out_type", .int 6)])
    rfl rfl (by decide) (fun _ => by decide) h

/-! ## `All`, `Any` -/

example : ShownAx 9 (G.handle exFresh (allAny6Acts exFresh 9)) (axScript "All" [("keep_dims", .int 0)] ⟨6, [1], [-1]⟩ 9 9 (some [none, some 3])) 2
    [("Placeholder", "", [], ["x"]), ("Const", "", [], ["c"]), ("Identity", "", ["z"], ["o"]), ("Cast", "", ["x"], ["new'''':0"]),
     ("ReduceMin", "", ["new'''':0"], ["new''''':0"]), ("Const", "", [], ["new''''''"]), ("Greater", "", ["new''''':0", "new''''''"], ["z"])]
    (fun A => BoolArgs A "All" false [-1] (RankOk (graphOf (axScript "All" [("keep_dims", .int 0)] ⟨6, [1], [-1]⟩ 9 9 (some [none, some 3]))) "x")) :=
  .of (by decide +kernel) fun _ _ _ _ _ _ on tf co al oe _ el h => allAny6_converts_partial (t' := .int32) (W := ⟨6, [1], [-1]⟩) on oe tf co al el exFresh_tensors
    (by decide) (by decide) (ksite ["x", "c"] [("keep_dims", .int 0)]) (by decide) (k := 0) rfl
    ⟨rfl, Or.inr rfl⟩ (by decide) kconst h

/-! ## `Concat`, `ConcatV2` -/

/-- `o = Identity(Concat(c, x, y))`. -/
def concatScript (z : Int) : List Edit :=
  [.addGraphInput "px" "x", .addGraphInput "py" "y", .makeNode "Const" [] "c" ["c"] [("value", .tensor ⟨6, [], [z]⟩)] "",
   .makeNode "Concat" ["c", "x", "y"] "nd" ["z"] [] "tf", .makeNode "Identity" ["z"] "id" ["o"] [] "", .addGraphOutput "o",
   .setDtype "x" 1, .setDtype "y" 1, .setDtype "c" 6, .setDtype "z" 1, .setShape "x" (some [none, some 2])]

example : ShownAx 9 (G.handle exFresh concatActs) (concatScript (-1)) 3
    [("Placeholder", "", [], ["x"]), ("Placeholder", "", [], ["y"]), ("Const", "", [], ["c"]), ("Concat", "", ["x", "y"], ["z"]), ("Identity", "", ["z"], ["o"])]
    (fun _ args => ∃ ax as n, args = some ax :: as.map some ∧ Parts .float n as ∧ AxisOk n (-1) ∧ RankOk (graphOf (concatScript (-1))) "x" n) :=
  .of (by decide +kernel) fun _ _ _ _ _ _ on tf co _ _ _ _ h => concat_converts (t := .float) (t' := .int32) (W := ⟨6, [], [-1]⟩) on tf co exFresh_tensors
    (ksite ["c", "x", "y"] []) ⟨rfl, rfl, rfl⟩ kconst rfl h

/-- `o = Identity(ConcatV2(x, k, y, c))` with a constant `k` that is empty in some dimension. -/
def concatV2Script (z : Int) (dims : List Nat) : List Edit :=
  [.addGraphInput "px" "x", .makeNode "Const" [] "k" ["k"] [("value", .tensor ⟨1, dims, []⟩)] "", .addGraphInput "py" "y",
   .makeNode "Const" [] "c" ["c"] [("value", .tensor ⟨6, [], [z]⟩)] "",
   .makeNode "ConcatV2" ["x", "k", "y", "c"] "nd" ["z"] [] "tf", .makeNode "Identity" ["z"] "id" ["o"] [] "", .addGraphOutput "o",
   .setDtype "x" 1, .setDtype "y" 1, .setDtype "c" 6, .setDtype "z" 1, .setShape "x" (some [none, some 2])]

example : ShownAx 9 (G.handle exFresh concatV2Acts) (concatV2Script (-1) [3, 0]) 4
    [("Placeholder", "", [], ["x"]), ("Const", "", [], ["k"]), ("Placeholder", "", [], ["y"]), ("Const", "", [], ["c"]), ("Concat", "", ["x", "y"], ["z"]),
     ("Identity", "", ["z"], ["o"])]
    (fun _ args => ∃ ax as n, args = as.map some ++ [some ax] ∧ as.length = 3 ∧ V2Parts (graphOf (concatV2Script (-1) [3, 0])) ["x", "k", "y"] .float n (-1) as) :=
  .of (by decide +kernel) fun _ _ _ _ _ _ on tf co al _ _ _ h => concatV2_converts_partial (t := .float) (t' := .int32) (W := ⟨6, [], [-1]⟩) (ys := ["x", "k", "y"]) on tf co al
    exFresh_tensors (ksite ["x", "k", "y", "c"] []) ⟨rfl, rfl, rfl⟩ kconst ⟨"x", by decide, by decide⟩ rfl h

end Verif.Graph
