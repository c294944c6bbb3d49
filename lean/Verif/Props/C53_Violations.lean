import Verif.Props.C53_Examples
/-!
# C53: where the property is false

Each theorem gives the converted graph of a concrete TensorFlow graph and shows that it does not compute what the TensorFlow graph computes, or asks an
ONNX operator for something the operator set does not have.
-/
namespace Verif.Graph
open Verif Verif.Elem Verif.Cast

variable {v : Nat} {I : Interp (Ten Val)} {A : Arr} {K T : Kern Val} {cast : DT → Val → Val}

/-- The graph after a run. -/
def after (run : G → Ref → Except String G) (s : List Edit) (r : Ref) : G := match run (graphOf s) r with
  | .ok g' => g'
  | .error _ => {}

theorem after_ok {run : G → Ref → Except String G} {s : List Edit} {r : Ref} (h : (run (graphOf s) r).toBool = true) :
    run (graphOf s) r = .ok (after run s r) := by
  unfold after
  cases e : run (graphOf s) r with
  | ok g => rfl
  | error m => rw [e] at h; cases h

/-- The value of a node of a graph. -/
theorem node_value {V : Type} {I : Interp V} {g : G} {env e : String → V} {r : Ref} {nd : Node} {o : String} (h : Sat I env e g.nodeList)
    (hc : decide (r ∈ g.nodes ∧ g.node r = nd ∧ nd.output = [o] ∧ nd.isGraphInput = false) = true) (hoe : o ≠ "") :
    e o = I nd.op nd.domain nd.attr (nd.input.map (argVal e)) 0 := by
  obtain ⟨h1, rfl, h3, h4⟩ := of_decide_eq_true hc
  have := sat_value h r h1 h3 hoe
  rwa [h4] at this

/-- The value of an input of a graph. -/
theorem input_value {V : Type} {I : Interp V} {g : G} {env e : String → V} {r : Ref} {o : String} (h : Sat I env e g.nodeList)
    (hc : decide (r ∈ g.nodes ∧ (g.node r).output = [o] ∧ (g.node r).isGraphInput = true) = true) (hoe : o ≠ "") : e o = env o := by
  obtain ⟨h1, h3, h4⟩ := of_decide_eq_true hc
  have := sat_value h r h1 h3 hoe
  rwa [h4] at this

/-! ## The two inputs of the node are the same tensor -/

/-- `o = Identity(op(x, x))`. -/
def ownScript (op : String) (attr : Dict String Attr) (t : Nat) (sh : Shapes.Shape) : List Edit :=
  [.addGraphInput "px" "x", .makeNode op ["x", "x"] "nd" ["z"] attr "tf",
   .makeNode "Identity" ["z"] "id" ["o"] [] "", .addGraphOutput "o", .setDtype "x" t, .setDtype "z" t, .setShape "x" sh]

/-- What goes wrong: the `Cast` to INT64 meant for the second input is put in front of the first. The operator then reads an INT64 operand, so its result has
the wrong type, and the second input stays INT32, which the ONNX operator does not take. -/
def CastMisplaced (run : G → Ref → Except String G) (s : List Edit) (op : String) : Prop :=
  ∃ g', run (graphOf s) 1 = .ok g' ∧ (g'.node 1).op = op ∧ (g'.node 1).domain = "" ∧ 1 ∈ g'.nodes ∧
    ∀ v I K cast, OnnxOps v I K cast → ∀ env e, Sat I env e g'.nodeList → (env "x").dt = .int32 →
      ∃ a b, argVals e (g'.node 1) = [some a, some b] ∧ a.dt = .int64 ∧ b.dt = .int32

theorem CastMisplaced.of {run : G → Ref → Except String G} {s : List Edit} {op : String} (h : (run (graphOf s) 1).toBool = true)
    (h1 : decide (1 ∈ (after run s 1).nodes ∧ ((after run s 1).node 1).op = op ∧ ((after run s 1).node 1).domain = "" ∧
      ((after run s 1).node 1).input = ["new''':0", "x"]) = true)
    (h2 : decide (3 ∈ (after run s 1).nodes ∧ (after run s 1).node 3 = ⟨((after run s 1).node 3).name, "Cast", "", [("to", .int 7)], ["x"], ["new''':0"]⟩ ∧
      (["new''':0"] : List String) = ["new''':0"] ∧ ((after run s 1).node 3).isGraphInput = false) = true)
    (h3 : decide (0 ∈ (after run s 1).nodes ∧ ((after run s 1).node 0).output = ["x"] ∧ ((after run s 1).node 0).isGraphInput = true) = true) :
    CastMisplaced run s op := by
  obtain ⟨a1, a2, a3, a4⟩ := of_decide_eq_true h1
  obtain ⟨b1, b2, -, b4⟩ := of_decide_eq_true h2
  refine ⟨_, after_ok h, a2, a3, a1, ?_⟩
  intro v I K cast on env e hs hx
  have e1 := input_value hs h3 (by decide)
  have e2 := node_value (o := "new''':0") hs (decide_eq_true ⟨b1, b2, rfl, by rw [← b2]; exact b4⟩) (by decide)
  have e3 : argVals e ((after run s 1).node 1) = [argVal e "new''':0", argVal e "x"] := by simp [argVals, a4]
  refine ⟨e "new''':0", e "x", by rw [e3]; rfl, ?_, by rw [e1, hx]⟩
  rw [e2]
  have : I "Cast" "" [("to", .int 7)] [argVal e "x"] 0 = Ten.map .int64 (cast .int64) (e "x") := on.isCast _ .int64 _ rfl
  show (I "Cast" "" [("to", .int 7)] [argVal e "x"] 0).dt = .int64
  rw [this]
  rfl

/-- `tf.tile(x, x)`. -/
theorem tile_own_counts_violated : CastMisplaced (G.handle exFresh (tileActs exFresh)) (ownScript "Tile" [] 6 (some [some 1])) "Tile" :=
  .of (by decide +kernel) (by decide +kernel) (by decide +kernel) (by decide +kernel)

/-- `tf.reshape(x, x)`. -/
theorem reshape_own_shape_violated : CastMisplaced (G.handle exFresh (reshapeActs exFresh)) (ownScript "Reshape" [] 6 (some [some 1])) "Reshape" :=
  .of (by decide +kernel) (by decide +kernel) (by decide +kernel) (by decide +kernel)

/-- `tf.broadcast_to(x, x)`. -/
theorem broadcastTo_own_shape_violated : CastMisplaced (G.handle exFresh (broadcastToActs exFresh)) (ownScript "BroadcastTo" [] 6 (some [some 1])) "Expand" :=
  .of (by decide +kernel) (by decide +kernel) (by decide +kernel) (by decide +kernel)

/-- `tf.reduce_sum(x, x)` of a vector, operator set 13. -/
theorem reduceSum_own_axes_violated : CastMisplaced (byEntry (entry exFresh (some "ReduceSum") (reduceActs exFresh true 13)))
    (ownScript "Sum" [("keep_dims", .int 0)] 6 (some [some 1])) "ReduceSum" :=
  .of (by decide +kernel) (by decide +kernel) (by decide +kernel) (by decide +kernel)

/-! ## Other results -/

/-- There is a meaning of the operators as TensorFlow and ONNX describe them for which the converted graph has another result than the TensorFlow graph. -/
def Differs (v : Nat) (run : G → Ref → Except String G) (s : List Edit) (r : Ref) (env : String → Ten Val) : Prop :=
  ∃ g' I A T K cast, OnnxAxisOps v I A ∧ TfAxisOps I A ∧ ConstOps I ∧ ArrLaws A ∧ OnnxOps v I K cast ∧ TfOps I T ∧ ElemLaws T K ∧
    run (graphOf s) r = .ok g' ∧ ∀ e e', Sat I env e (graphOf s).nodeList → Sat I env e' g'.nodeList → e "z" ≠ e' "z"

theorem Differs.of {v : Nat} {run : G → Ref → Except String G} {s : List Edit} {r : Ref} {env : String → Ten Val} (h : (run (graphOf s) r).toBool = true)
    (hd : ∀ cast, Conforming cast → ∀ e e', Sat (axInterp cast) env e (graphOf s).nodeList → Sat (axInterp cast) env e' (after run s r).nodeList →
      (e "z").sh ≠ (e' "z").sh) : Differs v run s r env := by
  obtain ⟨cast, hc⟩ := conforming_exists
  exact ⟨_, axInterp cast, exArr, exT, exK, cast, axInterp_onnxAxis cast v, axInterp_tfAxis cast, axInterp_const cast, exArr_laws, axInterp_onnx hc v,
    axInterp_tf cast, exLaws, after_ok h, fun e e' h1 h2 h3 => hd cast hc e e' h1 h2 (congrArg Ten.sh h3)⟩

/-- A vector with two elements. -/
def vec2 : Ten Val := ⟨.float, [2], fun i => .num (i 0 : Nat)⟩

/-- False and true. -/
def bits2 : Ten Val := ⟨.bool, [2], fun i => .num (i 0 : Nat)⟩

theorem ex_vec (cast : DT → Val → Val) (dom : String) (hd : dom = "" ∨ dom = "tf") (t : DT) (l : List Int) :
    Holds (axInterp cast "Const" dom [("value", .tensor ⟨code t, [l.length], l⟩)] [] 0) l ∧
    (axInterp cast "Const" dom [("value", .tensor ⟨code t, [l.length], l⟩)] [] 0).sh = [l.length] :=
  ⟨((axInterp_const cast).const dom _ t ⟨code t, [l.length], l⟩ hd rfl rfl (Or.inr rfl)).2.2,
    ((axInterp_const cast).const dom _ t ⟨code t, [l.length], l⟩ hd rfl rfl (Or.inr rfl)).2.1⟩

/-- `tf.reduce_max(x, [])` of `[0, 1]` is `[0, 1]`. Before operator set 18 the converted graph reduces all dimensions. -/
theorem reduce_no_axes_violated : Differs 9 (byEntry (entry exFresh (some "ReduceMax") (reduceActs exFresh true 9)))
    (axScript "Max" [("keep_dims", .int 0)] ⟨6, [0], []⟩ 1 1 (some [some 2])) 2 (fun _ => vec2) := by
  refine .of (by decide +kernel) ?_
  intro cast hc e e' h1 h2
  have x1 := input_value (r := 0) (o := "x") h1 (by decide +kernel) (by decide)
  have x2 := input_value (r := 0) (o := "x") h2 (by decide +kernel) (by decide)
  have c1 := node_value (r := 1) (nd := ⟨"c", "Const", "", [("value", .tensor ⟨6, [0], []⟩)], [], ["c"]⟩) (o := "c") h1 (by decide +kernel) (by decide)
  have z1 := node_value (r := 2) (nd := ⟨"nd", "Max", "tf", [("keep_dims", .int 0)], ["x", "c"], ["z"]⟩) (o := "z") h1 (by decide +kernel) (by decide)
  have z2 := node_value (r := 2) (nd := ⟨"nd", "ReduceMax", "", [("axes", .ints []), ("keepdims", .int 0)], ["x"], ["z"]⟩) (o := "z") h2
    (by decide +kernel) (by decide)
  obtain ⟨w1, w2⟩ := ex_vec cast "" (Or.inl rfl) .int32 []
  have e1 : e "z" = exArr.reduce "Max" false (axisSet vec2.rank []) vec2 := by
    rw [z1]
    show axInterp cast "Max" "tf" _ [some (e "x"), some (e "c")] 0 = _
    rw [x1, c1]
    exact (axInterp_tfAxis cast).reduce "Max" (by decide) _ 0 _ _ [] rfl w1 ⟨by simp, by simp⟩
  have e2 : e' "z" = exArr.reduce "Max" false {j | j < vec2.rank} vec2 := by
    rw [z2]
    show axInterp cast "ReduceMax" "" _ [some (e' "x")] 0 = _
    rw [x2]
    exact (axInterp_onnxAxis cast 9).redAll "Max" (by decide) (by decide) _ 0 _ (Or.inl rfl) rfl rfl
  rw [e1, e2]
  simp [Arr.reduce, exArr, exRsh, vec2, Ten.rank]

/-- `tf.reduce_all(x, [])`, before operator set 13: the same. -/
theorem all_no_axes_violated : Differs 9 (G.handle exFresh (allAny6Acts exFresh 9)) (axScript "All" [("keep_dims", .int 0)] ⟨6, [0], []⟩ 9 9 none) 2
    (fun _ => bits2) := by
  refine .of (by decide +kernel) ?_
  intro cast hc e e' h1 h2
  have x1 := input_value (r := 0) (o := "x") h1 (by decide +kernel) (by decide)
  have x2 := input_value (r := 0) (o := "x") h2 (by decide +kernel) (by decide)
  have c1 := node_value (r := 1) (nd := ⟨"c", "Const", "", [("value", .tensor ⟨6, [0], []⟩)], [], ["c"]⟩) (o := "c") h1 (by decide +kernel) (by decide)
  have z1 := node_value (r := 2) (nd := ⟨"nd", "All", "tf", [("keep_dims", .int 0)], ["x", "c"], ["z"]⟩) (o := "z") h1 (by decide +kernel) (by decide)
  have a2 := node_value (r := 4) (nd := ⟨"new''''", "Cast", "", [("to", .int 1)], ["x"], ["new'''':0"]⟩) (o := "new'''':0") h2 (by decide +kernel) (by decide)
  have b2 := node_value (r := 5) (nd := ⟨"new'''''", "ReduceMin", "", [("axes", .ints []), ("keepdims", .int 0)], ["new'''':0"], ["new''''':0"]⟩)
    (o := "new''''':0") h2 (by decide +kernel) (by decide)
  have k2 := node_value (r := 6) (nd := ⟨"new''''''", "Const", "", [("value", .tensor ⟨1, [], [0]⟩)], [], ["new''''''"]⟩)
    (o := "new''''''") h2 (by decide +kernel) (by decide)
  have z2 := node_value (r := 7) (nd := ⟨"nd", "Greater", "", [], ["new''''':0", "new''''''"], ["z"]⟩) (o := "z") h2
    (by decide +kernel) (by decide)
  obtain ⟨w1, w2⟩ := ex_vec cast "" (Or.inl rfl) .int32 []
  have on := axInterp_onnx hc 9
  have e1 : e "z" = exArr.reduce "All" false (axisSet bits2.rank []) bits2 := by
    rw [z1]
    show axInterp cast "All" "tf" _ [some (e "x"), some (e "c")] 0 = _
    rw [x1, c1]
    exact (axInterp_tfAxis cast).allAny "All" (by decide) _ 0 _ _ [] rfl w1 ⟨by simp, by simp⟩ rfl
  have e2 : e' "new'''':0" = Ten.map .float (cast .float) bits2 := by
    rw [a2]
    show axInterp cast "Cast" "" [("to", .int 1)] [some (e' "x")] 0 = _
    rw [x2]
    exact on.isCast _ .float _ rfl
  have e3 : e' "new''''':0" = exArr.reduce "Min" false {j | j < bits2.rank} (Ten.map .float (cast .float) bits2) := by
    rw [b2]
    show axInterp cast "ReduceMin" "" _ [some (e' "new'''':0")] 0 = _
    rw [e2]
    exact (axInterp_onnxAxis cast 9).redAll "Min" (by decide) (by decide) _ 0 _ (Or.inl rfl) rfl rfl
  have e4 : e' "new''''''" = Ten.scalar .float (.num 0) := by
    rw [k2]
    have := on.isConst [("value", .tensor ⟨1, [], [0]⟩)] .float 0 rfl
    simpa using this
  have e5 : e' "z" = Ten.zip .bool (exK.bin "Greater" .float) (e' "new''''':0") (e' "new''''''") := by
    rw [z2]
    show axInterp cast "Greater" "" _ [some (e' "new''''':0"), some (e' "new''''''")] 0 = _
    rw [on.bin "Greater" (by decide) _ _ _ ?_ ?_ ?_]
    · rw [e3]; rfl
    · rw [e3]; show onnxTypes 9 "Greater" .float = true; decide
    · rw [e3, e4]; rfl
    · rw [e3, e4]
      simp [Compat, Arr.reduce, exArr, exRsh, bits2, Ten.rank, Ten.map, Ten.scalar]
  rw [e1, e5, e3, e4]
  simp [Arr.reduce, exArr, exRsh, bits2, Ten.rank, Ten.zip, Ten.map, Ten.scalar]

/-- `tf.reshape(x, [0, 5])` of a tensor of shape (3, 0) has shape (0, 5). In the converted graph the 0 means the first dimension of the operand, and the target
shape is (3, 5). -/
theorem reshape_zero_violated : Differs 9 (G.handle exFresh (reshapeActs exFresh)) (axScript "Reshape" [] ⟨7, [2], [0, 5]⟩ 1 1 none) 2
    (fun _ => ⟨.float, [0, 3], fun _ => .num 0⟩) := by
  refine .of (by decide +kernel) ?_
  intro cast hc e e' h1 h2
  have x1 := input_value (r := 0) (o := "x") h1 (by decide +kernel) (by decide)
  have x2 := input_value (r := 0) (o := "x") h2 (by decide +kernel) (by decide)
  have c1 := node_value (r := 1) (nd := ⟨"c", "Const", "", [("value", .tensor ⟨7, [2], [0, 5]⟩)], [], ["c"]⟩) (o := "c") h1 (by decide +kernel) (by decide)
  have c2 := node_value (r := 1) (nd := ⟨"c", "Const", "", [("value", .tensor ⟨7, [2], [0, 5]⟩)], [], ["c"]⟩) (o := "c") h2 (by decide +kernel) (by decide)
  have z1 := node_value (r := 2) (nd := ⟨"nd", "Reshape", "tf", [], ["x", "c"], ["z"]⟩) (o := "z") h1 (by decide +kernel) (by decide)
  have a2 := node_value (r := 4) (nd := ⟨"new''''", "Cast", "", [("to", .int 7)], ["c"], ["new'''':0"]⟩) (o := "new'''':0") h2 (by decide +kernel) (by decide)
  have z2 := node_value (r := 2) (nd := ⟨"nd", "Reshape", "", [], ["x", "new'''':0"], ["z"]⟩) (o := "z") h2 (by decide +kernel) (by decide)
  obtain ⟨w1, w2⟩ := ex_vec cast "" (Or.inl rfl) .int64 [0, 5]
  have ht : TargetOk [0, 5] := ⟨by decide, by decide⟩
  have e1 : e "z" = exArr.reshape [0, 5] ⟨.float, [0, 3], fun _ => .num 0⟩ := by
    rw [z1]
    show axInterp cast "Reshape" "tf" _ [some (e "x"), some (e "c")] 0 = _
    rw [x1, c1]
    exact (axInterp_tfAxis cast).reshape _ _ _ _ w1 ht
  have e2 : e' "new'''':0" = Ten.map .int64 (cast .int64) (e' "c") := by
    rw [a2]
    exact (axInterp_onnx hc 9).isCast _ .int64 _ rfl
  have e3 : e' "z" = exArr.reshape [3, 5] ⟨.float, [0, 3], fun _ => .num 0⟩ := by
    rw [z2]
    show axInterp cast "Reshape" "" _ [some (e' "x"), some (e' "new'''':0")] 0 = _
    rw [x2, e2, c2]
    refine ((axInterp_onnxAxis cast 9).reshape _ _ _ [0, 5] rfl (w1.cast hc ?_) ?_ rfl ht rfl ?_)
    · exact fun z hz => fits64 (by revert z; decide) (by revert z; decide)
    · show List.length _ = 1
      exact congrArg List.length w2
    · intro k hk
      match k, hk with
      | 0, _ => simp [Ten.rank]
      | 1, hk => simp at hk
      | k + 2, hk => simp at hk
  rw [e1, e3]
  have f1 : fitsTarget ⟨.float, [0, 3], fun _ => .num 0⟩ [0, 5] = false := by decide
  have f2 : fitsTarget ⟨.float, [0, 3], fun _ => .num 0⟩ [3, 5] = false := by decide
  show (exReshape _ _).sh ≠ (exReshape _ _).sh
  simp [exReshape, f1, f2, targetDims]

/-- `tf.concat([x, k, y], 1)` with `x` and `y` of shape (0, 2) and a constant `k` of shape (0, 3) has shape (0, 7). `k` has no elements, so the handler drops it. -/
theorem concatV2_empty_violated : Differs 9 (G.handle exFresh concatV2Acts) (concatV2Script 1 [0, 3]) 4 (fun _ => ⟨.float, [2, 0], fun _ => .num 0⟩) := by
  refine .of (by decide +kernel) ?_
  intro cast hc e e' h1 h2
  have x1 := input_value (r := 0) (o := "x") h1 (by decide +kernel) (by decide)
  have x2 := input_value (r := 0) (o := "x") h2 (by decide +kernel) (by decide)
  have y1 := input_value (r := 2) (o := "y") h1 (by decide +kernel) (by decide)
  have y2 := input_value (r := 2) (o := "y") h2 (by decide +kernel) (by decide)
  have k1 := node_value (r := 1) (nd := ⟨"k", "Const", "", [("value", .tensor ⟨1, [0, 3], []⟩)], [], ["k"]⟩) (o := "k") h1 (by decide +kernel) (by decide)
  have c1 := node_value (r := 3) (nd := ⟨"c", "Const", "", [("value", .tensor ⟨6, [], [1]⟩)], [], ["c"]⟩) (o := "c") h1 (by decide +kernel) (by decide)
  have z1 := node_value (r := 4) (nd := ⟨"nd", "ConcatV2", "tf", [], ["x", "k", "y", "c"], ["z"]⟩) (o := "z") h1 (by decide +kernel) (by decide)
  have z2 := node_value (r := 4) (nd := ⟨"nd", "Concat", "", [("axis", .int 1)], ["x", "y"], ["z"]⟩) (o := "z") h2 (by decide +kernel) (by decide)
  have w1 := ((axInterp_const cast).const "" [("value", .tensor ⟨6, [], [1]⟩)] .int32 ⟨6, [], [1]⟩ (Or.inl rfl) rfl rfl (Or.inl ⟨rfl, rfl⟩)).2.2
  have hk : (e "k").sh = [3, 0] := by
    rw [k1]
    simp [axInterp, exConst, Dict.get]
  have e1 : e "z" = exArr.concat 1 [e "x", e "k", e "y"] := by
    rw [z1]
    show axInterp cast "ConcatV2" "tf" _ ([e "x", e "k", e "y"].map some ++ [some (e "c")]) 0 = _
    rw [c1]
    have := (axInterp_tfAxis cast).concatV2 [] _ 1 [e "x", e "k", e "y"] 2 w1 (by simp) (by simp [Ten.rank, x1, y1, hk]) ⟨by decide, by decide⟩
    exact this
  have e2 : e' "z" = exArr.concat 1 [e' "x", e' "y"] := by
    rw [z2]
    show axInterp cast "Concat" "" _ ([e' "x", e' "y"].map some) 0 = _
    exact (axInterp_onnxAxis cast 9).concat _ 1 [e' "x", e' "y"] 2 .float rfl (by simp) (by simp [Ten.rank, x2, y2]) ⟨⟨by decide, by decide⟩, fun _ => by decide⟩ rfl
  rw [e1, e2]
  show (exConcat _ _).sh ≠ (exConcat _ _).sh
  simp [exConcat, Ten.size, Ten.rank, x1, y1, x2, y2, hk]

/-! ## Not ONNX -/

/-- Before operator set 11, `tf.argmax(x, -1)` of a tensor of unknown rank becomes an `ArgMax` with axis -1, which these operator sets do not have. -/
theorem arg_unknown_rank_violated : ∃ g', G.handle exFresh argActs (graphOf (axScript "ArgMax" [("output_type", .int 7)] ⟨6, [], [-1]⟩ 1 7 none)) 2 = .ok g' ∧
    2 ∈ g'.nodes ∧ (g'.node 2).op = "ArgMax" ∧ (g'.node 2).domain = "" ∧ (g'.node 2).attr.get "axis" = some (.int (-1)) ∧
    ∀ v n, v < 11 → ¬ OnnxAxis v n (-1) := by
  refine ⟨_, after_ok (by decide +kernel), by decide +kernel, by decide +kernel, by decide +kernel, by decide +kernel, ?_⟩
  intro v n hv h
  exact absurd (h.2 hv) (by decide)

end Verif.Graph
