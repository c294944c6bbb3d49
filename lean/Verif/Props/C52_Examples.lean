import Verif.Props.C52_Total
import Verif.Props.C48_Examples
import Verif.Props.C47_Examples
/-!
# C52: a graph converted and optimized
-/
namespace Verif.Graph
open Verif Verif.Elem Verif.Cast

theorem exInterp_identity (cast : DT → Val → Val) : IdentityLaw _ (exInterp cast) := by
  intro dom attr v
  by_cases h : dom = "tf" <;> simp [exInterp, h]

theorem exInterp_merge (cast : DT → Val → Val) : MergeLaw _ (exInterp cast) where
  attr := by
    intro op dom a b ins j h
    simp only [exInterp, h]
  const := by
    intro op dom a b ins j hop h
    have h1 : op ≠ "Cast" ∧ op ≠ "Clip" := by rcases hop with rfl | rfl <;> decide
    simp only [exInterp, h, if_neg h1.1, if_neg h1.2]

/-- All the hypotheses about operators can be met together, for every operator set. -/
theorem elem_opt_exists (v : Nat) : ∃ I T K cast, OnnxOps v I K cast ∧ TfOps I T ∧ ElemLaws T K ∧ IdentityLaw _ I ∧ MergeLaw _ I := by
  obtain ⟨cast, hc⟩ := conforming_exists
  exact ⟨_, _, _, cast, exInterp_onnx hc v, exInterp_tf cast, exLaws, exInterp_identity cast, exInterp_merge cast⟩

/-- `o = Identity(le(floordiv(x, y), squareddifference(relu6(x), y) + squareddifference(relu6(x), y)))`, with the difference written twice, and a
node nobody reads. -/
def pipeScript : List Edit :=
  [.addGraphInput "px" "x", .addGraphInput "py" "y", .makeNode "FloorDiv" ["x", "y"] "nd" ["a"] [] "tf",
   .makeNode "Relu6" ["x"] "nr" ["b"] [] "tf", .makeNode "SquaredDifference" ["b", "y"] "ns" ["c"] [] "tf",
   .makeNode "SquaredDifference" ["b", "y"] "nt" ["c2"] [] "tf",
   .makeNode "AddV2" ["c", "c2"] "na" ["d"] [] "tf", .makeNode "LessEqual" ["a", "d"] "le" ["q"] [] "tf",
   .makeNode "Exp" ["d"] "ne" ["e"] [] "tf",
   .makeNode "Identity" ["q"] "id" ["o"] [] "", .addGraphOutput "o", .setDtype "x" 1, .setDtype "y" 1, .setDtype "a" 1, .setDtype "b" 1,
   .setDtype "c" 1, .setDtype "c2" 1, .setDtype "d" 1, .setDtype "e" 1, .setDtype "q" 9, .setShape "c" (some [some 2]), .setShape "c2" (some [some 2])]

theorem pipeGraph_inv : HInv exFresh (graphOf pipeScript) :=
  HInv.of_script (s := pipeScript) (by decide) rfl (by decide) (by decide) (by decide) (by decide)

theorem pipeGraph_nodes : ∀ r ∈ (graphOf pipeScript).nodes, ((graphOf pipeScript).node r).op ∈ elemUn ++ elemBin →
    ElemNode 13 (graphOf pipeScript) r .float := by
  intro r hr
  have : r ∈ [0, 1, 2, 3, 4, 5, 6, 7, 8, 9] := hr
  simp only [List.mem_cons, List.not_mem_nil, or_false] at this
  rcases this with rfl | rfl | rfl | rfl | rfl | rfl | rfl | rfl | rfl | rfl
  · intro h; exact absurd h (by decide)
  · intro h; exact absurd h (by decide)
  · exact fun _ => ⟨by decide, by decide, by decide, fun h => absurd h (by decide),
      fun _ => ⟨"x", "y", rfl, by decide, by decide, rfl, rfl, fun h => absurd h (by decide)⟩, ⟨"a", rfl, by decide, by decide⟩⟩
  · exact fun _ => ⟨by decide, by decide, by decide, fun _ => ⟨"x", rfl, by decide, rfl⟩, fun h => absurd h (by decide), ⟨"b", rfl, by decide, by decide⟩⟩
  · exact fun _ => ⟨by decide, by decide, by decide, fun h => absurd h (by decide),
      fun _ => ⟨"b", "y", rfl, by decide, by decide, rfl, rfl, fun h => absurd h (by decide)⟩, ⟨"c", rfl, by decide, by decide⟩⟩
  · exact fun _ => ⟨by decide, by decide, by decide, fun h => absurd h (by decide),
      fun _ => ⟨"b", "y", rfl, by decide, by decide, rfl, rfl, fun h => absurd h (by decide)⟩, ⟨"c2", rfl, by decide, by decide⟩⟩
  · exact fun _ => ⟨by decide, by decide, by decide, fun h => absurd h (by decide),
      fun _ => ⟨"c", "c2", rfl, by decide, by decide, rfl, rfl, fun _ => ⟨_, _, rfl, rfl, by decide⟩⟩, ⟨"d", rfl, by decide, by decide⟩⟩
  · exact fun _ => ⟨by decide, by decide, by decide, fun h => absurd h (by decide),
      fun _ => ⟨"a", "d", rfl, by decide, by decide, rfl, rfl, fun h => absurd h (by decide)⟩, ⟨"q", rfl, by decide, by decide⟩⟩
  · exact fun _ => ⟨by decide, by decide, by decide, fun _ => ⟨"d", rfl, by decide, rfl⟩, fun h => absurd h (by decide), ⟨"e", rfl, by decide, by decide⟩⟩
  · intro h; exact absurd h (by decide)

theorem pipeGraph_other : ∀ r ∈ (graphOf pipeScript).nodes, ((graphOf pipeScript).node r).op ∉ elemUn ++ elemBin → Tidy ((graphOf pipeScript).node r) := by
  intro r hr
  have : r ∈ [0, 1, 2, 3, 4, 5, 6, 7, 8, 9] := hr
  simp only [List.mem_cons, List.not_mem_nil, or_false] at this
  rcases this with rfl | rfl | rfl | rfl | rfl | rfl | rfl | rfl | rfl | rfl
  · exact fun _ => ⟨by decide, by decide, by decide⟩
  · exact fun _ => ⟨by decide, by decide, by decide⟩
  · intro h; exact absurd (by decide) h
  · intro h; exact absurd (by decide) h
  · intro h; exact absurd (by decide) h
  · intro h; exact absurd (by decide) h
  · intro h; exact absurd (by decide) h
  · intro h; exact absurd (by decide) h
  · intro h; exact absurd (by decide) h
  · exact fun _ => ⟨by decide, by decide, by decide⟩

/-- The converted graph. -/
def pipeConverted : G := match (graphOf pipeScript).processParsed (elemTable exFresh 13) (fun _ => false) false with | .ok x => x | .error _ => {}

theorem pipe_ok : (graphOf pipeScript).processParsed (elemTable exFresh 13) (fun _ => false) false = .ok pipeConverted := by
  have h : ((graphOf pipeScript).processParsed (elemTable exFresh 13) (fun _ => false) false).toBool = true := by decide +kernel
  unfold pipeConverted
  cases h' : (graphOf pipeScript).processParsed (elemTable exFresh 13) (fun _ => false) false with
  | ok x => rfl
  | error e => rw [h'] at h; cases h

theorem pipe_length : pipeConverted.nodes.length = 14 := by decide +kernel

theorem pipe_view : (match pipeConverted.optimizeWith [mergePassRun (fun _ => 0), identityPassRun] 15 with | some (.ok x) => x.view | _ => []) =
    [("Placeholder", "", [], ["y"]), ("Placeholder", "", [], ["x"]), ("Const", "", [], ["new'''''''''''"]),
     ("Const", "", [], ["new''''''''''"]), ("Clip", "", ["x", "new''''''''''", "new'''''''''''"], ["b"]),
     ("Sub", "", ["b", "y"], ["c2"]), ("Mul", "", ["c2", "c2"], ["new'''''''''''':0"]), ("Div", "", ["x", "y"], ["a"]),
     ("Floor", "", ["a"], ["new'''''''''''''':0"]), ("Add", "", ["new'''''''''''':0", "new'''''''''''':0"], ["d"]),
     ("LessOrEqual", "", ["new'''''''''''''':0", "d"], ["o"])] := by
  decide +kernel

attribute [local irreducible] pipeConverted

/-- The theorem applies to it: ten nodes become fourteen (the unused one is gone, three have become several), of which the optimizers leave eleven. -/
theorem pipe_example : ∃ (I : Interp (Ten Val)) (g2 : G), pipeConverted.optimizeWith [mergePassRun (fun _ => 0), identityPassRun] 15 = some (.ok g2) ∧
    g2.nodes.length = 11 ∧ (∀ r ∈ g2.nodes, (g2.node r).domain = "") ∧
    ∀ env, (∀ e, Sat I env e (graphOf pipeScript).nodeList → ∀ r ∈ (graphOf pipeScript).nodes, ((graphOf pipeScript).node r).op ∈ elemUn ++ elemBin →
        elemArgs ((graphOf pipeScript).node r).op .float (argVals e ((graphOf pipeScript).node r))) →
      ∀ out, Computes I (graphOf pipeScript) env out ↔ out = ["o"].map (exec I env g2.nodeList) := by
  obtain ⟨I, T, K, cast, a, b, c, d, e⟩ := elem_opt_exists 13
  obtain ⟨g2, h1, h2, -, -, -, h3⟩ := elem_conversion_end_to_end a b c d e exFresh_tensors (by decide) pipeGraph_inv (by decide) (fun _ => .float)
    pipeGraph_nodes pipeGraph_other pipe_ok (fun _ => 0) (passes := [mergePassRun (fun _ => 0), identityPassRun]) (by simp) (fuel := 15)
    (by rw [pipe_length]; decide)
  refine ⟨I, g2, h1, ?_, fun r hr => (h2 r hr).dom, h3⟩
  have h4 := congrArg List.length pipe_view
  rw [h1] at h4
  simpa [G.view, G.nodeList] using h4

/-- Names and types are such that nothing raises. -/
theorem pipe_whole : Whole exFresh (graphOf pipeScript) where
  outs := by decide
  made := by
    have : ∀ r ∈ (graphOf pipeScript).nodes, ∀ x ∈ ((graphOf pipeScript).node r).input, x ≠ "" →
        ∃ p ∈ (graphOf pipeScript).nodes, x ∈ ((graphOf pipeScript).node p).output := by decide
    exact this
  outsMade := by decide
  ins := by
    have : ∀ r ∈ (graphOf pipeScript).inputs, ((graphOf pipeScript).node r).output = [((graphOf pipeScript).node r).output.headD ""] ∧
      ((graphOf pipeScript).node r).output.headD "" ≠ "" := by decide
    exact fun r hr => ⟨_, _, (this r hr).1, (this r hr).2⟩
  names := by
    intro r hr k hk
    have h0 : ∀ r ∈ (graphOf pipeScript).nodes, ((graphOf pipeScript).node r).name.length < 3 := by decide
    intro h
    have h1 := h0 r hr
    rw [h, exFresh] at h1
    have h2 : "new".length = 3 := by decide
    simp [h2] at h1

/-- The conversion of the example raises nothing, and gives what the TensorFlow graph computes: also as an instance of the general theorem. -/
theorem pipe_succeeds : ∃ (I : Interp (Ten Val)) (g1 g2 : G), (graphOf pipeScript).processParsed (elemTable exFresh 13) (fun _ => false) false = .ok g1 ∧
    g1.optimizeWith [mergePassRun (fun _ => 0), identityPassRun] (g1.nodes.length + 1) = some (.ok g2) ∧ Executable g2.nodeList ∧
    ∀ env, (∀ e, Sat I env e (graphOf pipeScript).nodeList → ∀ r ∈ (graphOf pipeScript).nodes, ((graphOf pipeScript).node r).op ∈ elemUn ++ elemBin →
        elemArgs ((graphOf pipeScript).node r).op .float (argVals e ((graphOf pipeScript).node r))) →
      ∀ out, Computes I (graphOf pipeScript) env out ↔ out = ["o"].map (exec I env g2.nodeList) := by
  obtain ⟨I, T, K, cast, a, b, c, d, e⟩ := elem_opt_exists 13
  obtain ⟨g1, h1, h2⟩ := elem_conversion_succeeds a b c d e exFresh_tensors (by decide) pipeGraph_inv pipe_whole (fun _ => .float)
    pipeGraph_nodes (fun r hr o _ => ⟨fun h => absurd h ((by decide : ∀ r ∈ (graphOf pipeScript).nodes, ((graphOf pipeScript).node r).op ≠ "Sign") r hr),
      fun _ => Or.inl rfl⟩) pipeGraph_other (fun _ => 0) (passes := [mergePassRun (fun _ => 0), identityPassRun]) (by simp)
  obtain ⟨g2, h3, -, h4, -, -, h5⟩ := h2 (g1.nodes.length + 1) (Nat.lt_succ_self _)
  exact ⟨I, g1, g2, h1, h3, h4, h5⟩

/-! ## Values in the domain -/

/-- A scalar of type float. -/
def fl (n : Int) : Ten Val := Ten.scalar .float (.num n)

theorem fl_typed {n : Int} (h : |n| < 2 ^ 24) : (fl n).Typed := fun _ => int_isFloat n h

theorem one_fl {n : Int} (h : |n| < 2 ^ 24) : One .float (fun _ => True) [some (fl n)] := ⟨fl n, rfl, rfl, fl_typed h, fun _ => trivial⟩

theorem two_fl {op : String} {n m : Int} (hn : |n| < 2 ^ 24) (hm : |m| < 2 ^ 24) (hd : ∀ u w, u = .num n → w = .num m → elemDomain op .float u w) :
    Two .float (elemDomain op .float) [some (fl n), some (fl m)] :=
  ⟨fl n, fl m, rfl, rfl, rfl, fl_typed hn, fl_typed hm, fun _ => Or.inl rfl, fun _ => hd _ _ rfl rfl⟩

/-- With `x = 7` and `y = 2` all operands are in the domains, whatever the conversion of types. -/
theorem pipe_domain (cast : DT → Val → Val) (env : String → Ten Val) (hx : env "x" = fl 7) (hy : env "y" = fl 2) :
    ∀ e, Sat (exInterp cast) env e (graphOf pipeScript).nodeList → ∀ r ∈ (graphOf pipeScript).nodes, ((graphOf pipeScript).node r).op ∈ elemUn ++ elemBin →
        elemArgs ((graphOf pipeScript).node r).op .float (argVals e ((graphOf pipeScript).node r)) := by
  intro e he
  have hn : ∀ k, @LT.lt Nat _ k 10 → NodeSat (exInterp cast) env e ((graphOf pipeScript).node k) := by
    intro k hk
    refine he.1 _ (List.mem_map_of_mem ?_)
    have : (graphOf pipeScript).nodes = List.range 10 := rfl
    rw [this]
    exact List.mem_range.2 hk
  have ex : e "x" = fl 7 := (hn 0 (by decide) 0 "x" rfl (by decide)).trans hx
  have ey : e "y" = fl 2 := (hn 1 (by decide) 0 "y" rfl (by decide)).trans hy
  have ea : e "a" = fl 3 := by
    refine (hn 2 (by decide) 0 "a" rfl (by decide)).trans ?_
    show exInterp cast "FloorDiv" "tf" [] [some (e "x"), some (e "y")] 0 = _
    rw [ex, ey]
    have h : ⌊(7 : ℚ) / 2⌋ = 3 := by rw [Int.floor_eq_iff]; norm_num
    simp [exInterp, fl, Ten.scalar, Ten.zip, Ten.get, exT, exK, resType, boolOps, fl3, onNums, h]
  have eb : e "b" = fl 6 := by
    refine (hn 3 (by decide) 0 "b" rfl (by decide)).trans ?_
    show exInterp cast "Relu6" "tf" [] [some (e "x")] 0 = _
    rw [ex]
    have h : vlt (.num 6) (.num 7) = true := by simp [vlt]; norm_num
    have h0 : vlt (.num 7) (.num 0) = false := by simp [vlt]
    simp [exInterp, fl, Ten.scalar, Ten.map, Ten.get, exT, resType, boolOps, vmin, vmax, h, h0]
  have hsd : exInterp cast "SquaredDifference" "tf" [] [some (fl 6), some (fl 2)] 0 = fl 16 := by
    simp [exInterp, fl, Ten.scalar, Ten.zip, Ten.get, exT, exK, resType, boolOps, onNums]
    norm_num
  have ec : e "c" = fl 16 := by
    refine (hn 4 (by decide) 0 "c" rfl (by decide)).trans ?_
    show exInterp cast "SquaredDifference" "tf" [] [some (e "b"), some (e "y")] 0 = _
    rw [eb, ey, hsd]
  have ec2 : e "c2" = fl 16 := by
    refine (hn 5 (by decide) 0 "c2" rfl (by decide)).trans ?_
    show exInterp cast "SquaredDifference" "tf" [] [some (e "b"), some (e "y")] 0 = _
    rw [eb, ey, hsd]
  have ed : e "d" = fl 32 := by
    refine (hn 6 (by decide) 0 "d" rfl (by decide)).trans ?_
    show exInterp cast "AddV2" "tf" [] [some (e "c"), some (e "c2")] 0 = _
    have h : partner sameBin "AddV2" = "Add" := by decide +kernel
    rw [ec, ec2]
    simp [exInterp, fl, Ten.scalar, Ten.zip, Ten.get, exT, exK, resType, boolOps, onNums, h]
    norm_num
  intro r hr
  have : r ∈ [0, 1, 2, 3, 4, 5, 6, 7, 8, 9] := hr
  simp only [List.mem_cons, List.not_mem_nil, or_false] at this
  rcases this with rfl | rfl | rfl | rfl | rfl | rfl | rfl | rfl | rfl | rfl
  · intro h; exact absurd h (by decide)
  · intro h; exact absurd h (by decide)
  · intro _
    show elemArgs "FloorDiv" .float [some (e "x"), some (e "y")]
    rw [ex, ey, elemArgs, if_neg (by decide)]
    exact two_fl (by norm_num) (by norm_num) fun _ _ _ _ => by simp [elemDomain, fl3]
  · intro _
    show elemArgs "Relu6" .float [some (e "x")]
    rw [ex, elemArgs, if_pos (by decide)]
    exact one_fl (by norm_num)
  · intro _
    show elemArgs "SquaredDifference" .float [some (e "b"), some (e "y")]
    rw [eb, ey, elemArgs, if_neg (by decide)]
    exact two_fl (by norm_num) (by norm_num) fun _ _ _ _ => by simp [elemDomain]
  · intro _
    show elemArgs "SquaredDifference" .float [some (e "b"), some (e "y")]
    rw [eb, ey, elemArgs, if_neg (by decide)]
    exact two_fl (by norm_num) (by norm_num) fun _ _ _ _ => by simp [elemDomain]
  · intro _
    show elemArgs "AddV2" .float [some (e "c"), some (e "c2")]
    rw [ec, ec2, elemArgs, if_neg (by decide)]
    exact two_fl (by norm_num) (by norm_num) fun _ _ _ _ => by simp [elemDomain]
  · intro _
    show elemArgs "LessEqual" .float [some (e "a"), some (e "d")]
    rw [ea, ed, elemArgs, if_neg (by decide)]
    exact two_fl (by norm_num) (by norm_num) fun _ _ _ _ => by simp [elemDomain]
  · intro _
    show elemArgs "Exp" .float [some (e "d")]
    rw [ed, elemArgs, if_pos (by decide)]
    exact one_fl (by norm_num)
  · intro h; exact absurd h (by decide)

end Verif.Graph
