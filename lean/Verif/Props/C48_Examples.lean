import Verif.Props.C48_Table
/-!
# C48: a concrete graph
-/
namespace Verif.Graph
open Verif Verif.Elem Verif.Cast

/-- `o = Identity(lessequal(floordiv(x, y), squareddifference(relu6(x), y) + y))` on operands of type float. -/
def mapScript : List Edit :=
  [.addGraphInput "px" "x", .addGraphInput "py" "y", .makeNode "FloorDiv" ["x", "y"] "nd" ["a"] [] "tf",
   .makeNode "Relu6" ["x"] "nr" ["b"] [] "tf", .makeNode "SquaredDifference" ["b", "y"] "ns" ["c"] [] "tf",
   .makeNode "AddV2" ["c", "y"] "na" ["d"] [] "tf", .makeNode "LessEqual" ["a", "d"] "le" ["q"] [] "tf",
   .makeNode "Identity" ["q"] "id" ["o"] [] "", .addGraphOutput "o", .setDtype "x" 1, .setDtype "y" 1, .setDtype "a" 1, .setDtype "b" 1,
   .setDtype "c" 1, .setDtype "d" 1, .setDtype "q" 9, .setShape "c" (some [some 2]), .setShape "y" (some [some 2])]

theorem mapGraph_inv : HInv exFresh (graphOf mapScript) :=
  HInv.of_script (s := mapScript) (by decide) rfl (by decide) (by decide) (by decide) (by decide)

theorem mapGraph_nodes : ∀ r ∈ (graphOf mapScript).nodes, ((graphOf mapScript).node r).op ∈ elemUn ++ elemBin →
    ElemNode 13 (graphOf mapScript) r .float := by
  intro r hr
  have : r ∈ [0, 1, 2, 3, 4, 5, 6, 7] := hr
  simp only [List.mem_cons, List.not_mem_nil, or_false] at this
  rcases this with rfl | rfl | rfl | rfl | rfl | rfl | rfl | rfl
  · intro h; exact absurd h (by decide)
  · intro h; exact absurd h (by decide)
  · exact fun _ => ⟨by decide, by decide, by decide, fun h => absurd h (by decide),
      fun _ => ⟨"x", "y", rfl, by decide, by decide, rfl, rfl, fun h => absurd h (by decide)⟩, ⟨"a", rfl, by decide, by decide⟩⟩
  · exact fun _ => ⟨by decide, by decide, by decide, fun _ => ⟨"x", rfl, by decide, rfl⟩, fun h => absurd h (by decide), ⟨"b", rfl, by decide, by decide⟩⟩
  · exact fun _ => ⟨by decide, by decide, by decide, fun h => absurd h (by decide),
      fun _ => ⟨"b", "y", rfl, by decide, by decide, rfl, rfl, fun h => absurd h (by decide)⟩, ⟨"c", rfl, by decide, by decide⟩⟩
  · exact fun _ => ⟨by decide, by decide, by decide, fun h => absurd h (by decide),
      fun _ => ⟨"c", "y", rfl, by decide, by decide, rfl, rfl, fun _ => ⟨_, _, rfl, rfl, by decide⟩⟩, ⟨"d", rfl, by decide, by decide⟩⟩
  · exact fun _ => ⟨by decide, by decide, by decide, fun h => absurd h (by decide),
      fun _ => ⟨"a", "d", rfl, by decide, by decide, rfl, rfl, fun h => absurd h (by decide)⟩, ⟨"q", rfl, by decide, by decide⟩⟩
  · intro h; exact absurd h (by decide)

/-- The theorem applies to the example, which has five nodes to convert; one is kept as having no handler. -/
example : ∃ (I : Interp (Ten Val)) (K T : Kern Val) (cast : DT → Val → Val), OnnxOps 13 I K cast ∧ TfOps I T ∧ ElemLaws T K ∧
    ((graphOf mapScript).mapping (elemTable exFresh 13) (fun _ => false)).unmapped = ["Identity"] ∧
    ((graphOf mapScript).mapping (elemTable exFresh 13) (fun _ => false)).g.view =
      [("Placeholder", "", [], ["x"]), ("Placeholder", "", [], ["y"]), ("Div", "", ["x", "y"], ["a"]),
       ("Clip", "", ["x", "new'''''''''", "new''''''''''"], ["b"]), ("Sub", "", ["b", "y"], ["c"]),
       ("Add", "", ["new''''''''''':0", "y"], ["d"]), ("LessOrEqual", "", ["new'''''''':0", "d"], ["q"]),
       ("Identity", "", ["q"], ["o"]), ("Floor", "", ["a"], ["new'''''''':0"]), ("Const", "", [], ["new'''''''''"]),
       ("Const", "", [], ["new''''''''''"]), ("Mul", "", ["c", "c"], ["new''''''''''':0"])] ∧
    SameOn I (fun e => ∀ r ∈ (graphOf mapScript).nodes, ((graphOf mapScript).node r).op ∈ elemUn ++ elemBin →
        elemArgs ((graphOf mapScript).node r).op .float (argVals e ((graphOf mapScript).node r))) (graphOf mapScript)
      ((graphOf mapScript).mapping (elemTable exFresh 13) (fun _ => false)).g := by
  obtain ⟨I, T, K, cast, a, b, c⟩ := elem_exists 13
  refine ⟨I, K, T, cast, a, b, c, rfl, ?_, ?_⟩
  · decide +kernel
  · exact (elem_mapping_preserves_model a b c exFresh_tensors (by decide) mapGraph_inv (fun _ => .float) mapGraph_nodes rfl).1

end Verif.Graph
