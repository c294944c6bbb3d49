import Verif.Props.C49_Binary
import Verif.Props.ElemWitness
/-!
# C49: concrete cases, and where the property is false
-/
namespace Verif.Graph
open Verif Verif.Elem Verif.Cast

variable {v : Nat} {I : Interp (Ten Val)} {K T : Kern Val} {cast : DT → Val → Val}

/-- What an entry of the table does. -/
def byEntry (m : MapInfo) (g : G) (r : Ref) : Except String G := m.convert g r

example : Shown 9 (byEntry (entry exFresh none passActs)) (tfUnScript "Sinh" 1 1) 1
    [("Placeholder", "", [], ["x"]), ("Sinh", "", ["x"], ["z"]), ("Identity", "", ["z"], ["o"])] (One .float (fun _ => True)) :=
  .of _ rfl (by decide) fun _ _ _ _ on tf el h => direct_un_converts (t := .float) (p := ("Sinh", "Sinh")) on tf el exFresh_tensors (by decide)
    (site (tfUnScript "Sinh" 1 1)) rfl (Or.inr ⟨rfl, rfl⟩) h

example : Shown 9 (byEntry (entry exFresh (some "Not") passActs)) (tfUnScript "LogicalNot" 9 9) 1
    [("Placeholder", "", [], ["x"]), ("Not", "", ["x"], ["z"]), ("Identity", "", ["z"], ["o"])] (One .bool (fun _ => True)) :=
  .of _ rfl (by decide) fun _ _ _ _ on tf el h => direct_un_converts (t := .bool) (p := ("LogicalNot", "Not")) on tf el exFresh_tensors (by decide)
    (site (tfUnScript "LogicalNot" 9 9)) rfl (Or.inl rfl) h

example : Shown 7 (G.handle exFresh squareActs) (tfUnScript "Square" 6 6) 1
    [("Placeholder", "", [], ["x"]), ("Mul", "", ["x", "x"], ["z"]), ("Identity", "", ["z"], ["o"])] (One .int32 (fun _ => True)) :=
  .of _ rfl (by decide) fun _ _ _ _ on tf el h => square_converts (t := .int32) on tf el exFresh_tensors (site (tfUnScript "Square" 6 6)) rfl h

example : Shown 7 (G.handle exFresh rsqrtActs) (tfUnScript "Rsqrt" 1 1) 1
    [("Placeholder", "", [], ["x"]), ("Sqrt", "", ["x"], ["z"]), ("Identity", "", ["new''':0"], ["o"]), ("Reciprocal", "", ["z"], ["new''':0"])]
    (One .float (fun _ => True)) :=
  .of _ rfl (by decide) fun _ _ _ _ on tf el h => rsqrt_converts (t := .float) on tf el exFresh_tensors (site (tfUnScript "Rsqrt" 1 1))
    (by decide) rfl h

example : Shown 9 (G.handle exFresh relu6Acts1) (tfUnScript "Relu6" 1 1) 1
    [("Placeholder", "", [], ["x"]), ("Clip", "", ["x"], ["z"]), ("Identity", "", ["z"], ["o"])] (One .float (fun _ => True)) :=
  .of _ rfl (by decide) fun _ _ _ _ on tf el h => relu6_converts (t := .float) on tf el exFresh_tensors (by decide)
    (site (tfUnScript "Relu6" 1 1)) rfl h

example : Shown 12 (G.handle exFresh (relu6Acts11 exFresh)) (tfUnScript "Relu6" 1 1) 1
    [("Placeholder", "", [], ["x"]), ("Clip", "", ["x", "new'''", "new''''"], ["z"]), ("Identity", "", ["z"], ["o"]),
     ("Const", "", [], ["new'''"]), ("Const", "", [], ["new''''"])] (One .float (fun _ => True)) :=
  .of _ rfl (by decide) fun _ _ _ _ on tf el h => relu6_11_converts (t := .float) on tf el exFresh_tensors (by decide)
    (site (tfUnScript "Relu6" 1 1)) rfl rfl h

example : Shown 10 (G.handle exFresh (isFiniteActs exFresh)) (tfUnScript "IsFinite" 1 9) 1
    [("Placeholder", "", [], ["x"]), ("Identity", "", ["z"], ["o"]), ("IsInf", "", ["x"], ["new''':0"]), ("IsNaN", "", ["x"], ["new'''':0"]),
     ("Or", "", ["new''':0", "new'''':0"], ["new''''':0"]), ("Not", "", ["new''''':0"], ["z"])] (One .float (fun _ => True)) :=
  .of _ rfl (by decide) fun _ _ _ _ on tf el h => isFinite_converts (t := .float) on tf el exFresh_tensors (by decide)
    (site (tfUnScript "IsFinite" 1 9)) rfl h

example : Shown 9 (G.handle exFresh signActs9) (tfUnScript "Sign" 6 6) 1
    [("Placeholder", "", [], ["x"]), ("Sign", "", ["x"], ["z"]), ("Identity", "", ["z"], ["o"])] (One .int32 (fun _ => True)) :=
  .of _ rfl (by decide) fun _ _ _ _ on tf el h => sign9_converts (t := .int32) on tf el exFresh_tensors (by decide)
    (site (tfUnScript "Sign" 6 6)) rfl h

example : Shown 8 (G.handle exFresh (signActs1 exFresh)) (tfUnScript "Sign" 1 1) 1
    [("Placeholder", "", [], ["x"]), ("Identity", "", ["z"], ["o"]), ("Const", "", [], ["new'''"]), ("Greater", "", ["x", "new'''"], ["new'''':0"]),
     ("Less", "", ["x", "new'''"], ["new''''':0"]), ("Cast", "", ["new'''':0"], ["new'''''':0"]), ("Cast", "", ["new''''':0"], ["new''''''':0"]),
     ("Sub", "", ["new'''''':0", "new''''''':0"], ["z"])] (One .float Comparable) :=
  .of _ rfl (by decide) fun _ _ _ _ on tf el h => sign1_float_converts on tf el exFresh_tensors (site (tfUnScript "Sign" 1 1)) rfl h

example : Shown 8 (G.handle exFresh (signActs1 exFresh)) (tfUnScript "Sign" 6 6) 1
    [("Placeholder", "", [], ["x"]), ("Identity", "", ["z"], ["o"]), ("Const", "", [], ["new'''"]), ("Cast", "", ["x"], ["new'''':0"]),
     ("Greater", "", ["new'''':0", "new'''"], ["new''''':0"]), ("Less", "", ["new'''':0", "new'''"], ["new'''''':0"]),
     ("Cast", "", ["new''''':0"], ["new''''''':0"]), ("Cast", "", ["new'''''':0"], ["new'''''''':0"]),
     ("Sub", "", ["new''''''':0", "new'''''''':0"], ["z"])] (One .int32 (HasType .float)) :=
  .of _ rfl (by decide) fun _ _ _ _ on tf el h => sign1_int_converts_partial on tf el exFresh_tensors (site (tfUnScript "Sign" 6 6)) rfl rfl rfl h

example : Shown 7 (G.handle exFresh (log6Acts exFresh)) (tfUnScript "Log" 1 1) 1
    [("Placeholder", "", [], ["x"]), ("Log", "", ["x"], ["z"]), ("Identity", "", ["z"], ["o"])] (One .float (fun _ => True)) :=
  .of _ rfl (by decide) fun _ _ _ _ on tf el h => log6_float_converts_partial on tf el exFresh_tensors (site (tfUnScript "Log" 1 1)) rfl h

example : ∃ e, G.handle exFresh (log6Acts exFresh) (graphOf (tfUnScript "Log" 10 10)) 1 = .error e :=
  log6_other_raises (site (tfUnScript "Log" 10 10)) (by decide) (by decide)

example : Shown 12 (byEntry (entry exFresh (some "Max") passActs)) (tfBinScript "Maximum" 7 7) 2
    [("Placeholder", "", [], ["x"]), ("Placeholder", "", [], ["y"]), ("Max", "", ["x", "y"], ["z"]), ("Identity", "", ["z"], ["o"])]
    (Two .int64 (fun _ _ => True)) :=
  .of _ rfl (by decide) fun _ _ _ _ on tf el h => direct_bin_converts (t := .int64) (p := ("Maximum", "Max")) on tf el exFresh_tensors (by decide)
    (site (tfBinScript "Maximum" 7 7)) rfl (Or.inl rfl) h

example : Shown 7 (byEntry (entry exFresh none broadcast6Acts)) (tfBinScript "AddV2" 1 1) 2
    [("Placeholder", "", [], ["x"]), ("Placeholder", "", [], ["y"]), ("Add", "", ["x", "y"], ["z"]), ("Identity", "", ["z"], ["o"])]
    (Two .float (fun _ _ => True)) :=
  .of _ rfl (by decide) fun _ _ _ _ on tf el h => broadcast6_converts (t := .float) (p := ("AddV2", "Add")) on tf el exFresh_tensors (by decide)
    (site (tfBinScript "AddV2" 1 1)) rfl (Or.inr ⟨rfl, Or.inr rfl⟩) (fun h => absurd h (by decide)) h

/-- `o = Identity(x * c)` with a constant of more dimensions: the operands are swapped. -/
def swapScript : List Edit :=
  [.addGraphInput "px" "x", .makeNode "Const" [] "c" ["c"] [("value", .tensor ⟨1, [1, 2], [3, 4]⟩)] "",
   .makeNode "Mul" ["x", "c"] "nd" ["z"] [] "tf", .makeNode "Identity" ["z"] "id" ["o"] [] "", .addGraphOutput "o",
   .setDtype "x" 1, .setDtype "c" 1, .setDtype "z" 1, .setShape "x" (some [some 2]), .setShape "c" (some [some 1, some 2])]

example : Shown 7 (byEntry (entry exFresh none broadcast6Acts)) swapScript 2
    [("Placeholder", "", [], ["x"]), ("Const", "", [], ["c"]), ("Mul", "", ["c", "x"], ["z"]), ("Identity", "", ["z"], ["o"])]
    (Two .float (fun _ _ => True)) :=
  .of _ rfl (by decide) fun _ _ _ _ on tf el h => broadcast6_converts (t := .float) (p := ("Mul", "Mul")) on tf el exFresh_tensors (by decide)
    (site swapScript) rfl (Or.inr ⟨rfl, Or.inl rfl⟩) (fun _ => ⟨1, by decide, by decide, by decide⟩) h

example : Shown 7 (G.handle exFresh sqDiffActs) (tfBinScript "SquaredDifference" 1 1) 2
    [("Placeholder", "", [], ["x"]), ("Placeholder", "", [], ["y"]), ("Sub", "", ["x", "y"], ["z"]), ("Identity", "", ["new'''':0"], ["o"]),
     ("Mul", "", ["z", "z"], ["new'''':0"])] (Two .float (fun _ _ => True)) :=
  .of _ rfl (by decide) fun _ _ _ _ on tf el h => sqDiff_converts (t := .float) on tf el exFresh_tensors
    (site (tfBinScript "SquaredDifference" 1 1)) (by decide) rfl h

example : Shown 11 (G.handle exFresh (divNoNanActs exFresh)) (tfBinScript "DivNoNan" 1 1) 2
    [("Placeholder", "", [], ["x"]), ("Placeholder", "", [], ["y"]), ("Div", "", ["x", "y"], ["z"]), ("Identity", "", ["new'''''':0"], ["o"]),
     ("Const", "", [], ["new''''"]), ("Equal", "", ["y", "new''''"], ["new''''':0"]), ("Where", "", ["new''''':0", "new''''", "z"], ["new'''''':0"])]
    (Two .float (fun _ _ => True)) :=
  .of _ rfl (by decide) fun _ _ _ _ on tf el h => divNoNan_converts_partial (t := .float) on tf el exFresh_tensors (by decide)
    (site (tfBinScript "DivNoNan" 1 1)) (by decide) rfl rfl h

example : Shown 8 (byEntry (entry exFresh (some "Min") (minMaxActs exFresh))) (tfBinScript "Minimum" 1 1) 2
    [("Placeholder", "", [], ["x"]), ("Placeholder", "", [], ["y"]), ("Identity", "", ["z"], ["o"]), ("Min", "", ["x", "y"], ["new'''':0"]),
     ("Identity", "", ["new'''':0"], ["z"])] (Two .float (fun _ _ => True)) :=
  .of _ rfl (by decide) fun _ _ _ _ on tf el h => minMax_float_converts (t := .float) (p := ("Minimum", "Min")) on tf el exFresh_tensors (by decide)
    (site (tfBinScript "Minimum" 1 1)) rfl rfl rfl rfl h

set_option maxHeartbeats 2000000 in
example : Shown 8 (byEntry (entry exFresh (some "Max") (minMaxActs exFresh))) (tfBinScript "Maximum" 6 6) 2
    [("Placeholder", "", [], ["x"]), ("Placeholder", "", [], ["y"]), ("Identity", "", ["z"], ["o"]), ("Cast", "", ["x"], ["new'''':0"]),
     ("Cast", "", ["y"], ["new''''':0"]), ("Max", "", ["new'''':0", "new''''':0"], ["new'''''':0"]), ("Cast", "", ["new'''''':0"], ["new''''''':0"]),
     ("Identity", "", ["new''''''':0"], ["z"])] (Two .int32 (fun u w => HasType .float u ∧ HasType .float w)) :=
  .of _ rfl (by decide) fun _ _ _ _ on tf el h => minMax_int_converts_partial (t := .int32) (p := ("Maximum", "Max")) on tf el exFresh_tensors
    (by decide) (site (tfBinScript "Maximum" 6 6)) rfl rfl rfl rfl h

/-- `o = Identity(clip_by_value(x, y, w))`. -/
def clipScript : List Edit :=
  [.addGraphInput "px" "x", .addGraphInput "py" "y", .addGraphInput "pw" "w", .makeNode "ClipByValue" ["x", "y", "w"] "nd" ["z"] [] "tf",
   .makeNode "Identity" ["z"] "id" ["o"] [] "", .addGraphOutput "o"]

example : Shown 12 (G.handle exFresh (renameActs "Clip")) clipScript 3
    [("Placeholder", "", [], ["x"]), ("Placeholder", "", [], ["y"]), ("Placeholder", "", [], ["w"]), ("Clip", "", ["x", "y", "w"], ["z"]),
     ("Identity", "", ["z"], ["o"])] (Bounded .float) :=
  .of _ rfl (by decide) fun _ _ _ _ on tf _ h => clip12_converts_partial (t := .float) on tf exFresh_tensors (by decide)
    (site clipScript) rfl h

/-! ## Where it is false -/

/-- `o = Identity(x * y)` with a second operand of more dimensions that is not a constant. -/
def swapScript2 : List Edit :=
  [.addGraphInput "px" "x", .addGraphInput "py" "y", .makeNode "Mul" ["x", "y"] "nd" ["z"] [] "tf", .makeNode "Identity" ["z"] "id" ["o"] [] "",
   .addGraphOutput "o", .setDtype "x" 1, .setDtype "y" 1, .setDtype "z" 1, .setShape "x" (some [some 2]), .setShape "y" (some [some 1, some 2])]

/-- Swapping the operands of `Mul` drops the node from the readers of the second one: it still reads the tensor, but
`find_output_consumers` no longer finds it, and a later `replace_all_inputs` does not reach it. -/
theorem swap_loses_reader_violated : ∃ g' g'', byEntry (entry exFresh none broadcast6Acts) (graphOf swapScript2) 2 = .ok g' ∧
    (g'.node 2).input = ["y", "x"] ∧ g'.findOutputConsumers "y" = [] ∧ (graphOf swapScript2).findOutputConsumers "y" = [2] ∧
    g'.replaceAllInputs "y" "w" none = .ok g'' ∧ (g''.node 2).input = ["y", "x"] :=
  ⟨_, _, rfl, by decide, by decide, by decide, rfl, by decide⟩

/-- Before operator set 9, `Sign` of doubles becomes a comparison of a double with a float, which ONNX does not allow. -/
theorem sign1_double_violated (on : OnnxOps v I K cast) : ∃ g', G.handle exFresh (signActs1 exFresh) (graphOf (tfUnScript "Sign" 11 11)) 1 = .ok g' ∧
    ∃ r ∈ g'.nodes, (g'.node r).op = "Greater" ∧ (g'.node r).domain = "" ∧
      ∀ env e, Sat I env e g'.nodeList → (env "x").dt = .double →
        ∃ a b, argVals e (g'.node r) = [some a, some b] ∧ a.dt = .double ∧ b.dt = .float := by
  refine ⟨_, rfl, 4, by decide, by decide, by decide, ?_⟩
  intro env e hs hx
  have h1 := sat_value hs 0 (by decide) (o := "x") (by decide) (by decide)
  have h2 := sat_value hs 3 (by decide) (o := "new'''") (by decide) (by decide)
  refine ⟨e "x", e "new'''", rfl, ?_, ?_⟩
  · rw [h1]; exact hx
  · rw [h2]
    show (I "Const" "" [("value", .tensor ⟨1, [], [0]⟩)] [] 0).dt = .float
    rw [on.isConst _ .float 0 rfl]
    rfl

/-- At operator sets 9 and 10, `DivNoNan` becomes a group with an `Equal` of floating operands, which these operator sets do not have. -/
theorem divNoNan9_violated (hv : v < 11) : ∃ g', G.handle exFresh (divNoNanActs exFresh) (graphOf (tfBinScript "DivNoNan" 1 1)) 2 = .ok g' ∧
    ∃ r ∈ g'.nodes, (g'.node r).op = "Equal" ∧ (g'.node r).domain = "" ∧ onnxTypes v "Equal" .float = false ∧
      ∀ (I : Interp (Ten Val)) env e, Sat I env e g'.nodeList → (env "y").dt = .float →
        ∃ a b, argVals e (g'.node r) = [some a, b] ∧ a.dt = .float := by
  refine ⟨_, rfl, 5, by decide, by decide, by decide, ?_, ?_⟩
  · have : ¬ 11 ≤ v := by omega
    tys [this]
  · intro I env e hs hx
    have h1 := sat_value hs 1 (by decide) (o := "y") (by decide) (by decide)
    exact ⟨e "y", _, rfl, by rw [h1]; exact hx⟩

/-- From operator set 12 on, `ClipByValue` becomes `Clip` with the same bounds, whatever their shape; `Clip` takes scalars only. -/
theorem clip12_shape_violated : ∃ g', G.handle exFresh (renameActs "Clip") (graphOf clipScript) 3 = .ok g' ∧
    ∃ r ∈ g'.nodes, (g'.node r).op = "Clip" ∧ (g'.node r).domain = "" ∧
      ∀ (I : Interp (Ten Val)) env e, Sat I env e g'.nodeList → ∃ a, argVals e (g'.node r) = [a, some (env "y"), some (env "w")] := by
  refine ⟨_, rfl, 3, by decide, by decide, by decide, ?_⟩
  intro I env e hs
  have h1 := sat_value hs 1 (by decide) (o := "y") (by decide) (by decide)
  have h2 := sat_value hs 2 (by decide) (o := "w") (by decide) (by decide)
  refine ⟨some (e "x"), ?_⟩
  have h1 : e "y" = env "y" := h1
  have h2 : e "w" = env "w" := h2
  rw [← h1, ← h2]
  rfl

end Verif.Graph
