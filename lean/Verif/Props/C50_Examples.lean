import Verif.Props.C51_While
import Verif.Props.HandlerExamples
/-!
# C50, C51: concrete graphs
-/
namespace Verif.Graph
open Verif

/-- A test for `Func`. -/
theorem Func.of_check {f : G} (h1 : ∀ r ∈ f.inputs, r ∈ f.nodes ∧ (f.node r).isGraphInput = true ∧ (f.node r).input = [] ∧ (f.node r).output.length = 1)
    (h2 : ∀ r ∈ f.nodes, (f.node r).isGraphInput = true → r ∈ f.inputs) (h3 : f.inputs.Nodup) (h4 : Executable f.nodeList)
    (h5 : ∀ n ∈ f.nodeList, ∀ i ∈ n.input, i ≠ "" → ∃ m ∈ f.nodeList, i ∈ m.output) (h6 : ∀ n ∈ f.nodeList, "" ∉ n.output)
    (h7 : ∀ o ∈ f.outputs, ∃ m ∈ f.nodeList, o ∈ m.output) (h8 : f.outputs.Nodup) : Func f :=
  ⟨fun r hr => ⟨(h1 r hr).1, (h1 r hr).2.1, (h1 r hr).2.2.1, List.length_eq_one_iff.1 (h1 r hr).2.2.2⟩, h2, h3, h4, h5, h6, h7, h8⟩

/-- Tensors the function does not have are not captured. -/
theorem NoCapture.of_fresh {f : G} {args : List String} (h : ∀ x ∈ args, ∀ n ∈ f.nodeList, x ∉ n.output) : NoCapture f args := by
  intro a n b hs p _ x hx m hm
  exact h x (List.of_mem_zip hx).2 m (by rw [hs]; simp [hm])

/-- `y = if c then neg(x) else x + x`. -/
def ifScript : List Edit :=
  [.addGraphInput "pc" "c", .addGraphInput "px" "x", .makeNode "StatelessIf" ["c", "x"] "cond" ["y"] [] "", .makeNode "Identity" ["y"] "id" ["o"] [] "",
   .addGraphOutput "o"]

def thenScript : List Edit := [.addGraphInput "pa" "a", .makeNode "Neg" ["a"] "n" ["b"] [] "", .addGraphOutput "b"]
def elseScript : List Edit := [.addGraphInput "pa" "a", .makeNode "Add" ["a", "a"] "n" ["b"] [] "", .addGraphOutput "b"]

theorem graphOf_building {s : List Edit} (hs : ∀ e ∈ s, Building e) (h : G.run {} s = .ok (graphOf s)) : ReachableSafe (graphOf s) :=
  run_building hs .empty h

/-- The theorem applies to the example. -/
example : ∃ g' gt' ge', (graphOf ifScript).convertIf 2 "then_f" (graphOf thenScript) "else_f" (graphOf elseScript) = .ok (g', gt', ge') ∧
    g'.nodeList.map (fun n => (n.op, n.input, n.output)) =
      [("Placeholder", [], ["c"]), ("Placeholder", [], ["x"]), ("Identity", ["y"], ["o"]), ("If", ["c"], ["y"])] ∧
    gt'.nodeList.map (fun n => (n.op, n.input, n.output)) = [("Identity", ["x"], ["then_f_pa:0"]), ("Neg", ["then_f_pa:0"], ["then_f_n:0"])] ∧
    ReachableSafe (graphOf ifScript) ∧ ((graphOf ifScript).node 2).input = ["c", "x"] ∧ 2 ∉ (graphOf ifScript).inputs ∧ Passable ["x"] ∧
    Branch (graphOf thenScript) ["x"] gt' ∧ Branch (graphOf elseScript) ["x"] ge' := by
  refine ⟨_, _, _, rfl, by decide +kernel, by decide +kernel, graphOf_building (by decide) rfl, rfl, by decide, ⟨by decide, by decide⟩, ?_, ?_⟩
  · exact ⟨(graphOf_building (s := thenScript) (by decide) rfl).reachable,
      .of_check (by decide) (by decide) (by decide) (by decide) (by decide) (by decide) (by decide) (by decide), by unfold Plain; decide,
      .of_fresh (by decide), by unfold G.Produces; decide +kernel⟩
  · exact ⟨(graphOf_building (s := elseScript) (by decide) rfl).reachable,
      .of_check (by decide) (by decide) (by decide) (by decide) (by decide) (by decide) (by decide) (by decide), by unfold Plain; decide,
      .of_fresh (by decide), by unfold G.Produces; decide +kernel⟩

/-- `x` is doubled while it is below 100, at most 5 times. -/
def whileScript : List Edit :=
  [.addGraphInput "px" "x", .makeNode "Const" [] "z" ["z"] [("value", .tensor ⟨6, [], [0]⟩)] "",
   .makeNode "Const" [] "m" ["m"] [("value", .tensor ⟨6, [], [5]⟩)] "", .makeNode "StatelessWhile" ["z", "m", "x"] "w" ["w:0", "w:1", "w:2"] [] "",
   .makeNode "Identity" ["w:2"] "id" ["o"] [] "", .addGraphOutput "o"]

def condScript : List Edit :=
  [.addGraphInput "p0" "a0", .addGraphInput "p1" "a1", .addGraphInput "p2" "a2", .makeNode "Less" ["a0", "a1"] "l" ["l"] [] "",
   .makeNode "Const" [] "h" ["h"] [("value", .tensor ⟨6, [], [100]⟩)] "", .makeNode "Less" ["a2", "h"] "q" ["q"] [] "",
   .makeNode "And" ["l", "q"] "r" ["r"] [] "", .addGraphOutput "r"]

def bodyScript : List Edit :=
  [.addGraphInput "p0" "b0", .addGraphInput "p1" "b1", .addGraphInput "p2" "b2", .makeNode "Const" [] "k" ["k"] [("value", .tensor ⟨6, [], [1]⟩)] "",
   .makeNode "Add" ["b0", "k"] "s" ["s"] [] "", .makeNode "Identity" ["b1"] "t" ["t"] [] "", .makeNode "Add" ["b2", "b2"] "u" ["u"] [] "",
   .addGraphOutput "s", .addGraphOutput "t", .addGraphOutput "u"]

/-- Integers as tensors. -/
def intInterp : Interp Int := fun op _ attr ins _ =>
  match op, ins with
  | "Identity", [some a] => a
  | "Cast", [some a] => a
  | "Add", [some a, some b] => a + b
  | "Less", [some a, some b] => if a < b then 1 else 0
  | "And", [some a, some b] => if a ≠ 0 ∧ b ≠ 0 then 1 else 0
  | "Const", [] => match attr.get "value" with
    | some (.tensor t) => t.data.headD 0
    | _ => 0
  | "ConstV2", [] => match attr.get "value" with
    | some (.tensor t) => t.data.headD 0
    | _ => 0
  | _, _ => 0

theorem intInterp_identity : IdentityLaw Int intInterp := fun _ _ _ => rfl

theorem intInterp_ints : IntLaws intInterp some := by
  refine ⟨?_, ?_⟩
  · rintro op dom attr t v (rfl | rfl) h _ hd _
    · simp [intInterp, h, hd]
    · simp [intInterp, h, hd]
  · intro dom attr v i _ h
    exact h

theorem condFunc : Func (graphOf condScript) :=
  .of_check (by decide) (by decide) (by decide) (by decide) (by decide) (by decide) (by decide) (by decide)

theorem bodyFunc : Func (graphOf bodyScript) :=
  .of_check (by decide) (by decide) (by decide) (by decide) (by decide) (by decide) (by decide) (by decide)

theorem condReach : Reachable (graphOf condScript) := (graphOf_building (s := condScript) (by decide) rfl).reachable
theorem bodyReach : Reachable (graphOf bodyScript) := (graphOf_building (s := bodyScript) (by decide) rfl).reachable

theorem cond_returns (env : String → Int) (a outs : List Int) : Returns intInterp env (graphOf condScript) a outs ↔
    ∃ c m v, a = [c, m, v] ∧ outs = [if (if c < m then (1 : Int) else 0) ≠ 0 ∧ (if v < 100 then (1 : Int) else 0) ≠ 0 then 1 else 0] := by
  rw [condFunc.returns_iff condReach.wf]
  constructor
  · rintro ⟨hl, ho⟩
    have hl : a.length = 3 := hl
    match a, hl with
    | [c, m, v], _ => exact ⟨c, m, v, rfl, ho⟩
  · rintro ⟨c, m, v, rfl, ho⟩
    exact ⟨rfl, ho⟩

theorem body_function (env : String → Int) (a outs : List Int) : Returns intInterp env (graphOf bodyScript) a outs ↔
    ∃ c m v, a = [c, m, v] ∧ outs = [c + 1, m, v + v] := by
  rw [bodyFunc.returns_iff bodyReach.wf]
  constructor
  · rintro ⟨hl, ho⟩
    have hl : a.length = 3 := hl
    match a, hl with
    | [c, m, v], _ => exact ⟨c, m, v, rfl, ho⟩
  · rintro ⟨c, m, v, rfl, ho⟩
    exact ⟨rfl, ho⟩

/-- The loop of the example follows the conventions. -/
theorem while_conventions (env : String → Int) :
    LoopConventions (V := Int) some (fun v => v ≠ 0) true (fun s k => Returns intInterp env (graphOf condScript) s [k])
      (Returns intInterp env (graphOf bodyScript)) := by
  refine ⟨?_, ?_, ⟨fun s => decide (s.headD 0 < 100), ?_⟩⟩
  · intro _ c m s i M c' m' s' hc hm _ hb
    obtain ⟨c1, m1, v1, e1, e2⟩ := (body_function env _ _).1 hb
    simp only [List.cons.injEq] at e1 e2
    obtain ⟨rfl, rfl, rfl⟩ := e1
    obtain ⟨rfl, rfl, rfl⟩ := e2
    simp only [Option.some.injEq] at hc hm
    exact ⟨by rw [hc], by rw [hm]⟩
  · intro c m d k s c' m' s' _ hb
    obtain ⟨c1, m1, v1, e1, e2⟩ := (body_function env _ _).1 hb
    simp only [List.cons.injEq] at e1 e2
    obtain ⟨rfl, rfl, rfl⟩ := e1
    obtain ⟨rfl, rfl, rfl⟩ := e2
    exact ⟨d + 1, k, (body_function env _ _).2 ⟨d, k, v1, rfl, rfl⟩⟩
  · intro c m s k hk
    obtain ⟨c1, m1, v1, e1, e2⟩ := (cond_returns env _ _).1 hk
    simp only [List.cons.injEq, and_true] at e1 e2
    obtain ⟨rfl, rfl, rfl⟩ := e1
    subst e2
    refine ⟨by simp, ?_⟩
    intro _ i M hi hM
    simp only [Option.some.injEq] at hi hM
    subst hi hM
    by_cases h1 : c < m <;> by_cases h2 : v1 < 100 <;> simp [h1, h2]

theorem whileSite : WhileSite (graphOf whileScript) 3 "z" "m" ["x"] "w:0" "w:1" ["w:2"] where
  mem := by decide
  notInput := by decide
  input := rfl
  output := rfl
  same := rfl
  named := by decide
  passable := ⟨by decide, by decide⟩
  closed := by unfold G.Produces; decide
  results := by unfold G.Produces; decide
  unread := by decide
  acyclic := by decide
  lists := by decide
  placeholders := by decide
  bound := by decide

theorem whileNames : WhileNames (graphOf whileScript) 3 "z" "m" ["x"] (graphOf condScript) (graphOf bodyScript) "cond_f" "const" "cond" where
  own := ⟨by decide, by decide, by unfold G.Produces; decide⟩
  loop := by unfold G.Produces; decide +kernel
  apart := ⟨by decide, by decide, by decide⟩
  new := by decide
  nocap := by
    intro b hb
    refine .of_fresh ?_
    simp only [List.mem_cons, List.not_mem_nil, or_false] at hb
    rcases hb with rfl | rfl <;> decide
  names := by
    intro b hb
    simp only [List.mem_cons, List.not_mem_nil, or_false] at hb
    rcases hb with rfl | rfl
    all_goals
      refine ⟨⟨by decide, by decide⟩, fun i0 i1 is h => .of_fresh ?_, ⟨by decide, by decide, by decide⟩, by decide,
        ⟨by unfold G.Produces; decide, by decide⟩⟩
      have h : ["b0", "b1", "b2"] = i0 :: i1 :: is := h
      simp only [List.cons.injEq] at h
      obtain ⟨rfl, rfl, rfl⟩ := h
      decide
  input := by decide

theorem whileBound : IntBound (graphOf whileScript) "m" := by
  intro n hn hx hk
  have : n ∈ [(graphOf whileScript).node 0, (graphOf whileScript).node 1, (graphOf whileScript).node 2, (graphOf whileScript).node 3,
    (graphOf whileScript).node 4] := hn
  simp only [List.mem_cons, List.not_mem_nil, or_false] at this
  rcases this with rfl | rfl | rfl | rfl | rfl
  · exact absurd hx (by decide)
  · exact absurd hx (by decide)
  · exact ⟨⟨6, [], [5]⟩, 5, rfl, rfl, rfl, Or.inl rfl⟩
  · exact absurd hx (by decide)
  · exact absurd hx (by decide)

/-- What the conversion of the example gives. -/
def whileResult : G × Ref × G :=
  match (graphOf whileScript).convertWhile 3 "cond_f" (graphOf condScript) (graphOf bodyScript) "const" "cond" with
  | .ok x => x
  | .error _ => ({}, 0, {})

def Except.isOk' {ε α : Type} : Except ε α → Bool
  | .ok _ => true
  | .error _ => false

theorem whileResult_eq :
    (graphOf whileScript).convertWhile 3 "cond_f" (graphOf condScript) (graphOf bodyScript) "const" "cond" = .ok whileResult := by
  have h : Except.isOk' ((graphOf whileScript).convertWhile 3 "cond_f" (graphOf condScript) (graphOf bodyScript) "const" "cond") = true := by
    decide +kernel
  unfold whileResult
  generalize (graphOf whileScript).convertWhile 3 "cond_f" (graphOf condScript) (graphOf bodyScript) "const" "cond" = w at h ⊢
  cases w with
  | ok x => rfl
  | error _ => cases h

theorem whileResult_eq' : (graphOf whileScript).convertWhile 3 "cond_f" (graphOf condScript) (graphOf bodyScript) "const" "cond" =
    .ok (whileResult.1, whileResult.2.1, whileResult.2.2) := whileResult_eq

theorem whileResult_nodes : whileResult.1.nodeList.map (fun n => (n.op, n.input, n.output)) =
      [("Placeholder", [], ["x"]), ("Const", [], ["z"]), ("Identity", ["w_loop:0"], ["o"]), ("Const", [], ["m"]),
       ("Identity", ["z"], ["cond_f_p0:0"]), ("Identity", ["m"], ["cond_f_p1:0"]), ("Identity", ["x"], ["cond_f_p2:0"]),
       ("Less", ["cond_f_p0:0", "cond_f_p1:0"], ["cond_f_l:0"]), ("Const", [], ["cond_f_h:0"]),
       ("Less", ["cond_f_p2:0", "cond_f_h:0"], ["cond_f_q:0"]), ("And", ["cond_f_l:0", "cond_f_q:0"], ["cond_f_r:0"]),
       ("Loop", ["m", "cond_f_r:0", "x"], ["w_loop:0"])] := by
  decide +kernel

theorem whileResult_inputs : (whileResult.1.node whileResult.2.1).input = ["m", "cond_f_r:0", "x"] := by
  decide +kernel

attribute [local irreducible] whileResult

/-- The theorem applies to the example: its hypotheses hold, and the loop gives the results of `While`. -/
theorem whileResult_sound (env : String → Int) (out : List Int) :
    (∃ e, SatWith intInterp env e whileResult.1.nodeList ("w" ++ "_loop")
        (OnnxLoop (fun v => v ≠ 0) (fun i => (i : Int)) (Returns intInterp e whileResult.2.2) (tripOf some e "m") 0 (e "cond_f_r:0")
          (["x"].map e)) ∧ out = whileResult.1.outputs.map e) ↔
      ∃ e, SatWith intInterp env e (graphOf whileScript).nodeList "w"
        (TfWhile (fun v => v ≠ 0) (fun s k => Returns intInterp e (graphOf condScript) s [k]) (Returns intInterp e (graphOf bodyScript))
          (["z", "m", "x"].map e)) ∧ out = (graphOf whileScript).outputs.map e := by
  obtain ⟨trip, c, _, _, _, hnode, _, hsem⟩ := while_converts (graphOf_building (s := whileScript) (by decide) rfl) whileSite whileBound
    condReach condFunc (by unfold Plain; decide) bodyReach bodyFunc whileNames rfl rfl rfl rfl whileResult_eq'
  have hin := congrArg Node.input hnode
  rw [whileResult_inputs] at hin
  have hin : ["m", "cond_f_r:0", "x"] = [trip, c, "x"] := by simpa [loopNode] using hin
  simp only [List.cons.injEq, and_true] at hin
  obtain ⟨rfl, rfl⟩ := hin
  have hname : ((graphOf whileScript).node 3).name = "w" := by decide
  rw [hname] at hsem
  refine hsem Int intInterp intInterp_identity some intInterp_ints (fun v => v ≠ 0) (fun i => (i : Int)) env ?_ ?_ out
  · have := while_conventions env
    simpa using this
  · intro _ e he
    have h1 := he ((graphOf whileScript).node 1) (by decide) (by decide)
    have h2 := he ((graphOf whileScript).node 2) (by decide) (by decide)
    have h1 : e "z" = 0 := h1 0 "z" rfl (by decide)
    have h2 : e "m" = 5 := h2 0 "m" rfl (by decide)
    exact ⟨by rw [h1], 5, by rw [h2], fun i _ => rfl⟩

end Verif.Graph
