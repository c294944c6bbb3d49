import Verif.Props.C50_Examples
/-!
# C50, C51: where the handlers lose the meaning of the model
-/
namespace Verif.Graph
open Verif

/-- A branch with a constant called `x`, placed before the parameter. -/
def captureScript : List Edit :=
  [.makeNode "Const" [] "x" ["x"] [("value", .tensor ⟨6, [], [7]⟩)] "", .addGraphInput "pa" "a", .makeNode "Identity" ["a"] "n" ["b"] [] "",
   .addGraphOutput "b"]

/-- C50 is false without `NoCapture`: the branch `fun a => a`, called with the tensor `x` of the surrounding graph, returns the branch's own constant
instead, if that happens to be called `x` too (the placeholder is bound to the outer name before the inner names are made unique). -/
theorem if_capture_violated : ∃ f', (graphOf captureScript).wireIfBranch ["x"] [] "f" = .ok f' ∧
    ∀ (outer : String → Int), Returns intInterp outer (graphOf captureScript) [outer "x"] [outer "x"] ∧
      ∀ out, Returns intInterp outer f' [] [out] → out = 7 := by
  refine ⟨_, rfl, ?_⟩
  intro outer
  constructor
  · have hf : Func (graphOf captureScript) :=
      .of_check (by decide) (by decide) (by decide) (by decide) (by decide) (by decide) (by decide) (by decide)
    rw [hf.returns_iff (graphOf_building (s := captureScript) (by decide) rfl).reachable.wf]
    exact ⟨rfl, rfl⟩
  · rintro out ⟨env, _, _, e, hs, ho⟩
    have h1 : e "f_x:0" = 7 := hs.1 ⟨"f_x", "Const", "", [("value", .tensor ⟨6, [], [7]⟩)], [], ["f_x:0"]⟩ (by decide +kernel) 0 _ rfl (by decide)
    have h2 : e "f_pa:0" = e "f_x:0" := hs.1 ⟨"f_pa", "Identity", "", [], ["f_x:0"], ["f_pa:0"]⟩ (by decide +kernel) 0 _ rfl (by decide)
    have h3 : e "f_n:0" = e "f_pa:0" := hs.1 ⟨"f_n", "Identity", "", [], ["f_pa:0"], ["f_n:0"]⟩ (by decide +kernel) 0 _ rfl (by decide)
    have ho : [out] = [e "f_n:0"] := ho
    simp only [List.cons.injEq, and_true] at ho
    rw [ho, h3, h2, h1]

/-- C50 is false for `If` nodes without inputs besides the condition: they are taken for ONNX nodes and keep no branches. -/
theorem if_without_inputs_violated (g : G) (r : Ref) (c ft fe : String) (gt ge : G) (h1 : (g.node r).op = "If") (h2 : (g.node r).input = [c]) :
    g.handleIf r ft gt fe ge = .ok (g, none) := by
  unfold G.handleIf
  rw [if_pos ⟨h1, by rw [h2]; rfl⟩]

/-- A branch that returns the same tensor twice (the outputs of a function graph are given to the constructor, tf2onnx/graph.py:448-449). -/
def twiceGraph : G := { graphOf thenScript with outputs := ["b", "b"] }

def ifTwiceScript : List Edit :=
  [.addGraphInput "pc" "c", .addGraphInput "px" "x", .makeNode "StatelessIf" ["c", "x"] "cond" ["y", "z"] [] "", .addGraphOutput "y", .addGraphOutput "z"]

/-- C50 is false for a function that returns a tensor twice: only the first of the two output names is renamed, and the conversion stops because
nobody produces the other one. -/
theorem if_twice_violated :
    (graphOf ifTwiceScript).convertIf 2 "t" twiceGraph "e" twiceGraph =
      .error "make_sure failure: cannot find node by output id" := by
  have h : (match (graphOf ifTwiceScript).convertIf 2 "t" twiceGraph "e" twiceGraph with
    | .error m => m | .ok _ => "") = "make_sure failure: cannot find node by output id" := by decide +kernel
  revert h
  generalize (graphOf ifTwiceScript).convertIf 2 "t" twiceGraph "e" twiceGraph = w
  intro h
  cases w with
  | error m => simp only at h; rw [h]
  | ok _ => simp at h

/-- `x` is doubled while the counter is below 2; no bound (-1). -/
def staleScript : List Edit :=
  [.addGraphInput "px" "x", .makeNode "Const" [] "z" ["z"] [("value", .tensor ⟨6, [], [0]⟩)] "",
   .makeNode "Const" [] "m" ["m"] [("value", .tensor ⟨6, [], [-1]⟩)] "", .makeNode "StatelessWhile" ["z", "m", "x"] "w" ["w:0", "w:1", "w:2"] [] "",
   .makeNode "Identity" ["w:2"] "id" ["o"] [] "", .makeNode "Identity" ["w:0"] "id2" ["o2"] [] "", .addGraphOutput "o"]

def staleCond : List Edit :=
  [.addGraphInput "p0" "a0", .addGraphInput "p1" "a1", .addGraphInput "p2" "a2",
   .makeNode "Const" [] "h" ["h"] [("value", .tensor ⟨6, [], [2]⟩)] "", .makeNode "Less" ["a0", "h"] "q" ["q"] [] "", .addGraphOutput "q"]

/-- What the conversion gives. -/
def staleResult : G × Ref × G :=
  match (graphOf staleScript).convertWhile 3 "cond_f" (graphOf staleCond) (graphOf bodyScript) "const" "cond" with
  | .ok x => x
  | .error _ => ({}, 0, {})

theorem staleResult_eq :
    (graphOf staleScript).convertWhile 3 "cond_f" (graphOf staleCond) (graphOf bodyScript) "const" "cond" = .ok staleResult := by
  have h : Except.isOk' ((graphOf staleScript).convertWhile 3 "cond_f" (graphOf staleCond) (graphOf bodyScript) "const" "cond") = true := by
    decide +kernel
  unfold staleResult
  generalize (graphOf staleScript).convertWhile 3 "cond_f" (graphOf staleCond) (graphOf bodyScript) "const" "cond" = w at h ⊢
  cases w with
  | ok x => rfl
  | error _ => cases h

theorem stale_nodes :
    (⟨"p0", "Placeholder", "", [], [], ["b0"]⟩ : Node) ∈ staleResult.2.2.nodeList ∧
    (⟨"p2", "Placeholder", "", [], [], ["b2"]⟩ : Node) ∈ staleResult.2.2.nodeList ∧
    (⟨"u", "Add", "", [], ["b2", "b2"], ["u"]⟩ : Node) ∈ staleResult.2.2.nodeList ∧
    (⟨"cond___p0", "Identity", "", [], ["b0"], ["cond___p0:0"]⟩ : Node) ∈ staleResult.2.2.nodeList ∧
    (⟨"cond___h", "Const", "", [("value", .tensor ⟨6, [], [2]⟩)], [], ["cond___h:0"]⟩ : Node) ∈ staleResult.2.2.nodeList ∧
    (⟨"cond___q", "Less", "", [], ["cond___p0:0", "cond___h:0"], ["cond___q:0"]⟩ : Node) ∈ staleResult.2.2.nodeList ∧
    staleResult.2.2.params = ["b0", "cond:0", "b2"] ∧ staleResult.2.2.outputs = ["cond___q:0", "u"] := by
  decide +kernel

/-- The converted body: its condition is that of the *old* counter. -/
theorem stale_body {outer : String → Int} {i k v : Int} {outs : List Int} (h : Returns intInterp outer staleResult.2.2 [i, k, v] outs) :
    outs = [if i < 2 then 1 else 0, v + v] := by
  obtain ⟨h1, h2, h3, h4, h5, h6, h7, h8⟩ := stale_nodes
  obtain ⟨env, hp, _, e, hs, ho⟩ := h
  rw [h7] at hp
  simp only [List.map_cons, List.map_nil, List.cons.injEq, and_true] at hp
  have e1 : e "b0" = env "b0" := hs.1 _ h1 0 _ rfl (by decide)
  have e2 : e "b2" = env "b2" := hs.1 _ h2 0 _ rfl (by decide)
  have e3 : e "u" = e "b2" + e "b2" := hs.1 _ h3 0 _ rfl (by decide)
  have e4 : e "cond___p0:0" = e "b0" := hs.1 _ h4 0 _ rfl (by decide)
  have e5 : e "cond___h:0" = 2 := hs.1 _ h5 0 _ rfl (by decide)
  have e6 : e "cond___q:0" = if e "cond___p0:0" < e "cond___h:0" then 1 else 0 := hs.1 _ h6 0 _ rfl (by decide)
  rw [h8] at ho
  rw [ho]
  simp only [List.map_cons, List.map_nil]
  rw [e6, e4, e5, e3, e1, e2, hp.1, hp.2.2]

/-- C51 is false for a condition that reads the counter when no bound is given: TensorFlow doubles `x` twice, the converted loop three times. (The
condition appended to the body is applied to the counter from before the iteration.) -/
theorem while_counter_violated : ∃ res, (graphOf staleScript).convertWhile 3 "cond_f" (graphOf staleCond) (graphOf bodyScript) "const" "cond" = .ok res ∧
    ∀ (e : String → Int) (v : Int),
      TfWhile (fun k => k ≠ 0) (fun s k => Returns intInterp e (graphOf staleCond) s [k]) (Returns intInterp e (graphOf bodyScript)) [0, -1, v]
        [2, -1, 4 * v] ∧
      ∀ k t, k ≠ 0 → OnnxLoop (fun k => k ≠ 0) (fun i => (i : Int)) (Returns intInterp e res.2.2) none 0 k [v] t → t = [8 * v] := by
  refine ⟨staleResult, staleResult_eq, fun e v => ⟨?_, ?_⟩⟩
  · have hc : ∀ c m w : Int, Returns intInterp e (graphOf staleCond) [c, m, w] [if c < 2 then 1 else 0] := by
      intro c m w
      have hf : Func (graphOf staleCond) :=
        .of_check (by decide) (by decide) (by decide) (by decide) (by decide) (by decide) (by decide) (by decide)
      rw [hf.returns_iff (graphOf_building (s := staleCond) (by decide) rfl).reachable.wf]
      exact ⟨rfl, rfl⟩
    have hb : ∀ c m w : Int, Returns intInterp e (graphOf bodyScript) [c, m, w] [c + 1, m, w + w] := fun c m w =>
      (body_function e _ _).2 ⟨c, m, w, rfl, rfl⟩
    refine .step (hc 0 (-1) v) (by decide) (hb _ _ _) (.step (hc _ _ _) (by decide) (hb _ _ _) ?_)
    have : (2 : Int) = 0 + 1 + 1 := rfl
    have hv : v + v + (v + v) = 4 * v := by omega
    rw [hv]
    exact .done (hc _ _ _) (by decide)
  · intro k t hk h
    cases h with
    | trips h _ => cases h
    | cond h => simp [hk] at h
    | step _ _ hb h =>
      have hb := stale_body hb
      simp only [List.cons.injEq] at hb
      obtain ⟨rfl, rfl⟩ := hb
      cases h with
      | trips h _ => cases h
      | cond h => simp at h
      | step _ _ hb h =>
        have hb := stale_body hb
        simp only [List.cons.injEq] at hb
        obtain ⟨rfl, rfl⟩ := hb
        cases h with
        | trips h _ => cases h
        | cond h => simp at h
        | step _ _ hb h =>
          have hb := stale_body hb
          simp only [List.cons.injEq] at hb
          obtain ⟨rfl, rfl⟩ := hb
          cases h with
          | trips h _ => cases h
          | cond h => simp only [List.cons.injEq, and_true]; omega
          | step _ h _ _ => simp at h

/-- C51 is false where a result of `While` for the counter (or the bound) is used: its reader is left with a tensor nobody produces. -/
theorem while_counter_output_violated : ∃ res, (graphOf staleScript).convertWhile 3 "cond_f" (graphOf staleCond) (graphOf bodyScript) "const" "cond" = .ok res ∧
    (graphOf staleScript).Produces "w:0" ∧ (∃ n ∈ res.1.nodeList, "w:0" ∈ n.input) ∧ ¬ res.1.Produces "w:0" := by
  refine ⟨staleResult, staleResult_eq, by unfold G.Produces; decide, ?_⟩
  unfold G.Produces
  decide +kernel

/-- `x` is doubled at most 5 times; the result of `While` is an output of the graph. -/
def whileOutScript : List Edit :=
  [.addGraphInput "px" "x", .makeNode "Const" [] "z" ["z"] [("value", .tensor ⟨6, [], [0]⟩)] "",
   .makeNode "Const" [] "m" ["m"] [("value", .tensor ⟨6, [], [5]⟩)] "", .makeNode "StatelessWhile" ["z", "m", "x"] "w" ["w:0", "w:1", "w:2"] [] "",
   .addGraphOutput "w:2"]

/-- C51 is false where a result of `While` is an output of the graph itself (as it may be in a function graph): the conversion stops, since the
node is removed before its readers are given the new tensors. -/
theorem while_graph_output_violated :
    (graphOf whileOutScript).convertWhile 3 "cond_f" (graphOf condScript) (graphOf bodyScript) "const" "cond" = .error "graph output not exist" := by
  have h : (match (graphOf whileOutScript).convertWhile 3 "cond_f" (graphOf condScript) (graphOf bodyScript) "const" "cond" with
    | .error m => m
    | .ok _ => "") = "graph output not exist" := by decide +kernel
  revert h
  generalize (graphOf whileOutScript).convertWhile 3 "cond_f" (graphOf condScript) (graphOf bodyScript) "const" "cond" = w
  intro h
  cases w with
  | error m => simp only at h; rw [h]
  | ok _ => simp at h

end Verif.Graph
