import Verif.Props.C10_Prune
/-!
# C09: `replace_all_inputs` redirects exactly the requested uses
-/
namespace Verif.Graph
open Verif

theorem redirect_argVals {V : Type} {e : String → V} {n : Node} {old new : String} (ho : old ≠ "") (hn : new ≠ "")
    (h : e old = e new) : argVals e (n.redirect old new) = argVals e n := by
  unfold argVals Node.redirect
  rw [List.map_map]
  apply List.map_congr_left
  intro x _
  simp only [Function.comp]
  split
  · rename_i hx; subst hx; simp [argVal, ho, hn, h]
  · rfl

theorem redirect_nodeSat {V : Type} {I : Interp V} {env e : String → V} {n : Node} {old new : String} (ho : old ≠ "")
    (hn : new ≠ "") (h : e old = e new) : NodeSat I env e (n.redirect old new) ↔ NodeSat I env e n := by
  unfold NodeSat
  rw [redirect_argVals ho hn h]
  rfl

/-- With the consumer index in order (`Idx`, which `reset_nodes` re-establishes), every node reading `old` is visited. -/
theorem replaceAllInputs_all {g g' : G} (hw : WF g) (hi : Idx g) {old new : String}
    (h : g.replaceAllInputs old new none = .ok g') :
    Same g g' ∧ ∀ r ∈ g.nodes, g'.node r = (g.node r).redirect old new := by
  obtain ⟨h1, h2, _⟩ := replaceAllInputs_spec hw (by intro l hl; cases hl) h
  refine ⟨h1, fun r hr => ?_⟩
  rw [h2]
  split
  · rfl
  · rename_i hnot
    rw [Node.redirect_of_not_mem]
    intro hin
    apply hnot
    simp only [Option.getD_none, G.consumerRefs, List.mem_filterMap]
    exact ⟨_, hi.complete r hr old hin, (hw.getNodeByName _ r).2 ⟨hr, rfl⟩⟩

/-- After any index-safe history `replace_all_inputs(old, new)`, when it succeeds, turns every input `old` of every
node into `new`, and changes nothing else: not the node list, not the nodes' names, types, attributes or outputs, not
the graph's inputs and outputs. -/
theorem replace_all_inputs_exact {g g' : G} (hr : ReachableSafe g) {old new : String}
    (h : g.replaceAllInputs old new none = .ok g') :
    g'.nodes = g.nodes ∧ g'.inputs = g.inputs ∧ g'.outputs = g.outputs ∧
    ∀ r ∈ g.nodes, g'.node r =
      { g.node r with input := (g.node r).input.map (fun x => if x = old then new else x) } := by
  obtain ⟨h1, h2⟩ := replaceAllInputs_all hr.reachable.wf hr.idx h
  exact ⟨h1.nodes, h1.inputs, h1.outputs, h2⟩

/-- `replace_all_inputs(old, new, ops)`, on any history, redirects exactly the given nodes. -/
theorem replace_all_inputs_ops_exact {g g' : G} (hr : Reachable g) {old new : String} {ops : List Ref}
    (hops : ∀ r ∈ ops, r ∈ g.nodes) (h : g.replaceAllInputs old new (some ops) = .ok g') :
    g'.nodes = g.nodes ∧ g'.inputs = g.inputs ∧ g'.outputs = g.outputs ∧
    (∀ r ∈ ops, g'.node r =
      { g.node r with input := (g.node r).input.map (fun x => if x = old then new else x) }) ∧
    ∀ r, r ∉ ops → g'.node r = g.node r := by
  obtain ⟨h1, h2, _⟩ := replaceAllInputs_spec hr.wf (by intro l hl; cases hl; exact hops) h
  refine ⟨h1.nodes, h1.inputs, h1.outputs, fun r hr' => ?_, fun r hr' => ?_⟩
  · rw [h2]; simp only [Option.getD_some, if_pos hr']; rfl
  · rw [h2]; simp only [Option.getD_some, if_neg hr']

/-- It refuses (raises) rather than letting a node read its own output, provided the index is in order. -/
theorem replace_all_inputs_no_self_loop {g g' : G} (hr : ReachableSafe g) {old new : String} (hne : old ≠ new)
    (h : g.replaceAllInputs old new none = .ok g') :
    ∀ r ∈ g.nodes, old ∈ (g.node r).input → new ∉ (g.node r).output := by
  have hw := hr.reachable.wf
  -- the refusing branch is taken for the first visited offender
  have key : ∀ (rs : List Ref) (g g' : G), WF g → (∀ r ∈ rs, r ∈ g.nodes) → g.replaceAllIn old new rs = .ok g' →
      ∀ r ∈ rs, old ∈ (g.node r).input → new ∉ (g.node r).output := by
    intro rs
    induction rs with
    | nil => simp
    | cons r rs ih =>
      intro g g' hw hsub h
      simp only [G.replaceAllIn] at h
      split at h
      · cases h
      · rename_i hcirc
        simp only [bind, Except.bind] at h
        split at h
        · cases h
        · rename_i g1 hg1
          have hs0 := Same.registerInput g new (g.node r).name
          have hw0 := hs0.wf hw
          have hr0 : r ∈ (g.registerInput new (g.node r).name).nodes := hsub r (by simp)
          obtain ⟨a1, a2, a3, _, _⟩ := replaceSlots_all hne hw0 hr0 hg1
          intro q hq hold hnew
          rcases List.mem_cons.1 hq with rfl | hq
          · exact hcirc ⟨hold, hnew⟩
          · by_cases e : q = r
            · subst e; exact hcirc ⟨hold, hnew⟩
            · have hnode : g1.node q = g.node q := a2 q e
              exact ih g1 g' (a1.wf hw0) (fun x hx => by rw [a1.nodes]; exact hsub x (by simp [hx])) h q hq
                (by rw [hnode]; exact hold) (by rw [hnode]; exact hnew)
  intro r hr' hold
  unfold G.replaceAllInputs at h
  rw [if_neg hne] at h
  simp only [Option.getD_none] at h
  obtain ⟨h1, h2, h3⟩ := replaceAll_init g new
  have hidx : Idx (g.ensureConsumers new) := hr.idx.congr h1 h2.nodes h3
  have hw1 := h2.wf hw
  have hnode : ∀ q, (g.ensureConsumers new).node q = g.node q := by intro q; simp [G.node, h1]
  have := key _ _ _ hw1 (fun q hq => consumerRefs_mem hw1 hq) h r (by
    simp only [G.consumerRefs, List.mem_filterMap]
    refine ⟨_, hidx.complete r (by rw [h2.nodes]; exact hr') old (by rw [hnode]; exact hold), ?_⟩
    exact (hw1.getNodeByName _ r).2 ⟨by rw [h2.nodes]; exact hr', rfl⟩) (by rw [hnode]; exact hold)
  rwa [hnode] at this

theorem same_unproduced {g g' : G} (s : Same g g') (x : String) :
    Unproduced g'.nodeList x ↔ Unproduced g.nodeList x := by
  unfold Unproduced G.nodeList
  simp only [List.mem_map, forall_exists_index, and_imp, forall_apply_eq_imp_iff₂, s.nodes, s.output]

/-- If the old and the new tensor carry the same value in every run of the graph, and the redirected graph has no
cycle, the graph computes the same outputs. -/
theorem replace_all_inputs_preserves_values {g g' : G} (hr : ReachableSafe g) {old new : String} (ho : old ≠ "")
    (hn : new ≠ "") (h : g.replaceAllInputs old new none = .ok g') (ha : Acyclic g.nodeList)
    (ha' : Acyclic g'.nodeList) {V : Type} (I : Interp V)
    (hsame : ∀ env e, Sat I env e g.nodeList → e old = e new) (env : String → V) (out : List V) :
    Computes I g' env out ↔ Computes I g env out := by
  obtain ⟨h1, h2⟩ := replaceAllInputs_all hr.reachable.wf hr.idx h
  obtain ⟨e, he⟩ := sat_exists (I := I) (env := env) hr.reachable.uniqueOutputs ha
  have heq := hsame env e he
  have he' : Sat I env e g'.nodeList := by
    refine ⟨?_, fun x hx => he.2 x ((same_unproduced h1 x).1 hx)⟩
    intro n hn'
    unfold G.nodeList at hn'
    obtain ⟨r, hr', rfl⟩ := List.mem_map.1 hn'
    rw [h1.nodes] at hr'
    rw [h2 r hr', redirect_nodeSat ho hn heq]
    exact he.1 _ (List.mem_map.2 ⟨r, hr', rfl⟩)
  constructor
  · rintro ⟨f, hf, rfl⟩
    rw [sat_unique ha' hf he', h1.outputs]
    exact ⟨e, he, rfl⟩
  · rintro ⟨f, hf, rfl⟩
    rw [sat_unique ha hf he]
    exact ⟨e, he', by rw [h1.outputs]⟩

/-- A non-trivial case: `a = Identity(x)`, `b = Add(a, a)` becomes `Add(x, x)`. -/
def redirectScript : List Edit :=
  [.addGraphInput "p" "x", .makeNode "Identity" ["x"] "i" ["a"] [] "", .makeNode "Add" ["a", "a"] "s" ["b"] [] "",
   .addGraphOutput "b"]

example : ∃ g g', G.run {} redirectScript = .ok g ∧ g.replaceAllInputs "a" "x" none = .ok g' ∧
    (g'.node 2).input = ["x", "x"] ∧ (g'.node 1).input = ["x"] := ⟨_, _, rfl, rfl, by decide⟩

end Verif.Graph
