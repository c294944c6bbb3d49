import Verif.Props.C52_Pipeline
import Mathlib.Data.List.Perm.Subperm
/-!
# C52: converting and optimizing a graph
-/
namespace Verif.Graph
open Verif

variable {g g' : G}

/-- What holds of a converted graph, and is kept by the optimizers. -/
structure Done (g : G) : Prop where
  reach : Reachable g
  idx : Idx g
  ranked : ∃ ρ, RankedBy g ρ
  tidy : ∀ r ∈ g.nodes, Tidy (g.node r)
  inputs : ∀ r ∈ g.inputs, (g.node r).isGraphInput = true
  inputsIn : ∀ r ∈ g.inputs, r ∈ g.nodes
  outs : g.outputs ≠ []
  outsMade : ∀ o ∈ g.outputs, ∃ p ∈ g.nodes, o ∈ (g.node p).output
  made : ReadsMade g

theorem Carry.tidy (c : Carry g g') (h : ∀ r ∈ g.nodes, Tidy (g.node r)) : ∀ r ∈ g'.nodes, Tidy (g'.node r) := by
  intro r hr
  obtain ⟨h1, h2, h3⟩ := h r (c.sub r hr)
  refine ⟨by rw [c.dom r hr]; exact h1, c.outNe r hr h2, fun e => ?_⟩
  rw [c.op r hr] at e
  obtain ⟨a, b, d⟩ := h3 e
  exact ⟨(c.inLen r hr).trans a, (c.outLen r hr).trans b, c.inNe r hr d⟩

theorem Done.idShape (h : Done g) : IdShape g :=
  ⟨fun r hr e => by
    obtain ⟨-, h2, h3⟩ := h.tidy r hr
    obtain ⟨a, b, d⟩ := h3 e
    exact ⟨a, b, d, h2⟩, h.inputs⟩

theorem Done.mergeShape (h : Done g) : MergeShape g :=
  ⟨fun r hr => (h.tidy r hr).named, fun r hr q hq _ => by rw [(h.tidy r hr).dom, (h.tidy q hq).dom], h.inputs⟩

/-- Sorting keeps it. -/
theorem Cut.done (c : Cut g g') (h : Done g) : Done g' := by
  obtain ⟨ρ, hρ⟩ := h.ranked
  refine ⟨c.reach, c.reset.idx, ⟨ρ, c.ranked hρ⟩, c.carry.tidy h.tidy, ?_, ?_, by rw [c.reset.outputs]; exact h.outs, c.outsMade, c.carry.made h.made⟩
  · intro r hr
    rw [c.reset.inputs] at hr
    rw [c.node]
    exact h.inputs r hr
  · intro r hr
    rw [c.reset.inputs] at hr
    exact c.reset.inputsIn r hr

/-- The laws the two optimizers rely on. -/
def OptLaw (V : Type) (I : Interp V) : Prop := IdentityLaw V I ∧ MergeLaw V I

theorem SameModel.weaken {P Q : ∀ V : Type, Interp V → Prop} (h : SameModel P g g') (hPQ : ∀ V I, Q V I → P V I) : SameModel Q g g' :=
  ⟨h.outputs, h.inputs, fun V I hQ => h.values V I (hPQ V I hQ)⟩

/-- An optimizer whose loop keeps the model and the shape of the nodes is a good pass. -/
theorem passOf_ok {loop : G → Except String G}
    (hl : ∀ g g1, Done g → loop g = .ok g1 → Reachable g1 ∧ (∃ ρ, RankedBy g1 ρ) ∧ (∀ r ∈ g1.inputs, (g1.node r).isGraphInput = true) ∧
      SameModel OptLaw g g1 ∧ Carry g g1)
    {i : Nat} {b : Bool} (h : Done g) (ho : (passOf loop g i).outcome = .ok (some g', b)) :
    Done g' ∧ SameModel OptLaw g g' ∧ g'.nodes.length ≤ g.nodes.length ∧ (b = true → g'.nodes.length < g.nodes.length) := by
  unfold passOf at ho
  cases h1 : loop g with
  | error e => rw [h1] at ho; cases ho
  | ok g1 =>
    rw [h1] at ho
    simp only at ho
    obtain ⟨a1, ⟨ρ, a2⟩, a3, a4, a5⟩ := hl g g1 h h1
    cases h2 : g1.deleteUnusedNodes (fun _ => []) g1.outputs with
    | error e => rw [h2] at ho; cases ho
    | ok g2 =>
      rw [h2] at ho
      simp only [Except.ok.injEq, Prod.mk.injEq, Option.some.injEq] at ho
      obtain ⟨rfl, hb⟩ := ho
      have hne : g1.outputs ≠ [] := by rw [a4.outputs]; exact h.outs
      have c := deleteUnused_cut a1 hne h2
      have l1 : g1.nodes.length ≤ g.nodes.length := (List.subperm_of_subset a1.wf.nodup a5.sub).length_le
      have l2 : g2.nodes.length ≤ g1.nodes.length := (List.subperm_of_subset c.reach.wf.nodup c.sub).length_le
      refine ⟨⟨c.reach, c.reset.idx, ⟨ρ, c.ranked a2⟩, c.carry.tidy (a5.tidy h.tidy), ?_, ?_, by rw [c.reset.outputs]; exact hne, c.outsMade,
        c.carry.made (a5.made h.made)⟩, a4.trans (c.sameModel a1 a2 _), Nat.le_trans l2 l1, fun e => ?_⟩
      · intro r hr
        rw [c.reset.inputs] at hr
        rw [c.node]
        exact a3 r hr
      · intro r hr
        rw [c.reset.inputs] at hr
        exact c.reset.inputsIn r hr
      · rw [e] at hb
        simp only [decide_eq_true_eq] at hb
        omega

theorem identityPassRun_ok {i : Nat} {b : Bool} (h : Done g) (ho : (identityPassRun g i).outcome = .ok (some g', b)) :
    Done g' ∧ SameModel OptLaw g g' ∧ g'.nodes.length ≤ g.nodes.length ∧ (b = true → g'.nodes.length < g.nodes.length) := by
  refine passOf_ok (fun g g1 h h1 => ?_) h ho
  obtain ⟨ρ, hρ⟩ := h.ranked
  obtain ⟨a, b, c⟩ := identityLoop_spec _ ⟨h.reach, hρ, h.idShape⟩ h1
  exact ⟨a.reach, ⟨ρ, a.ranked⟩, a.shape.inputs, b.weaken fun _ _ h => h.1, c⟩

theorem mergePassRun_ok {hash : List Int → Int} {i : Nat} {b : Bool} (h : Done g) (ho : (mergePassRun hash g i).outcome = .ok (some g', b)) :
    Done g' ∧ SameModel OptLaw g g' ∧ g'.nodes.length ≤ g.nodes.length ∧ (b = true → g'.nodes.length < g.nodes.length) := by
  refine passOf_ok (fun g g1 h h1 => ?_) h ho
  obtain ⟨a, b, c⟩ := mergeLoop_spec _ ⟨h.reach, h.idx, h.ranked, h.mergeShape⟩ h1
  exact ⟨a.reach, a.ranked, a.shape.inputs, b.weaken fun _ _ h => h.2, c⟩

/-- A converted graph can be sorted. -/
theorem Done.sorts (h : Done g) : ∃ g', g.topologicalSort (fun _ => []) g.nodes = .ok g' := by
  obtain ⟨ρ, hρ⟩ := h.ranked
  have hacyc : ∀ r ∈ g.nodes, ¬ Relation.TransGen (fun j i => i ∈ g.nodes ∧ j ∈ g.nodes ∧ DependsOn g (fun _ => []) i j) r r := by
    intro r _ hc
    have : ∀ a b, Relation.TransGen (fun j i => i ∈ g.nodes ∧ j ∈ g.nodes ∧ DependsOn g (fun _ => []) i j) a b → ρ a < ρ b := by
      intro a b hab
      induction hab with
      | single h =>
        obtain ⟨h1, h2, x, hx, h3, h4⟩ := h
        exact hρ _ h1 _ h2 ⟨x, hx, by simpa using h3, h4⟩
      | tail _ h ih =>
        obtain ⟨h1, h2, x, hx, h3, h4⟩ := h
        exact Nat.lt_trans ih (hρ _ h1 _ h2 ⟨x, hx, by simpa using h3, h4⟩)
    exact Nat.lt_irrefl _ (this r r hc)
  obtain ⟨ret, hret⟩ := topological_sort_succeeds h.reach (fun _ => []) (fun r hr x hx hxe => h.made r hr x (by simpa using hx) hxe) hacyc
  obtain ⟨h1, _⟩ := sortNodes_ordered h.reach.wf hret
  obtain ⟨g', hg'⟩ := (resetNodes_ok_iff g ret).2 ⟨fun r hr => h1.mem_iff.2 (h.inputsIn r hr), fun o ho => by
    obtain ⟨p, hp, hx⟩ := h.outsMade o ho
    exact ⟨p, h1.mem_iff.2 hp, hx⟩⟩
  exact ⟨g', by simp [G.topologicalSort, hret, bind, Except.bind, hg']⟩

/-! ## The optimizer loop -/

/-- Passes that keep converted graphs converted and do not add nodes; those that report a change have removed one. -/
def GoodPass (p : Driver.Pass G) : Prop := ∀ g g' i b, Done g → (p g i).outcome = .ok (some g', b) →
  Done g' ∧ SameModel OptLaw g g' ∧ g'.nodes.length ≤ g.nodes.length ∧ (b = true → g'.nodes.length < g.nodes.length)

/-- Passes that always return a graph (or raise). -/
def AlwaysReturns (p : Driver.Pass G) : Prop := ∀ g i b, (p g i).outcome ≠ .ok (none, b)

theorem passOf_returns (loop : G → Except String G) : AlwaysReturns (passOf loop) := by
  intro g i b h
  unfold passOf at h
  split at h
  · cases h
  · split at h <;> cases h

theorem sweep_measure {ps : List (Driver.Pass G)} (hp : ∀ p ∈ ps, GoodPass p ∧ AlwaysReturns p) {i : Nat} : ∀ {g g' : G} {f f' : Bool}, Done g →
    Driver.sweep true i ps g f = .ok (g', f') →
    Done g' ∧ SameModel OptLaw g g' ∧ g'.nodes.length ≤ g.nodes.length ∧ (f' = true → f = true ∨ g'.nodes.length < g.nodes.length) := by
  induction ps with
  | nil =>
    intro g g' f f' h hs
    simp only [Driver.sweep, Except.ok.injEq, Prod.mk.injEq] at hs
    obtain ⟨rfl, rfl⟩ := hs
    exact ⟨h, .refl _ _, Nat.le_refl _, Or.inl⟩
  | cons p ps ih =>
    intro g g' f f' h hs
    simp only [Driver.sweep, if_true] at hs
    have ih := @ih (fun q hq => hp q (List.mem_cons_of_mem _ hq))
    cases ho : (p g i).outcome with
    | error e => rw [ho] at hs; exact ih h hs
    | ok x =>
      obtain ⟨ret, b⟩ := x
      rw [ho] at hs
      cases ret with
      | none => exact absurd ho ((hp p (by simp)).2 g i b)
      | some g1 =>
        simp only [Option.getD_some] at hs
        obtain ⟨a1, a2, a3, a4⟩ := (hp p (by simp)).1 g g1 i b h ho
        obtain ⟨b1, b2, b3, b4⟩ := ih a1 hs
        refine ⟨b1, a2.trans b2, Nat.le_trans b3 a3, fun e => ?_⟩
        rcases b4 e with e | e
        · rw [Bool.or_eq_true] at e
          rcases e with e | e
          · exact Or.inl e
          · exact Or.inr (Nat.lt_of_le_of_lt b3 (a4 e))
        · exact Or.inr (Nat.lt_of_lt_of_le e a3)

theorem loop_ends {ps : List (Driver.Pass G)} (hp : ∀ p ∈ ps, GoodPass p ∧ AlwaysReturns p) : ∀ (fuel i : Nat) {g : G}, Done g → g.nodes.length < fuel →
    ∃ g', Driver.loop true ps fuel i g = some (.ok g') ∧ Done g' ∧ SameModel OptLaw g g' := by
  intro fuel
  induction fuel with
  | zero => intro i g _ h; omega
  | succ fuel ih =>
    intro i g h hl
    obtain ⟨g1, f, hs, _⟩ := Driver.sweep_catch ps ps i g g false (fun _ h => h) .refl
    obtain ⟨a1, a2, a3, a4⟩ := sweep_measure hp h hs
    simp only [Driver.loop, hs]
    cases f with
    | false => exact ⟨g1, rfl, a1, a2⟩
    | true =>
      have hlt := (a4 rfl).resolve_left (by simp)
      obtain ⟨g2, h1, h2, h3⟩ := ih (i + 1) a1 (by omega)
      exact ⟨g2, h1, h2, a2.trans h3⟩

/-- `optimize_graph` with such optimizers ends, raises nothing and returns a sorted graph that is the same model. -/
theorem optimizeWith_ends {ps : List (Driver.Pass G)} (hp : ∀ p ∈ ps, GoodPass p ∧ AlwaysReturns p) {fuel : Nat} (h : Done g) (hf : g.nodes.length < fuel) :
    ∃ g', g.optimizeWith ps fuel = some (.ok g') ∧ Done g' ∧ SameModel OptLaw g g' ∧ Executable g'.nodeList := by
  obtain ⟨g1, h1, h2, h3⟩ := loop_ends hp fuel 0 h hf
  obtain ⟨g2, h4⟩ := h2.sorts
  obtain ⟨c, -⟩ := sort_cut h2.reach h4
  obtain ⟨ρ, hρ⟩ := h2.ranked
  refine ⟨g2, ?_, c.done h2, h3.trans (c.sameModel h2.reach hρ _), ?_⟩
  · simp [G.optimizeWith, Driver.optimizeGraph, h1, Except.map, h4]
  · exact ordered_executable (topological_sort_executable h2.reach _ h4).2.1

/-! ## The conversion -/

open Verif.Elem Verif.Cast

variable {v : Nat} {I : Interp (Ten Val)} {K T : Kern Val} {cast : DT → Val → Val} {fresh : Nat → String}

theorem topoSort_false (h : G.topoSort false g = .ok g') : g.topologicalSort (fun _ => []) g.nodes = .ok g' := by
  unfold G.topoSort at h
  split at h
  · rename_i h'; rw [h', ← h]
  · simp at h

/-- What an element-wise TensorFlow graph becomes. -/
theorem processParsed_spec (on : OnnxOps v I K cast) (tf : TfOps I T) (el : ElemLaws T K) (hf : FreshTensors fresh) (hv : 12 ≤ v)
    (h0 : HInv fresh g) (hne : g.outputs ≠ []) (ty : Ref → DT)
    (hnodes : ∀ r ∈ g.nodes, (g.node r).op ∈ elemUn ++ elemBin → ElemNode v g r (ty r))
    (hother : ∀ r ∈ g.nodes, (g.node r).op ∉ elemUn ++ elemBin → Tidy (g.node r))
    (h : g.processParsed (elemTable fresh v) (fun _ => false) false = .ok g') :
    Done g' ∧ SameOn I (fun e => ∀ r ∈ g.nodes, (g.node r).op ∈ elemUn ++ elemBin → elemArgs (g.node r).op (ty r) (argVals e (g.node r))) g g' ∧
      Executable g'.nodeList := by
  simp only [G.processParsed, bind, Except.bind] at h
  split at h
  · cases h
  rename_i g1 hg1
  split at h
  · cases h
  rename_i g2 hg2
  have hg2 := topoSort_false hg2
  have c1 := deleteUnused_cut h0.reach hne hg1
  have i1 := c1.hinv h0
  obtain ⟨c2, m1⟩ := sort_cut i1.reach hg2
  have i2 := c2.hinv i1
  have m2 := c2.carry.made m1
  have hn2 : ∀ r, g2.node r = g.node r := fun r => (c2.node r).trans (c1.node r)
  have hsub : ∀ r ∈ g2.nodes, r ∈ g.nodes := fun r hr => c1.sub r (c2.sub r hr)
  have hnodes2 : ∀ r ∈ g2.nodes, (g2.node r).op ∈ elemUn ++ elemBin → ElemNode v g2 r (ty r) := by
    intro r hr ho
    rw [hn2] at ho
    exact c2.elemNode m2 hr (c1.elemNode m1 (c2.sub r hr) (hnodes r (hsub r hr) ho))
  have hother2 : ∀ r ∈ g2.nodes, (g2.node r).op ∉ elemUn ++ elemBin → Tidy (g2.node r) := by
    intro r hr ho
    rw [hn2] at ho ⊢
    exact hother r (hsub r hr) ho
  obtain ⟨ρ, hρ⟩ := h0.ranked
  generalize hs : g2.mapping (elemTable fresh v) (fun _ => false) = s at h
  split at h
  · rename_i hex
    have hg' := topoSort_false h
    subst hs
    obtain ⟨s1, s2⟩ := elem_mapping_preserves_model on tf el hf hv i2 ty hnodes2 hex
    have td := elem_mapping_tidy on tf el hf hv i2 ty hnodes2 hother2 hex
    obtain ⟨c3, m3⟩ := sort_cut s2.reach hg'
    have i3 := c3.hinv s2
    refine ⟨⟨c3.reach, c3.reset.idx, i3.ranked, c3.carry.tidy td, i3.inputs, i3.inputsIn, ?_, c3.outsMade, c3.carry.made m3⟩, ⟨?_, ?_, ?_⟩, ?_⟩
    · rw [c3.reset.outputs, s1.outputs, c2.reset.outputs, c1.reset.outputs]; exact hne
    · rw [c3.reset.outputs, s1.outputs, c2.reset.outputs, c1.reset.outputs]
    · have a1 := (c1.sameModel h0.reach hρ (fun _ _ => True)).inputs
      have a2 := (c2.sameModel i1.reach (c1.ranked hρ) (fun _ _ => True)).inputs
      obtain ⟨ρ', hρ'⟩ := s2.ranked
      have a3 := (c3.sameModel s2.reach hρ' (fun _ _ => True)).inputs
      exact a3.trans (s1.inputs.trans (a2.trans a1))
    · intro env hD out
      obtain ⟨ρ', hρ'⟩ := s2.ranked
      refine ((c3.sameModel s2.reach hρ' (fun _ _ => True)).values _ I trivial env out).trans ?_
      refine (s1.values env (fun e2 he2 => ?_) out).trans ?_
      · obtain ⟨e1, he1, k1⟩ := c2.back i1.reach (c1.ranked hρ) he2
        obtain ⟨e0, he0, k0⟩ := c1.back h0.reach hρ he1
        intro r hr ho
        have := hD e0 he0 r (hsub r hr) (by rw [← hn2]; exact ho)
        rw [k1 r hr, k0 r (c2.sub r hr), hn2]
        exact this
      · refine ((c2.sameModel i1.reach (c1.ranked hρ) (fun _ _ => True)).values _ I trivial env out).trans ?_
        exact (c1.sameModel h0.reach hρ (fun _ _ => True)).values _ I trivial env out
    · exact ordered_executable (topological_sort_executable s2.reach _ hg').2.1
  · simp at h

/-- **C52**: converting a graph of element-wise TensorFlow operators (from operator set 12 on, any size, any shape of the graph) and optimizing
the result ends, raises nothing after the conversion itself, and gives an ONNX model: no TensorFlow node is left, the nodes are in executable
order, the inputs and outputs are those of the TensorFlow graph, and running the nodes one after the other gives the results of the
TensorFlow graph, for all fed values under which the operands of the operators are in their domains. The optimizers are any of the two, in any
order, any number of times. -/
theorem elem_conversion_end_to_end (on : OnnxOps v I K cast) (tf : TfOps I T) (el : ElemLaws T K) (hI : IdentityLaw _ I) (hM : MergeLaw _ I)
    (hf : FreshTensors fresh) (hv : 12 ≤ v) (h0 : HInv fresh g) (hne : g.outputs ≠ []) (ty : Ref → DT)
    (hnodes : ∀ r ∈ g.nodes, (g.node r).op ∈ elemUn ++ elemBin → ElemNode v g r (ty r))
    (hother : ∀ r ∈ g.nodes, (g.node r).op ∉ elemUn ++ elemBin → Tidy (g.node r))
    {g1 : G} (h : g.processParsed (elemTable fresh v) (fun _ => false) false = .ok g1)
    (hash : List Int → Int) {passes : List (Driver.Pass G)} (hp : ∀ p ∈ passes, p = identityPassRun ∨ p = mergePassRun hash)
    {fuel : Nat} (hfuel : g1.nodes.length < fuel) :
    ∃ g2, g1.optimizeWith passes fuel = some (.ok g2) ∧ (∀ r ∈ g2.nodes, Tidy (g2.node r)) ∧ Executable g2.nodeList ∧
      g2.outputs = g.outputs ∧ g2.inputs.map (fun r => (g2.node r).output) = g.inputs.map (fun r => (g.node r).output) ∧
      ∀ env, (∀ e, Sat I env e g.nodeList → ∀ r ∈ g.nodes, (g.node r).op ∈ elemUn ++ elemBin → elemArgs (g.node r).op (ty r) (argVals e (g.node r))) →
        ∀ out, Computes I g env out ↔ out = g.outputs.map (exec I env g2.nodeList) := by
  obtain ⟨a1, a2, -⟩ := processParsed_spec on tf el hf hv h0 hne ty hnodes hother h
  obtain ⟨g2, b1, b2, b3, b4⟩ := optimizeWith_ends (ps := passes) (fun p hm => by
    rcases hp p hm with rfl | rfl
    · exact ⟨fun _ _ _ _ => identityPassRun_ok, passOf_returns _⟩
    · exact ⟨fun _ _ _ _ => mergePassRun_ok, passOf_returns _⟩) a1 hfuel
  refine ⟨g2, b1, b2.tidy, b4, b3.outputs.trans a2.outputs, b3.inputs.trans a2.inputs, fun env hD out => ?_⟩
  rw [← a2.values env hD out, ← b3.values _ I ⟨hI, hM⟩ env out]
  have hs : Sat I env (exec I env g2.nodeList) g2.nodeList := exec_sat b2.reach.uniqueOutputs b4
  rw [← b3.outputs.trans a2.outputs]
  constructor
  · rintro ⟨e, he, rfl⟩
    rw [sat_unique ⟨_, .refl _, b4⟩ he hs]
  · rintro rfl
    exact ⟨_, hs, rfl⟩

end Verif.Graph
