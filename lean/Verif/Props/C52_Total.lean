import Verif.Props.C52_Convert
import Verif.Props.ElemTotal
/-!
# C52: the conversion itself raises nothing
-/
namespace Verif.Graph
open Verif

variable {g g' : G} {fresh : Nat → String}

/-- A graph that can be sorted. -/
theorem sort_total (hr : Reachable g) {ρ : Ref → Nat} (hρ : RankedBy g ρ) (hm : ReadsMade g) (hi : ∀ r ∈ g.inputs, r ∈ g.nodes)
    (ho : ∀ o ∈ g.outputs, ∃ p ∈ g.nodes, o ∈ (g.node p).output) : ∃ g', G.topoSort false g = .ok g' := by
  have hacyc : ∀ r ∈ g.nodes, ¬ Relation.TransGen (fun j i => i ∈ g.nodes ∧ j ∈ g.nodes ∧ DependsOn g (fun _ => []) i j) r r := by
    intro r _ hc
    have : ∀ a b, Relation.TransGen (fun j i => i ∈ g.nodes ∧ j ∈ g.nodes ∧ DependsOn g (fun _ => []) i j) a b → ρ a < ρ b := by
      intro a b hab
      induction hab with
      | single h =>
        obtain ⟨h1, h2, x, hx, h3, h4⟩ := h
        exact hρ _ h1 _ h2 ⟨x, hx, by simpa using h3, h4⟩
      | tail _ h ih =>
        obtain ⟨h1, h2, x, hx, h3, h4⟩ := h
        exact Nat.lt_trans ih (hρ _ h1 _ h2 ⟨x, hx, by simpa using h3, h4⟩)
    exact Nat.lt_irrefl _ (this r r hc)
  obtain ⟨ret, hret⟩ := topological_sort_succeeds hr (fun _ => []) (fun r hr x hx hxe => hm r hr x (by simpa using hx) hxe) hacyc
  obtain ⟨h1, _⟩ := sortNodes_ordered hr.wf hret
  obtain ⟨g', hg'⟩ := (resetNodes_ok_iff g ret).2 ⟨fun r hr => h1.mem_iff.2 (hi r hr), fun o ho' => by
    obtain ⟨p, hp, hx⟩ := ho o ho'
    exact ⟨p, h1.mem_iff.2 hp, hx⟩⟩
  refine ⟨g', ?_⟩
  have : g.topologicalSort (fun _ => []) g.nodes = .ok g' := by simp [G.topologicalSort, hret, bind, Except.bind, hg']
  simp [G.topoSort, this]

/-- A graph whose unused nodes can be deleted. -/
theorem deleteUnused_total (hr : Reachable g) (hne : g.outputs ≠ []) (hi : ∀ r ∈ g.inputs, r ∈ g.nodes ∧ ∃ x xs, (g.node r).output = x :: xs ∧ x ≠ "")
    (ho : ∀ o ∈ g.outputs, o ≠ "" ∧ ∃ p ∈ g.nodes, o ∈ (g.node p).output) : ∃ g', g.deleteUnusedNodes (fun _ => []) g.outputs = .ok g' := by
  have hw := hr.wf
  unfold G.deleteUnusedNodes
  rw [if_neg hne]
  obtain ⟨-, h2⟩ := extractSubGraphNodes_spec hw (fun _ => []) g.outputs
  refine (resetNodes_ok_iff g _).2 ⟨?_, ?_⟩
  · intro r hr'
    obtain ⟨h3, x, xs, hx, hxe⟩ := hi r hr'
    exact (h2 r).2 ⟨x, r, Or.inr ⟨r, hr', by rw [hx]; rfl⟩, (hw.getNodeByOutput hxe r).2 ⟨h3, by rw [hx]; simp⟩, .refl⟩
  · intro o ho'
    obtain ⟨hoe, p, hp, hpo⟩ := ho o ho'
    exact ⟨p, (h2 p).2 ⟨o, p, Or.inl ho', (hw.getNodeByOutput hoe p).2 ⟨hp, hpo⟩, .refl⟩, hpo⟩

/-- After the tables have been rebuilt, they hold no stale names. -/
theorem Cut.ninv (c : Cut g g') (hname : ∀ r ∈ g.nodes, ∀ k, g.heap.length ≤ k → (g.node r).name ≠ fresh k) : NInv fresh (fun _ => True) g' where
  live := by
    intro i n hn
    obtain ⟨r, hr, -, rfl⟩ := (c.reset.cons i n).1 hn
    rw [(c.reset.byName _ r).2 ⟨hr, rfl⟩]; rfl
  unused := by
    intro k hk
    rw [c.reset.heap] at hk
    cases h : g'.byName.get (fresh k) with
    | none => rfl
    | some r =>
      obtain ⟨h1, h2⟩ := (c.reset.byName _ r).1 h
      exact absurd h2 (hname r (c.sub r h1) k hk)
  keyed := by
    intro q hq _ i hi _
    have : (g'.node q).name ∈ g'.cons i := (c.reset.cons i _).2 ⟨q, hq, by rw [← c.node]; exact hi, by rw [c.node]⟩
    unfold G.Key
    unfold G.cons at this
    cases h : g'.consumers.get i with
    | none => rw [h] at this; simp at this
    | some _ => rfl

open Verif.Elem Verif.Cast

variable {v : Nat} {I : Interp (Ten Val)} {K T : Kern Val} {cast : DT → Val → Val}

/-- What a graph must be like for the conversion to raise nothing: every tensor a node reads is made by a node, graph inputs and outputs are
among the nodes and have names, and no node has a name that the conversion may choose for a new node. -/
structure Whole (fresh : Nat → String) (g : G) : Prop where
  outs : g.outputs ≠ []
  made : ReadsMade g
  outsMade : ∀ o ∈ g.outputs, o ≠ "" ∧ ∃ p ∈ g.nodes, o ∈ (g.node p).output
  ins : ∀ r ∈ g.inputs, ∃ x xs, (g.node r).output = x :: xs ∧ x ≠ ""
  names : ∀ r ∈ g.nodes, ∀ k, g.heap.length ≤ k → (g.node r).name ≠ fresh k

theorem processParsed_total (on : OnnxOps v I K cast) (tf : TfOps I T) (el : ElemLaws T K) (hf : FreshTensors fresh) (hv : 12 ≤ v)
    (h0 : HInv fresh g) (hwh : Whole fresh g) (ty : Ref → DT)
    (hnodes : ∀ r ∈ g.nodes, (g.node r).op ∈ elemUn ++ elemBin → ElemNode v g r (ty r))
    (hnr : ∀ r ∈ g.nodes, ∀ o ∈ (g.node r).output, NoRaise g.dtypes.get (g.node r).op o (ty r)) :
    ∃ g', g.processParsed (elemTable fresh v) (fun _ => false) false = .ok g' := by
  obtain ⟨ρ, hρ⟩ := h0.ranked
  obtain ⟨g1, hg1⟩ := deleteUnused_total h0.reach hwh.outs (fun r hr => ⟨h0.inputsIn r hr, hwh.ins r hr⟩) hwh.outsMade
  have c1 := deleteUnused_cut h0.reach hwh.outs hg1
  have i1 := c1.hinv h0
  have m1 := c1.carry.made hwh.made
  obtain ⟨g2, hg2⟩ := sort_total i1.reach (c1.ranked hρ) m1 i1.inputsIn c1.outsMade
  obtain ⟨c2, -⟩ := sort_cut i1.reach (topoSort_false hg2)
  have i2 := c2.hinv i1
  have m2 := c2.carry.made m1
  have hn2 : ∀ r, g2.node r = g.node r := fun r => (c2.node r).trans (c1.node r)
  have hsub : ∀ r ∈ g2.nodes, r ∈ g.nodes := fun r hr => c1.sub r (c2.sub r hr)
  have hnodes2 : ∀ r ∈ g2.nodes, (g2.node r).op ∈ elemUn ++ elemBin → ElemNode v g2 r (ty r) := by
    intro r hr ho
    rw [hn2] at ho
    exact c2.elemNode m2 hr (c1.elemNode m1 (c2.sub r hr) (hnodes r (hsub r hr) ho))
  have n2 : NInv fresh (fun _ => True) g2 := c2.ninv fun r hr k hk => by
    rw [c1.node]
    rw [c1.reset.heap] at hk
    exact hwh.names r (c1.sub r hr) k hk
  have hnr2 : ∀ r ∈ g2.nodes, ∀ o ∈ (g2.node r).output, NoRaise g2.dtypes.get (g2.node r).op o (ty r) := by
    intro r hr o ho
    rw [hn2] at ho ⊢
    obtain ⟨a, b⟩ := hnr r (hsub r hr) o ho
    refine ⟨fun h => ?_, b⟩
    obtain ⟨u, hu⟩ := a h
    refine ⟨u, ?_, hu.2⟩
    rw [c2.dtypes r hr o (by rw [c1.node]; exact ho), c1.dtypes r (c2.sub r hr) o ho]
    exact hu.1
  obtain ⟨hex, hmade, houts⟩ := elem_mapping_total on tf el hf hv (skip := fun _ => false) i2 n2 ty hnodes2 hnr2
  obtain ⟨s1, s2⟩ := elem_mapping_preserves_model on tf el hf hv i2 ty hnodes2 hex
  obtain ⟨ρ', hρ'⟩ := s2.ranked
  obtain ⟨g3, hg3⟩ := sort_total s2.reach hρ' (hmade m2) s2.inputsIn (fun o ho => by
    rw [s1.outputs] at ho
    refine houts o ho ?_ (c2.outsMade o ho)
    rw [c2.reset.outputs, c1.reset.outputs] at ho
    exact (hwh.outsMade o ho).1)
  exact ⟨g3, by simp [G.processParsed, bind, Except.bind, hg1, hg2, hex, hg3]⟩

/-- **C52**: as `elem_conversion_end_to_end`, with the conversion itself: it raises nothing. -/
theorem elem_conversion_succeeds (on : OnnxOps v I K cast) (tf : TfOps I T) (el : ElemLaws T K) (hI : IdentityLaw _ I) (hM : MergeLaw _ I)
    (hf : FreshTensors fresh) (hv : 12 ≤ v) (h0 : HInv fresh g) (hwh : Whole fresh g) (ty : Ref → DT)
    (hnodes : ∀ r ∈ g.nodes, (g.node r).op ∈ elemUn ++ elemBin → ElemNode v g r (ty r))
    (hnr : ∀ r ∈ g.nodes, ∀ o ∈ (g.node r).output, NoRaise g.dtypes.get (g.node r).op o (ty r))
    (hother : ∀ r ∈ g.nodes, (g.node r).op ∉ elemUn ++ elemBin → Tidy (g.node r))
    (hash : List Int → Int) {passes : List (Driver.Pass G)} (hp : ∀ p ∈ passes, p = identityPassRun ∨ p = mergePassRun hash) :
    ∃ g1, g.processParsed (elemTable fresh v) (fun _ => false) false = .ok g1 ∧ ∀ fuel, g1.nodes.length < fuel →
      ∃ g2, g1.optimizeWith passes fuel = some (.ok g2) ∧ (∀ r ∈ g2.nodes, Tidy (g2.node r)) ∧ Executable g2.nodeList ∧
        g2.outputs = g.outputs ∧ g2.inputs.map (fun r => (g2.node r).output) = g.inputs.map (fun r => (g.node r).output) ∧
        ∀ env, (∀ e, Sat I env e g.nodeList → ∀ r ∈ g.nodes, (g.node r).op ∈ elemUn ++ elemBin → elemArgs (g.node r).op (ty r) (argVals e (g.node r))) →
          ∀ out, Computes I g env out ↔ out = g.outputs.map (exec I env g2.nodeList) := by
  obtain ⟨g1, h1⟩ := processParsed_total on tf el hf hv h0 hwh ty hnodes hnr
  exact ⟨g1, h1, fun fuel hfuel => elem_conversion_end_to_end on tf el hI hM hf hv h0 hwh.outs ty hnodes hother h1 hash hp hfuel⟩

end Verif.Graph
