import Verif.Props.HandlerBase
import Verif.Model.Handlers
/-!
# When the calls of the graph API raise nothing (used by C52)

For each call: a condition under which it succeeds, which tensors get an entry in the consumer index, and which names it may add there.
-/
namespace Verif.Graph
open Verif

/-- The consumer index has an entry for the tensor. -/
def G.Key (g : G) (i : String) : Prop := (g.consumers.get i).isSome = true

/-- The consumer index has only grown: no entry is lost, and names added to the sets satisfy `ns`. -/
structure Grow (ns : String → Prop) (g g' : G) : Prop where
  keys : ∀ i, g.Key i → g'.Key i
  cons : ∀ i n, n ∈ g'.cons i → n ∈ g.cons i ∨ ns n

variable {g g' g'' : G} {ns ns' : String → Prop} {r : Ref}

theorem Grow.refl (g : G) : Grow ns g g := ⟨fun _ h => h, fun _ _ h => Or.inl h⟩

theorem Grow.trans (h : Grow ns g g') (h' : Grow ns g' g'') : Grow ns g g'' :=
  ⟨fun i hi => h'.keys i (h.keys i hi), fun i n hn => (h'.cons i n hn).elim (h.cons i n) Or.inr⟩

theorem Grow.mono (h : Grow ns g g') (hn : ∀ n, ns n → ns' n) : Grow ns' g g' :=
  ⟨h.keys, fun i n hh => (h.cons i n hh).imp id (hn n)⟩

theorem Grow.of_eq (h : g'.consumers = g.consumers) : Grow ns g g' :=
  ⟨fun i hi => by unfold G.Key at hi ⊢; rw [h]; exact hi, fun i n hn => Or.inl (by unfold G.cons at hn ⊢; rw [h] at hn; exact hn)⟩

theorem registerInput_grow (g : G) (i nm : String) : Grow (· = nm) g (g.registerInput i nm) ∧ (g.registerInput i nm).Key i := by
  refine ⟨⟨fun j hj => ?_, fun j n hn => ?_⟩, ?_⟩
  · unfold G.Key at hj ⊢
    simp only [G.registerInput, Dict.get_set]
    split
    · rfl
    · exact hj
  · rw [cons_registerInput] at hn
    split at hn
    · rename_i e; subst e
      exact mem_setAdd.1 hn
    · exact Or.inl hn
  · simp [G.Key, G.registerInput, Dict.get_set]

theorem registerInputs_grow (is : List String) (nm : String) : ∀ (g : G), Grow (· = nm) g (g.registerInputs is nm) ∧
    ∀ i ∈ is, (g.registerInputs is nm).Key i := by
  induction is with
  | nil => intro g; exact ⟨.refl g, by simp⟩
  | cons a is ih =>
    intro g
    have e : g.registerInputs (a :: is) nm = (g.registerInput a nm).registerInputs is nm := rfl
    obtain ⟨h1, h2⟩ := registerInput_grow g a nm
    obtain ⟨h3, h4⟩ := ih (g.registerInput a nm)
    rw [e]
    refine ⟨h1.trans h3, fun i hi => ?_⟩
    rcases List.mem_cons.1 hi with rfl | hi
    · exact h3.keys _ h2
    · exact h4 i hi

theorem dropConsumer_grow (g : G) (x nm : String) : Grow ns g (g.dropConsumer x nm) := by
  refine ⟨fun i hi => ?_, fun i n hn => Or.inl (((dropConsumer_spec g x nm).2.2.1 i n).1 hn).1⟩
  unfold G.Key at hi ⊢
  unfold G.dropConsumer
  split
  · exact hi
  · simp only [Dict.get_set]
    split
    · rfl
    · exact hi

theorem moveConsumer_grow (g : G) (a b nm : String) : Grow (· = nm) g (g.moveConsumer a b nm) ∧ (g.moveConsumer a b nm).Key b := by
  obtain ⟨h1, h2⟩ := registerInput_grow (g.dropConsumer a nm) b nm
  exact ⟨(dropConsumer_grow g a nm).trans h1, h2⟩

theorem replaceInputAt_total {x y : String} {i : Nat} (h : (g.node r).input[i]? = some x) :
    ∃ g', g.replaceInputAt r x y i = .ok g' ∧ Grow (· = (g.node r).name) g g' ∧ g'.Key y := by
  refine ⟨_, by unfold G.replaceInputAt; simp only; rw [if_pos h], ?_⟩
  obtain ⟨h1, h2⟩ := moveConsumer_grow (g.setNode r ((g.node r).setInput i y)) x y (g.node r).name
  exact ⟨(Grow.of_eq (g := g) (g' := g.setNode r ((g.node r).setInput i y)) rfl).trans h1, h2⟩

theorem removeInputAt_total {x : String} {i : Nat} (h : (g.node r).input[i]? = some x) :
    ∃ g', g.removeInputAt r x i = .ok g' ∧ Grow (· = (g.node r).name) g g' := by
  refine ⟨_, by unfold G.removeInputAt; simp only; rw [if_pos h], ?_⟩
  exact (dropConsumer_grow g x (g.node r).name).trans (Grow.of_eq rfl)

theorem replaceInputs_grow (g : G) (r : Ref) (xs : List String) : Grow (· = (g.node r).name) g (g.replaceInputs r xs) := by
  unfold G.replaceInputs
  simp only
  have h1 : ∀ (l : List String) (g0 : G), Grow (· = (g.node r).name) g0 (l.foldl (fun g old => g.dropConsumer old old) g0) := by
    intro l
    induction l with
    | nil => exact fun g => .refl g
    | cons a l ih => exact fun g => (dropConsumer_grow g a a).trans (ih _)
  exact ((h1 _ g).trans (registerInputs_grow xs _ _).1).trans (Grow.of_eq rfl)

/-- `make_node` with a new name and new outputs. -/
theorem makeNode_total {op : String} {xs : List String} {name : String} {outs : List String} {attr : Dict String Attr} {dom : String}
    (h1 : g.byName.get name = none) (h2 : ∀ o ∈ outs, g.getNodeByOutput o = none) :
    ∃ g' r, g.makeNode op xs name outs attr dom = .ok (g', r) ∧ Grow (· = name) g g' ∧ ∀ i ∈ xs, g'.Key i := by
  unfold G.makeNode
  rw [if_neg (by simp [G.getNodeByName, h1]), if_neg (by
    simp only [List.any_eq_true, not_exists, not_and]
    intro o ho; simp [h2 o ho])]
  refine ⟨_, _, rfl, ?_, ?_⟩
  · obtain ⟨a1, a2⟩ := registerInputs_grow xs name g
    refine a1.trans (Grow.trans (g' := { g.registerInputs xs name with heap := (g.registerInputs xs name).heap ++ [Node.mk name op dom attr xs outs] })
      (Grow.of_eq rfl) ?_)
    unfold G.setNodeByName
    simp only
    have hn : G.node { g.registerInputs xs name with heap := (g.registerInputs xs name).heap ++ [Node.mk name op dom attr xs outs] }
        (g.registerInputs xs name).heap.length = Node.mk name op dom attr xs outs := by simp [G.node]
    rw [hn]
    refine Grow.trans ?_ (Grow.trans (registerInputs_grow xs name _).1 (Grow.of_eq rfl))
    exact Grow.of_eq rfl
  · intro i hi
    unfold G.setNodeByName
    simp only
    have hn : G.node { g.registerInputs xs name with heap := (g.registerInputs xs name).heap ++ [Node.mk name op dom attr xs outs] }
        (g.registerInputs xs name).heap.length = Node.mk name op dom attr xs outs := by simp [G.node]
    rw [hn]
    exact (registerInputs_grow xs name _).2 i hi

theorem removeOutputs_total (os : List String) : ∀ {g : G}, (os.filter (· ≠ "")).Nodup → (∀ o ∈ os, o ≠ "" → (g.outToName.get o).isSome = true) →
    ∃ g', g.removeOutputs os = .ok g' ∧ g'.consumers = g.consumers := by
  induction os with
  | nil => intro g _ _; exact ⟨g, rfl, rfl⟩
  | cons a os ih =>
    intro g hnd h
    by_cases ha : a = ""
    · subst ha
      obtain ⟨g', h1, h2⟩ := ih (g := g) (by simpa using hnd) (fun o ho => h o (by simp [ho]))
      exact ⟨g', by simp only [G.removeOutputs, if_true]; exact h1, h2⟩
    · rw [List.filter_cons_of_pos (by simp [ha]), List.nodup_cons] at hnd
      have hs := h a (by simp) ha
      obtain ⟨g', h1, h2⟩ := ih (g := { g with outToName := g.outToName.erase a, shapes := g.shapes.erase a, dtypes := g.dtypes.erase a }) hnd.2
        (fun o ho hoe => by
          simp only [Dict.get_erase]
          rw [if_neg]
          · exact h o (by simp [ho]) hoe
          · rintro rfl
            exact hnd.1 (by simp [ho, ha]))
      refine ⟨g', ?_, h2⟩
      simp only [G.removeOutputs, if_neg ha]
      rw [if_neg (by rw [Option.isNone_iff_eq_none]; intro hc; rw [hc] at hs; cases hs)]
      exact h1

theorem removeInputs_total {nm : String} (is : List String) : ∀ {g : G}, (∀ i ∈ is, i ≠ "" → g.Key i) →
    ∃ g', g.removeInputs nm is = .ok g' ∧ Grow ns g g' := by
  induction is with
  | nil => intro g _; exact ⟨g, rfl, .refl g⟩
  | cons a is ih =>
    intro g h
    by_cases ha : a = ""
    · obtain ⟨g', h1, h2⟩ := ih (fun i hi => h i (by simp [hi]))
      exact ⟨g', by simp only [G.removeInputs, if_pos ha]; exact h1, h2⟩
    · have hk := h a (by simp) ha
      obtain ⟨s, hs⟩ := Option.isSome_iff_exists.1 hk
      have hu : ∃ g1, g.unregisterInput a nm = .ok g1 ∧ Grow ns g g1 := by
        unfold G.unregisterInput
        rw [hs]
        simp only
        split
        · split
          · refine ⟨_, rfl, ⟨fun i hi => ?_, fun i n hn => ?_⟩⟩
            · unfold G.Key at hi ⊢
              simp only [Dict.get_set]
              split
              · rfl
              · exact hi
            · left
              unfold G.cons at hn ⊢
              simp only [Dict.get_set] at hn
              split at hn
              · rename_i e; subst e
                rw [hs]
                simp only [Option.getD_some, List.mem_filter] at hn ⊢
                exact hn.1
              · exact hn
          · exact ⟨g, rfl, .refl g⟩
        · exact ⟨g, rfl, .refl g⟩
      obtain ⟨g1, e1, e2⟩ := hu
      obtain ⟨g', h1, h2⟩ := ih (g := g1) (fun i hi hie => e2.keys i (h i (by simp [hi]) hie))
      refine ⟨g', ?_, e2.trans h2⟩
      simp only [G.removeInputs, if_neg ha]
      rw [if_neg (by rw [hs]; simp), e1]
      exact h1

/-- `remove_node` of a node whose inputs are all known to the consumer index. -/
theorem removeNode_total (hw : WF g) (hr : r ∈ g.nodes) (hk : ∀ i ∈ (g.node r).input, i ≠ "" → g.Key i) :
    ∃ g', g.removeNode (g.node r).name = .ok g' ∧ Grow ns g g' := by
  unfold G.removeNode
  rw [(hw.byName _ r).2 ⟨hr, rfl⟩]
  simp only [bind, Except.bind]
  obtain ⟨g1, h1, h2⟩ := removeOutputs_total (g.node r).output (g := { g with byName := g.byName.erase (g.node r).name, inputs := g.inputs.erase r })
    (hw.outNodup r hr) (fun o ho hoe => by
      simp only
      rw [(hw.outs o _ hoe).2 ⟨r, hr, rfl, ho⟩]
      rfl)
  rw [h1]
  simp only
  have hg1 : Grow ns g g1 := Grow.of_eq (by rw [h2])
  obtain ⟨g2, h3, h4⟩ := removeInputs_total (ns := ns) (nm := (g.node r).name) (g.node r).input (g := g1)
    (fun i hi hie => hg1.keys i (hk i hi hie))
  rw [h3]
  exact ⟨_, rfl, (hg1.trans h4).trans (Grow.of_eq rfl)⟩

theorem replaceSlots_total {x y : String} (is : List Nat) : ∀ {g : G}, ∃ g', g.replaceSlots r x y is = .ok g' ∧ Same g g' ∧
    Grow (· = (g.node r).name) g g' := by
  induction is with
  | nil => exact fun {g} => ⟨g, rfl, .refl g, .refl g⟩
  | cons a is ih =>
    intro g
    simp only [G.replaceSlots, bind, Except.bind]
    split
    · rename_i h
      obtain ⟨g1, e1, e2, -⟩ := replaceInputAt_total (y := y) h
      rw [e1]
      have hs := (replaceInputAt_spec e1).2.1
      obtain ⟨g', h1, h2, h3⟩ := ih (g := g1)
      refine ⟨g', h1, hs.trans h2, e2.trans ?_⟩
      rw [hs.name] at h3
      exact h3
    · exact ih

theorem replaceAllIn_total {x y : String} (rs : List Ref) : ∀ {g : G}, (∀ q ∈ rs, y ∉ (g.node q).output) →
    ∃ g', g.replaceAllIn x y rs = .ok g' ∧ Same g g' ∧ Grow (fun n => ∃ q ∈ rs, n = (g.node q).name) g g' := by
  induction rs with
  | nil => exact fun {g} _ => ⟨g, rfl, .refl g, .refl g⟩
  | cons a rs ih =>
    intro g h
    simp only [G.replaceAllIn, bind, Except.bind]
    rw [if_neg (fun hc => h a (by simp) hc.2)]
    obtain ⟨r1, -⟩ := registerInput_grow g y (g.node a).name
    have s0 : Same g (g.registerInput y (g.node a).name) := Same.of_heap rfl rfl rfl rfl rfl rfl
    obtain ⟨g1, e1, e2, e3⟩ := replaceSlots_total (r := a) (x := x) (y := y) (List.range (g.node a).input.length) (g := g.registerInput y (g.node a).name)
    rw [e1]
    simp only
    have s1 := s0.trans e2
    obtain ⟨g', h1, h2, h3⟩ := ih (g := g1) (fun q hq => by rw [s1.output]; exact h q (by simp [hq]))
    refine ⟨g', h1, s1.trans h2, ?_⟩
    have a1 : Grow (fun n => ∃ q ∈ a :: rs, n = (g.node q).name) g (g.registerInput y (g.node a).name) :=
      r1.mono fun n hn => ⟨a, by simp, hn⟩
    have a2 : Grow (fun n => ∃ q ∈ a :: rs, n = (g.node q).name) (g.registerInput y (g.node a).name) g1 :=
      e3.mono fun n hn => ⟨a, by simp, hn.trans (s0.name a)⟩
    refine (a1.trans a2).trans (h3.mono ?_)
    rintro n ⟨q, hq, hn⟩
    exact ⟨q, by simp [hq], hn.trans (s1.name q)⟩

theorem ensureConsumers_grow (g : G) (y : String) : Grow ns g (g.ensureConsumers y) ∧ (g.ensureConsumers y).Key y := by
  have hc := (replaceAll_init g y).2.2
  refine ⟨⟨fun i hi => ?_, fun i n hn => Or.inl (by rw [hc] at hn; exact hn)⟩, ?_⟩
  · unfold G.Key at hi ⊢
    unfold G.ensureConsumers
    split
    · simp only [Dict.get_set]
      split
      · rfl
      · exact hi
    · exact hi
  · unfold G.Key G.ensureConsumers
    split
    · simp [Dict.get_set]
    · rename_i h; rw [h]; rfl

/-- `insert_node_on_output` when every name in the index is that of a node. -/
theorem insertNodeOnOutput_total (hw : WF g) (hr : r ∈ g.nodes) {o z : String} (hz : (g.node r).output = [z]) (hze : z ≠ "") (hne : o ≠ z)
    (hk : g.Key o) (hlive : ∀ n ∈ g.cons o, (g.byName.get n).isSome = true) :
    ∃ g', g.insertNodeOnOutput r o = .ok g' ∧ Same g g' ∧ Grow (fun n => ∃ q ∈ g.nodes, n = (g.node q).name) g g' ∧ g'.Key z := by
  obtain ⟨s, hs⟩ := Option.isSome_iff_exists.1 hk
  unfold G.insertNodeOnOutput
  rw [hs, hz]
  simp only
  have hall : ∀ n ∈ s, (g.getNodeByName n).isSome = true := fun n hn => hlive n (by simp [G.cons, hs, hn])
  rw [if_neg (by
    rintro ⟨h1, -⟩
    simp only [List.any_map, List.any_eq_true, Function.comp_apply] at h1
    obtain ⟨n, hn, hx⟩ := h1
    have := hall n hn
    rw [Option.isNone_iff_eq_none] at hx
    rw [hx] at this
    cases this)]
  unfold G.replaceAllInputs
  rw [if_neg hne]
  simp only [Option.getD_some]
  obtain ⟨c1, c2, -⟩ := replaceAll_init g z
  obtain ⟨d1, d2⟩ := ensureConsumers_grow (ns := fun n => ∃ q ∈ g.nodes, n = (g.node q).name) g z
  have hin : ∀ q ∈ ((s.map g.getNodeByName).filterMap id).filter (· ≠ r), q ∈ g.nodes ∧ q ≠ r := by
    intro q hq
    simp only [List.mem_filter, List.mem_filterMap, List.mem_map, id] at hq
    obtain ⟨⟨a, ⟨n, hn, e⟩, ha⟩, hqr⟩ := hq
    rw [ha] at e
    exact ⟨((hw.getNodeByName n q).1 e).1, by simpa using hqr⟩
  obtain ⟨g', h1, h2, h3⟩ := replaceAllIn_total (x := o) (y := z) (((s.map g.getNodeByName).filterMap id).filter (· ≠ r))
    (g := g.ensureConsumers z) (fun q hq hx => by
      rw [c2.output] at hx
      obtain ⟨q1, q2⟩ := hin q hq
      exact q2 (hw.out_inj hze q1 hr hx (by rw [hz]; simp)))
  refine ⟨g', h1, c2.trans h2, d1.trans (h3.mono ?_), h3.keys _ d2⟩
  rintro n ⟨q, hq, rfl⟩
  exact ⟨q, (hin q hq).1, c2.name q⟩

/-- `copy_shape`, `copy_dtype` to a tensor of the graph. -/
theorem copyInfo_total {src : G} {o z : String} (h : (g.getNodeByOutput z).isSome = true) :
    ∃ g', g.copyInfo src o z = .ok g' ∧ g'.consumers = g.consumers ∧ g'.byName = g.byName ∧ g'.heap = g.heap := by
  obtain ⟨p, hp⟩ := Option.isSome_iff_exists.1 h
  have h1 : ∃ g1, g.setShapeOpt z (src.shapes.get o) = .ok g1 ∧ g1.consumers = g.consumers ∧ g1.byName = g.byName ∧ g1.heap = g.heap ∧
      g1.getNodeByOutput z = some p := by
    unfold G.setShapeOpt
    split
    · unfold G.setShape
      rw [hp]
      exact ⟨_, rfl, rfl, rfl, rfl, hp⟩
    · exact ⟨g, rfl, rfl, rfl, rfl, hp⟩
  obtain ⟨g1, e1, e2, e3, e4, e5⟩ := h1
  unfold G.copyInfo
  simp only [e1, bind, Except.bind]
  unfold G.setDtypeOpt
  split
  · unfold G.setDtype
    rw [e5]
    exact ⟨_, rfl, e2, e3, e4⟩
  · exact ⟨g1, rfl, e2, e3, e4⟩

end Verif.Graph
