import Verif.Props.GraphInv
import Mathlib.Data.List.Perm.Basic
/-!
# The remaining edits keep the lookup tables and the consumer index in order
-/
namespace Verif.Graph
open Verif

/-- The two states have the same nodes, names, outputs and name tables: they differ in inputs, types, attributes,
shapes, dtypes and consumer index only. -/
structure Same (g g' : G) : Prop where
  len : g'.heap.length = g.heap.length
  nodes : g'.nodes = g.nodes
  byName : g'.byName = g.byName
  outToName : g'.outToName = g.outToName
  name : ∀ r, (g'.node r).name = (g.node r).name
  output : ∀ r, (g'.node r).output = (g.node r).output
  inputs : g'.inputs = g.inputs
  outputs : g'.outputs = g.outputs

theorem Same.refl (g : G) : Same g g := ⟨rfl, rfl, rfl, rfl, fun _ => rfl, fun _ => rfl, rfl, rfl⟩

theorem Same.trans {a b c : G} (h : Same a b) (h' : Same b c) : Same a c :=
  ⟨h'.len.trans h.len, h'.nodes.trans h.nodes, h'.byName.trans h.byName, h'.outToName.trans h.outToName,
   fun r => (h'.name r).trans (h.name r), fun r => (h'.output r).trans (h.output r), h'.inputs.trans h.inputs,
   h'.outputs.trans h.outputs⟩

theorem Same.wf {g g' : G} (h : WF g) (s : Same g g') : WF g' where
  valid := by rw [s.nodes, s.len]; exact h.valid
  nodup := by rw [s.nodes]; exact h.nodup
  nameNe := by simp only [s.nodes, s.name]; exact h.nameNe
  byName := by simp only [s.nodes, s.name, s.byName]; exact h.byName
  outs := by simp only [s.nodes, s.name, s.output, s.outToName]; exact h.outs
  outNodup := by simp only [s.nodes, s.output]; exact h.outNodup

/-- Only the consumer index and the shape/dtype tables differ. -/
theorem Same.of_heap {g g' : G} (h1 : g'.heap = g.heap) (h2 : g'.nodes = g.nodes) (h3 : g'.byName = g.byName)
    (h4 : g'.outToName = g.outToName) (h5 : g'.inputs = g.inputs) (h6 : g'.outputs = g.outputs) : Same g g' := by
  have : ∀ r, g'.node r = g.node r := by intro r; simp [G.node, h1]
  exact ⟨by rw [h1], h2, h3, h4, fun r => by rw [this], fun r => by rw [this], h5, h6⟩

theorem Same.setNode {g : G} {r : Ref} {n : Node} (hn : n.name = (g.node r).name)
    (ho : n.output = (g.node r).output) : Same g (g.setNode r n) := by
  refine ⟨by simp, rfl, rfl, rfl, ?_, ?_, rfl, rfl⟩
  · intro r'
    by_cases e : r = r'
    · subst e
      by_cases hr : r < g.heap.length
      · rw [node_setNode_self hr, hn]
      · simp [G.node, G.setNode, Nat.le_of_not_lt hr]
    · rw [node_setNode_ne e]
  · intro r'
    by_cases e : r = r'
    · subst e
      by_cases hr : r < g.heap.length
      · rw [node_setNode_self hr, ho]
      · simp [G.node, G.setNode, Nat.le_of_not_lt hr]
    · rw [node_setNode_ne e]

/-! ## Dropping a name from one consumer set -/

theorem dropConsumer_spec (g : G) (x n : String) :
    (g.dropConsumer x n).heap = g.heap ∧ Same g (g.dropConsumer x n) ∧
    (∀ i y, y ∈ (g.dropConsumer x n).cons i ↔ y ∈ g.cons i ∧ ¬ (i = x ∧ y = n)) ∧
    ((∀ i, (g.cons i).Nodup) → ∀ i, ((g.dropConsumer x n).cons i).Nodup) := by
  unfold G.dropConsumer
  split
  · rename_i hx
    refine ⟨rfl, Same.refl _, ?_, id⟩
    intro i y
    constructor
    · intro h; refine ⟨h, ?_⟩; rintro ⟨rfl, rfl⟩; simp [G.cons, hx] at h
    · exact And.left
  · rename_i s hx
    refine ⟨rfl, Same.of_heap rfl rfl rfl rfl rfl rfl, ?_, ?_⟩
    · intro i y
      simp only [G.cons, Dict.get_set]
      by_cases e : x = i
      · subst e; simp [hx]
      · simp [e, Ne.symm e]
    · intro hn i
      simp only [G.cons, Dict.get_set]
      by_cases e : x = i
      · subst e
        have := hn x
        simp only [G.cons, hx, Option.getD_some] at this
        simpa using List.Nodup.filter _ this
      · have := hn i; simp only [G.cons] at this; simpa [e] using this

theorem moveConsumer_spec (g : G) (old new n : String) :
    (g.moveConsumer old new n).heap = g.heap ∧ Same g (g.moveConsumer old new n) ∧
    (∀ i y, y ∈ (g.moveConsumer old new n).cons i ↔
      (y ∈ g.cons i ∧ ¬ (i = old ∧ y = n)) ∨ (i = new ∧ y = n)) ∧
    ((∀ i, (g.cons i).Nodup) → ∀ i, ((g.moveConsumer old new n).cons i).Nodup) := by
  unfold G.moveConsumer
  obtain ⟨h1, h2, h3, h4⟩ := dropConsumer_spec g old n
  generalize g.dropConsumer old n = g' at *
  refine ⟨h1, h2.trans (Same.of_heap rfl rfl rfl rfl rfl rfl), ?_, ?_⟩
  · intro i y
    rw [cons_registerInput]
    by_cases e : new = i
    · subst e; simp [mem_setAdd, h3]
    · simp [e, Ne.symm e, h3]
  · intro hn i
    rw [cons_registerInput]
    split
    · exact nodup_setAdd (h4 hn _)
    · exact h4 hn _

/-! ## replace_input with an index -/

theorem replaceInputAt_spec {g g' : G} {r : Ref} {old new : String} {idx : Nat}
    (h : g.replaceInputAt r old new idx = .ok g') :
    (g.node r).input[idx]? = some old ∧ Same g g' ∧
    g'.heap = g.heap.set r ((g.node r).setInput idx new) ∧
    (∀ i y, y ∈ g'.cons i ↔
      (y ∈ g.cons i ∧ ¬ (i = old ∧ y = (g.node r).name)) ∨ (i = new ∧ y = (g.node r).name)) ∧
    ((∀ i, (g.cons i).Nodup) → ∀ i, (g'.cons i).Nodup) := by
  unfold G.replaceInputAt at h
  simp only at h
  split at h
  · rename_i hi
    cases h
    obtain ⟨h1, h2, h3, h4⟩ := moveConsumer_spec (g.setNode r ((g.node r).setInput idx new)) old new (g.node r).name
    exact ⟨hi, Same.trans (Same.setNode (r := r) (n := (g.node r).setInput idx new) rfl rfl) h2, h1, h3, h4⟩
  · cases h

/-- Completeness of the index except for one (node, tensor) pair. -/
def IdxBut (g : G) (r : Ref) (x : String) : Prop :=
  (∀ r' ∈ g.nodes, ∀ i ∈ (g.node r').input, ¬ (r' = r ∧ i = x) → (g.node r').name ∈ g.cons i) ∧
  ∀ i, (g.cons i).Nodup

theorem Idx.but {g : G} (h : Idx g) (r : Ref) (x : String) : IdxBut g r x :=
  ⟨fun r' hr' i hi _ => h.complete r' hr' i hi, h.setNodup⟩

theorem IdxBut.idx {g : G} {r : Ref} {x : String} (h : IdxBut g r x) (hx : x ∉ (g.node r).input) : Idx g := by
  refine ⟨?_, h.2⟩
  intro r' hr' i hi
  refine h.1 r' hr' i hi ?_
  rintro ⟨rfl, rfl⟩; exact hx hi

theorem node_of_heap_set {g g' : G} {r : Ref} {n : Node} (h : g'.heap = g.heap.set r n) (r' : Ref) :
    g'.node r' = (g.setNode r n).node r' := by simp [G.node, G.setNode, h]

theorem replaceInputAt_but {g g' : G} {r : Ref} {old new : String} {idx : Nat} (hw : WF g) (hr : r ∈ g.nodes)
    (hi : IdxBut g r old) (h : g.replaceInputAt r old new idx = .ok g') : IdxBut g' r old := by
  obtain ⟨h1, h2, h3, h4, h5⟩ := replaceInputAt_spec h
  refine ⟨?_, h5 hi.2⟩
  intro r' hr' i hin hne
  rw [h2.nodes] at hr'
  rw [h2.name, h4]
  by_cases e : r' = r
  · subst e
    rw [node_of_heap_set h3, node_setNode_self (hw.valid _ hr')] at hin
    simp only [Node.setInput] at hin
    rcases List.mem_or_eq_of_mem_set hin with hin | rfl
    · refine Or.inl ⟨hi.1 r' hr' i hin hne, ?_⟩
      rintro ⟨rfl, _⟩; exact hne ⟨rfl, rfl⟩
    · exact Or.inr ⟨rfl, rfl⟩
  · rw [node_of_heap_set h3, node_setNode_ne (Ne.symm e)] at hin
    refine Or.inl ⟨hi.1 r' hr' i hin hne, ?_⟩
    rintro ⟨_, e'⟩
    exact e (hw.name_inj hr' hr e')

/-- `replace_input` with an index keeps the index complete when the old input is not read through another slot. -/
theorem replaceInputAt_idx {g g' : G} {r : Ref} {old new : String} {idx : Nat} (hw : WF g) (hr : r ∈ g.nodes)
    (hi : Idx g) (hside : old = new ∨ (g.node r).input.count old ≤ 1)
    (h : g.replaceInputAt r old new idx = .ok g') : Idx g' := by
  have hb := replaceInputAt_but hw hr (hi.but r old) h
  obtain ⟨h1, h2, h3, h4, h5⟩ := replaceInputAt_spec h
  by_cases e : old = new
  · subst e
    refine ⟨?_, hb.2⟩
    intro r' hr' i hin
    by_cases e : r' = r ∧ i = old
    · obtain ⟨rfl, rfl⟩ := e
      rw [h2.name, h4]; exact Or.inr ⟨rfl, rfl⟩
    · exact hb.1 r' hr' i hin e
  · have hc : (g.node r).input.count old ≤ 1 := hside.resolve_left e
    apply hb.idx
    rw [node_of_heap_set h3, node_setNode_self (hw.valid _ hr)]
    simp only [Node.setInput]
    intro hin
    have hlt : idx < (g.node r).input.length := by
      by_contra hge
      rw [List.getElem?_eq_none (Nat.le_of_not_lt hge)] at h1; cases h1
    have hget : (g.node r).input[idx] = old := by
      rw [List.getElem?_eq_getElem hlt] at h1; exact Option.some.inj h1
    have := List.count_set (l := (g.node r).input) (i := idx) (a := new) (b := old) hlt
    have hpos := List.count_pos_iff.2 hin
    rw [this, hget] at hpos
    simp [Ne.symm e] at hpos
    omega

/-! ## replace_input on all slots -/

theorem replaceInput_spec (g : G) (r : Ref) (old new : String) :
    Same g (g.replaceInput r old new) ∧
    (g.replaceInput r old new).heap
      = g.heap.set r { g.node r with input := (g.node r).input.map (fun x => if x = old then new else x) } ∧
    (∀ i y, y ∈ (g.replaceInput r old new).cons i ↔
      (y ∈ g.cons i ∧ ¬ (i = old ∧ y = (g.node r).name)) ∨ (i = new ∧ y = (g.node r).name)) ∧
    ((∀ i, (g.cons i).Nodup) → ∀ i, ((g.replaceInput r old new).cons i).Nodup) := by
  obtain ⟨h1, h2, h3, h4⟩ := moveConsumer_spec
    (g.setNode r { g.node r with input := (g.node r).input.map (fun x => if x = old then new else x) })
    old new (g.node r).name
  refine ⟨Same.trans ?_ h2, h1, h3, h4⟩
  apply Same.setNode <;> rfl

theorem replaceInput_idx {g : G} {r : Ref} {old new : String} (hw : WF g) (hr : r ∈ g.nodes) (hi : Idx g) :
    Idx (g.replaceInput r old new) := by
  obtain ⟨h2, h3, h4, h5⟩ := replaceInput_spec g r old new
  refine ⟨?_, h5 hi.setNodup⟩
  intro r' hr' i hin
  rw [h2.nodes] at hr'
  rw [h2.name, h4]
  by_cases e : r' = r
  · subst e
    rw [node_of_heap_set h3, node_setNode_self (hw.valid _ hr')] at hin
    simp only [List.mem_map] at hin
    obtain ⟨x, hx, hxe⟩ := hin
    split at hxe
    · exact Or.inr ⟨hxe.symm, rfl⟩
    · rename_i hne
      subst hxe
      exact Or.inl ⟨hi.complete r' hr' _ hx, fun e => hne e.1⟩
  · rw [node_of_heap_set h3, node_setNode_ne (Ne.symm e)] at hin
    refine Or.inl ⟨hi.complete r' hr' i hin, ?_⟩
    rintro ⟨_, e'⟩
    exact e (hw.name_inj hr' hr e')

/-! ## replace_inputs -/

theorem dropSelf_spec (olds : List String) (g : G) :
    (olds.foldl (fun g old => g.dropConsumer old old) g).heap = g.heap ∧
    Same g (olds.foldl (fun g old => g.dropConsumer old old) g) ∧
    (∀ i y, y ∈ (olds.foldl (fun g old => g.dropConsumer old old) g).cons i ↔
      y ∈ g.cons i ∧ ¬ (i ∈ olds ∧ y = i)) ∧
    ((∀ i, (g.cons i).Nodup) → ∀ i, ((olds.foldl (fun g old => g.dropConsumer old old) g).cons i).Nodup) := by
  induction olds generalizing g with
  | nil => exact ⟨rfl, Same.refl _, by simp, id⟩
  | cons a olds ih =>
    rw [List.foldl_cons]
    obtain ⟨a1, a2, a3, a4⟩ := dropConsumer_spec g a a
    obtain ⟨b1, b2, b3, b4⟩ := ih (g.dropConsumer a a)
    refine ⟨b1.trans a1, a2.trans b2, ?_, fun h => b4 (a4 h)⟩
    intro i y
    rw [b3, a3]
    simp only [List.mem_cons]
    constructor
    · rintro ⟨⟨h1, h2⟩, h3⟩
      refine ⟨h1, ?_⟩
      rintro ⟨rfl | h, rfl⟩
      · exact h2 ⟨rfl, rfl⟩
      · exact h3 ⟨h, rfl⟩
    · rintro ⟨h1, h2⟩
      refine ⟨⟨h1, ?_⟩, fun h => h2 ⟨Or.inr h.1, h.2⟩⟩
      rintro ⟨rfl, rfl⟩; exact h2 ⟨Or.inl rfl, rfl⟩

theorem replaceInputs_spec (g : G) (r : Ref) (new : List String) :
    Same g (g.replaceInputs r new) ∧
    (g.replaceInputs r new).heap = g.heap.set r { g.node r with input := new } ∧
    (∀ i y, y ∈ (g.replaceInputs r new).cons i ↔
      (y ∈ g.cons i ∧ ¬ (i ∈ (g.node r).input ∧ y = i)) ∨ (i ∈ new ∧ y = (g.node r).name)) ∧
    ((∀ i, (g.cons i).Nodup) → ∀ i, ((g.replaceInputs r new).cons i).Nodup) := by
  unfold G.replaceInputs
  dsimp only
  obtain ⟨h1, h2, h3, h4⟩ := dropSelf_spec (g.node r).input g
  generalize (g.node r).input.foldl (fun g old => g.dropConsumer old old) g = g1 at *
  obtain ⟨a1, a2, a3, a4, a5, a6, a7, a8⟩ := registerInputs_facts new g1 (g.node r).name
  have hs : Same g (g1.registerInputs new (g.node r).name) := h2.trans (Same.of_heap a1 a2 a3 a4 a5 a6)
  have hn : ∀ r', (g1.registerInputs new (g.node r).name).node r' = g.node r' := by
    intro r'; unfold G.node; unfold G.node at a1; rw [a1, h1]
  refine ⟨hs.trans (Same.setNode ?_ ?_), ?_, ?_, ?_⟩
  · show (g.node r).name = _; rw [hn]
  · show (g.node r).output = _; rw [hn]
  · simp only [G.setNode, a1, h1]
  · intro i y
    show y ∈ (g1.registerInputs new (g.node r).name).cons i ↔ _
    rw [a7, h3]
  · intro h; exact a8 (h4 h)

/-- `replace_inputs` keeps the index complete when no *other* node carries the name of one of the old inputs while
reading the tensor of that name. -/
theorem replaceInputs_idx {g : G} {r : Ref} {new : List String} (hw : WF g) (hr : r ∈ g.nodes) (hi : Idx g)
    (hside : ∀ r' ∈ g.nodes, r' ≠ r → (g.node r').name ∈ (g.node r).input →
      (g.node r').name ∉ (g.node r').input) :
    Idx (g.replaceInputs r new) := by
  obtain ⟨h2, h3, h4, h5⟩ := replaceInputs_spec g r new
  refine ⟨?_, h5 hi.setNodup⟩
  intro r' hr' i hin
  rw [h2.nodes] at hr'
  rw [h2.name, h4]
  by_cases e : r' = r
  · subst e
    rw [node_of_heap_set h3, node_setNode_self (hw.valid _ hr')] at hin
    exact Or.inr ⟨hin, rfl⟩
  · rw [node_of_heap_set h3, node_setNode_ne (Ne.symm e)] at hin
    refine Or.inl ⟨hi.complete r' hr' i hin, ?_⟩
    rintro ⟨e1, e2⟩
    rw [← e2] at e1 hin
    exact hside r' hr' e e1 hin

/-! ## remove_input -/

theorem removeInputAt_spec {g g' : G} {r : Ref} {x : String} {idx : Nat} (h : g.removeInputAt r x idx = .ok g') :
    (g.node r).input[idx]? = some x ∧ Same g g' ∧
    g'.heap = g.heap.set r { g.node r with input := (g.node r).input.eraseIdx idx } ∧
    (∀ i y, y ∈ g'.cons i ↔ y ∈ g.cons i ∧ ¬ (i = x ∧ y = (g.node r).name)) ∧
    ((∀ i, (g.cons i).Nodup) → ∀ i, (g'.cons i).Nodup) := by
  unfold G.removeInputAt at h
  simp only at h
  split at h
  · rename_i hi
    obtain ⟨h1, h2, h3, h4⟩ := dropConsumer_spec g x (g.node r).name
    generalize g.dropConsumer x (g.node r).name = g1 at *
    cases h
    have hn : ∀ r', g1.node r' = g.node r' := by intro r'; simp only [G.node, h1]
    refine ⟨hi, h2.trans (Same.setNode ?_ ?_), ?_, h3, h4⟩
    · show (g.node r).name = _; rw [hn]
    · show (g.node r).output = _; rw [hn]
    · simp only [G.setNode, h1]
  · cases h

theorem mem_eraseIdx_count {l : List String} {i : Nat} {x : String} (h : l[i]? = some x) (hc : l.count x ≤ 1) :
    x ∉ l.eraseIdx i := by
  intro hin
  have hlt : i < l.length := by
    by_contra hge
    rw [List.getElem?_eq_none (Nat.le_of_not_lt hge)] at h; cases h
  have hget : l[i] = x := by rw [List.getElem?_eq_getElem hlt] at h; exact Option.some.inj h
  have hp := List.count_pos_iff.2 hin
  have hperm : (l[i] :: l.eraseIdx i).Perm l := List.getElem_cons_eraseIdx_perm hlt
  have := hperm.count_eq x
  rw [hget, List.count_cons_self] at this
  omega

theorem removeInputAt_idx {g g' : G} {r : Ref} {x : String} {idx : Nat} (hw : WF g) (hr : r ∈ g.nodes) (hi : Idx g)
    (hside : (g.node r).input.count x ≤ 1) (h : g.removeInputAt r x idx = .ok g') : Idx g' := by
  obtain ⟨h1, h2, h3, h4, h5⟩ := removeInputAt_spec h
  refine ⟨?_, h5 hi.setNodup⟩
  intro r' hr' i hin
  rw [h2.nodes] at hr'
  rw [h2.name, h4]
  by_cases e : r' = r
  · subst e
    rw [node_of_heap_set h3, node_setNode_self (hw.valid _ hr')] at hin
    refine ⟨hi.complete r' hr' i (List.mem_of_mem_eraseIdx hin), ?_⟩
    rintro ⟨rfl, _⟩
    exact mem_eraseIdx_count h1 hside hin
  · rw [node_of_heap_set h3, node_setNode_ne (Ne.symm e)] at hin
    refine ⟨hi.complete r' hr' i hin, ?_⟩
    rintro ⟨_, e'⟩
    exact e (hw.name_inj hr' hr e')

theorem unregisterInput_spec {g g' : G} {x n : String} (h : g.unregisterInput x n = .ok g') :
    g'.heap = g.heap ∧ Same g g' ∧
    (∀ i y, ¬ (i = x ∧ y = n) → (y ∈ g'.cons i ↔ y ∈ g.cons i)) ∧
    ((∀ i, (g.cons i).Nodup) → ∀ i, (g'.cons i).Nodup) := by
  obtain ⟨d1, d2, d3, d4⟩ := dropConsumer_spec g x n
  unfold G.unregisterInput at h
  split at h
  · cases h
  · rename_i s hx
    have hd : g.dropConsumer x n = { g with consumers := g.consumers.set x (s.filter (· ≠ n)) } := by
      simp [G.dropConsumer, hx]
    rw [hd] at d1 d2 d3 d4
    split at h
    · split at h
      · cases h
        refine ⟨d1, d2, ?_, d4⟩
        intro i y hne; rw [d3]; exact ⟨And.left, fun h => ⟨h, hne⟩⟩
      · cases h; exact ⟨rfl, Same.refl _, fun _ _ _ => Iff.rfl, id⟩
    · cases h; exact ⟨rfl, Same.refl _, fun _ _ _ => Iff.rfl, id⟩

theorem removeInput_spec {g g' : G} {r : Ref} {x : String} (h : g.removeInput r x = .ok g') :
    (g' = g ∧ x ∉ (g.node r).input) ∨
    ((g.node r).input.count x = 1 ∧ Same g g' ∧
     g'.heap = g.heap.set r { g.node r with input := (g.node r).input.erase x } ∧
     (∀ i y, ¬ (i = x ∧ y = (g.node r).name) → (y ∈ g'.cons i ↔ y ∈ g.cons i)) ∧
     ((∀ i, (g.cons i).Nodup) → ∀ i, (g'.cons i).Nodup)) := by
  unfold G.removeInput at h
  simp only at h
  split at h
  · rename_i hin
    split at h
    · rename_i hc
      simp only [bind, Except.bind] at h
      split at h
      · cases h
      · rename_i g1 hg1
        cases h
        obtain ⟨h1, h2, h3, h4⟩ := unregisterInput_spec hg1
        have hn : ∀ r', g1.node r' = g.node r' := by intro r'; simp only [G.node, h1]
        refine Or.inr ⟨?_, h2.trans (Same.setNode ?_ ?_), ?_, h3, h4⟩
        · have := List.count_pos_iff.2 hin; omega
        · show (g.node r).name = _; rw [hn]
        · show (g.node r).output = _; rw [hn]
        · simp only [G.setNode, h1]
    · cases h
  · rename_i hin
    cases h; exact Or.inl ⟨rfl, hin⟩

theorem removeInput_idx {g g' : G} {r : Ref} {x : String} (hw : WF g) (hr : r ∈ g.nodes) (hi : Idx g)
    (h : g.removeInput r x = .ok g') : Idx g' := by
  rcases removeInput_spec h with ⟨rfl, _⟩ | ⟨hc, h2, h3, h4, h5⟩
  · exact hi
  · refine ⟨?_, h5 hi.setNodup⟩
    intro r' hr' i hin
    rw [h2.nodes] at hr'
    rw [h2.name]
    by_cases e : r' = r
    · subst e
      rw [node_of_heap_set h3, node_setNode_self (hw.valid _ hr')] at hin
      rw [h4]
      · exact hi.complete r' hr' i (List.mem_of_mem_erase hin)
      · rintro ⟨rfl, _⟩
        have := List.count_pos_iff.2 hin
        rw [List.count_erase_self] at this
        omega
    · rw [node_of_heap_set h3, node_setNode_ne (Ne.symm e)] at hin
      rw [h4]
      · exact hi.complete r' hr' i hin
      · rintro ⟨_, e'⟩
        exact e (hw.name_inj hr' hr e')

end Verif.Graph
