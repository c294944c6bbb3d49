import Verif.Props.HandlerKit
/-!
# What calls on a graph leave alone: operators, domains and outputs of the nodes
-/
namespace Verif.Graph
open Verif

/-- Nodes may have been removed, and what nodes read may have changed, nothing else about the nodes. -/
structure InFr (g g' : G) : Prop where
  len : g'.heap.length = g.heap.length
  sub : ∀ q ∈ g'.nodes, q ∈ g.nodes
  op : ∀ q, (g'.node q).op = (g.node q).op
  dom : ∀ q, (g'.node q).domain = (g.node q).domain
  out : ∀ q, (g'.node q).output = (g.node q).output

/-- And every node reads as many tensors as before, and no absent one that it did not read before. -/
structure RdFr (g g' : G) : Prop extends InFr g g' where
  inLen : ∀ q, (g'.node q).input.length = (g.node q).input.length
  inNe : ∀ q, "" ∉ (g.node q).input → "" ∉ (g'.node q).input

variable {g g' g'' : G} {r : Ref}

theorem InFr.refl (g : G) : InFr g g := ⟨rfl, fun _ h => h, fun _ => rfl, fun _ => rfl, fun _ => rfl⟩
theorem InFr.trans (h : InFr g g') (h' : InFr g' g'') : InFr g g'' :=
  ⟨h'.len.trans h.len, fun q hq => h.sub q (h'.sub q hq), fun q => (h'.op q).trans (h.op q), fun q => (h'.dom q).trans (h.dom q),
    fun q => (h'.out q).trans (h.out q)⟩
theorem RdFr.refl (g : G) : RdFr g g := ⟨.refl g, fun _ => rfl, fun _ h => h⟩
theorem RdFr.trans (h : RdFr g g') (h' : RdFr g' g'') : RdFr g g'' :=
  ⟨h.toInFr.trans h'.toInFr, fun q => (h'.inLen q).trans (h.inLen q), fun q hq => h'.inNe q (h.inNe q hq)⟩

theorem RdFr.of_heap (h : g'.heap = g.heap) (hn : ∀ q ∈ g'.nodes, q ∈ g.nodes) : RdFr g g' := by
  have : ∀ q, g'.node q = g.node q := fun q => by simp [G.node, h]
  exact ⟨⟨by rw [h], hn, fun q => by rw [this], fun q => by rw [this], fun q => by rw [this]⟩, fun q => by rw [this], fun q => by rw [this]; exact id⟩

theorem node_setNode_or (g : G) (r q : Ref) (n : Node) : (g.setNode r n).node q = g.node q ∨ q = r ∧ (g.setNode r n).node q = n := by
  by_cases h : q = r
  · subst h
    by_cases hv : q < g.heap.length
    · exact Or.inr ⟨rfl, node_setNode_self hv⟩
    · left
      simp only [G.setNode, G.node]
      rw [List.set_eq_of_length_le (Nat.le_of_not_lt hv)]
  · left
    simp only [G.setNode, G.node]
    rw [List.getElem?_set_ne (Ne.symm h)]

theorem InFr.setNode {n : Node} (h1 : n.op = (g.node r).op) (h2 : n.domain = (g.node r).domain) (h3 : n.output = (g.node r).output) :
    InFr g (g.setNode r n) := by
  refine ⟨by simp [G.setNode], fun q hq => hq, fun q => ?_, fun q => ?_, fun q => ?_⟩ <;>
  · rcases node_setNode_or g r q n with h | ⟨rfl, h⟩ <;> (rw [h]; try assumption)

theorem RdFr.setNode {n : Node} (h1 : n.op = (g.node r).op) (h2 : n.domain = (g.node r).domain) (h3 : n.output = (g.node r).output)
    (h4 : n.input.length = (g.node r).input.length) (h5 : "" ∉ (g.node r).input → "" ∉ n.input) : RdFr g (g.setNode r n) := by
  refine ⟨.setNode h1 h2 h3, fun q => ?_, fun q => ?_⟩ <;> rcases node_setNode_or g r q n with h | ⟨rfl, h⟩ <;> rw [h]
  · exact h4
  · exact id
  · exact h5

theorem removeInputAt_inFr {x : String} {i : Nat} (h : g.removeInputAt r x i = .ok g') : InFr g g' := by
  obtain ⟨-, s, hh, -, -⟩ := removeInputAt_spec h
  have hfr : RdFr (g.setNode r { g.node r with input := (g.node r).input.eraseIdx i }) g' :=
    .of_heap (by rw [hh]; rfl) (by rw [s.nodes]; exact fun _ h => h)
  exact InFr.trans (.setNode (n := { g.node r with input := (g.node r).input.eraseIdx i }) rfl rfl rfl) hfr.toInFr

theorem replaceInputAt_inFr {x y : String} {i : Nat} (h : g.replaceInputAt r x y i = .ok g') :
    InFr g g' ∧ (y ≠ "" → RdFr g g') := by
  obtain ⟨-, s, hh, -, -⟩ := replaceInputAt_spec h
  have hfr : RdFr (g.setNode r ((g.node r).setInput i y)) g' := .of_heap (by rw [hh]; rfl) (by rw [s.nodes]; exact fun _ h => h)
  refine ⟨InFr.trans (.setNode (n := (g.node r).setInput i y) rfl rfl rfl) hfr.toInFr, fun hy => RdFr.trans (.setNode (n := (g.node r).setInput i y) rfl rfl rfl (by simp [Node.setInput]) ?_) hfr⟩
  intro hn hc
  simp only [Node.setInput] at hc
  rcases List.mem_or_eq_of_mem_set hc with h | h
  · exact hn h
  · exact hy h.symm

theorem replaceInputs_inFr (xs : List String) : InFr g (g.replaceInputs r xs) := by
  obtain ⟨s, hh, -, -⟩ := replaceInputs_spec g r xs
  exact InFr.trans (.setNode (r := r) (n := { g.node r with input := xs }) rfl rfl rfl)
    (RdFr.of_heap (by rw [hh]; rfl) (by rw [s.nodes]; exact fun _ h => h)).toInFr

theorem registerInput_rdFr (i n : String) : RdFr g (g.registerInput i n) := .of_heap rfl fun _ h => h

theorem replaceSlots_inFr {x y : String} (is : List Nat) : ∀ {g g' : G}, g.replaceSlots r x y is = .ok g' → InFr g g' ∧ (y ≠ "" → RdFr g g') := by
  induction is with
  | nil => intro g g' h; simp only [G.replaceSlots] at h; cases h; exact ⟨.refl _, fun _ => .refl _⟩
  | cons i is ih =>
    intro g g' h
    simp only [G.replaceSlots, bind, Except.bind] at h
    split at h
    · split at h
      · cases h
      rename_i g1 hg1
      obtain ⟨a1, a2⟩ := replaceInputAt_inFr hg1
      obtain ⟨b1, b2⟩ := ih h
      exact ⟨a1.trans b1, fun hy => (a2 hy).trans (b2 hy)⟩
    · exact ih h

theorem replaceAllIn_inFr {x y : String} (rs : List Ref) : ∀ {g g' : G}, g.replaceAllIn x y rs = .ok g' → InFr g g' ∧ (y ≠ "" → RdFr g g') := by
  induction rs with
  | nil => intro g g' h; simp only [G.replaceAllIn] at h; cases h; exact ⟨.refl _, fun _ => .refl _⟩
  | cons r rs ih =>
    intro g g' h
    simp only [G.replaceAllIn, bind, Except.bind] at h
    split at h
    · cases h
    split at h
    · cases h
    rename_i g1 hg1
    have hr := registerInput_rdFr (g := g) y (g.node r).name
    obtain ⟨a1, a2⟩ := replaceSlots_inFr _ hg1
    obtain ⟨b1, b2⟩ := ih h
    exact ⟨(hr.toInFr.trans a1).trans b1, fun hy => (hr.trans (a2 hy)).trans (b2 hy)⟩

theorem replaceAllInputs_inFr {x y : String} {ops : Option (List Ref)} (h : g.replaceAllInputs x y ops = .ok g') :
    InFr g g' ∧ (y ≠ "" → RdFr g g') := by
  unfold G.replaceAllInputs at h
  split at h
  · cases h; exact ⟨.refl _, fun _ => .refl _⟩
  have he : RdFr g (g.ensureConsumers y) := by
    unfold G.ensureConsumers
    split
    · exact .of_heap rfl fun _ h => h
    · exact .refl _
  obtain ⟨a1, a2⟩ := replaceAllIn_inFr _ h
  exact ⟨he.toInFr.trans a1, fun hy => he.trans (a2 hy)⟩

theorem removeOutputs_heap (os : List String) : ∀ {g g' : G}, g.removeOutputs os = .ok g' → g'.heap = g.heap ∧ g'.nodes = g.nodes := by
  induction os with
  | nil => intro g g' h; simp only [G.removeOutputs] at h; cases h; exact ⟨rfl, rfl⟩
  | cons o os ih =>
    intro g g' h
    simp only [G.removeOutputs] at h
    split at h
    · exact ih h
    · split at h
      · cases h
      · obtain ⟨a, b⟩ := ih h
        exact ⟨a, b⟩

theorem removeInputs_heap {n : String} (os : List String) : ∀ {g g' : G}, g.removeInputs n os = .ok g' → g'.heap = g.heap ∧ g'.nodes = g.nodes := by
  induction os with
  | nil => intro g g' h; simp only [G.removeInputs] at h; cases h; exact ⟨rfl, rfl⟩
  | cons o os ih =>
    intro g g' h
    simp only [G.removeInputs, bind, Except.bind] at h
    split at h
    · exact ih h
    · split at h
      · cases h
      · split at h
        · cases h
        rename_i g1 hg1
        have : g1.heap = g.heap ∧ g1.nodes = g.nodes := by
          unfold G.unregisterInput at hg1
          split at hg1
          · cases hg1
          · split at hg1
            · split at hg1 <;> cases hg1 <;> exact ⟨rfl, rfl⟩
            · cases hg1; exact ⟨rfl, rfl⟩
        obtain ⟨a, b⟩ := ih h
        exact ⟨a.trans this.1, b.trans this.2⟩

theorem removeNode_rdFr {name : String} (h : g.removeNode name = .ok g') : RdFr g g' := by
  unfold G.removeNode at h
  split at h
  · cases h
  simp only [bind, Except.bind] at h
  split at h
  · cases h
  rename_i g1 hg1
  split at h
  · cases h
  rename_i g2 hg2
  cases h
  obtain ⟨a, b⟩ := removeOutputs_heap _ hg1
  obtain ⟨c, d⟩ := removeInputs_heap _ hg2
  refine .of_heap (c.trans a) fun q hq => ?_
  have := List.mem_of_mem_erase hq
  rw [d, b] at this
  exact this

theorem copyInfo_rdFr {src : G} {o d : String} (h : g.copyInfo src o d = .ok g') : RdFr g g' := by
  unfold G.copyInfo at h
  simp only [bind, Except.bind] at h
  split at h
  · cases h
  rename_i g1 hg1
  have h1 : g1.heap = g.heap ∧ g1.nodes = g.nodes := by
    unfold G.setShapeOpt at hg1
    split at hg1
    · unfold G.setShape at hg1
      split at hg1
      · cases hg1
      · cases hg1; exact ⟨rfl, rfl⟩
    · cases hg1; exact ⟨rfl, rfl⟩
  have h2 : g'.heap = g1.heap ∧ g'.nodes = g1.nodes := by
    unfold G.setDtypeOpt at h
    split at h
    · unfold G.setDtype at h
      split at h
      · cases h
      · cases h; exact ⟨rfl, rfl⟩
    · cases h; exact ⟨rfl, rfl⟩
  exact .of_heap (h2.1.trans h1.1) (by rw [h2.2, h1.2]; exact fun _ h => h)

theorem insertNodeOnOutput_inFr {o : String} (h : g.insertNodeOnOutput r o = .ok g') : InFr g g' := by
  unfold G.insertNodeOnOutput at h
  split at h
  · cases h
  · cases h
  · simp only at h
    split at h
    · cases h
    · exact (replaceAllInputs_inFr h).1

end Verif.Graph
