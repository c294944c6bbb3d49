import Verif.Model.Graph
import Mathlib.Data.List.Nodup
/-!
# Invariant of the graph's lookup tables: lemmas per edit (used by C06, C07 and the optimizer proofs)
-/
namespace Verif.Graph
open Verif

/-- Agreement of the lookup tables with the node list. -/
structure WF (g : G) : Prop where
  valid : ∀ r ∈ g.nodes, r < g.heap.length
  nodup : g.nodes.Nodup
  nameNe : ∀ r ∈ g.nodes, (g.node r).name ≠ ""
  byName : ∀ n r, g.byName.get n = some r ↔ r ∈ g.nodes ∧ (g.node r).name = n
  outs : ∀ o n, o ≠ "" → (g.outToName.get o = some n ↔ ∃ r ∈ g.nodes, (g.node r).name = n ∧ o ∈ (g.node r).output)
  outNodup : ∀ r ∈ g.nodes, ((g.node r).output.filter (· ≠ "")).Nodup

/-- Registered consumers of a tensor (possibly stale). -/
def G.cons (g : G) (i : String) : List String := (g.consumers.get i).getD []

/-- The consumer index misses nobody, and its sets hold no duplicates. -/
structure Idx (g : G) : Prop where
  complete : ∀ r ∈ g.nodes, ∀ i ∈ (g.node r).input, (g.node r).name ∈ g.cons i
  setNodup : ∀ i, (g.cons i).Nodup

/-! ## Basic facts -/

theorem WF.name_inj {g : G} (h : WF g) {r r' : Ref} (hr : r ∈ g.nodes) (hr' : r' ∈ g.nodes)
    (e : (g.node r).name = (g.node r').name) : r = r' := by
  have h1 := (h.byName _ r).2 ⟨hr, rfl⟩
  have h2 := (h.byName _ r').2 ⟨hr', rfl⟩
  rw [e, h2] at h1; cases h1; rfl

theorem WF.out_inj {g : G} (h : WF g) {r r' : Ref} {o : String} (ho : o ≠ "") (hr : r ∈ g.nodes)
    (hr' : r' ∈ g.nodes) (e : o ∈ (g.node r).output) (e' : o ∈ (g.node r').output) : r = r' := by
  have h1 := (h.outs o _ ho).2 ⟨r, hr, rfl, e⟩
  have h2 := (h.outs o _ ho).2 ⟨r', hr', rfl, e'⟩
  rw [h1] at h2
  exact h.name_inj hr hr' (by simpa using h2)

theorem node_setNode_self {g : G} {r : Ref} {n : Node} (h : r < g.heap.length) : (g.setNode r n).node r = n := by
  simp [G.node, G.setNode, h]

theorem node_setNode_ne {g : G} {r r' : Ref} {n : Node} (h : r ≠ r') : (g.setNode r n).node r' = g.node r' := by
  simp [G.node, G.setNode, List.getElem?_set_ne h]

@[simp] theorem length_setNode {g : G} {r : Ref} {n : Node} : (g.setNode r n).heap.length = g.heap.length := by
  simp [G.setNode]

@[simp] theorem nodes_setNode {g : G} {r : Ref} {n : Node} : (g.setNode r n).nodes = g.nodes := rfl
@[simp] theorem byName_setNode {g : G} {r : Ref} {n : Node} : (g.setNode r n).byName = g.byName := rfl
@[simp] theorem outToName_setNode {g : G} {r : Ref} {n : Node} : (g.setNode r n).outToName = g.outToName := rfl
@[simp] theorem consumers_setNode {g : G} {r : Ref} {n : Node} : (g.setNode r n).consumers = g.consumers := rfl
@[simp] theorem cons_setNode {g : G} {r : Ref} {n : Node} {i : String} : (g.setNode r n).cons i = g.cons i := rfl

/-- `WF` only looks at these components. -/
theorem WF.congr {g g' : G} (h : WF g) (e1 : g'.heap = g.heap) (e2 : g'.nodes = g.nodes)
    (e3 : g'.byName = g.byName) (e4 : g'.outToName = g.outToName) : WF g' := by
  have en : ∀ r, g'.node r = g.node r := by intro r; simp [G.node, e1]
  exact
    { valid := by rw [e1, e2]; exact h.valid
      nodup := by rw [e2]; exact h.nodup
      nameNe := by simp only [en, e2]; exact h.nameNe
      byName := by simp only [en, e2, e3]; exact h.byName
      outs := by simp only [en, e2, e4]; exact h.outs
      outNodup := by simp only [en, e2]; exact h.outNodup }

/-- Changing a node's inputs, type or attributes in place keeps `WF`. -/
theorem WF.setNode {g : G} (h : WF g) {r : Ref} {n : Node} (hr : r ∈ g.nodes) (hname : n.name = (g.node r).name)
    (hout : n.output = (g.node r).output) : WF (g.setNode r n) := by
  have hname' : ∀ r', ((g.setNode r n).node r').name = (g.node r').name := by
    intro r'
    by_cases e : r = r'
    · subst e; rw [node_setNode_self (h.valid r hr), hname]
    · rw [node_setNode_ne e]
  have hout' : ∀ r', ((g.setNode r n).node r').output = (g.node r').output := by
    intro r'
    by_cases e : r = r'
    · subst e; rw [node_setNode_self (h.valid r hr), hout]
    · rw [node_setNode_ne e]
  exact
    { valid := by simpa using h.valid
      nodup := h.nodup
      nameNe := by simp only [hname', nodes_setNode]; exact h.nameNe
      byName := by simp only [hname', nodes_setNode, byName_setNode]; exact h.byName
      outs := by simp only [hname', hout', nodes_setNode, outToName_setNode]; exact h.outs
      outNodup := by simp only [hout', nodes_setNode]; exact h.outNodup }

/-! ## Registration -/

@[simp] theorem heap_registerInput {g : G} {i n : String} : (g.registerInput i n).heap = g.heap := rfl
@[simp] theorem nodes_registerInput {g : G} {i n : String} : (g.registerInput i n).nodes = g.nodes := rfl
@[simp] theorem byName_registerInput {g : G} {i n : String} : (g.registerInput i n).byName = g.byName := rfl
@[simp] theorem outToName_registerInput {g : G} {i n : String} : (g.registerInput i n).outToName = g.outToName := rfl
@[simp] theorem node_registerInput {g : G} {i n : String} {r : Ref} : (g.registerInput i n).node r = g.node r := rfl

theorem cons_registerInput {g : G} {i n x : String} :
    (g.registerInput i n).cons x = if i = x then setAdd (g.cons i) n else g.cons x := by
  simp only [G.cons, G.registerInput, Dict.get_set]; split <;> simp

theorem mem_setAdd {s : List String} {x y : String} : y ∈ setAdd s x ↔ y ∈ s ∨ y = x := by
  unfold setAdd; split
  · constructor
    · exact Or.inl
    · rintro (h | rfl) <;> assumption
  · simp

theorem nodup_setAdd {s : List String} {x : String} (h : s.Nodup) : (setAdd s x).Nodup := by
  unfold setAdd; split
  · exact h
  · rename_i hx
    rw [List.nodup_append]
    exact ⟨h, by simp, by intro a ha b hb e; simp at hb; subst hb; subst e; exact hx ha⟩

theorem registerInputs_facts (is : List String) (g : G) (n : String) :
    (g.registerInputs is n).heap = g.heap ∧ (g.registerInputs is n).nodes = g.nodes ∧
    (g.registerInputs is n).byName = g.byName ∧ (g.registerInputs is n).outToName = g.outToName ∧
    (g.registerInputs is n).inputs = g.inputs ∧ (g.registerInputs is n).outputs = g.outputs ∧
    (∀ x y, y ∈ (g.registerInputs is n).cons x ↔ y ∈ g.cons x ∨ (x ∈ is ∧ y = n)) ∧
    ((∀ x, (g.cons x).Nodup) → ∀ x, ((g.registerInputs is n).cons x).Nodup) := by
  induction is generalizing g with
  | nil => simp [G.registerInputs]
  | cons i is ih =>
    obtain ⟨h1, h2, h3, h4, h5, h6, h7, h8⟩ := ih (g.registerInput i n)
    have e : g.registerInputs (i :: is) n = (g.registerInput i n).registerInputs is n := rfl
    rw [e]
    refine ⟨h1, h2, h3, h4, h5, h6, ?_, ?_⟩
    · intro x y
      rw [h7, cons_registerInput]
      by_cases hx : i = x
      · subst hx; simp only [if_true, mem_setAdd, List.mem_cons, true_or, true_and]
        constructor
        · rintro ((h | h) | h)
          · exact Or.inl h
          · exact Or.inr h
          · exact Or.inr h.2
        · rintro (h | h)
          · exact Or.inl (Or.inl h)
          · exact Or.inl (Or.inr h)
      · simp [hx, Ne.symm hx]
    · intro hn
      apply h8
      intro x
      rw [cons_registerInput]
      split
      · exact nodup_setAdd (hn _)
      · exact hn _

/-- Registering more consumers keeps both invariants. -/
theorem WF.registerInputs {g : G} (h : WF g) (is : List String) (n : String) : WF (g.registerInputs is n) := by
  obtain ⟨h1, h2, h3, h4, _, _, _, _⟩ := registerInputs_facts is g n
  exact h.congr h1 h2 h3 h4

theorem WF.registerInput {g : G} (h : WF g) (i : String) (n : String) : WF (g.registerInput i n) :=
  h.congr rfl rfl rfl rfl

theorem Idx.registerInput {g : G} (h : Idx g) (i n : String) : Idx (g.registerInput i n) := by
  refine ⟨?_, ?_⟩
  · intro r hr x hx
    rw [cons_registerInput]
    have := h.complete r hr x hx
    split
    · rename_i e; subst e; exact mem_setAdd.2 (Or.inl this)
    · exact this
  · intro x
    rw [cons_registerInput]
    split
    · exact nodup_setAdd (h.setNodup _)
    · exact h.setNodup _

/-! ## Folding `dict[k] = v` -/

theorem get_foldl_set {α κ β : Type} [DecidableEq κ] (f : α → κ) (v : α → β) (l : List α) (d : Dict κ β)
    (hc : ∀ a ∈ l, ∀ b ∈ l, f a = f b → v a = v b) (x : κ) (y : β) :
    (l.foldl (fun d a => d.set (f a) (v a)) d).get x = some y ↔
      (∃ a ∈ l, f a = x ∧ v a = y) ∨ ((∀ a ∈ l, f a ≠ x) ∧ d.get x = some y) := by
  induction l generalizing d with
  | nil => simp
  | cons a l ih =>
    rw [List.foldl_cons, ih _ (fun b hb c hc' => hc b (by simp [hb]) c (by simp [hc']))]
    simp only [Dict.get_set, List.mem_cons]
    constructor
    · rintro (⟨b, hb, e1, e2⟩ | ⟨hn, hg⟩)
      · exact Or.inl ⟨b, Or.inr hb, e1, e2⟩
      · split at hg
        · rename_i e; cases hg; exact Or.inl ⟨a, Or.inl rfl, e, rfl⟩
        · rename_i e
          refine Or.inr ⟨?_, hg⟩
          rintro b (rfl | hb)
          · exact e
          · exact hn b hb
    · rintro (⟨b, (rfl | hb), e1, e2⟩ | ⟨hn, hg⟩)
      · by_cases hex : ∃ c ∈ l, f c = x
        · obtain ⟨c, hcl, e⟩ := hex
          refine Or.inl ⟨c, hcl, e, ?_⟩
          rw [← e2]; exact hc c (by simp [hcl]) b (by simp) (by rw [e, e1])
        · refine Or.inr ⟨fun c hcl e => hex ⟨c, hcl, e⟩, ?_⟩
          simp [e1, e2]
      · exact Or.inl ⟨b, hb, e1, e2⟩
      · refine Or.inr ⟨fun b hb => hn b (Or.inr hb), ?_⟩
        rw [if_neg (hn a (Or.inl rfl))]; exact hg

theorem get_foldl_outs (l : List String) (d : Dict String String) (n o m : String) :
    (l.foldl (fun d o => d.set o n) d).get o = some m ↔ (o ∈ l ∧ m = n) ∨ (o ∉ l ∧ d.get o = some m) := by
  rw [get_foldl_set (fun o => o) (fun _ => n) l d (fun _ _ _ _ _ => rfl)]
  constructor
  · rintro (⟨a, ha, rfl, rfl⟩ | ⟨h1, h2⟩)
    · exact Or.inl ⟨ha, rfl⟩
    · exact Or.inr ⟨fun h => h1 o h rfl, h2⟩
  · rintro (⟨ha, rfl⟩ | ⟨h1, h2⟩)
    · exact Or.inl ⟨o, ha, rfl, rfl⟩
    · exact Or.inr ⟨fun a ha e => h1 (e ▸ ha), h2⟩

/-! ## Lookups under `WF` -/

theorem WF.getNodeByName {g : G} (h : WF g) (n : String) (r : Ref) :
    g.getNodeByName n = some r ↔ r ∈ g.nodes ∧ (g.node r).name = n := h.byName n r

theorem WF.getNodeByOutput {g : G} (h : WF g) {o : String} (ho : o ≠ "") (r : Ref) :
    g.getNodeByOutput o = some r ↔ r ∈ g.nodes ∧ o ∈ (g.node r).output := by
  unfold G.getNodeByOutput
  constructor
  · intro hh
    split at hh
    · cases hh
    · rename_i n hn
      split at hh
      · cases hh
      · obtain ⟨r', hr', hname, hout⟩ := (h.outs o n ho).1 hn
        obtain ⟨hr, hname'⟩ := (h.byName n r).1 hh
        have := h.name_inj hr hr' (by rw [hname, hname'])
        subst this
        exact ⟨hr, hout⟩
  · rintro ⟨hr, hout⟩
    rw [(h.outs o _ ho).2 ⟨r, hr, rfl, hout⟩]
    simp only [h.nameNe r hr, if_false]
    exact (h.byName _ r).2 ⟨hr, rfl⟩

/-! ## make_node -/

theorem node_append_lt {g : G} {r : Ref} (h : r < g.heap.length) (l : List Node) (g' : G)
    (e : g'.heap = g.heap ++ l) : g'.node r = g.node r := by
  simp [G.node, e, List.getElem?_append_left h]

/-- What `make_node` does when it succeeds. -/
structure Made (g g' : G) (r : Ref) (n : Node) : Prop where
  heap : g'.heap = g.heap ++ [n]
  nodes : g'.nodes = g.nodes ++ [r]
  ref : r = g.heap.length
  byName : ∀ x, g'.byName.get x = if n.name = x then some r else g.byName.get x
  outs : ∀ o m, g'.outToName.get o = some m ↔ (o ∈ n.output ∧ m = n.name) ∨ (o ∉ n.output ∧ g.outToName.get o = some m)
  cons : ∀ x y, y ∈ g'.cons x ↔ y ∈ g.cons x ∨ (x ∈ n.input ∧ y = n.name)
  consNodup : (∀ x, (g.cons x).Nodup) → ∀ x, (g'.cons x).Nodup
  freshName : g.getNodeByName n.name = none
  freshOut : ∀ o ∈ n.output, g.getNodeByOutput o = none
  inputs : g'.inputs = g.inputs
  outputs : g'.outputs = g.outputs

theorem makeNode_made {g g' : G} {r : Ref} {op : String} {input : List String} {name : String}
    {output : List String} {attr : Dict String Attr} {domain : String}
    (h : g.makeNode op input name output attr domain = .ok (g', r)) :
    Made g g' r ⟨name, op, domain, attr, input, output⟩ := by
  unfold G.makeNode at h
  split at h
  · cases h
  · rename_i hn
    split at h
    · cases h
    · rename_i ho
      simp only [Except.ok.injEq, Prod.mk.injEq] at h
      obtain ⟨e1, e2⟩ := h
      obtain ⟨a1, a2, a3, a4, a5, a6, a7, a8⟩ := registerInputs_facts input g name
      generalize hg1 : g.registerInputs input name = g1 at *
      have hnode : G.node { g1 with heap := g1.heap ++ [⟨name, op, domain, attr, input, output⟩] } g1.heap.length
          = ⟨name, op, domain, attr, input, output⟩ := by
        simp [G.node]
      unfold G.setNodeByName at e1
      rw [hnode] at e1
      obtain ⟨b1, b2, b3, b4, b5, b6, b7, b8⟩ := registerInputs_facts input
        { g1 with heap := g1.heap ++ [⟨name, op, domain, attr, input, output⟩]
                  byName := g1.byName.set name g1.heap.length
                  outToName := output.foldl (fun d o => d.set o name) g1.outToName } name
      have hnone : g.getNodeByName name = none := by
        cases hh : g.getNodeByName name with
        | none => rfl
        | some _ => simp [hh] at hn
      have hcons : ∀ x, G.cons { g1 with heap := g1.heap ++ [⟨name, op, domain, attr, input, output⟩]
                                         byName := g1.byName.set name g1.heap.length
                                         outToName := output.foldl (fun d o => d.set o name) g1.outToName } x
          = g1.cons x := fun _ => rfl
      subst e1
      refine
        { heap := b1.trans (by show g1.heap ++ _ = _; rw [a1])
          nodes := by
            have : ∀ g2 : G, g2.nodes = g1.nodes → g2.nodes ++ [g1.heap.length] = g.nodes ++ [r] := by
              intro g2 h2; rw [h2, a2, e2]
            exact this _ b2
          ref := by rw [← e2, a1]
          byName := ?_, outs := ?_, cons := ?_, consNodup := ?_
          freshName := hnone
          freshOut := ?_
          inputs := b5.trans a5
          outputs := b6.trans a6 }
      · intro x
        refine (congrArg (fun d => Dict.get d x) b3).trans ?_
        show Dict.get (Dict.set g1.byName name g1.heap.length) x = _
        rw [Dict.get_set, a3, e2]
      · intro o m
        have : ∀ d : Dict String String, d = output.foldl (fun d o => d.set o name) g1.outToName →
            (d.get o = some m ↔ (o ∈ output ∧ m = name) ∨ (o ∉ output ∧ g.outToName.get o = some m)) := by
          rintro d rfl; rw [get_foldl_outs, a4]
        exact this _ b4
      · intro x y
        have := b7 x y
        rw [hcons, a7] at this
        simp only [G.cons] at this ⊢
        rw [this]
        constructor
        · rintro ((h | h) | h)
          · exact Or.inl h
          · exact Or.inr h
          · exact Or.inr h
        · rintro (h | h)
          · exact Or.inl (Or.inl h)
          · exact Or.inr h
      · intro hnd x
        exact b8 (fun x => by rw [hcons]; exact a8 hnd x) x
      · intro o hoo
        simp at ho
        simpa using ho o hoo

theorem Made.wf {g g' : G} {r : Ref} {n : Node} (h : WF g) (m : Made g g' r n) (hne : n.name ≠ "")
    (hnd : (n.output.filter (· ≠ "")).Nodup) : WF g' := by
  have hself : g'.node r = n := by simp [G.node, m.heap, m.ref]
  have hold : ∀ r' ∈ g.nodes, g'.node r' = g.node r' := fun r' hr' => node_append_lt (h.valid r' hr') _ _ m.heap
  have hrn : r ∉ g.nodes := fun hr => by have := h.valid r hr; rw [m.ref] at this; exact Nat.lt_irrefl _ this
  have hnofresh : ∀ r' ∈ g.nodes, (g.node r').name ≠ n.name := by
    intro r' hr' e
    have := (h.byName _ r').2 ⟨hr', e⟩
    have hf := m.freshName
    simp only [G.getNodeByName] at hf
    rw [hf] at this; cases this
  refine { valid := ?_, nodup := ?_, nameNe := ?_, byName := ?_, outs := ?_, outNodup := ?_ }
  · intro r' hr'
    rw [m.nodes] at hr'
    rw [m.heap]
    simp at hr'
    rcases hr' with hr' | rfl
    · have := h.valid r' hr'; simp; exact Nat.lt_succ_of_lt this
    · simp [m.ref]
  · rw [m.nodes, List.nodup_append]
    exact ⟨h.nodup, by simp, by intro a ha b hb e; simp at hb; subst hb; subst e; exact hrn ha⟩
  · intro r' hr'
    rw [m.nodes] at hr'; simp at hr'
    rcases hr' with hr' | rfl
    · rw [hold r' hr']; exact h.nameNe r' hr'
    · rw [hself]; exact hne
  · intro x r'
    rw [m.byName, m.nodes]
    constructor
    · intro hx
      split at hx
      · rename_i e; cases hx; exact ⟨by simp, by rw [hself]; exact e⟩
      · obtain ⟨h1, h2⟩ := (h.byName x r').1 hx
        exact ⟨by simp [h1], by rw [hold r' h1]; exact h2⟩
    · rintro ⟨hr', hx⟩
      simp at hr'
      rcases hr' with hr' | rfl
      · rw [hold r' hr'] at hx
        rw [if_neg (fun e => hnofresh r' hr' (by rw [hx, e]))]
        exact (h.byName x r').2 ⟨hr', hx⟩
      · rw [hself] at hx; simp [hx]
  · intro o x ho
    rw [m.outs, m.nodes]
    constructor
    · rintro (⟨h1, rfl⟩ | ⟨h1, h2⟩)
      · exact ⟨r, by simp, by rw [hself], by rw [hself]; exact h1⟩
      · obtain ⟨r', hr', e1, e2⟩ := (h.outs o x ho).1 h2
        exact ⟨r', by simp [hr'], by rw [hold r' hr']; exact e1, by rw [hold r' hr']; exact e2⟩
    · rintro ⟨r', hr', e1, e2⟩
      simp at hr'
      rcases hr' with hr' | rfl
      · rw [hold r' hr'] at e1 e2
        by_cases ho' : o ∈ n.output
        · have := m.freshOut o ho'
          rw [(h.getNodeByOutput ho r').2 ⟨hr', e2⟩] at this; cases this
        · exact Or.inr ⟨ho', (h.outs o x ho).2 ⟨r', hr', e1, e2⟩⟩
      · rw [hself] at e1 e2; exact Or.inl ⟨e2, e1.symm⟩
  · intro r' hr'
    rw [m.nodes] at hr'; simp at hr'
    rcases hr' with hr' | rfl
    · rw [hold r' hr']; exact h.outNodup r' hr'
    · rw [hself]; exact hnd

theorem Made.idx {g g' : G} {r : Ref} {n : Node} (h : WF g) (hi : Idx g) (m : Made g g' r n) : Idx g' := by
  have hself : g'.node r = n := by simp [G.node, m.heap, m.ref]
  refine ⟨?_, m.consNodup hi.setNodup⟩
  intro r' hr' i hin
  rw [m.nodes] at hr'; simp at hr'
  rw [m.cons]
  rcases hr' with hr' | rfl
  · rw [node_append_lt (h.valid r' hr') _ _ m.heap] at hin ⊢
    exact Or.inl (hi.complete r' hr' i hin)
  · rw [hself] at hin ⊢; exact Or.inr ⟨hin, rfl⟩

/-! ## remove_node -/

theorem removeOutputs_facts (os : List String) (g g' : G) (h : g.removeOutputs os = .ok g') :
    g'.heap = g.heap ∧ g'.nodes = g.nodes ∧ g'.byName = g.byName ∧ g'.consumers = g.consumers ∧
    g'.inputs = g.inputs ∧ g'.outputs = g.outputs ∧
    ∀ o, g'.outToName.get o = if o ∈ os ∧ o ≠ "" then none else g.outToName.get o := by
  induction os generalizing g with
  | nil => simp [G.removeOutputs] at h; subst h; simp
  | cons a os ih =>
    simp only [G.removeOutputs] at h
    split at h
    · rename_i ha
      obtain ⟨h1, h2, h3, h4, h5, h6, h7⟩ := ih _ h
      refine ⟨h1, h2, h3, h4, h5, h6, ?_⟩
      intro o; rw [h7]
      by_cases ho : o = ""
      · simp [ho]
      · have : o ≠ a := fun e => ho (e.trans ha)
        simp [this, ho]
    · rename_i ha
      split at h
      · cases h
      · obtain ⟨h1, h2, h3, h4, h5, h6, h7⟩ := ih _ h
        refine ⟨h1, h2, h3, h4, h5, h6, ?_⟩
        intro o; rw [h7]
        simp only [Dict.get_erase, List.mem_cons]
        by_cases hoa : a = o
        · subst hoa; simp [ha]
        · simp [hoa, Ne.symm hoa]

theorem removeInputs_facts (is : List String) (n : String) (g g' : G) (h : g.removeInputs n is = .ok g') :
    g'.heap = g.heap ∧ g'.nodes = g.nodes ∧ g'.byName = g.byName ∧ g'.outToName = g.outToName ∧
    g'.inputs = g.inputs ∧ g'.outputs = g.outputs ∧
    (∀ x y, y ≠ n → (y ∈ g'.cons x ↔ y ∈ g.cons x)) ∧
    ((∀ x, (g.cons x).Nodup) → ∀ x, (g'.cons x).Nodup) := by
  induction is generalizing g with
  | nil => simp [G.removeInputs] at h; subst h; simp
  | cons a is ih =>
    simp only [G.removeInputs] at h
    split at h
    · exact ih _ h
    · split at h
      · cases h
      · simp only [bind, Except.bind] at h
        cases hu : g.unregisterInput a n with
        | error e => rw [hu] at h; cases h
        | ok g1 =>
          rw [hu] at h
          obtain ⟨h1, h2, h3, h4, h5, h6, h7, h8⟩ := ih _ h
          unfold G.unregisterInput at hu
          split at hu
          · cases hu
          · rename_i s hs
            split at hu
            · split at hu
              · cases hu
                refine ⟨h1, h2, h3, h4, h5, h6, ?_, ?_⟩
                · intro x y hy
                  rw [h7 x y hy]
                  simp only [G.cons, Dict.get_set]
                  by_cases hx : a = x
                  · subst hx; simp [hs, hy]
                  · simp [hx]
                · intro hn
                  apply h8
                  intro x
                  simp only [G.cons, Dict.get_set]
                  by_cases hx : a = x
                  · subst hx
                    have := hn a
                    simp only [G.cons, hs] at this
                    simpa using List.Nodup.filter _ this
                  · have := hn x; simp only [G.cons] at this; simpa [hx] using this
              · cases hu; exact ⟨h1, h2, h3, h4, h5, h6, h7, h8⟩
            · cases hu; exact ⟨h1, h2, h3, h4, h5, h6, h7, h8⟩

/-- What `remove_node` does when it succeeds. -/
structure Removed (g g' : G) (r : Ref) : Prop where
  mem : r ∈ g.nodes
  heap : g'.heap = g.heap
  nodes : g'.nodes = g.nodes.erase r
  byName : ∀ x, g'.byName.get x = if (g.node r).name = x then none else g.byName.get x
  outs : ∀ o, g'.outToName.get o = if o ∈ (g.node r).output ∧ o ≠ "" then none else g.outToName.get o
  cons : ∀ x y, y ≠ (g.node r).name → (y ∈ g'.cons x ↔ y ∈ g.cons x)
  consNodup : (∀ x, (g.cons x).Nodup) → ∀ x, (g'.cons x).Nodup
  inputs : g'.inputs = g.inputs.erase r
  outputs : g'.outputs = g.outputs

theorem removeNode_removed {g g' : G} (hw : WF g) {name : String} (h : g.removeNode name = .ok g') :
    ∃ r, (g.node r).name = name ∧ Removed g g' r := by
  unfold G.removeNode at h
  split at h
  · cases h
  · rename_i r hr
    obtain ⟨hmem, hname⟩ := (hw.byName name r).1 hr
    refine ⟨r, hname, ?_⟩
    simp only [bind, Except.bind] at h
    split at h
    · cases h
    · rename_i g1 hg1
      split at h
      · cases h
      · rename_i g2 hg2
        cases h
        obtain ⟨a1, a2, a3, a4, a5, a6, a7⟩ := removeOutputs_facts _ _ _ hg1
        obtain ⟨b1, b2, b3, b4, b5, b6, b7, b8⟩ := removeInputs_facts _ _ _ _ hg2
        have hc : ∀ x, g1.cons x = g.cons x := by intro x; simp [G.cons, a4]
        exact
          { mem := hmem
            heap := by simp [b1, a1]
            nodes := by simp [b2, a2]
            byName := by intro x; simp only [b3, a3, Dict.get_erase, hname]
            outs := by intro o; simp only [b4, a7]
            cons := by
              intro x y hy
              have := b7 x y (by rw [← hname]; exact hy)
              rw [hc] at this
              simpa [G.cons] using this
            consNodup := by
              intro hn x
              have := b8 (fun x => by rw [hc]; exact hn x) x
              simpa [G.cons] using this
            inputs := by simp [b5, a5]
            outputs := by simp [b6, a6] }

theorem Removed.node {g g' : G} {r : Ref} (m : Removed g g' r) (r' : Ref) : g'.node r' = g.node r' := by
  simp [G.node, m.heap]

theorem Removed.wf {g g' : G} {r : Ref} (h : WF g) (m : Removed g g' r) : WF g' := by
  have hmem : ∀ r', r' ∈ g'.nodes ↔ r' ≠ r ∧ r' ∈ g.nodes := by
    intro r'; rw [m.nodes, h.nodup.mem_erase_iff]
  refine { valid := ?_, nodup := ?_, nameNe := ?_, byName := ?_, outs := ?_, outNodup := ?_ }
  · intro r' hr'; rw [m.heap]; exact h.valid r' ((hmem r').1 hr').2
  · rw [m.nodes]; exact h.nodup.erase r
  · intro r' hr'; rw [m.node]; exact h.nameNe r' ((hmem r').1 hr').2
  · intro x r'
    rw [m.byName, hmem, m.node]
    constructor
    · intro hx
      split at hx
      · cases hx
      · rename_i hne
        obtain ⟨h1, h2⟩ := (h.byName x r').1 hx
        exact ⟨⟨fun e => hne (by rw [← e]; exact h2), h1⟩, h2⟩
    · rintro ⟨⟨h1, h2⟩, h3⟩
      rw [if_neg (fun e => h1 (h.name_inj h2 m.mem (by rw [h3, e])))]
      exact (h.byName x r').2 ⟨h2, h3⟩
  · intro o x ho
    rw [m.outs]
    constructor
    · intro hx
      split at hx
      · cases hx
      · rename_i hne
        obtain ⟨r', hr', e1, e2⟩ := (h.outs o x ho).1 hx
        refine ⟨r', (hmem r').2 ⟨?_, hr'⟩, by rw [m.node]; exact e1, by rw [m.node]; exact e2⟩
        rintro rfl; exact hne ⟨e2, ho⟩
    · rintro ⟨r', hr', e1, e2⟩
      rw [m.node] at e1 e2
      obtain ⟨h1, h2⟩ := (hmem r').1 hr'
      rw [if_neg (fun e => h1 (h.out_inj ho h2 m.mem e2 e.1))]
      exact (h.outs o x ho).2 ⟨r', h2, e1, e2⟩
  · intro r' hr'; rw [m.node]; exact h.outNodup r' ((hmem r').1 hr').2

theorem Removed.idx {g g' : G} {r : Ref} (h : WF g) (hi : Idx g) (m : Removed g g' r) : Idx g' := by
  refine ⟨?_, m.consNodup hi.setNodup⟩
  intro r' hr' i hin
  rw [m.nodes, h.nodup.mem_erase_iff] at hr'
  rw [m.node] at hin ⊢
  rw [m.cons]
  · exact hi.complete r' hr'.2 i hin
  · intro e; exact hr'.1 (h.name_inj hr'.2 m.mem e)

/-! ## reset_nodes -/

theorem foldl_register (g : G) (ops : List Ref) (g' : G) :
    (ops.foldl (fun g' r => g'.registerInputs (g.node r).input (g.node r).name) g').heap = g'.heap ∧
    (ops.foldl (fun g' r => g'.registerInputs (g.node r).input (g.node r).name) g').nodes = g'.nodes ∧
    (ops.foldl (fun g' r => g'.registerInputs (g.node r).input (g.node r).name) g').byName = g'.byName ∧
    (ops.foldl (fun g' r => g'.registerInputs (g.node r).input (g.node r).name) g').outToName = g'.outToName ∧
    (ops.foldl (fun g' r => g'.registerInputs (g.node r).input (g.node r).name) g').inputs = g'.inputs ∧
    (ops.foldl (fun g' r => g'.registerInputs (g.node r).input (g.node r).name) g').outputs = g'.outputs ∧
    (∀ x y, y ∈ (ops.foldl (fun g' r => g'.registerInputs (g.node r).input (g.node r).name) g').cons x ↔
      y ∈ g'.cons x ∨ ∃ r ∈ ops, x ∈ (g.node r).input ∧ y = (g.node r).name) ∧
    ((∀ x, (g'.cons x).Nodup) →
      ∀ x, ((ops.foldl (fun g' r => g'.registerInputs (g.node r).input (g.node r).name) g').cons x).Nodup) := by
  induction ops generalizing g' with
  | nil => simp
  | cons r ops ih =>
    obtain ⟨h1, h2, h3, h4, h5, h6, h7, h8⟩ := ih (g'.registerInputs (g.node r).input (g.node r).name)
    obtain ⟨a1, a2, a3, a4, a5, a6, a7, a8⟩ := registerInputs_facts (g.node r).input g' (g.node r).name
    simp only [List.foldl_cons]
    refine ⟨h1.trans a1, h2.trans a2, h3.trans a3, h4.trans a4, h5.trans a5, h6.trans a6, ?_, fun hn => h8 (a8 hn)⟩
    intro x y
    rw [h7, a7]
    simp only [List.mem_cons, exists_eq_or_imp, or_assoc]

/-- What `reset_nodes` does when it succeeds on a duplicate-free list of nodes of the graph. -/
structure Reset (g g' : G) (ops : List Ref) : Prop where
  heap : g'.heap = g.heap
  nodes : g'.nodes = ops
  byName : ∀ n r, g'.byName.get n = some r ↔ r ∈ ops ∧ (g.node r).name = n
  outs : ∀ o n, o ≠ "" → (g'.outToName.get o = some n ↔ ∃ r ∈ ops, (g.node r).name = n ∧ o ∈ (g.node r).output)
  cons : ∀ x y, y ∈ g'.cons x ↔ ∃ r ∈ ops, x ∈ (g.node r).input ∧ y = (g.node r).name
  consNodup : ∀ x, (g'.cons x).Nodup
  inputs : g'.inputs = g.inputs
  outputs : g'.outputs = g.outputs
  inputsIn : ∀ r ∈ g.inputs, r ∈ ops

theorem foldl_outs_flat (node : Ref → Node) (ops : List Ref) (d : Dict String String) :
    ops.foldl (fun d r => (node r).output.foldl (fun d o => d.set o (node r).name) d) d =
    (ops.flatMap (fun r => (node r).output.map (fun o => (o, (node r).name)))).foldl (fun d p => d.set p.1 p.2) d := by
  induction ops generalizing d with
  | nil => rfl
  | cons r ops ih => simp only [List.foldl_cons, List.flatMap_cons, List.foldl_append, List.foldl_map, ih]

theorem get_filter_ne_empty {l : List (String × String)} (d : Dict String String) (o : String) (ho : o ≠ "") :
    (l.foldl (fun d p => d.set p.1 p.2) d).get o
      = ((l.filter (fun p => p.1 ≠ "")).foldl (fun d p => d.set p.1 p.2) d).get o := by
  suffices h : ∀ d d' : Dict String String, d.get o = d'.get o →
      (l.foldl (fun d p => d.set p.1 p.2) d).get o
      = ((l.filter (fun p => p.1 ≠ "")).foldl (fun d p => d.set p.1 p.2) d').get o from h d d rfl
  induction l with
  | nil => intro d d' h; simpa using h
  | cons p l ih =>
    intro d d' h
    simp only [List.foldl_cons, List.filter_cons]
    by_cases hp : p.1 = ""
    · simp only [hp, ne_eq, not_true_eq_false, decide_false, Bool.false_eq_true, if_false]
      exact ih _ _ (by rw [Dict.get_set, if_neg (Ne.symm ho), h])
    · simp only [ne_eq, hp, not_false_eq_true, decide_true, if_true, List.foldl_cons]
      exact ih _ _ (by rw [Dict.get_set, Dict.get_set, h])

theorem resetNodes_reset' {g g' : G} {ops : List Ref}
    (hname : ∀ a ∈ ops, ∀ b ∈ ops, (g.node a).name = (g.node b).name → a = b)
    (hout : ∀ o, o ≠ "" → ∀ a ∈ ops, ∀ b ∈ ops, o ∈ (g.node a).output → o ∈ (g.node b).output → a = b)
    (h : g.resetNodes ops = .ok g') : Reset g g' ops := by
  unfold G.resetNodes at h
  simp only at h
  split at h
  · cases h
  · rename_i hin
    split at h
    · cases h
    · cases h
      have hfold := fun g0 => foldl_register g ops g0
      generalize hg0 : ({ g with nodes := ops
                                 byName := ops.foldl (fun d r => d.set (g.node r).name r) []
                                 outToName := ops.foldl (fun d r => (g.node r).output.foldl (fun d o => d.set o (g.node r).name) d) []
                                 consumers := [] } : G) = g0 at *
      obtain ⟨h1, h2, h3, h4, h5, h6, h7, h8⟩ := hfold g0
      have c0 : ∀ x, g0.cons x = [] := by intro x; subst hg0; rfl
      refine
        { heap := by rw [h1]; subst hg0; rfl
          nodes := by rw [h2]; subst hg0; rfl
          byName := ?_, outs := ?_
          cons := ?_, consNodup := ?_
          inputs := by rw [h5]; subst hg0; rfl
          outputs := by rw [h6]; subst hg0; rfl
          inputsIn := ?_ }
      · intro n r
        simp only [h3]
        have : g0.byName = ops.foldl (fun (d : Dict String Ref) r => d.set (g.node r).name r) [] := by subst hg0; rfl
        rw [this, get_foldl_set (fun r => (g.node r).name) (fun r => r)]
        · simp
        · intro a ha b hb e; exact hname a ha b hb e
      · intro o n ho
        simp only [h4]
        have : g0.outToName = ops.foldl (fun (d : Dict String String) r => (g.node r).output.foldl (fun d o => d.set o (g.node r).name) d) [] := by
          subst hg0; rfl
        rw [this, foldl_outs_flat, get_filter_ne_empty _ _ ho, get_foldl_set (fun p : String × String => p.1) (fun p => p.2)]
        · simp only [List.mem_filter, List.mem_flatMap, List.mem_map, Dict.get_nil, reduceCtorEq, and_false, or_false]
          constructor
          · rintro ⟨a, ⟨⟨r, hr, o', ho', rfl⟩, _⟩, rfl, rfl⟩
            exact ⟨r, hr, rfl, ho'⟩
          · rintro ⟨r, hr, rfl, ho'⟩
            exact ⟨(o, (g.node r).name), ⟨⟨r, hr, o, ho', rfl⟩, by simpa using ho⟩, rfl, rfl⟩
        · intro a ha b hb e
          simp only [List.mem_filter, List.mem_flatMap, List.mem_map] at ha hb
          obtain ⟨⟨r1, hr1, o1, ho1, rfl⟩, hne⟩ := ha
          obtain ⟨⟨r2, hr2, o2, ho2, rfl⟩, _⟩ := hb
          simp at e hne
          subst e
          have := hout _ hne r1 hr1 r2 hr2 ho1 ho2
          subst this; rfl
      · intro x y
        have := h7 x y
        rw [c0] at this
        simpa [G.cons] using this
      · intro x
        have := h8 (fun x => by rw [c0]; simp) x
        simpa [G.cons] using this
      · intro r hr
        simp at hin
        exact hin r hr

theorem resetNodes_reset {g g' : G} (hw : WF g) {ops : List Ref} (hsub : ∀ r ∈ ops, r ∈ g.nodes)
    (h : g.resetNodes ops = .ok g') : Reset g g' ops :=
  resetNodes_reset' (fun a ha b hb e => hw.name_inj (hsub a ha) (hsub b hb) e)
    (fun _ ho a ha b hb e e' => hw.out_inj ho (hsub a ha) (hsub b hb) e e') h

theorem Reset.node {g g' : G} {ops : List Ref} (m : Reset g g' ops) (r' : Ref) : g'.node r' = g.node r' := by
  simp [G.node, m.heap]

theorem Reset.wf {g g' : G} {ops : List Ref} (h : WF g) (m : Reset g g' ops) (hnd : ops.Nodup)
    (hsub : ∀ r ∈ ops, r ∈ g.nodes) : WF g' := by
  refine { valid := ?_, nodup := ?_, nameNe := ?_, byName := ?_, outs := ?_, outNodup := ?_ }
  · intro r hr; rw [m.nodes] at hr; rw [m.heap]; exact h.valid r (hsub r hr)
  · rw [m.nodes]; exact hnd
  · intro r hr; rw [m.nodes] at hr; rw [m.node]; exact h.nameNe r (hsub r hr)
  · intro n r; rw [m.byName, m.nodes, m.node]
  · intro o n ho; rw [m.outs o n ho, m.nodes]; simp only [m.node]
  · intro r hr; rw [m.nodes] at hr; rw [m.node]; exact h.outNodup r (hsub r hr)

theorem Reset.idx {g g' : G} {ops : List Ref} (m : Reset g g' ops) : Idx g' := by
  refine ⟨?_, m.consNodup⟩
  intro r hr i hi
  rw [m.nodes] at hr
  rw [m.node] at hi ⊢
  exact (m.cons i _).2 ⟨r, hr, hi, rfl⟩

/-- What the constructor expects of its nodes: named, with distinct names and distinct outputs. -/
structure WellNamed (ns : List Node) : Prop where
  named : ∀ n ∈ ns, n.name ≠ ""
  names : (ns.map (·.name)).Nodup
  outs : (ns.flatMap (fun n => n.output.filter (· ≠ ""))).Nodup

theorem flatMap_nodup_idx {ns : List Node} {f : Node → List String} (h : (ns.flatMap f).Nodup) {i j : Nat} {n m : Node}
    (hi : ns[i]? = some n) (hj : ns[j]? = some m) {x : String} (hx : x ∈ f n) (hy : x ∈ f m) : i = j := by
  induction ns generalizing i j with
  | nil => simp at hi
  | cons a ns ih =>
    rw [List.flatMap_cons, List.nodup_append] at h
    cases i with
    | zero =>
      cases j with
      | zero => rfl
      | succ j =>
        simp at hi hj; subst hi
        exact (h.2.2 x hx x (List.mem_flatMap.2 ⟨m, List.mem_of_getElem? hj, hy⟩) rfl).elim
    | succ i =>
      cases j with
      | zero =>
        simp at hi hj; subst hj
        exact (h.2.2 x hy x (List.mem_flatMap.2 ⟨n, List.mem_of_getElem? hi, hx⟩) rfl).elim
      | succ j =>
        simp at hi hj
        rw [ih h.2.1 hi hj]

theorem load_spec {ns : List Node} (hn : WellNamed ns) {inputs : List Ref} {outputs : List String}
    {shapes : Dict String Shapes.Shape} {dtypes : Dict String Nat} {g : G}
    (h : G.load ns inputs outputs shapes dtypes = .ok g) :
    WF g ∧ Idx g ∧ g.heap = ns ∧ g.nodes = List.range ns.length ∧ g.inputs = inputs ∧ g.outputs = outputs := by
  have hnode : ∀ r ∈ List.range ns.length, ∃ n, ns[r]? = some n ∧
      ({ heap := ns, inputs := inputs, outputs := outputs, shapes := shapes, dtypes := dtypes } : G).node r = n := by
    intro r hr
    rw [List.mem_range] at hr
    exact ⟨ns[r], by simp [hr], by simp [G.node, hr]⟩
  have m : Reset ({ heap := ns, inputs := inputs, outputs := outputs, shapes := shapes, dtypes := dtypes } : G) g
      (List.range ns.length) := by
    refine resetNodes_reset' ?_ ?_ h
    · intro a ha b hb e
      obtain ⟨n, hn1, hn2⟩ := hnode a ha
      obtain ⟨k, hk1, hk2⟩ := hnode b hb
      rw [hn2, hk2] at e
      have ha' := List.mem_range.1 ha
      refine (List.getElem?_inj (by simpa using ha') hn.names).1 ?_
      rw [List.getElem?_map, List.getElem?_map, hn1, hk1]; simp [e]
    · intro o ho a ha b hb e e'
      obtain ⟨n, hn1, hn2⟩ := hnode a ha
      obtain ⟨k, hk1, hk2⟩ := hnode b hb
      rw [hn2] at e; rw [hk2] at e'
      exact flatMap_nodup_idx hn.outs hn1 hk1 (List.mem_filter.2 ⟨e, by simpa using ho⟩)
        (List.mem_filter.2 ⟨e', by simpa using ho⟩)
  refine ⟨⟨?_, ?_, ?_, ?_, ?_, ?_⟩, m.idx, m.heap, m.nodes, m.inputs, m.outputs⟩
  · intro r hr; rw [m.nodes] at hr; rw [m.heap]; exact List.mem_range.1 hr
  · rw [m.nodes]; exact List.nodup_range
  · intro r hr
    rw [m.nodes] at hr
    obtain ⟨n, h1, h2⟩ := hnode r hr
    rw [m.node, h2]; exact hn.named n (List.mem_of_getElem? h1)
  · intro n r; rw [m.byName, m.nodes, m.node]
  · intro o n ho; rw [m.outs o n ho, m.nodes]; simp only [m.node]
  · intro r hr
    rw [m.nodes] at hr
    obtain ⟨n, h1, h2⟩ := hnode r hr
    rw [m.node, h2]
    have := hn.outs
    rw [List.nodup_flatMap] at this
    exact this.1 n (List.mem_of_getElem? h1)

end Verif.Graph
