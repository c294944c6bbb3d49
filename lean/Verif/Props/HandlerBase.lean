import Verif.Props.RewriteBase
import Verif.Props.Tables
/-!
# Replacing one node by a group of nodes: the generic step of the operator handlers (used by C46 and later)
-/
namespace Verif.Graph
open Verif

/-- The node reading `ren x` wherever it read `x`. -/
def Node.mapIn (n : Node) (ren : String → String) : Node := { n with input := n.input.map ren }

theorem Node.mapIn_id (n : Node) : n.mapIn id = n := by simp [Node.mapIn]

theorem Node.redirect_mapIn (n : Node) (ren : String → String) (a b : String) :
    (n.mapIn ren).redirect a b = n.mapIn (fun x => if ren x = a then b else ren x) := by
  simp [Node.mapIn, Node.redirect, List.map_map, Function.comp_def]

/-- `g` is `g0` in the middle of, or after, converting node `r0`: the other nodes are unchanged but for reading `ren x` for
`x`; the nodes in place of `r0` are `N`. `X`: pairs of node and tensor the consumer index may miss. -/
structure Conv (g0 : G) (r0 : Ref) (g : G) (X : Ref → String → Prop) (ren : String → String) (N : List (Ref × Node)) : Prop where
  reach : Reachable g
  complete : ∀ q ∈ g.nodes, ∀ i ∈ (g.node q).input, ¬ X q i → (g.node q).name ∈ g.cons i
  outputs : g.outputs = g0.outputs
  inputs : g.inputs = g0.inputs
  heap : g0.heap.length ≤ g.heap.length
  old : ∀ q ∈ g0.nodes, q ≠ r0 → q ∈ g.nodes ∧ g.node q = (g0.node q).mapIn ren
  mem : ∀ q ∈ g.nodes, (q ∈ g0.nodes ∧ q ≠ r0) ∨ q ∈ N.map Prod.fst
  new : ∀ p ∈ N, p.1 ∈ g.nodes ∧ g.node p.1 = p.2 ∧ (p.1 = r0 ∨ @LE.le Nat _ g0.heap.length p.1)
  nodup : (N.map Prod.fst).Nodup

theorem Conv.start {g0 : G} {r0 : Ref} (hr : Reachable g0) {X : Ref → String → Prop}
    (hi : ∀ q ∈ g0.nodes, ∀ i ∈ (g0.node q).input, ¬ X q i → (g0.node q).name ∈ g0.cons i) (h0 : r0 ∈ g0.nodes) :
    Conv g0 r0 g0 X id [(r0, g0.node r0)] where
  reach := hr
  complete := hi
  outputs := rfl
  inputs := rfl
  heap := Nat.le_refl _
  old := fun q hq _ => ⟨hq, by rw [Node.mapIn_id]⟩
  mem := fun q hq => by
    by_cases e : q = r0
    · exact Or.inr (by simp [e])
    · exact Or.inl ⟨hq, e⟩
  new := by simp [h0]
  nodup := by simp

variable {g0 g g' : G} {r0 r : Ref} {X : Ref → String → Prop} {ren : String → String} {N N' : List (Ref × Node)} {n : Node}

theorem Conv.perm (c : Conv g0 r0 g X ren N) (h : N.Perm N') : Conv g0 r0 g X ren N' :=
  { c with
    mem := fun q hq => (c.mem q hq).imp id (fun hm => (h.map Prod.fst).mem_iff.1 hm)
    new := fun p hp => c.new p (h.mem_iff.2 hp)
    nodup := ((h.map Prod.fst).nodup_iff).1 c.nodup }

/-- Tensors the index may miss that are not read do not matter. -/
theorem Conv.clear (c : Conv g0 r0 g X ren N) {X' : Ref → String → Prop}
    (h : ∀ q ∈ g.nodes, ∀ i ∈ (g.node q).input, X q i → X' q i) : Conv g0 r0 g X' ren N :=
  { c with complete := fun q hq i hin hx => c.complete q hq i hin (fun hx' => hx (h q hq i hin hx')) }

theorem Conv.congrRen (c : Conv g0 r0 g X ren N) {ren' : String → String} (h : ∀ x, ren' x = ren x) : Conv g0 r0 g X ren' N := by
  have : ren' = ren := funext h
  rw [this]; exact c

/-- New references are new. -/
theorem Conv.ref_new (c : Conv g0 r0 g X ren N) (hw0 : WF g0) {q : Ref} (hq : q ∈ g0.nodes) (hne : q ≠ r0) :
    q ∉ N.map Prod.fst := by
  intro hm
  obtain ⟨p, hp, rfl⟩ := List.mem_map.1 hm
  rcases (c.new p hp).2.2 with h | h
  · exact hne h
  · have : @LT.lt Nat _ p.1 g0.heap.length := hw0.valid _ hq
    omega

/-- `make_node`. -/
theorem Conv.make (c : Conv g0 r0 g X ren N) {op : String} {xs : List String} {name : String} {outs : List String}
    {attr : Dict String Attr} {dom : String} (hname : name ≠ "") (houts : (outs.filter (· ≠ "")).Nodup)
    (h : g.makeNode op xs name outs attr dom = .ok (g', r)) :
    r = g.heap.length ∧ g'.heap.length = g.heap.length + 1 ∧ Conv g0 r0 g' X ren (N ++ [(r, ⟨name, op, dom, attr, xs, outs⟩)]) := by
  have m := makeNode_made h
  have hw := c.reach.wf
  have hrl : @Eq Nat r g.heap.length := m.ref
  have hrn : r ∉ g.nodes := fun hc => by have : @LT.lt Nat _ r g.heap.length := hw.valid r hc; omega
  have hnode : ∀ q ∈ g.nodes, g'.node q = g.node q := fun q hq => node_append_lt (hw.valid q hq) _ _ m.heap
  have hnew : g'.node r = ⟨name, op, dom, attr, xs, outs⟩ := by
    unfold G.node
    rw [m.heap, hrl]
    simp
  refine ⟨hrl, by rw [m.heap]; simp, ?_⟩
  exact {
    reach := .step (e := .makeNode op xs name outs attr dom) c.reach ⟨hname, houts⟩ (by simp only [G.apply, h]; rfl)
    complete := by
      intro q hq i hin hx
      rw [m.nodes] at hq
      rw [m.cons]
      rcases List.mem_append.1 hq with hq | hq
      · rw [hnode q hq] at hin ⊢
        exact Or.inl (c.complete q hq i hin hx)
      · obtain rfl := List.mem_singleton.1 hq
        rw [hnew] at hin ⊢
        exact Or.inr ⟨hin, rfl⟩
    outputs := m.outputs.trans c.outputs
    inputs := m.inputs.trans c.inputs
    heap := by rw [m.heap]; have := c.heap; simp; omega
    old := by
      intro q hq hne
      obtain ⟨h1, h2⟩ := c.old q hq hne
      exact ⟨by rw [m.nodes]; simp [h1], by rw [hnode q h1, h2]⟩
    mem := by
      intro q hq
      rw [m.nodes] at hq
      rcases List.mem_append.1 hq with hq | hq
      · exact (c.mem q hq).imp id (fun h => by simp only [List.map_append, List.mem_append]; exact Or.inl h)
      · exact Or.inr (by simp only [List.map_append, List.mem_append]; exact Or.inr (by simpa using hq))
    new := by
      intro p hp
      rcases List.mem_append.1 hp with hp | hp
      · obtain ⟨h1, h2, h3⟩ := c.new p hp
        exact ⟨by rw [m.nodes]; simp [h1], by rw [hnode _ h1, h2], h3⟩
      · obtain rfl := List.mem_singleton.1 hp
        refine ⟨by rw [m.nodes]; simp, hnew, Or.inr ?_⟩
        show @LE.le Nat _ g0.heap.length r
        rw [hrl]; exact c.heap
    nodup := by
      rw [List.map_append]
      refine List.nodup_append.2 ⟨c.nodup, by simp, ?_⟩
      rintro a ha b hb rfl
      obtain ⟨p, hp, rfl⟩ := List.mem_map.1 ha
      have : p.1 = r := by simpa using hb
      exact hrn (this ▸ (c.new p hp).1) }

/-- An in-place change of a node of the group that keeps its name and outputs. -/
theorem Conv.modify (c : Conv g0 r0 g X ren ((r, n) :: N)) (hw0 : WF g0) {n' : Node} {X' : Ref → String → Prop}
    (hr : Reachable g') (hs : Same g g') (hh : g'.heap = g.heap.set r n')
    (hcons : ∀ q ∈ g.nodes, ∀ i ∈ (g'.node q).input, ¬ X' q i → (g.node q).name ∈ g'.cons i) :
    Conv g0 r0 g' X' ren ((r, n') :: N) := by
  have hw := c.reach.wf
  have hmem := (c.new (r, n) (by simp)).1
  have hself : g'.node r = n' := by
    rw [node_of_heap_set hh]; exact node_setNode_self (hw.valid _ hmem)
  have hother : ∀ q, q ≠ r → g'.node q = g.node q := fun q hq => by
    rw [node_of_heap_set hh]; exact node_setNode_ne (Ne.symm hq)
  exact {
    reach := hr
    complete := by
      intro q hq i hin hx
      rw [hs.nodes] at hq
      rw [hs.name]
      exact hcons q hq i hin hx
    outputs := hs.outputs.trans c.outputs
    inputs := hs.inputs.trans c.inputs
    heap := by rw [hh, List.length_set]; exact c.heap
    old := by
      intro q hq hne
      obtain ⟨h1, h2⟩ := c.old q hq hne
      refine ⟨by rw [hs.nodes]; exact h1, ?_⟩
      rw [hother q ?_, h2]
      rintro rfl
      exact c.ref_new hw0 hq hne (by simp)
    mem := by
      intro q hq
      rw [hs.nodes] at hq
      simpa using c.mem q hq
    new := by
      intro p hp
      have hnd := c.nodup
      rw [List.map_cons, List.nodup_cons] at hnd
      rcases List.mem_cons.1 hp with rfl | hp
      · exact ⟨by rw [hs.nodes]; exact hmem, hself, (c.new (r, n) (by simp)).2.2⟩
      · obtain ⟨h1, h2, h3⟩ := c.new p (by simp [hp])
        refine ⟨by rw [hs.nodes]; exact h1, ?_, h3⟩
        rw [hother p.1 ?_, h2]
        intro e
        exact hnd.1 (List.mem_map.2 ⟨p, hp, e⟩)
    nodup := by simpa using c.nodup }

theorem Conv.node_eq (c : Conv g0 r0 g X ren N) {p : Ref × Node} (hp : p ∈ N) : g.node p.1 = p.2 := (c.new p hp).2.1

/-- A change of anything but inputs, name and outputs. -/
theorem Conv.retype (c : Conv g0 r0 g X ren ((r, n) :: N)) (hw0 : WF g0) {n' : Node}
    (hr : Reachable (g.setNode r n')) (hname : n'.name = n.name) (hin : n'.input = n.input) (hout : n'.output = n.output) :
    Conv g0 r0 (g.setNode r n') X ren ((r, n') :: N) := by
  have hn : g.node r = n := c.node_eq (p := (r, n)) (by simp)
  refine c.modify hw0 hr (Same.setNode (by rw [hn, hname]) (by rw [hn, hout])) rfl ?_
  intro q hq i hi hx
  by_cases e : q = r
  · subst e
    rw [node_setNode_self (c.reach.wf.valid _ hq), hin, ← hn] at hi
    exact c.complete q hq i hi hx
  · rw [node_setNode_ne (Ne.symm e)] at hi
    exact c.complete q hq i hi hx

/-- `node.type = op`. -/
theorem Conv.setType (c : Conv g0 r0 g X ren ((r, n) :: N)) (hw0 : WF g0) (op : String) :
    Conv g0 r0 (g.setType r op) X ren ((r, { n with op := op }) :: N) := by
  have hn : g.node r = n := c.node_eq (p := (r, n)) (by simp)
  have hr : Reachable (g.setType r op) := .step (e := .setType r op) c.reach (c.new (r, n) (by simp)).1 rfl
  unfold G.setType at hr ⊢
  rw [hn] at hr ⊢
  exact c.retype hw0 hr rfl rfl rfl

/-- `node.set_attr(k, v)`. -/
theorem Conv.setAttr (c : Conv g0 r0 g X ren ((r, n) :: N)) (hw0 : WF g0) (k : String) (v : Attr) :
    Conv g0 r0 (g.setAttr r k v) X ren ((r, { n with attr := n.attr.set k v }) :: N) := by
  have hn : g.node r = n := c.node_eq (p := (r, n)) (by simp)
  have hr : Reachable (g.setAttr r k v) := .step (e := .setAttr r k v) c.reach (c.new (r, n) (by simp)).1 rfl
  unfold G.setAttr at hr ⊢
  rw [hn] at hr ⊢
  exact c.retype hw0 hr rfl rfl rfl

/-- Direct mutation of attributes or domain. -/
theorem Conv.rawFields (c : Conv g0 r0 g X ren ((r, n) :: N)) (hw0 : WF g0) (attr : Dict String Attr) (dom : String) :
    Conv g0 r0 (g.rawFields r attr dom) X ren ((r, { n with attr := attr, domain := dom }) :: N) := by
  have hn : g.node r = n := c.node_eq (p := (r, n)) (by simp)
  have hr : Reachable (g.rawFields r attr dom) := .step (e := .rawFields r attr dom) c.reach (c.new (r, n) (by simp)).1 rfl
  unfold G.rawFields at hr ⊢
  rw [hn] at hr ⊢
  exact c.retype hw0 hr rfl rfl rfl

/-- Direct mutation of the input list. -/
theorem Conv.rawInputs (c : Conv g0 r0 g X ren ((r, n) :: N)) (hw0 : WF g0) (xs : List String) :
    Conv g0 r0 (g.rawInputs r xs) (fun q j => X q j ∨ (q = r ∧ j ∉ n.input)) ren ((r, { n with input := xs }) :: N) := by
  have hn : g.node r = n := c.node_eq (p := (r, n)) (by simp)
  have hm := (c.new (r, n) (by simp)).1
  have hr : Reachable (g.rawInputs r xs) := .step (e := .rawInputs r xs) c.reach hm rfl
  unfold G.rawInputs at hr ⊢
  rw [hn] at hr ⊢
  refine c.modify hw0 hr (Same.setNode (by rw [hn]) (by rw [hn])) rfl ?_
  intro q hq j hj hx
  simp only [not_or, not_and, Classical.not_not] at hx
  by_cases e : q = r
  · subst e
    exact c.complete q hq j (by rw [hn]; exact hx.2 rfl) hx.1
  · rw [node_setNode_ne (Ne.symm e)] at hj
    exact c.complete q hq j hj hx.1

/-- `remove_input(node, old, i)`. -/
theorem Conv.removeInputAt (c : Conv g0 r0 g X ren ((r, n) :: N)) (hw0 : WF g0) {old : String} {i : Nat}
    (h : g.removeInputAt r old i = .ok g') :
    n.input[i]? = some old ∧ Conv g0 r0 g' (fun q j => X q j ∨ (q = r ∧ j = old)) ren ((r, { n with input := n.input.eraseIdx i }) :: N) := by
  have hn : g.node r = n := c.node_eq (p := (r, n)) (by simp)
  have hm := (c.new (r, n) (by simp)).1
  obtain ⟨h1, h2, h3, h4, h5⟩ := removeInputAt_spec h
  rw [hn] at h1 h3 h4
  refine ⟨h1, c.modify hw0 (.step (e := .removeInputAt r old i) c.reach hm h) h2 h3 ?_⟩
  intro q hq j hj hx
  simp only [not_or] at hx
  rw [h4]
  by_cases e : q = r
  · subst e
    rw [node_of_heap_set h3, node_setNode_self (c.reach.wf.valid _ hq)] at hj
    rw [hn]
    have hj' : j ∈ n.input := List.mem_of_mem_eraseIdx hj
    refine ⟨?_, fun h => hx.2 ⟨rfl, h.1⟩⟩
    have := c.complete q hq j (by rw [hn]; exact hj') hx.1
    rwa [hn] at this
  · rw [node_of_heap_set h3, node_setNode_ne (Ne.symm e)] at hj
    refine ⟨c.complete q hq j hj hx.1, ?_⟩
    rintro ⟨_, e'⟩
    exact e (c.reach.wf.name_inj hq hm (by rw [hn]; exact e'))

/-- `replace_input(node, old, new, i)`. -/
theorem Conv.replaceInputAt (c : Conv g0 r0 g X ren ((r, n) :: N)) (hw0 : WF g0) {old new : String} {i : Nat}
    (h : g.replaceInputAt r old new i = .ok g') :
    n.input[i]? = some old ∧ Conv g0 r0 g' (fun q j => X q j ∨ (q = r ∧ j = old)) ren ((r, n.setInput i new) :: N) := by
  have hn : g.node r = n := c.node_eq (p := (r, n)) (by simp)
  have hm := (c.new (r, n) (by simp)).1
  obtain ⟨h1, h2, h3, h4, h5⟩ := replaceInputAt_spec h
  rw [hn] at h1 h3 h4
  refine ⟨h1, c.modify hw0 (.step (e := .replaceInputAt r old new i) c.reach hm h) h2 h3 ?_⟩
  intro q hq j hj hx
  simp only [not_or] at hx
  rw [h4]
  by_cases e : q = r
  · subst e
    rw [node_of_heap_set h3, node_setNode_self (c.reach.wf.valid _ hq)] at hj
    rw [hn]
    simp only [Node.setInput] at hj
    rcases List.mem_or_eq_of_mem_set hj with hj | hj
    · left
      refine ⟨?_, ?_⟩
      · have := c.complete q hq j (by rw [hn]; exact hj) hx.1
        rwa [hn] at this
      · rintro ⟨rfl, _⟩
        exact hx.2 ⟨rfl, rfl⟩
    · exact Or.inr ⟨hj, rfl⟩
  · rw [node_of_heap_set h3, node_setNode_ne (Ne.symm e)] at hj
    refine Or.inl ⟨c.complete q hq j hj hx.1, ?_⟩
    rintro ⟨_, e'⟩
    exact e (c.reach.wf.name_inj hq hm (by rw [hn]; exact e'))

/-- `replace_inputs(node, new)`. -/
theorem Conv.replaceInputs (c : Conv g0 r0 g X ren ((r, n) :: N)) (hw0 : WF g0) {new : List String}
    (hside : ∀ q ∈ g.nodes, q ≠ r → (g.node q).name ∈ n.input → (g.node q).name ∉ (g.node q).input) :
    Conv g0 r0 (g.replaceInputs r new) X ren ((r, { n with input := new }) :: N) := by
  have hn : g.node r = n := c.node_eq (p := (r, n)) (by simp)
  have hm := (c.new (r, n) (by simp)).1
  obtain ⟨h2, h3, h4, h5⟩ := replaceInputs_spec g r new
  rw [hn] at h3 h4
  refine c.modify hw0 (.step (e := .replaceInputs r new) c.reach hm rfl) h2 h3 ?_
  intro q hq j hj hx
  rw [h4]
  by_cases e : q = r
  · subst e
    rw [node_of_heap_set h3, node_setNode_self (c.reach.wf.valid _ hq)] at hj
    exact Or.inr ⟨hj, by rw [hn]⟩
  · rw [node_of_heap_set h3, node_setNode_ne (Ne.symm e)] at hj
    refine Or.inl ⟨c.complete q hq j hj hx, ?_⟩
    rintro ⟨e1, e2⟩
    exact hside q hq e (e2 ▸ e1) (e2 ▸ hj)

/-- `remove_node`. -/
theorem Conv.remove (c : Conv g0 r0 g X ren ((r, n) :: N)) (hw0 : WF g0) (hin : r ∉ g0.inputs)
    (h : g.removeNode n.name = .ok g') : Conv g0 r0 g' X ren N ∧ g'.heap.length = g.heap.length := by
  have hn : g.node r = n := c.node_eq (p := (r, n)) (by simp)
  have hm := (c.new (r, n) (by simp)).1
  have hw := c.reach.wf
  obtain ⟨r', hname, hrem⟩ := removeNode_removed hw h
  have : r' = r := hw.name_inj hrem.mem hm (by rw [hname, hn])
  subst this
  have hmem : ∀ q, q ∈ g'.nodes ↔ q ≠ r' ∧ q ∈ g.nodes := by
    intro q; rw [hrem.nodes, hw.nodup.mem_erase_iff]
  have hnd := c.nodup
  rw [List.map_cons, List.nodup_cons] at hnd
  refine ⟨?_, by rw [hrem.heap]⟩
  exact {
    reach := .step (e := .removeNode _) c.reach trivial h
    complete := by
      intro q hq i hi hx
      obtain ⟨h1, h2⟩ := (hmem q).1 hq
      rw [hrem.node] at hi ⊢
      rw [hrem.cons]
      · exact c.complete q h2 i hi hx
      · intro e; exact h1 (hw.name_inj h2 hm e)
    outputs := hrem.outputs.trans c.outputs
    inputs := by
      rw [hrem.inputs, c.inputs, List.erase_of_not_mem hin]
    heap := by rw [hrem.heap]; exact c.heap
    old := by
      intro q hq hne
      obtain ⟨h1, h2⟩ := c.old q hq hne
      refine ⟨(hmem q).2 ⟨?_, h1⟩, by rw [hrem.node, h2]⟩
      rintro rfl
      exact c.ref_new hw0 hq hne (by simp)
    mem := by
      intro q hq
      obtain ⟨h1, h2⟩ := (hmem q).1 hq
      rcases c.mem q h2 with h | h
      · exact Or.inl h
      · right
        simp only [List.map_cons, List.mem_cons] at h
        exact h.resolve_left h1
    new := by
      intro p hp
      obtain ⟨h1, h2, h3⟩ := c.new p (by simp [hp])
      refine ⟨(hmem _).2 ⟨?_, h1⟩, by rw [hrem.node, h2], h3⟩
      intro e
      exact hnd.1 (List.mem_map.2 ⟨p, hp, e⟩)
    nodup := hnd.2 }

theorem replaceSlots_cons (slots : List Nat) {g g' : G} {r : Ref} {old new : String} (h : g.replaceSlots r old new slots = .ok g') :
    (∀ q, (g'.node q).name = (g.node q).name) ∧
    ∀ i y, y ∈ g.cons i → ¬ (i = old ∧ y = (g.node r).name) → y ∈ g'.cons i := by
  induction slots generalizing g with
  | nil => cases h; exact ⟨fun _ => rfl, fun _ _ hy _ => hy⟩
  | cons s slots ih =>
    simp only [G.replaceSlots, bind, Except.bind] at h
    split at h
    · split at h
      · cases h
      · rename_i g1 hg1
        obtain ⟨_, h2, _, h4, _⟩ := replaceInputAt_spec hg1
        obtain ⟨a, b⟩ := ih h
        refine ⟨fun q => (a q).trans (h2.name q), fun i y hy hc => b i y ((h4 i y).2 (Or.inl ⟨hy, hc⟩)) ?_⟩
        rw [h2.name]; exact hc
    · exact ih h

theorem replaceAllIn_cons (rs : List Ref) {g g' : G} {old new : String} (hne : old ≠ new) (h : g.replaceAllIn old new rs = .ok g') :
    (∀ q, (g'.node q).name = (g.node q).name) ∧
    (∀ i y, y ∈ g.cons i → ¬ (i = old ∧ ∃ r ∈ rs, (g.node r).name = y) → y ∈ g'.cons i) ∧
    ∀ r ∈ rs, (g.node r).name ∈ g'.cons new := by
  induction rs generalizing g with
  | nil => cases h; exact ⟨fun _ => rfl, fun _ _ hy _ => hy, by simp⟩
  | cons r rs ih =>
    simp only [G.replaceAllIn, bind, Except.bind] at h
    split at h
    · cases h
    split at h
    · cases h
    rename_i g1 hg1
    obtain ⟨a1, a2⟩ := replaceSlots_cons _ hg1
    obtain ⟨b1, b2, b3⟩ := ih h
    have hn1 : ∀ q, (g1.node q).name = (g.node q).name := a1
    have hreg : ∀ i y, y ∈ (g.registerInput new (g.node r).name).cons i ↔ y ∈ g.cons i ∨ (i = new ∧ y = (g.node r).name) := by
      intro i y
      rw [cons_registerInput]
      by_cases e : new = i
      · subst e; simp [mem_setAdd]
      · simp [e, Ne.symm e]
    refine ⟨fun q => (b1 q).trans (hn1 q), ?_, ?_⟩
    · intro i y hy hc
      refine b2 i y (a2 i y ((hreg i y).2 (Or.inl hy)) ?_) ?_
      · rintro ⟨h1, h2⟩
        exact hc ⟨h1, r, by simp, h2.symm⟩
      · rintro ⟨h1, q, hq, h2⟩
        exact hc ⟨h1, q, by simp [hq], by rw [← hn1]; exact h2⟩
    · intro q hq
      rcases List.mem_cons.1 hq with rfl | hq
      · refine b2 new _ (a2 new _ ((hreg _ _).2 (Or.inr ⟨rfl, rfl⟩)) ?_) ?_
        · rintro ⟨h1, _⟩; exact hne h1.symm
        · rintro ⟨h1, _⟩; exact hne h1.symm
      · have := b3 q hq
        rwa [hn1] at this

theorem replaceAllInputs_cons {g g' : G} {old new : String} {ops : List Ref} (hne : old ≠ new)
    (h : g.replaceAllInputs old new (some ops) = .ok g') :
    (∀ i y, y ∈ g.cons i → ¬ (i = old ∧ ∃ r ∈ ops, (g.node r).name = y) → y ∈ g'.cons i) ∧
    ∀ r ∈ ops, (g.node r).name ∈ g'.cons new := by
  unfold G.replaceAllInputs at h
  rw [if_neg hne] at h
  simp only at h
  obtain ⟨h1, h2, h3⟩ := replaceAll_init g new
  obtain ⟨_, b, d⟩ := replaceAllIn_cons _ hne h
  refine ⟨?_, ?_⟩
  · intro i y hy hc
    refine b i y (by rw [h3]; exact hy) ?_
    rintro ⟨e1, r, hr, e2⟩
    rw [h2.name] at e2
    exact hc ⟨e1, r, hr, e2⟩
  · intro r hr
    have := d r hr
    rwa [h2.name] at this

/-- `insert_node_on_output(node, o)` with the node the last of the group. -/
theorem Conv.insertOutput (c : Conv g0 r0 g X ren (N ++ [(r, n)])) (hw0 : WF g0) {o : String}
    (h : g.insertNodeOnOutput r o = .ok g') {new : String} {rest : List String} (hout : n.output = new :: rest)
    (hX : ∀ q, ¬ X q o) (hne : o ≠ new) :
    Conv g0 r0 g' X (fun x => if ren x = o then new else ren x) (N.map (fun p => (p.1, p.2.redirect o new)) ++ [(r, n)]) ∧
    g'.heap.length = g.heap.length := by
  have hw := c.reach.wf
  have hn : g.node r = n := c.node_eq (p := (r, n)) (by simp)
  have hm := (c.new (r, n) (by simp)).1
  obtain ⟨new', rest', ho, hrep⟩ := insertNodeOnOutput_eq h
  rw [hn, hout] at ho
  obtain ⟨rfl, rfl⟩ := List.cons.inj ho
  have hops : ∀ l, some ((g.consumerRefs o).filter (· ≠ r)) = some l → ∀ q ∈ l, q ∈ g.nodes := by
    intro l hl q hq
    cases hl
    exact consumerRefs_mem hw (List.mem_of_mem_filter hq)
  obtain ⟨hs, hnode, _, _⟩ := replaceAllInputs_spec hw hops hrep
  obtain ⟨hc1, hc2⟩ := replaceAllInputs_cons hne hrep
  have hnd := c.nodup
  rw [List.map_append, List.nodup_append] at hnd
  have hself : g'.node r = n := by
    rw [hnode, if_neg (by simp), hn]
  have hother : ∀ q ∈ g.nodes, q ≠ r → g'.node q = (g.node q).redirect o new := by
    intro q hq hne
    rw [hnode]
    split
    · rfl
    · rename_i hc
      refine (Node.redirect_of_not_mem ?_).symm
      intro hin
      apply hc
      simp only [Option.getD_some, List.mem_filter, decide_not, Bool.not_eq_true', decide_eq_false_iff_not]
      refine ⟨?_, hne⟩
      have := c.complete q hq o hin (hX q)
      unfold G.consumerRefs
      refine List.mem_filterMap.2 ⟨_, this, ?_⟩
      exact (hw.getNodeByName _ _).2 ⟨hq, rfl⟩
  refine ⟨?_, hs.len⟩
  exact {
    reach := .step (e := .insertNodeOnOutput r o) c.reach hm h
    complete := by
      intro q hq i hin hx
      rw [hs.nodes] at hq
      rw [hs.name]
      by_cases hqr : q = r
      · subst hqr
        rw [hself] at hin
        refine hc1 i _ (c.complete q hq i (by rw [hn]; exact hin) hx) ?_
        rintro ⟨rfl, p, hp, hname⟩
        have hpq := hw.name_inj (hops _ rfl p hp) hq hname
        subst hpq
        simp at hp
      · rw [hother q hq hqr] at hin
        have hin' : i ∈ (g.node q).input ∧ i ≠ o ∨ i = new ∧ o ∈ (g.node q).input := by
          obtain ⟨j, hj, e⟩ := List.mem_map.1 (show i ∈ (g.node q).input.map (fun x => if x = o then new else x) from hin)
          split at e
          · rename_i e'; subst e'; exact Or.inr ⟨e.symm, hj⟩
          · rename_i e'; subst e; exact Or.inl ⟨hj, e'⟩
        rcases hin' with ⟨h1, h2⟩ | ⟨rfl, h2⟩
        · exact hc1 i _ (c.complete q hq i h1 hx) (fun h' => h2 h'.1)
        · refine hc2 q ?_
          simp only [List.mem_filter, decide_not, Bool.not_eq_true', decide_eq_false_iff_not]
          refine ⟨?_, hqr⟩
          unfold G.consumerRefs
          exact List.mem_filterMap.2 ⟨_, c.complete q hq o h2 (hX q), (hw.getNodeByName _ _).2 ⟨hq, rfl⟩⟩
    outputs := hs.outputs.trans c.outputs
    inputs := hs.inputs.trans c.inputs
    heap := by rw [hs.len]; exact c.heap
    old := by
      intro q hq hne
      obtain ⟨h1, h2⟩ := c.old q hq hne
      refine ⟨by rw [hs.nodes]; exact h1, ?_⟩
      rw [hother q h1 ?_, h2, Node.redirect_mapIn]
      rintro rfl
      exact c.ref_new hw0 hq hne (by simp)
    mem := by
      intro q hq
      rw [hs.nodes] at hq
      have := c.mem q hq
      simpa [List.map_append, List.map_map, Function.comp_def] using this
    new := by
      intro p hp
      rcases List.mem_append.1 hp with hp | hp
      · obtain ⟨p', hp', rfl⟩ := List.mem_map.1 hp
        obtain ⟨h1, h2, h3⟩ := c.new p' (by simp [hp'])
        refine ⟨by rw [hs.nodes]; exact h1, ?_, h3⟩
        rw [hother _ h1 ?_, h2]
        intro e
        exact hnd.2.2 p'.1 (List.mem_map.2 ⟨p', hp', rfl⟩) r (by simp) e
      · obtain rfl := List.mem_singleton.1 hp
        exact ⟨by rw [hs.nodes]; exact hm, hself, (c.new (r, n) (by simp)).2.2⟩
    nodup := by
      have := c.nodup
      simpa [List.map_append, List.map_map, Function.comp_def] using this }

/-! ## The converted graph computes the same -/

/-- Every node only reads the tensors `xs` and outputs of nodes before it. -/
def Fed (xs : List String) : List Node → Prop
  | [] => True
  | n :: ns => (∀ i ∈ n.input, i = "" ∨ i ∈ xs) ∧ Fed (n.output ++ xs) ns

theorem Fed.reads {xs : List String} {L : List Node} (h : Fed xs L) {m : Node} (hm : m ∈ L) {i : String} (hi : i ∈ m.input)
    (hne : i ≠ "") : i ∈ xs ∨ ∃ m' ∈ L, i ∈ m'.output := by
  induction L generalizing xs with
  | nil => simp at hm
  | cons n ns ih =>
    rcases List.mem_cons.1 hm with rfl | hm
    · exact Or.inl ((h.1 i hi).resolve_left hne)
    · rcases ih h.2 hm with h' | ⟨m', hm', ho⟩
      · rcases List.mem_append.1 h' with h' | h'
        · exact Or.inr ⟨n, by simp, h'⟩
        · exact Or.inl h'
      · exact Or.inr ⟨m', by simp [hm'], ho⟩

theorem Fed.executable {xs : List String} {L : List Node} (h : Fed xs L) (hd : ∀ i ∈ xs, i ≠ "" → ∀ m ∈ L, i ∉ m.output)
    (hu : UniqueOutputs L) : Executable L := by
  induction L generalizing xs with
  | nil => trivial
  | cons n ns ih =>
    obtain ⟨_, h2, h3⟩ := hu.head
    refine ⟨fun i hi hne m hm => hd i ((h.1 i hi).resolve_left hne) hne m hm, ih h.2 ?_ h2⟩
    intro i hi hne m hm
    rcases List.mem_append.1 hi with hi | hi
    · exact ((h3 i hne hi).resolve_left hne) m hm
    · exact hd i hi hne m (by simp [hm])

/-- The tensor names new node number `k` may make: the output of a new node, or of a new constant, which has the node's own name
(tf2onnx/graph.py:594-596, 625-629). -/
def Mine (fresh : Nat → String) (k : Nat) (x : String) : Prop := x = fresh k ∨ x = outName fresh k

/-- New names are distinct, not empty, and none is another one followed by ":0". -/
structure FreshTensors (fresh : Nat → String) : Prop extends FreshNames fresh where
  sep : ∀ i j, fresh i ≠ outName fresh j

theorem Mine.ne {fresh : Nat → String} (hf : FreshTensors fresh) {k : Nat} {x : String} (h : Mine fresh k x) : x ≠ "" := by
  rcases h with rfl | rfl
  · exact hf.ne k
  · exact outName_ne k

theorem Mine.inj {fresh : Nat → String} (hf : FreshTensors fresh) {i j : Nat} {x : String} (h : Mine fresh i x) (h' : Mine fresh j x) :
    i = j := by
  rcases h with rfl | rfl <;> rcases h' with h | h
  · exact hf.inj _ _ h
  · exact (hf.sep _ _ h).elim
  · exact (hf.sep _ _ h.symm).elim
  · exact outName_inj hf.toFreshNames h

/-- The conversion of node `r0` is justified: `L`, the nodes of the group in order of execution, read only the inputs of `r0`
and each other, make the outputs of `r0` and new names, and wherever their equations hold (and the inputs of `r0` are in the
domain `D`) the value of each output of `r0` can be read from the tensor its readers have been redirected to. -/
structure Justified {V : Type} (I : Interp V) (D : List (Option V) → Prop) (fresh : Nat → String)
    (g0 : G) (r0 : Ref) (g : G) (ren : String → String) (L : List Node) : Prop where
  fed : Fed (g0.node r0).input L
  outs : ∀ m ∈ L, ∀ x ∈ m.output, x ≠ "" → x ∈ (g0.node r0).output ∨ ∃ k, g0.heap.length ≤ k ∧ k < g.heap.length ∧ Mine fresh k x
  plain : ∀ m ∈ L, m.isGraphInput = false
  others : ∀ x, x ∉ (g0.node r0).output → ren x = x
  moved : ∀ o ∈ (g0.node r0).output, o ≠ "" → ren o ≠ "" ∧ ∃ m ∈ L, ren o ∈ m.output
  kept : ∀ o ∈ (g0.node r0).output, o ∈ g0.outputs → ren o = o
  noName : ren "" = ""
  law : ∀ env e, (∀ m ∈ L, NodeSat I env e m) → D (argVals e (g0.node r0)) →
    ∀ (j : Nat) (o : String), (g0.node r0).output[j]? = some o → o ≠ "" →
      e (ren o) = I (g0.node r0).op (g0.node r0).domain (g0.node r0).attr (argVals e (g0.node r0)) j

/-- `x` is made by a constant. -/
def ConstOut (g : G) (x : String) : Prop := ∃ q ∈ g.nodes, (g.node q).op = "Const" ∧ x ∈ (g.node q).output

/-- What holds before and after every conversion: tables agree with the nodes, the consumer index misses no reader of a tensor
that is not a constant, there are no cycles, the declared inputs are input nodes of the graph, the names of new nodes are unused. -/
structure HInv (fresh : Nat → String) (g : G) : Prop where
  reach : Reachable g
  complete : ∀ q ∈ g.nodes, ∀ i ∈ (g.node q).input, ¬ ConstOut g i → (g.node q).name ∈ g.cons i
  ranked : ∃ ρ, RankedBy g ρ
  inputs : ∀ r ∈ g.inputs, (g.node r).isGraphInput = true
  inputsIn : ∀ r ∈ g.inputs, r ∈ g.nodes
  unread : ∀ k x, g.heap.length ≤ k → Mine fresh k x → (∀ r ∈ g.nodes, x ∉ (g.node r).input) ∧ x ∉ g.outputs
  unmade : ∀ k x, g.heap.length ≤ k → Mine fresh k x → ∀ r ∈ g.nodes, x ∉ (g.node r).output

theorem HInv.start {fresh : Nat → String} {g : G} (h : HInv fresh g) {r0 : Ref} (h0 : r0 ∈ g.nodes) :
    Conv g r0 g (fun _ i => ConstOut g i) id [(r0, g.node r0)] := Conv.start h.reach h.complete h0

/-- What one conversion step guarantees: the outputs have the same values, and every other node has the same operator,
attributes and outputs, reads tensors recorded with the same shapes and element types, and sees the same values. -/
structure ConvStep {V : Type} (I : Interp V) (D : List (Option V) → Prop) (fresh : Nat → String)
    (g : G) (r0 : Ref) (g' : G) : Prop where
  inv : HInv fresh g'
  heap : g.heap.length ≤ g'.heap.length
  outputs : g'.outputs = g.outputs
  inputs : g'.inputs = g.inputs
  old : ∀ q ∈ g.nodes, q ≠ r0 → q ∈ g'.nodes ∧ ∃ xs, g'.node q = { g.node q with input := xs }
  seen : ∀ q ∈ g.nodes, q ≠ r0 → (g'.node q).input.length = (g.node q).input.length ∧
    ∀ (i : Nat) (x x' : String), (g.node q).input[i]? = some x → (g'.node q).input[i]? = some x' → (x' = "" ↔ x = "") ∧ Keeps g x g' x'
  run : ∀ env e, Sat I env e g.nodeList → D (argVals e (g.node r0)) →
    ∃ e', Sat I env e' g'.nodeList ∧ (∀ o ∈ g.outputs, e' o = e o) ∧
      ∀ q ∈ g.nodes, q ≠ r0 → argVals e' (g'.node q) = argVals e (g.node q)
  made : ReadsMade g → ReadsMade g'
  outsMade : ∀ o ∈ g.outputs, o ≠ "" → (∃ p ∈ g.nodes, o ∈ (g.node p).output) → ∃ p ∈ g'.nodes, o ∈ (g'.node p).output

theorem Conv.step {V : Type} {I : Interp V} {D : List (Option V) → Prop} {fresh : Nat → String}
    (c : Conv g0 r0 g X ren N)
    (hX : ∀ q ∈ g.nodes, ∀ i ∈ (g.node q).input, X q i → ConstOut g i) (hf : FreshTensors fresh) (hv : HInv fresh g0) (h0 : r0 ∈ g0.nodes)
    (hnin : (g0.node r0).isGraphInput = false) {L : List Node} (hL : L.Perm (N.map Prod.snd))
    (hT : ∀ q ∈ g0.nodes, q ≠ r0 → ∀ i ∈ (g0.node q).input, Keeps g0 i g (ren i))
    (J : Justified I D fresh g0 r0 g ren L) : ConvStep I D fresh g0 r0 g := by
  have hw0 := hv.reach.wf
  have hw := c.reach.wf
  obtain ⟨ρ, hrk⟩ := hv.ranked
  -- the group
  have hLN : ∀ m, m ∈ L ↔ ∃ p ∈ N, p.2 = m := by
    intro m; rw [hL.mem_iff]; simp
  have hNmem : ∀ q ∈ N.map Prod.fst, q ∈ g.nodes ∧ g.node q ∈ L := by
    intro q hq
    obtain ⟨p, hp, rfl⟩ := List.mem_map.1 hq
    obtain ⟨h1, h2, _⟩ := c.new p hp
    exact ⟨h1, by rw [h2]; exact (hLN _).2 ⟨p, hp, rfl⟩⟩
  have hLmem : ∀ m ∈ L, ∃ q ∈ N.map Prod.fst, g.node q = m := by
    intro m hm
    obtain ⟨p, hp, rfl⟩ := (hLN m).1 hm
    exact ⟨p.1, List.mem_map.2 ⟨p, hp, rfl⟩, (c.new p hp).2.1⟩
  have hmap : N.map Prod.snd = (N.map Prod.fst).map g.node := by
    rw [List.map_map]
    apply List.map_congr_left
    intro p hp
    exact ((c.new p hp).2.1).symm
  have hUL : UniqueOutputs L := by
    refine UniqueOutputs.perm hL.symm ?_
    unfold UniqueOutputs
    rw [hmap, List.flatMap_map]
    refine nodup_flatMap_aux _ _ c.nodup (fun q hq => hw.outNodup q (hNmem q hq).1) ?_
    intro a ha b hb x hx hx'
    simp only [List.mem_filter, decide_eq_true_eq] at hx hx'
    exact hw.out_inj hx.2 (hNmem a ha).1 (hNmem b hb).1 hx.1 hx'.1
  have hLnd : L.Nodup := by
    rw [hL.nodup_iff, hmap, List.nodup_map_iff_inj_on c.nodup]
    intro a ha b hb e
    exact hw.name_inj (hNmem a ha).1 (hNmem b hb).1 (by rw [e])
  -- reading one's own output is impossible
  have hself : ∀ i ∈ (g0.node r0).input, i ≠ "" → i ∉ (g0.node r0).output := by
    intro i hi hne ho
    have := hrk r0 h0 r0 h0 ⟨i, hne, hi, ho⟩
    omega
  have hdisj : ∀ i ∈ (g0.node r0).input, i ≠ "" → ∀ m ∈ L, i ∉ m.output := by
    intro i hi hne m hm ho
    rcases J.outs m hm i ho hne with h | ⟨k, hk, _, hx⟩
    · exact hself i hi hne h
    · exact (hv.unread k i hk hx).1 r0 h0 hi
  have hex := J.fed.executable hdisj hUL
  -- what old nodes read and make
  have hread : ∀ q ∈ g0.nodes, ∀ i ∈ (g0.node q).input, i ≠ "" → i ∉ (g0.node r0).output → ∀ m ∈ L, i ∉ m.output := by
    intro q hq i hi hne hno m hm ho
    rcases J.outs m hm i ho hne with h | ⟨k, hk, _, hx⟩
    · exact hno h
    · exact (hv.unread k i hk hx).1 q hq hi
  have hmade : ∀ q ∈ g0.nodes, q ≠ r0 → ∀ o ∈ (g0.node q).output, o ≠ "" → ∀ m ∈ L, o ∉ m.output := by
    intro q hq hne o ho hoe m hm hom
    obtain ⟨h1, h2⟩ := c.old q hq hne
    obtain ⟨p, hp, rfl⟩ := hLmem m hm
    have : q = p := hw.out_inj hoe h1 (hNmem p hp).1 (by rw [h2]; exact ho) hom
    subst this
    exact c.ref_new hw0 hq hne hp
  have hrene : ∀ x, x ≠ "" → ren x ≠ "" := by
    intro x hx
    by_cases ho : x ∈ (g0.node r0).output
    · exact (J.moved x ho hx).1
    · rw [J.others x ho]; exact hx
  -- a tensor that was made still is, under its new name
  have hmoved : ∀ i, i ≠ "" → (∃ p ∈ g0.nodes, i ∈ (g0.node p).output) → ∃ p ∈ g.nodes, ren i ∈ (g.node p).output := by
    rintro i hie ⟨p, hp, hpi⟩
    by_cases hpr : i ∈ (g0.node r0).output
    · obtain ⟨m, hm, hmo⟩ := (J.moved i hpr hie).2
      obtain ⟨q, hq, rfl⟩ := hLmem m hm
      exact ⟨q, (hNmem q hq).1, hmo⟩
    · have hne : p ≠ r0 := by rintro rfl; exact hpr hpi
      obtain ⟨h1, h2⟩ := c.old p hp hne
      exact ⟨p, h1, by rw [h2, J.others i hpr]; exact hpi⟩
  refine ⟨?_, c.heap, c.outputs, c.inputs, ?_, ?_, ?_, ?_, ?_⟩
  rotate_right 2
  · intro hm q hq x hx hxe
    rcases c.mem q hq with ⟨h1, h2⟩ | h1
    · rw [(c.old q h1 h2).2] at hx
      obtain ⟨i, hi, rfl⟩ := List.mem_map.1 (show x ∈ (g0.node q).input.map ren from hx)
      have hie : i ≠ "" := by rintro rfl; exact hxe J.noName
      exact hmoved i hie (hm q h1 i hi hie)
    · rcases J.fed.reads (hNmem q h1).2 hx hxe with h | ⟨m, hm', hom⟩
      · have := hmoved x hxe (hm r0 h0 x h hxe)
        rwa [J.others x (hself x h hxe)] at this
      · obtain ⟨p, hp, rfl⟩ := hLmem m hm'
        exact ⟨p, (hNmem p hp).1, hom⟩
  · intro o ho hoe hm
    have := hmoved o hoe hm
    by_cases hc : o ∈ (g0.node r0).output
    · rwa [J.kept o hc ho] at this
    · rwa [J.others o hc] at this
  · -- invariant
    refine ⟨c.reach, fun q hq i hi hc => c.complete q hq i hi (fun hx => hc (hX q hq i hi hx)), ⟨fun q => if q ∈ N.map Prod.fst then ρ r0 * (L.length + 1) + L.idxOf (g.node q)
        else ρ q * (L.length + 1) + L.length, ?_⟩, ?_, ?_, ?_, ?_⟩
    · rintro q hq p hp ⟨x, hx, hin, hout⟩
      have hlt : ∀ a b : Nat, a < b → ∀ k, k ≤ L.length → ∀ j, a * (L.length + 1) + k < b * (L.length + 1) + j := by
        intro a b hab k hk j
        have := Nat.mul_le_mul_right (L.length + 1) (show a + 1 ≤ b from hab)
        rw [Nat.succ_mul] at this
        omega
      by_cases hqN : q ∈ N.map Prod.fst
      · have hqL := (hNmem q hqN).2
        by_cases hpN : p ∈ N.map Prod.fst
        · simp only [if_pos hqN, if_pos hpN]
          have := executable_idx hex hLnd hqL (hNmem p hpN).2 hx hin hout
          omega
        · simp only [if_pos hqN, if_neg hpN]
          obtain ⟨h1, h2⟩ := (c.mem p hp).resolve_right hpN
          rcases J.fed.reads hqL hin hx with h | ⟨m, hm, hom⟩
          · apply hlt _ _ (hrk r0 h0 p h1 ⟨x, hx, h, ?_⟩) _ (Nat.le_refl _)
            have := (c.old p h1 h2).2
            rw [this] at hout
            exact hout
          · obtain ⟨p', hp', rfl⟩ := hLmem m hm
            have := hw.out_inj hx hp (hNmem p' hp').1 hout hom
            subst this
            exact (hpN hp').elim
      · obtain ⟨h1, h2⟩ := (c.mem q hq).resolve_right hqN
        rw [(c.old q h1 h2).2] at hin
        obtain ⟨i, hi, rfl⟩ := List.mem_map.1 (show x ∈ (g0.node q).input.map ren from hin)
        have hie : i ≠ "" := by rintro rfl; exact hx J.noName
        by_cases hpN : p ∈ N.map Prod.fst
        · simp only [if_neg hqN, if_pos hpN]
          by_cases ho : i ∈ (g0.node r0).output
          · apply hlt _ _ (hrk q h1 r0 h0 ⟨i, hie, hi, ho⟩)
            exact List.idxOf_le_length
          · rw [J.others i ho] at hout
            exact (hread q h1 i hi hie ho _ (hNmem p hpN).2 hout).elim
        · simp only [if_neg hqN, if_neg hpN]
          obtain ⟨h3, h4⟩ := (c.mem p hp).resolve_right hpN
          rw [(c.old p h3 h4).2] at hout
          by_cases ho : i ∈ (g0.node r0).output
          · obtain ⟨m, hm, hom⟩ := (J.moved i ho hie).2
            exact (hmade p h3 h4 _ hout hx m hm hom).elim
          · rw [J.others i ho] at hout
            exact hlt _ _ (hrk q h1 p h3 ⟨i, hie, hi, hout⟩) _ (Nat.le_refl _) _
    · intro q hq
      rw [c.inputs] at hq
      have hg := hv.inputs q hq
      have hqn := hv.inputsIn q hq
      have hne : q ≠ r0 := by rintro rfl; rw [hnin] at hg; cases hg
      rw [(c.old q hqn hne).2]
      exact hg
    · intro q hq
      rw [c.inputs] at hq
      have hne : q ≠ r0 := by rintro rfl; have := hv.inputs q hq; rw [hnin] at this; cases this
      exact (c.old q (hv.inputsIn q hq) hne).1
    · intro k x hk hkx
      have hk0 : g0.heap.length ≤ k := Nat.le_trans c.heap hk
      refine ⟨?_, by rw [c.outputs]; exact (hv.unread k x hk0 hkx).2⟩
      intro q hq hin
      have hL' : ∀ m ∈ L, x ∉ m.output := by
        intro m hm ho
        rcases J.outs m hm _ ho (hkx.ne hf) with h | ⟨k', _, hk', e⟩
        · exact hv.unmade k x hk0 hkx r0 h0 h
        · have := hkx.inj hf e; omega
      rcases c.mem q hq with ⟨h1, h2⟩ | h1
      · rw [(c.old q h1 h2).2] at hin
        obtain ⟨i, hi, e⟩ := List.mem_map.1 (show x ∈ (g0.node q).input.map ren from hin)
        have hie : i ≠ "" := by rintro rfl; rw [J.noName] at e; exact hkx.ne hf e.symm
        by_cases ho : i ∈ (g0.node r0).output
        · obtain ⟨m, hm, hom⟩ := (J.moved i ho hie).2
          rw [e] at hom
          exact hL' m hm hom
        · rw [J.others i ho] at e
          exact (hv.unread k x hk0 hkx).1 q h1 (e ▸ hi)
      · rcases J.fed.reads (hNmem q h1).2 hin (hkx.ne hf) with h | ⟨m, hm, hom⟩
        · exact (hv.unread k x hk0 hkx).1 r0 h0 h
        · exact hL' m hm hom
    · intro k x hk hkx q hq ho
      have hk0 : g0.heap.length ≤ k := Nat.le_trans c.heap hk
      rcases c.mem q hq with ⟨h1, h2⟩ | h1
      · rw [(c.old q h1 h2).2] at ho
        exact hv.unmade k x hk0 hkx q h1 ho
      · rcases J.outs _ (hNmem q h1).2 _ ho (hkx.ne hf) with h | ⟨k', _, hk', e⟩
        · exact hv.unmade k x hk0 hkx r0 h0 h
        · have := hkx.inj hf e; omega
  · intro q hq hne
    obtain ⟨h1, h2⟩ := c.old q hq hne
    exact ⟨h1, _, h2⟩
  · -- what is recorded
    intro q hq hne
    obtain ⟨-, h2⟩ := c.old q hq hne
    rw [h2]
    refine ⟨by simp [Node.mapIn], ?_⟩
    intro i x x' hx hx'
    simp only [Node.mapIn, List.getElem?_map, hx, Option.map_some, Option.some.injEq] at hx'
    subst hx'
    refine ⟨⟨fun h => ?_, fun h => by rw [h, J.noName]⟩, hT q hq hne x (List.mem_of_getElem? hx)⟩
    by_contra hxe
    exact hrene x hxe h
  · -- values
    intro env e he hD
    let e1 : String → V := fun x => if x ∈ (g0.node r0).output ∧ x ≠ "" then env x else e x
    have he1 : ∀ x, x = "" ∨ x ∉ (g0.node r0).output → e1 x = e x := by
      intro x hx
      simp only [e1]
      rw [if_neg]
      rintro ⟨h1, h2⟩
      rcases hx with h | h
      · exact h2 h
      · exact h h1
    let e' : String → V := L.foldl (execNode I env) e1
    have hkeep : ∀ x, Unproduced L x → e' x = e1 x := fun x hx => foldl_exec_not_mem L e1 hx
    have hsat : ∀ m ∈ L, NodeSat I env e' m := foldl_exec_sat L e1 hUL hex
    have harg0 : argVals e' (g0.node r0) = argVals e (g0.node r0) := by
      apply argVals_congr
      intro i hi hne
      rw [hkeep i (Or.inr (hdisj i hi hne)), he1 i (Or.inr (hself i hi hne))]
    have hlaw := J.law env e' hsat (by rw [harg0]; exact hD)
    have hval : ∀ o ∈ (g0.node r0).output, o ≠ "" → e' (ren o) = e o := by
      intro o ho hne
      obtain ⟨j, hj⟩ := List.getElem?_of_mem ho
      rw [hlaw j o hj hne, harg0]
      have := he.1 _ (mem_nodeList.2 ⟨r0, h0, rfl⟩) j o hj hne
      rw [hnin] at this
      simp only [Bool.false_eq_true, if_false] at this
      exact this.symm
    have hval' : ∀ q ∈ g0.nodes, ∀ i ∈ (g0.node q).input, i ≠ "" → e' (ren i) = e i := by
      intro q hq i hi hne
      by_cases ho : i ∈ (g0.node r0).output
      · exact hval i ho hne
      · rw [J.others i ho, hkeep i (Or.inr (hread q hq i hi hne ho)), he1 i (Or.inr ho)]
    have hargs : ∀ q ∈ g0.nodes, q ≠ r0 → argVals e' (g.node q) = argVals e (g0.node q) := by
      intro q hq hne
      rw [(c.old q hq hne).2]
      unfold argVals Node.mapIn
      rw [List.map_map]
      apply List.map_congr_left
      intro i hi
      simp only [Function.comp, argVal]
      by_cases h : i = ""
      · simp [h, J.noName]
      · rw [if_neg h, if_neg (hrene i h), hval' q hq i hi h]
    have hout : ∀ q ∈ g0.nodes, q ≠ r0 → ∀ o ∈ (g0.node q).output, o ≠ "" → e' o = e o := by
      intro q hq hne o ho hoe
      rw [hkeep o (Or.inr (hmade q hq hne o ho hoe)), he1 o (Or.inr ?_)]
      intro h
      exact hne (hw0.out_inj hoe hq h0 ho h)
    refine ⟨e', ⟨?_, ?_⟩, ?_, hargs⟩
    · intro m hm
      obtain ⟨q, hq, rfl⟩ := mem_nodeList.1 hm
      rcases c.mem q hq with ⟨h1, h2⟩ | h1
      · intro j o hj hoe
        have hn := (c.old q h1 h2).2
        rw [hargs q h1 h2]
        rw [hn] at hj ⊢
        rw [hout q h1 h2 o (List.mem_of_getElem? hj) hoe]
        exact he.1 _ (mem_nodeList.2 ⟨q, h1, rfl⟩) j o hj hoe
      · exact hsat _ (hNmem q h1).2
    · intro x hx
      have hxL : Unproduced L x := by
        rcases hx with h | h
        · exact Or.inl h
        · right
          intro m hm
          obtain ⟨q, hq, rfl⟩ := hLmem m hm
          exact h _ (mem_nodeList.2 ⟨q, (hNmem q hq).1, rfl⟩)
      rw [hkeep x hxL]
      by_cases hc : x ∈ (g0.node r0).output ∧ x ≠ ""
      · simp only [e1, if_pos hc]
      · rw [he1 x (by
          by_cases h : x = ""
          · exact Or.inl h
          · exact Or.inr (fun h' => hc ⟨h', h⟩))]
        apply he.2
        rcases hx with h | h
        · exact Or.inl h
        · by_cases hxe : x = ""
          · exact Or.inl hxe
          right
          intro m hm hom
          obtain ⟨q, hq, rfl⟩ := mem_nodeList.1 hm
          by_cases hqr : q = r0
          · subst hqr; exact hc ⟨hom, hxe⟩
          · obtain ⟨h1, h2⟩ := c.old q hq hqr
            exact h _ (mem_nodeList.2 ⟨q, h1, rfl⟩) (by rw [h2]; exact hom)
    · intro o ho
      by_cases h : o = ""
      · subst h
        rw [hkeep _ (Or.inl rfl), he1 _ (Or.inl rfl)]
      · by_cases hc : o ∈ (g0.node r0).output
        · have := hval o hc h
          rwa [J.kept o hc ho] at this
        · rw [hkeep o (Or.inr ?_), he1 o (Or.inr hc)]
          intro m hm hom
          rcases J.outs m hm o hom h with h' | ⟨k, hk, _, hx⟩
          · exact hc h'
          · exact (hv.unread k o hk hx).2 ho

/-- For the meaning `I` of the operators, two graphs are the same model on a domain: same outputs and inputs, and for all fed
values for which every valuation of the first graph is in `D`, the same results. -/
structure SameOn {V : Type} (I : Interp V) (D : (String → V) → Prop) (g g' : G) : Prop where
  outputs : g'.outputs = g.outputs
  inputs : g'.inputs.map (fun r => (g'.node r).output) = g.inputs.map (fun r => (g.node r).output)
  values : ∀ env, (∀ e, Sat I env e g.nodeList → D e) → ∀ out, Computes I g' env out ↔ Computes I g env out

theorem ConvStep.sameOn {V : Type} {I : Interp V} {D : List (Option V) → Prop}
    {fresh : Nat → String} (hh : HInv fresh g) (hnin : (g.node r0).isGraphInput = false) (s : ConvStep I D fresh g r0 g') :
    SameOn I (fun e => D (argVals e (g.node r0))) g g' := by
  obtain ⟨ρ, hrk⟩ := hh.ranked
  obtain ⟨ρ', hrk'⟩ := s.inv.ranked
  refine ⟨s.outputs, ?_, ?_⟩
  · rw [s.inputs]
    apply List.map_congr_left
    intro q hq
    have hne : q ≠ r0 := by rintro rfl; have := hh.inputs q hq; rw [hnin] at this; cases this
    obtain ⟨_, xs, h⟩ := s.old q (hh.inputsIn q hq) hne
    rw [h]
  · intro env hD out
    refine computes_of_transport hh.reach hrk.acyclic hrk'.acyclic s.outputs (fun e he => ?_) out
    obtain ⟨e', h1, h2, _⟩ := s.run env e he (hD e he)
    exact ⟨e', h1, h2⟩

end Verif.Graph
