import Verif.Model.Handlers
import Verif.Props.HandlerBase
/-!
# Handlers made of `make_node` calls (used by C46 and later)
-/
namespace Verif.Graph
open Verif

variable {g0 g g' : G} {r0 r : Ref} {X : Ref → String → Prop} {ren : String → String} {N : List (Ref × Node)} {n : Node}
  {fresh : Nat → String}

theorem copyInfo_spec {src : G} {o y : String} (h : g.copyInfo src o y = .ok g') :
    Same g g' ∧ g'.heap = g.heap ∧ g'.consumers = g.consumers ∧ (Reachable g → Reachable g') ∧ (∀ x, x ≠ y → Keeps g x g' x) ∧
      Keeps src o g' y := by
  simp only [G.copyInfo, bind, Except.bind] at h
  split at h
  · cases h
  rename_i g1 h1
  obtain ⟨a1, a2, a3⟩ := setShapeOpt_keeps h1
  obtain ⟨b1, b2, b3⟩ := setDtypeOpt_keeps h
  have hs1 : Same g g1 ∧ g1.heap = g.heap ∧ g1.consumers = g.consumers ∧ (Reachable g → Reachable g1) := by
    unfold G.setShapeOpt at h1
    split at h1
    · refine ⟨(setShape_same h1).1, (setShape_same h1).2, ?_, fun hr => .step (e := .setShape _ _) hr trivial h1⟩
      unfold G.setShape at h1
      split at h1
      · cases h1
      · cases h1; rfl
    · cases h1; exact ⟨Same.refl _, rfl, rfl, id⟩
  have hs2 : Same g1 g' ∧ g'.heap = g1.heap ∧ g'.consumers = g1.consumers ∧ (Reachable g1 → Reachable g') := by
    unfold G.setDtypeOpt at h
    split at h
    · refine ⟨(setDtype_same h).1, (setDtype_same h).2, ?_, fun hr => .step (e := .setDtype _ _) hr trivial h⟩
      unfold G.setDtype at h
      split at h
      · cases h
      · cases h; rfl
    · cases h; exact ⟨Same.refl _, rfl, rfl, id⟩
  refine ⟨hs1.1.trans hs2.1, by rw [hs2.2.1, hs1.2.1], by rw [hs2.2.2.1, hs1.2.2.1], fun hr => hs2.2.2.2 (hs1.2.2.2 hr), ?_, ?_⟩
  · intro x hx
    exact ⟨fun t ht => by rw [b2 x hx, a1]; exact ht, fun s hs => by rw [b1, a2 x hx]; exact hs⟩
  · exact ⟨fun t ht => b3 t ht, fun s hs => by rw [b1]; exact a3 s hs⟩

/-- Recording shapes and types changes nothing else. -/
theorem Conv.copyInfo (c : Conv g0 r0 g X ren N) {src : G} {o y : String} (h : g.copyInfo src o y = .ok g') :
    Conv g0 r0 g' X ren N := by
  obtain ⟨hs, hh, hcons, hreach, -, -⟩ := copyInfo_spec h
  have hnode : ∀ q, g'.node q = g.node q := fun q => by simp only [G.node, hh]
  exact
  { reach := hreach c.reach
    complete := by
      intro q hq i hi hx
      rw [hs.nodes] at hq
      rw [hnode] at hi ⊢
      unfold G.cons
      rw [hcons]
      exact c.complete q hq i hi hx
    outputs := hs.outputs.trans c.outputs
    inputs := hs.inputs.trans c.inputs
    heap := by rw [hh]; exact c.heap
    old := by
      intro q hq hne
      rw [hs.nodes, hnode]
      exact c.old q hq hne
    mem := by
      intro q hq
      rw [hs.nodes] at hq
      exact c.mem q hq
    new := by
      intro p hp
      rw [hs.nodes, hnode]
      exact c.new p hp
    nodup := c.nodup }

/-- Recording what was recorded before, for several tensors. -/
theorem copyInfos_spec {src : G} {os : List String} : ∀ {g g' : G}, g.copyInfos src os = .ok g' →
    g'.heap.length = g.heap.length ∧
    (∀ {g0 : G} {r0 : Ref} {X : Ref → String → Prop} {ren : String → String} {N : List (Ref × Node)}, Conv g0 r0 g X ren N → Conv g0 r0 g' X ren N) ∧
    (∀ x, x ∉ os → Keeps g x g' x) ∧ ∀ o ∈ os, Keeps src o g' o := by
  induction os with
  | nil =>
    intro g g' h
    cases h
    exact ⟨rfl, id, fun x _ => (TabEq.refl g).keeps x, by simp⟩
  | cons o os ih =>
    intro g g' h
    simp only [G.copyInfos, bind, Except.bind] at h
    split at h
    · cases h
    rename_i g1 h1
    obtain ⟨-, hh, -, -, k1, k2⟩ := copyInfo_spec h1
    obtain ⟨b1, b2, b3, b4⟩ := ih h
    refine ⟨by rw [b1, hh], fun c => b2 (c.copyInfo h1), ?_, ?_⟩
    · intro x hx
      simp only [List.mem_cons, not_or] at hx
      exact (k1 x hx.1).trans (b3 x hx.2)
    · intro x hx
      by_cases hm : x ∈ os
      · exact b4 x hm
      · rcases List.mem_cons.1 hx with rfl | hx
        · exact k2.trans (b3 x hm)
        · exact (hm hx).elim

theorem makeSeq_tab {ss : List Spec} : ∀ {g g' : G}, G.makeSeq fresh ss g = .ok g' → TabEq g g' := by
  induction ss with
  | nil => intro g g' h; cases h; exact .refl _
  | cons s ss ih =>
    intro g g' h
    simp only [G.makeSeq, bind, Except.bind] at h
    split at h
    · cases h
    rename_i p hp
    exact (makeNode_tab hp).trans (ih h)

/-- The nodes a sequence of calls makes. -/
def seqNodes (fresh : Nat → String) : Nat → List Spec → List (Ref × Node)
  | _, [] => []
  | k, s :: ss => (k, s.node fresh k) :: seqNodes fresh (k + 1) ss

/-- The output of the node a call makes. -/
theorem Spec.node_output (s : Spec) (k : Nat) : ∃ x, (s.node fresh k).output = [x] ∧ Mine fresh k x := by
  unfold Spec.node Mine outName
  cases s.isConst <;> simp

theorem Conv.makeSeq (c : Conv g0 r0 g X ren N) (hf : FreshNames fresh) {ss : List Spec} (h : G.makeSeq fresh ss g = .ok g') :
    g'.heap.length = g.heap.length + ss.length ∧ Conv g0 r0 g' X ren (N ++ seqNodes fresh g.heap.length ss) := by
  induction ss generalizing g N with
  | nil => cases h; exact ⟨rfl, by simpa [seqNodes] using c⟩
  | cons s ss ih =>
    simp only [G.makeSeq, bind, Except.bind] at h
    split at h
    · cases h
    rename_i p hp
    obtain ⟨g1, r1⟩ := p
    have houts : (([if s.isConst then fresh g.heap.length else fresh g.heap.length ++ ":0"] : List String).filter (· ≠ "")).Nodup :=
      List.Nodup.filter _ (by simp)
    obtain ⟨h1, h2, c1⟩ := c.make (hf.ne _) houts hp
    obtain ⟨h3, c2⟩ := ih c1 h
    refine ⟨by rw [h3, h2]; simp; omega, ?_⟩
    rw [h2] at c2
    have : r1 = g.heap.length := h1
    rw [List.append_assoc] at c2
    subst this
    exact c2

theorem seqNodes_mem {k : Nat} {ss : List Spec} {p : Ref × Node} (h : p ∈ seqNodes fresh k ss) :
    ∃ (j : Nat) (s : Spec), ss[j]? = some s ∧ p = (k + j, s.node fresh (k + j)) := by
  induction ss generalizing k with
  | nil => simp [seqNodes] at h
  | cons s ss ih =>
    rcases List.mem_cons.1 h with rfl | h
    · exact ⟨0, s, by simp, by simp⟩
    · obtain ⟨j, t, h1, h2⟩ := ih h
      refine ⟨j + 1, t, by simpa using h1, ?_⟩
      rw [h2, show k + 1 + j = k + (j + 1) by omega]

/-- `replaceBy`: the nodes made, in order. -/
theorem replaceBy_conv (hf : FreshNames fresh) (hv : HInv fresh g) (h0 : r ∈ g.nodes) (hnin : r ∉ g.inputs)
    {pre post : List Spec} {op : String} {xs : List String} {name : Nat → String} {attr : Dict String Attr} {outs : List String}
    (hname : ∀ k, name k ≠ "") (houts : (outs.filter (· ≠ "")).Nodup)
    (h : g.replaceBy fresh r pre post op xs name attr outs = .ok g') :
    g'.heap.length = g.heap.length + (pre ++ post).length + 1 ∧
    Conv g r g' (fun _ i => ConstOut g i) id (seqNodes fresh g.heap.length (pre ++ post) ++
      [(g.heap.length + (pre ++ post).length, ⟨name (g.heap.length + (pre ++ post).length), op, "", attr, xs, outs⟩)]) ∧
    (∀ x, x ∉ (g.node r).output → x ∉ outs → Keeps g x g' x) ∧ ∀ o ∈ outs, Keeps g o g' o := by
  have hw0 := hv.reach.wf
  simp only [G.replaceBy, bind, Except.bind] at h
  split at h
  · cases h
  rename_i g1 h1
  split at h
  · cases h
  rename_i g2 h2
  split at h
  · cases h
  rename_i g3 h3
  split at h
  · cases h
  rename_i p h4
  obtain ⟨g4, r4⟩ := p
  obtain ⟨a1, c1⟩ := (hv.start h0).makeSeq hf h1
  obtain ⟨c2, a2⟩ := c1.remove hw0 hnin h2
  obtain ⟨a3, c3⟩ := c2.makeSeq hf h3
  obtain ⟨a4, a5, c4⟩ := c3.make (hname _) houts h4
  have happ : ∀ (k : Nat) (l l' : List Spec), seqNodes fresh k (l ++ l') = seqNodes fresh k l ++ seqNodes fresh (k + l.length) l' := by
    intro k l
    induction l generalizing k with
    | nil => intro l'; simp [seqNodes]
    | cons s l ih =>
      intro l'
      simp only [List.cons_append, seqNodes, List.length_cons, ih, List.cons.injEq, true_and]
      rw [show k + 1 + l.length = k + (l.length + 1) by omega]
  have e3 : g3.heap.length = g.heap.length + (pre ++ post).length := by rw [a3, a2, a1]; simp; omega
  obtain ⟨i1, i2, i3, i4⟩ := copyInfos_spec h
  have hbn : g1.byName.get (g.node r).name = some r ∧ g1.node r = g.node r := by
    obtain ⟨n1, n2, -⟩ := c1.new (r, g.node r) (by simp)
    have n2 : g1.node r = g.node r := n2
    refine ⟨(c1.reach.wf.byName _ _).2 ⟨n1, by rw [n2]⟩, n2⟩
  have k2 : ∀ x, x ∉ (g.node r).output → Keeps g x g4 x := by
    intro x hx
    have hr2 : g1.removeNode (g1.node r).name = .ok g2 := by rw [hbn.2]; exact h2
    refine ((makeSeq_tab h1).keeps x).trans ((removeNode_keeps (by rw [hbn.2]; exact hbn.1) hr2 (by rw [hbn.2]; exact hx)).trans
      (((makeSeq_tab h3).keeps x).trans ((makeNode_tab h4).keeps x)))
  refine ⟨by rw [i1, a5, e3], ?_, fun x hx hx' => (k2 x hx).trans (i3 x hx'), i4⟩
  rw [happ]
  rw [← e3, ← a1, ← a2]
  have e4 : r4 = g3.heap.length := a4
  rw [e4] at c4
  exact i2 c4

/-- A tensor made by a constant stays so while another node is converted. -/
theorem Conv.constOut (c : Conv g0 r0 g X ren N) (hop : (g0.node r0).op ≠ "Const") {i : String} (h : ConstOut g0 i) : ConstOut g i := by
  obtain ⟨q, hq, h1, h2⟩ := h
  have hne : q ≠ r0 := by rintro rfl; exact hop h1
  obtain ⟨h3, h4⟩ := c.old q hq hne
  exact ⟨q, h3, by rw [h4]; exact h1, by rw [h4]; exact h2⟩

/-- A node with one output converted to a group of nodes, its readers redirected to `z`. -/
theorem Conv.stepOne {V : Type} {I : Interp V} {D : List (Option V) → Prop} {o z : String}
    (c : Conv g0 r0 g X (fun x => if x = o then z else x) N)
    (hX : ∀ q ∈ g.nodes, ∀ i ∈ (g.node q).input, X q i → ConstOut g i) (hf : FreshTensors fresh) (hv : HInv fresh g0) (h0 : r0 ∈ g0.nodes)
    (hnin : (g0.node r0).isGraphInput = false) (hout : (g0.node r0).output = [o]) (hoe : o ≠ "") (hkept : o ∈ g0.outputs → z = o)
    (hT : ∀ x, x ≠ o → (∀ k, g0.heap.length ≤ k → ¬ Mine fresh k x) → Keeps g0 x g x) (hTo : Keeps g0 o g z)
    {L : List Node} (hL : L.Perm (N.map Prod.snd)) (fed : Fed (g0.node r0).input L)
    (outs : ∀ m ∈ L, ∀ x ∈ m.output, x ≠ "" → x = o ∨ ∃ k, g0.heap.length ≤ k ∧ k < g.heap.length ∧ Mine fresh k x)
    (plain : ∀ m ∈ L, m.isGraphInput = false) (hz : ∃ m ∈ L, z ∈ m.output) (hze : z ≠ "")
    (law : ∀ env e, (∀ m ∈ L, NodeSat I env e m) → D (argVals e (g0.node r0)) →
      e z = I (g0.node r0).op (g0.node r0).domain (g0.node r0).attr (argVals e (g0.node r0)) 0) :
    ConvStep I D fresh g0 r0 g := by
  refine c.step hX hf hv h0 hnin hL ?_ ⟨fed, ?_, plain, ?_, ?_, ?_, ?_, ?_⟩
  · intro q hq _ i hi
    by_cases e : i = o
    · subst e
      simp only [if_pos]
      exact hTo
    · simp only [if_neg e]
      exact hT i e (fun k hk hm => (hv.unread k i hk hm).1 q hq hi)
  · intro m hm x hx hxe
    rcases outs m hm x hx hxe with rfl | h
    · exact Or.inl (by simp [hout])
    · exact Or.inr h
  · intro x hx
    rw [hout] at hx
    simp only [List.mem_singleton] at hx
    exact if_neg hx
  · intro o' ho' _
    rw [hout] at ho'
    obtain rfl := List.mem_singleton.1 ho'
    simp only [if_pos]
    exact ⟨hze, hz⟩
  · intro o' ho' hg
    rw [hout] at ho'
    obtain rfl := List.mem_singleton.1 ho'
    simp only [if_pos]
    exact hkept hg
  · exact if_neg (Ne.symm hoe)
  · intro env e he hD j o' hj _
    rw [hout] at hj
    cases j with
    | zero =>
      obtain rfl : o = o' := by simpa using hj
      simp only [if_pos]
      exact law env e he hD
    | succ j => simp at hj

/-- Reading the equation of a node with one output. -/
theorem NodeSat.one {V : Type} {I : Interp V} {env e : String → V} {m : Node} (h : NodeSat I env e m) {x : String}
    (ho : m.output = [x]) (hx : x ≠ "") (hp : m.isGraphInput = false) : e x = I m.op m.domain m.attr (argVals e m) 0 := by
  have := h 0 x (by simp [ho]) hx
  rwa [hp] at this

/-- The whole pattern: nodes made, the node removed, the last node made with its output. -/
theorem replaceBy_step {V : Type} {I : Interp V} {D : List (Option V) → Prop} (hf : FreshTensors fresh) (hv : HInv fresh g)
    (h0 : r ∈ g.nodes) (hnin : (g.node r).isGraphInput = false) (hc : (g.node r).op ≠ "Const") {o : String}
    (hout : (g.node r).output = [o]) (hoe : o ≠ "") {ss : List Spec} {pre post : List Spec} (hss : pre ++ post = ss) {op : String}
    {xs : List String} {name : Nat → String} {attr : Dict String Attr}
    (hname : ∀ k, name k ≠ "") (h : g.replaceBy fresh r pre post op xs name attr [o] = .ok g')
    (fed : ∀ z, Fed (g.node r).input ((seqNodes fresh g.heap.length ss).map Prod.snd ++ [⟨z, op, "", attr, xs, [o]⟩]))
    (plain : ∀ s ∈ ss, (s.node fresh 0).isGraphInput = false)
    (plain' : (Node.mk "" op "" attr xs [o]).isGraphInput = false)
    (law : ∀ e, (∀ (j : Nat) (s : Spec), ss[j]? = some s →
        e (if s.isConst then fresh (g.heap.length + j) else fresh (g.heap.length + j) ++ ":0") = I s.op "" s.attr (s.xs.map (argVal e)) 0) →
      e o = I op "" attr (xs.map (argVal e)) 0 → D (argVals e (g.node r)) →
      e o = I (g.node r).op (g.node r).domain (g.node r).attr (argVals e (g.node r)) 0) :
    ConvStep I D fresh g r g' := by
  subst hss
  have hnin' : r ∉ g.inputs := by
    intro hc; have := hv.inputs r hc; rw [hnin] at this; cases this
  obtain ⟨a, c, k1, k2⟩ := replaceBy_conv hf.toFreshNames hv h0 hnin' hname (List.Nodup.filter _ (by simp)) h
  have hid : Conv g r g' (fun _ i => ConstOut g i) (fun x => if x = o then o else x) _ := c.congrRen (by
    intro x; by_cases e : x = o
    · subst e; simp
    · simp [e])
  refine hid.stepOne (fun q hq i hi hx => c.constOut hc hx) hf hv h0 hnin hout hoe (fun _ => rfl)
    (fun x hx _ => k1 x (by simp [hout, hx]) (by simp [hx])) (k2 o (by simp))
    (by rw [List.map_append]; exact List.Perm.refl _) (fed _) ?_ ?_ ⟨_, List.mem_append_right _ (List.mem_singleton.2 rfl), by simp⟩ hoe ?_
  · intro m hm x hx hxe
    rcases List.mem_append.1 hm with hm | hm
    · obtain ⟨p, hp, rfl⟩ := List.mem_map.1 hm
      obtain ⟨j, s, h1, rfl⟩ := seqNodes_mem hp
      obtain ⟨y, hy, hmine⟩ := s.node_output (fresh := fresh) (g.heap.length + j)
      simp only [hy, List.mem_singleton] at hx
      subst hx
      obtain ⟨hlt, -⟩ := List.getElem?_eq_some_iff.1 h1
      exact Or.inr ⟨_, Nat.le_add_right _ _, by rw [a]; omega, hmine⟩
    · simp only [List.mem_singleton] at hm
      subst hm
      exact Or.inl (by simpa using hx)
  · intro m hm
    rcases List.mem_append.1 hm with hm | hm
    · obtain ⟨p, hp, rfl⟩ := List.mem_map.1 hm
      obtain ⟨j, s, h1, rfl⟩ := seqNodes_mem hp
      exact plain s (List.mem_of_getElem? h1)
    · simp only [List.mem_singleton] at hm
      subst hm
      simpa [Node.isGraphInput] using plain'
  · intro env e he hD
    refine law e ?_ ?_ hD
    · intro j s hj
      have hmem : (g.heap.length + j, s.node fresh (g.heap.length + j)) ∈ seqNodes fresh g.heap.length (pre ++ post) := by
        have hgen : ∀ (k : Nat) (ss : List Spec) (j : Nat), ss[j]? = some s → (k + j, s.node fresh (k + j)) ∈ seqNodes fresh k ss := by
          intro k ss
          induction ss generalizing k with
          | nil => intro j hj; simp at hj
          | cons t ss ih =>
            intro j hj
            cases j with
            | zero =>
              obtain rfl : t = s := by simpa using hj
              simp [seqNodes]
            | succ j =>
              have := ih (k + 1) j (by simpa using hj)
              rw [show k + 1 + j = k + (j + 1) by omega] at this
              exact List.mem_cons_of_mem _ this
        exact hgen _ _ j hj
      have hs := he _ (List.mem_append_left _ (List.mem_map.2 ⟨_, hmem, rfl⟩))
      have hp := plain s (List.mem_of_getElem? hj)
      refine hs.one rfl ?_ hp
      split
      · exact hf.ne _
      · exact outName_ne _
    · exact (he _ (List.mem_append_right _ (List.mem_singleton.2 rfl))).one rfl hoe (by simpa [Node.isGraphInput] using plain')

end Verif.Graph

namespace Verif.Graph
open Verif
variable {g0 g g' : G} {r0 r : Ref} {X : Ref → String → Prop} {ren : String → String} {N : List (Ref × Node)} {n : Node}
  {fresh : Nat → String}

/-- `insert_new_node_on_output`, when nothing else in the group reads the output. -/
theorem Conv.newOnOutput (c : Conv g0 r0 g X ren N) (hw0 : WF g0) (hf : FreshNames fresh) {op o : String} {xs : List String}
    {attr : Dict String Attr} (h : g.newOnOutput fresh op o xs attr = .ok g') (hX : ∀ q, ¬ X q o)
    (hne : o ≠ outName fresh g.heap.length) (hN : ∀ p ∈ N, o ∉ p.2.input) :
    g'.heap.length = g.heap.length + 1 ∧
    Conv g0 r0 g' X (fun x => if ren x = o then outName fresh g.heap.length else ren x)
      (N ++ [(g.heap.length, ⟨fresh g.heap.length, op, "", attr, xs, [outName fresh g.heap.length]⟩)]) ∧
    (∀ x, x ≠ outName fresh g.heap.length → Keeps g x g' x) ∧ Keeps g o g' (outName fresh g.heap.length) := by
  simp only [G.newOnOutput, bind, Except.bind] at h
  split at h
  · cases h
  rename_i p hp
  obtain ⟨g1, r1⟩ := p
  split at h
  · cases h
  rename_i g2 hg2
  obtain ⟨-, hh, -, -, j1, j2⟩ := copyInfo_spec h
  have ht : TabEq g g2 := (makeNode_tab hp).trans (insertNodeOnOutput_tab hg2)
  obtain ⟨h1, h2, c1⟩ := c.make (hf.ne _) (List.Nodup.filter _ (by simp)) hp
  have h1 : r1 = g.heap.length := h1
  obtain ⟨c2, h3⟩ := c1.insertOutput hw0 hg2 (new := outName fresh g.heap.length) (rest := []) rfl hX hne
  refine ⟨by rw [hh, h3, h2], ?_, fun x hx => (ht.keeps x).trans (j1 x hx), (ht.keeps o).trans j2⟩
  have : N.map (fun p => (p.1, p.2.redirect o (outName fresh g.heap.length))) = N := by
    conv => rhs; rw [← List.map_id N]
    apply List.map_congr_left
    intro p hp
    rw [Node.redirect_of_not_mem (hN p hp)]
    rfl
  rw [this] at c2
  subst h1
  exact c2.copyInfo h

/-- The output of a node that is not a constant is not made by a constant. -/
theorem WF.not_constOut (hw : WF g) (h0 : r ∈ g.nodes) (hop : (g.node r).op ≠ "Const") {o : String} (ho : o ∈ (g.node r).output)
    (hoe : o ≠ "") : ¬ ConstOut g o := by
  rintro ⟨q, hq, h1, h2⟩
  have := hw.out_inj hoe hq h0 h2 ho
  subst this
  exact hop h1

/-- No node reads its own output. -/
theorem HInv.not_self (hv : HInv fresh g) (h0 : r ∈ g.nodes) {o : String} (ho : o ∈ (g.node r).output) (hoe : o ≠ "") :
    o ∉ (g.node r).input := by
  intro hi
  obtain ⟨ρ, hrk⟩ := hv.ranked
  have := hrk r h0 r h0 ⟨o, hoe, hi, ho⟩
  omega

/-- The node changed in place (operator, attributes, inputs already there) and one new node inserted behind it, reading its output
and nothing else. `g1` is the graph after the in-place change. -/
theorem afterOutput_step {V : Type} {I : Interp V} {D : List (Option V) → Prop} (hf : FreshTensors fresh) (hv : HInv fresh g)
    (h0 : r ∈ g.nodes) (hnin : (g.node r).isGraphInput = false) (hc : (g.node r).op ≠ "Const") {o : String}
    (hout : (g.node r).output = [o]) (hoe : o ≠ "") (hno : o ∉ g.outputs) {g1 : G} {n' : Node}
    (c : Conv g r g1 (fun _ i => ConstOut g i) id [(r, n')]) (hlen : g1.heap.length = g.heap.length) (hT : TabEq g g1)
    (hn' : n'.output = [o]) (hn'i : ∀ i ∈ n'.input, i ∈ (g.node r).input) (hplain : n'.isGraphInput = false)
    {op : String} {xs : List String} {attr : Dict String Attr} (hxs : ∀ x ∈ xs, x = "" ∨ x = o ∨ x ∈ (g.node r).input)
    (hp : (Node.mk "" op "" attr xs []).isGraphInput = false)
    (h : g1.newOnOutput fresh op o xs attr = .ok g')
    (law : ∀ e z, e o = I n'.op n'.domain n'.attr (argVals e n') 0 → e z = I op "" attr (xs.map (argVal e)) 0 →
      D (argVals e (g.node r)) → e z = I (g.node r).op (g.node r).domain (g.node r).attr (argVals e (g.node r)) 0) :
    ConvStep I D fresh g r g' := by
  have hself := hv.not_self h0 (o := o) (by simp [hout]) hoe
  have hmine : Mine fresh g.heap.length (outName fresh g.heap.length) := Or.inr rfl
  have hne : o ≠ outName fresh g1.heap.length := by
    rw [hlen]
    rintro e
    exact hv.unmade _ _ (Nat.le_refl _) hmine r h0 (by rw [← e]; simp [hout])
  obtain ⟨h1, c1, k1, k2⟩ := c.newOnOutput hv.reach.wf hf.toFreshNames h
    (fun q hq => hv.reach.wf.not_constOut h0 hc (by simp [hout]) hoe hq) hne
    (by simp only [List.mem_singleton, forall_eq]; exact fun hi => hself (hn'i o hi))
  rw [hlen] at h1 c1 k1 k2
  have c2 := c1.congrRen (ren' := fun x => if x = o then outName fresh g.heap.length else x) (by intro x; rfl)
  refine c2.stepOne (fun q hq i hi hx => c1.constOut hc hx) hf hv h0 hnin hout hoe (fun h => (hno h).elim)
    (fun x _ hx => (hT.keeps x).trans (k1 x (fun e => hx g.heap.length (Nat.le_refl _) (Or.inr e)))) ((hT.keeps o).trans k2)
    (List.Perm.refl _) ?_ ?_ ?_ ⟨⟨fresh g.heap.length, op, "", attr, xs, [outName fresh g.heap.length]⟩, by simp, List.mem_singleton.2 rfl⟩ (outName_ne _) ?_
  · refine ⟨fun i hi => Or.inr (hn'i i hi), ?_, trivial⟩
    intro i hi
    rcases hxs i hi with h | rfl | h
    · exact Or.inl h
    · exact Or.inr (by simp [hn'])
    · exact Or.inr (by simp [h])
  · intro m hm x hx hxe
    simp only [List.cons_append, List.nil_append, List.map_cons, List.map_nil, List.mem_cons, List.not_mem_nil, or_false] at hm
    rcases hm with rfl | rfl
    · rw [hn'] at hx
      exact Or.inl (List.mem_singleton.1 hx)
    · refine Or.inr ⟨g.heap.length, Nat.le_refl _, by omega, ?_⟩
      rw [List.mem_singleton.1 hx]
      exact hmine
  · intro m hm
    simp only [List.cons_append, List.nil_append, List.map_cons, List.map_nil, List.mem_cons, List.not_mem_nil, or_false] at hm
    rcases hm with rfl | rfl
    · exact hplain
    · exact hp
  · intro env e he hD
    refine law e _ ?_ ?_ hD
    · exact (he n' (by simp)).one hn' hoe hplain
    · exact NodeSat.one (he ⟨fresh g.heap.length, op, "", attr, xs, [outName fresh g.heap.length]⟩ (by simp)) rfl (outName_ne _) hp

/-- A change of the operator only (no new nodes). -/
theorem inPlace_step {V : Type} {I : Interp V} {D : List (Option V) → Prop} (hf : FreshTensors fresh) (hv : HInv fresh g)
    (h0 : r ∈ g.nodes) (hnin : (g.node r).isGraphInput = false) (hc : (g.node r).op ≠ "Const") {o : String}
    (hout : (g.node r).output = [o]) (hoe : o ≠ "") {n' : Node}
    (c : Conv g r g' (fun q i => ConstOut g i ∨ X q i) id [(r, n')])
    (hX : ∀ q ∈ g'.nodes, ∀ i ∈ (g'.node q).input, X q i → ConstOut g' i) (hT : TabEq g g')
    (hn' : n'.output = [o]) (hn'i : ∀ i ∈ n'.input, i = "" ∨ i ∈ (g.node r).input) (hplain : n'.isGraphInput = false)
    (law : ∀ e, e o = I n'.op n'.domain n'.attr (argVals e n') 0 →
      D (argVals e (g.node r)) → e o = I (g.node r).op (g.node r).domain (g.node r).attr (argVals e (g.node r)) 0) :
    ConvStep I D fresh g r g' := by
  have c2 := c.congrRen (ren' := fun x => if x = o then o else x) (by
    intro x; by_cases e : x = o
    · subst e; simp
    · simp [e])
  refine c2.stepOne (fun q hq i hi hx => hx.elim (c.constOut hc) (hX q hq i hi)) hf hv h0 hnin hout hoe (fun _ => rfl)
    (fun x _ _ => hT.keeps x) (hT.keeps o) (List.Perm.refl _) ⟨hn'i, trivial⟩ ?_ ?_ ⟨n', by simp, by simp [hn']⟩ hoe ?_
  · intro m hm x hx hxe
    simp only [List.map_cons, List.map_nil, List.mem_singleton] at hm
    subst hm
    rw [hn'] at hx
    exact Or.inl (List.mem_singleton.1 hx)
  · intro m hm
    simp only [List.map_cons, List.map_nil, List.mem_singleton] at hm
    subst hm
    exact hplain
  · intro env e he hD
    exact law e ((he n' (by simp)).one hn' hoe hplain) hD

theorem argVals_two {V : Type} {e : String → V} {n : Node} {x y : String} {a b : V} (hin : n.input = [x, y])
    (h : argVals e n = [some a, some b]) : x ≠ "" ∧ y ≠ "" ∧ e x = a ∧ e y = b := by
  simp only [argVals, hin, List.map_cons, List.map_nil, argVal] at h
  by_cases h1 : x = "" <;> by_cases h2 : y = "" <;> simp_all

theorem argVals_one {V : Type} {e : String → V} {n : Node} {x : String} {a : V} (hin : n.input = [x])
    (h : argVals e n = [some a]) : x ≠ "" ∧ e x = a := by
  simp only [argVals, hin, List.map_cons, List.map_nil, argVal] at h
  by_cases h1 : x = "" <;> simp_all

@[simp] theorem argVal_port {V : Type} (e : String → V) (s : String) : argVal e (s ++ ":0") = some (e (s ++ ":0")) := by
  have : s ++ ":0" ≠ "" := by
    intro h
    have := congrArg String.length h
    simp at this
  exact if_neg this

theorem argVal_name {V : Type} {e : String → V} {x : String} (h : x ≠ "") : argVal e x = some (e x) := if_neg h

/-- `insert_new_node_on_input` in front of slot `i`, the first that reads `x`. -/
theorem Conv.newOnInput (c : Conv g0 r0 g X ren ((r, n) :: N)) (hw0 : WF g0) (hf : FreshNames fresh) {op x : String}
    {attr : Dict String Attr} {i : Nat} (h : g.newOnInput fresh r op x attr = .ok g') (hi : n.input.findIdx? (· = x) = some i) :
    g'.heap.length = g.heap.length + 1 ∧
    Conv g0 r0 g' (fun q j => X q j ∨ (q = r ∧ j = x)) ren ((r, n.setInput i (outName fresh g.heap.length)) ::
      (N ++ [(g.heap.length, ⟨fresh g.heap.length, op, "", attr, [x], [outName fresh g.heap.length]⟩)])) := by
  simp only [G.newOnInput, bind, Except.bind] at h
  split at h
  · cases h
  rename_i p hp
  obtain ⟨g1, r1⟩ := p
  obtain ⟨h1, h2, c1⟩ := c.make (hf.ne _) (List.Nodup.filter _ (by simp)) hp
  have h1 : r1 = g.heap.length := h1
  subst h1
  have hn1 : g1.node r = n := c1.node_eq (p := (r, n)) (by simp)
  simp only [hn1, hi] at h
  rw [List.cons_append] at c1
  obtain ⟨-, c2⟩ := c1.replaceInputAt hw0 h
  refine ⟨?_, c2⟩
  rw [← h2]
  exact (replaceInputAt_spec h).2.1.len

theorem newOnInput_tab {op x : String} {attr : Dict String Attr} (h : g.newOnInput fresh r op x attr = .ok g') : TabEq g g' := by
  simp only [G.newOnInput, bind, Except.bind] at h
  split at h
  · cases h
  rename_i p hp
  obtain ⟨g1, r1⟩ := p
  simp only at h
  split at h
  · cases h; exact makeNode_tab hp
  · exact (makeNode_tab hp).trans (replaceInputAt_tab h)

theorem castInputs_tab {u : Nat} {is : List Nat} : ∀ {g g' : G}, G.castInputs fresh r u is g = .ok g' → TabEq g g' := by
  induction is with
  | nil => intro g g' h; cases h; exact .refl _
  | cons i is ih =>
    intro g g' h
    simp only [G.castInputs] at h
    split at h
    · cases h; exact .refl _
    simp only [bind, Except.bind] at h
    split at h
    · cases h
    rename_i g1 h1
    exact (newOnInput_tab h1).trans (ih h)

/-- The node reading new tensors. -/
def Node.withInput (n : Node) (xs : List String) : Node := { n with input := xs }

/-- `Cast` in front of both inputs of a node with two inputs. -/
theorem Conv.castInputs2 (c : Conv g0 r0 g X ren [(r, n)]) (hw0 : WF g0) (hf : FreshNames fresh) {x y : String} {tt : Nat}
    (hin : n.input = [x, y]) (hnew : outName fresh g.heap.length ≠ x ∧ outName fresh g.heap.length ≠ y ∧
      outName fresh (g.heap.length + 1) ≠ x ∧ outName fresh (g.heap.length + 1) ≠ y)
    (h : G.castInputs fresh r tt (List.range n.input.length) g = .ok g') :
    g'.heap.length = g.heap.length + 2 ∧
    Conv g0 r0 g' X ren ((r, n.withInput [outName fresh g.heap.length, outName fresh (g.heap.length + 1)]) ::
      [(g.heap.length, ⟨fresh g.heap.length, "Cast", "", [("to", .int tt)], [x], [outName fresh g.heap.length]⟩),
       (g.heap.length + 1, ⟨fresh (g.heap.length + 1), "Cast", "", [("to", .int tt)], [y], [outName fresh (g.heap.length + 1)]⟩)]) := by
  have hn : g.node r = n := c.node_eq (p := (r, n)) (by simp)
  rw [hin, show List.range [x, y].length = [0, 1] from rfl] at h
  simp only [G.castInputs, bind, Except.bind, hn, hin, List.getElem?_cons_zero] at h
  split at h
  · cases h
  rename_i g1 h1
  obtain ⟨a1, c1⟩ := c.newOnInput hw0 hf h1 (i := 0) (by rw [hin]; simp [List.findIdx?_cons])
  have hn1 : g1.node r = n.setInput 0 (outName fresh g.heap.length) :=
    c1.node_eq (p := (r, n.setInput 0 (outName fresh g.heap.length))) (by simp)
  have hin1 : (n.setInput 0 (outName fresh g.heap.length)).input = [outName fresh g.heap.length, y] := by simp [Node.setInput, hin]
  rw [hn1, hin1] at h
  simp only [List.getElem?_cons_succ, List.getElem?_cons_zero] at h
  split at h
  · cases h
  rename_i g2 h2
  cases h
  obtain ⟨a2, c2⟩ := c1.newOnInput hw0 hf h2 (i := 1) (by rw [hin1]; simp [List.findIdx?_cons, hnew.2.1])
  refine ⟨by rw [a2, a1], ?_⟩
  rw [a1] at c2
  have hn2 : (n.setInput 0 (outName fresh g.heap.length)).setInput 1 (outName fresh (g.heap.length + 1)) =
      n.withInput [outName fresh g.heap.length, outName fresh (g.heap.length + 1)] := by
    simp [Node.setInput, Node.withInput, hin]
  rw [hn2] at c2
  refine Conv.clear c2 ?_
  intro q hq i hi hx
  rcases hx with (hx | ⟨rfl, rfl⟩) | ⟨rfl, rfl⟩
  · exact hx
  · rw [c2.node_eq (p := (_, n.withInput [outName fresh g.heap.length, outName fresh (g.heap.length + 1)])) (by simp)] at hi
    simp [Node.withInput] at hi
    rcases hi with rfl | rfl
    · exact (hnew.1 rfl).elim
    · exact (hnew.2.2.1 rfl).elim
  · rw [c2.node_eq (p := (_, n.withInput [outName fresh g.heap.length, outName fresh (g.heap.length + 1)])) (by simp)] at hi
    simp [Node.withInput] at hi
    rcases hi with rfl | rfl
    · exact (hnew.2.1 rfl).elim
    · exact (hnew.2.2.2 rfl).elim

/-- The node made by `insert_new_node_on_input(node, op, x, **attr)` when `k` node objects exist. -/
def preNode (fresh : Nat → String) (k : Nat) (op : String) (attr : Dict String Attr) (x : String) : Node :=
  ⟨fresh k, op, "", attr, [x], [outName fresh k]⟩

/-- The node now reads two new nodes in front of it. -/
theorem casted_step {V : Type} {I : Interp V} {D : List (Option V) → Prop} (hf : FreshTensors fresh) (hv : HInv fresh g)
    (h0 : r ∈ g.nodes) (hnin : (g.node r).isGraphInput = false) (hc : (g.node r).op ≠ "Const") {x y o : String}
    (hin : (g.node r).input = [x, y]) (hout : (g.node r).output = [o]) (hoe : o ≠ "") {n' : Node} {op1 op2 : String}
    {at1 at2 : Dict String Attr}
    (c : Conv g r g' (fun _ i => ConstOut g i) id ((r, n') ::
      [(g.heap.length, preNode fresh g.heap.length op1 at1 x), (g.heap.length + 1, preNode fresh (g.heap.length + 1) op2 at2 y)]))
    (hlen : g'.heap.length = g.heap.length + 2) (hT : TabEq g g')
    (hn' : n'.output = [o]) (hn'i : n'.input = [outName fresh g.heap.length, outName fresh (g.heap.length + 1)])
    (hplain : n'.isGraphInput = false) (hp1 : (Node.mk "" op1 "" at1 [] []).isGraphInput = false)
    (hp2 : (Node.mk "" op2 "" at2 [] []).isGraphInput = false)
    (law : ∀ e a b, e a = I op1 "" at1 [argVal e x] 0 → e b = I op2 "" at2 [argVal e y] 0 →
      e o = I n'.op n'.domain n'.attr [some (e a), some (e b)] 0 →
      D (argVals e (g.node r)) → e o = I (g.node r).op (g.node r).domain (g.node r).attr (argVals e (g.node r)) 0) :
    ConvStep I D fresh g r g' := by
  have c2 := c.congrRen (ren' := fun x => if x = o then o else x) (by
    intro x; by_cases e : x = o
    · subst e; simp
    · simp [e])
  refine c2.stepOne (L := [preNode fresh g.heap.length op1 at1 x, preNode fresh (g.heap.length + 1) op2 at2 y, n'])
    (fun q hq i hi hx => c.constOut hc hx) hf hv h0 hnin hout hoe (fun _ => rfl) (fun x _ _ => hT.keeps x) (hT.keeps o)
    ?_ ?_ ?_ ?_ ⟨n', by simp, by simp [hn']⟩ hoe ?_
  · exact (List.perm_append_comm (l₁ := [preNode fresh g.heap.length op1 at1 x, preNode fresh (g.heap.length + 1) op2 at2 y]) (l₂ := [n']))
  · simp [Fed, preNode, hin, hn'i]
  · intro m hm z hz hze
    simp only [List.mem_cons, List.not_mem_nil, or_false] at hm
    rcases hm with rfl | rfl | rfl
    · exact Or.inr ⟨g.heap.length, Nat.le_refl _, by omega, Or.inr (by simpa [preNode] using hz)⟩
    · exact Or.inr ⟨g.heap.length + 1, by omega, by omega, Or.inr (by simpa [preNode] using hz)⟩
    · rw [hn'] at hz
      exact Or.inl (List.mem_singleton.1 hz)
  · intro m hm
    simp only [List.mem_cons, List.not_mem_nil, or_false] at hm
    rcases hm with rfl | rfl | rfl
    · exact hp1
    · exact hp2
    · exact hplain
  · intro env e he hD
    have h1 := NodeSat.one (he (preNode fresh g.heap.length op1 at1 x) (by simp)) (x := outName fresh g.heap.length) rfl (outName_ne _) hp1
    have h2 := NodeSat.one (he (preNode fresh (g.heap.length + 1) op2 at2 y) (by simp)) (x := outName fresh (g.heap.length + 1)) rfl
      (outName_ne _) hp2
    have h3 := NodeSat.one (he n' (by simp)) hn' hoe hplain
    refine law e _ _ h1 h2 ?_ hD
    rw [h3]
    simp [argVals, hn'i, argVal, outName_ne]

/-- The node now reads two new nodes in front of it, and its readers a new node behind it. -/
theorem castedOut_step {V : Type} {I : Interp V} {D : List (Option V) → Prop} (hf : FreshTensors fresh) (hv : HInv fresh g)
    (h0 : r ∈ g.nodes) (hnin : (g.node r).isGraphInput = false) (hc : (g.node r).op ≠ "Const") {x y o : String}
    (hin : (g.node r).input = [x, y]) (hout : (g.node r).output = [o]) (hoe : o ≠ "") (hno : o ∉ g.outputs) {g1 : G} {n' : Node}
    {op1 op2 : String} {at1 at2 : Dict String Attr}
    (c : Conv g r g1 (fun _ i => ConstOut g i) id ((r, n') ::
      [(g.heap.length, preNode fresh g.heap.length op1 at1 x), (g.heap.length + 1, preNode fresh (g.heap.length + 1) op2 at2 y)]))
    (hlen : g1.heap.length = g.heap.length + 2) (hT : TabEq g g1)
    (hn' : n'.output = [o]) (hn'i : n'.input = [outName fresh g.heap.length, outName fresh (g.heap.length + 1)])
    (hplain : n'.isGraphInput = false) (hp1 : (Node.mk "" op1 "" at1 [] []).isGraphInput = false)
    (hp2 : (Node.mk "" op2 "" at2 [] []).isGraphInput = false) {op3 : String} {at3 : Dict String Attr}
    (hp3 : (Node.mk "" op3 "" at3 [] []).isGraphInput = false)
    (h : g1.newOnOutput fresh op3 o [o] at3 = .ok g')
    (law : ∀ e a b z, e a = I op1 "" at1 [argVal e x] 0 → e b = I op2 "" at2 [argVal e y] 0 →
      e o = I n'.op n'.domain n'.attr [some (e a), some (e b)] 0 → e z = I op3 "" at3 [some (e o)] 0 →
      D (argVals e (g.node r)) → e z = I (g.node r).op (g.node r).domain (g.node r).attr (argVals e (g.node r)) 0) :
    ConvStep I D fresh g r g' := by
  have hself := hv.not_self h0 (o := o) (by simp [hout]) hoe
  have hmine : ∀ k, g.heap.length ≤ k → o ≠ outName fresh k := by
    rintro k hk e
    exact hv.unmade k _ hk (Or.inr rfl) r h0 (by rw [← e]; simp [hout])
  have hne : o ≠ outName fresh g1.heap.length := hmine _ (by omega)
  obtain ⟨h1, c1, k1, k2⟩ := c.newOnOutput hv.reach.wf hf.toFreshNames h
    (fun q hq => hv.reach.wf.not_constOut h0 hc (by simp [hout]) hoe hq) hne (by
      intro p hp
      simp only [List.mem_cons, List.not_mem_nil, or_false] at hp
      rcases hp with rfl | rfl | rfl
      · simp only [hn'i, List.mem_cons, List.not_mem_nil, or_false]
        rintro (e | e)
        · exact hmine _ (Nat.le_refl _) e
        · exact hmine _ (by omega) e
      · simp only [preNode, List.mem_singleton]
        rintro rfl
        exact hself (by simp [hin])
      · simp only [preNode, List.mem_singleton]
        rintro rfl
        exact hself (by simp [hin]))
  rw [hlen] at h1 c1 k1 k2
  have c2 := c1.congrRen (ren' := fun x => if x = o then outName fresh (g.heap.length + 2) else x) (by intro x; rfl)
  let post : Node := ⟨fresh (g.heap.length + 2), op3, "", at3, [o], [outName fresh (g.heap.length + 2)]⟩
  refine c2.stepOne (L := [preNode fresh g.heap.length op1 at1 x, preNode fresh (g.heap.length + 1) op2 at2 y, n', post])
    (fun q hq i hi hx => c1.constOut hc hx) hf hv h0 hnin hout hoe (fun h => (hno h).elim)
    (fun x _ hx => (hT.keeps x).trans (k1 x (fun e => hx (g.heap.length + 2) (by omega) (Or.inr e)))) ((hT.keeps o).trans k2) ?_ ?_ ?_ ?_
    ⟨post, by simp, by simp [post]⟩ (outName_ne _) ?_
  · exact (List.perm_append_comm (l₁ := [preNode fresh g.heap.length op1 at1 x, preNode fresh (g.heap.length + 1) op2 at2 y])
      (l₂ := [n'])).append (List.Perm.refl [post])
  · simp [Fed, preNode, hin, hn'i, post, hn']
  · intro m hm z hz hze
    simp only [List.mem_cons, List.not_mem_nil, or_false] at hm
    rcases hm with rfl | rfl | rfl | rfl
    · exact Or.inr ⟨g.heap.length, Nat.le_refl _, by omega, Or.inr (by simpa [preNode] using hz)⟩
    · exact Or.inr ⟨g.heap.length + 1, by omega, by omega, Or.inr (by simpa [preNode] using hz)⟩
    · rw [hn'] at hz
      exact Or.inl (List.mem_singleton.1 hz)
    · exact Or.inr ⟨g.heap.length + 2, by omega, by omega, Or.inr (by simpa [post] using hz)⟩
  · intro m hm
    simp only [List.mem_cons, List.not_mem_nil, or_false] at hm
    rcases hm with rfl | rfl | rfl | rfl
    · exact hp1
    · exact hp2
    · exact hplain
    · exact hp3
  · intro env e he hD
    have h1 := NodeSat.one (he (preNode fresh g.heap.length op1 at1 x) (by simp)) (x := outName fresh g.heap.length) rfl (outName_ne _) hp1
    have h2 := NodeSat.one (he (preNode fresh (g.heap.length + 1) op2 at2 y) (by simp)) (x := outName fresh (g.heap.length + 1)) rfl
      (outName_ne _) hp2
    have h3 := NodeSat.one (he n' (by simp)) hn' hoe hplain
    have h4 := NodeSat.one (he post (by simp)) (x := outName fresh (g.heap.length + 2)) rfl (outName_ne _) hp3
    refine law e _ _ _ h1 h2 ?_ ?_ hD
    · rw [h3]
      simp [argVals, hn'i, argVal, outName_ne]
    · rw [h4]
      simp [argVals, argVal, post, hoe]

end Verif.Graph
