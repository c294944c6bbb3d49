import Verif.Props.Ranked
import Verif.Model.IdentityOpt
/-!
# C13: identity elimination preserves the model
-/
namespace Verif.Graph
open Verif

/-- What `Identity` means: its first output is its input. -/
def IdentityLaw (V : Type) (I : Interp V) : Prop := ∀ dom attr v, I "Identity" dom attr [some v] 0 = v

/-- Every `Identity` node has one input and one output (its ONNX signature), and `Graph.inputs` lists placeholders. -/
structure IdShape (g : G) : Prop where
  sig : ∀ r ∈ g.nodes, (g.node r).op = "Identity" →
    (g.node r).input.length = 1 ∧ (g.node r).output.length = 1 ∧ "" ∉ (g.node r).input ∧ "" ∉ (g.node r).output
  inputs : ∀ r ∈ g.inputs, (g.node r).isGraphInput = true

theorem IdShape.ident {g : G} (h : IdShape g) (r : Ref) (hr : r ∈ g.nodes) (hop : (g.node r).op = "Identity") :
    ∃ i o, (g.node r).input = [i] ∧ (g.node r).output = [o] ∧ i ≠ "" ∧ o ≠ "" := by
  obtain ⟨h1, h2, h3, h4⟩ := h.sig r hr hop
  obtain ⟨i, hi⟩ := List.length_eq_one_iff.1 h1
  obtain ⟨o, ho⟩ := List.length_eq_one_iff.1 h2
  refine ⟨i, o, hi, ho, ?_, ?_⟩
  · rintro rfl; exact h3 (by simp [hi])
  · rintro rfl; exact h4 (by simp [ho])

theorem IdShape.mk' {g : G} (h : ∀ r ∈ g.nodes, (g.node r).op = "Identity" →
    ∃ i o, (g.node r).input = [i] ∧ (g.node r).output = [o] ∧ i ≠ "" ∧ o ≠ "")
    (h' : ∀ r ∈ g.inputs, (g.node r).isGraphInput = true) : IdShape g := by
  refine ⟨fun r hr hop => ?_, h'⟩
  obtain ⟨i, o, h1, h2, h3, h4⟩ := h r hr hop
  rw [h1, h2]
  exact ⟨rfl, rfl, by simpa using h3.symm, by simpa using h4.symm⟩

/-- Invariant of the pass, with a fixed ranking of the node objects. -/
structure IdInv (ρ : Ref → Nat) (g : G) : Prop where
  reach : Reachable g
  ranked : RankedBy g ρ
  shape : IdShape g

/-- If every valuation of an acyclic graph can be turned into one of another acyclic graph with the same values on the
outputs, both compute the same. -/
theorem computes_of_transport {g g' : G} (hr : Reachable g) (ha : Acyclic g.nodeList) (ha' : Acyclic g'.nodeList)
    (hout : g'.outputs = g.outputs) {V : Type} {I : Interp V} {env : String → V}
    (h : ∀ e, Sat I env e g.nodeList → ∃ e', Sat I env e' g'.nodeList ∧ ∀ o ∈ g.outputs, e' o = e o) (out : List V) :
    Computes I g' env out ↔ Computes I g env out := by
  obtain ⟨e, he⟩ := sat_exists (I := I) (env := env) hr.uniqueOutputs ha
  obtain ⟨e', he', hag⟩ := h e he
  have hmap : g'.outputs.map e' = g.outputs.map e := by
    rw [hout]; exact List.map_congr_left hag
  constructor
  · rintro ⟨f, hf, rfl⟩
    rw [sat_unique ha' hf he', hmap]; exact ⟨e, he, rfl⟩
  · rintro ⟨f, hf, rfl⟩
    rw [sat_unique ha hf he, ← hmap]; exact ⟨e', he', rfl⟩

theorem SameModel.refl (P : ∀ V : Type, Interp V → Prop) (g : G) : SameModel P g g :=
  ⟨rfl, rfl, fun _ _ _ _ _ => Iff.rfl⟩

theorem SameModel.trans {P : ∀ V : Type, Interp V → Prop} {a b c : G} (h : SameModel P a b) (h' : SameModel P b c) :
    SameModel P a c :=
  ⟨h'.outputs.trans h.outputs, h'.inputs.trans h.inputs,
   fun V I hP env out => (h'.values V I hP env out).trans (h.values V I hP env out)⟩

theorem redirect_argVals' {V : Type} {e e' : String → V} {n : Node} {old new : String} (ho : old ≠ "") (hn : new ≠ "")
    (hne : old ≠ new) (h : e old = e new) (he : ∀ x, x ≠ old → e' x = e x) :
    argVals e' (n.redirect old new) = argVals e n := by
  rw [← redirect_argVals (n := n) ho hn h]
  apply argVals_congr
  intro i hi _
  apply he
  rintro rfl
  exact Node.not_mem_redirect hne hi

theorem identity_not_input {n : Node} (h : n.op = "Identity") : n.isGraphInput = false := by
  unfold Node.isGraphInput; rw [h]; decide

theorem identity_eq {V : Type} {I : Interp V} (hI : IdentityLaw V I) {env e : String → V} {n : Node} {i o : String}
    (hop : n.op = "Identity") (hin : n.input = [i]) (hout : n.output = [o]) (hi : i ≠ "") (ho : o ≠ "")
    (h : NodeSat I env e n) : e o = e i := by
  have := h 0 o (by simp [hout]) ho
  rw [identity_not_input hop] at this
  simpa [argVals, hin, argVal, hi, hop, hI n.domain n.attr (e i)] using this

theorem mem_redirect_input {n : Node} {old new x : String} (h : x ∈ (n.redirect old new).input) :
    (x ≠ old ∧ x ∈ n.input) ∨ (x = new ∧ old ∈ n.input) := by
  simp only [Node.redirect, List.mem_map] at h
  obtain ⟨y, hy, e⟩ := h
  split at e
  · rename_i hyo; subst hyo; exact Or.inr ⟨e.symm, hy⟩
  · rename_i hyo; subst e; exact Or.inl ⟨hyo, hy⟩

theorem mem_nodeList {g : G} {n : Node} : n ∈ g.nodeList ↔ ∃ r ∈ g.nodes, g.node r = n := by
  simp [G.nodeList]

/-- Removing an inner identity. -/
theorem identityInner_spec {ρ : Ref → Nat} {g g' : G} {r : Ref} (hv : IdInv ρ g) (hr : r ∈ g.nodes)
    (hop : (g.node r).op = "Identity") (hno : (g.node r).output.any (· ∈ g.outputs) = false)
    (h : g.identityInner r = .ok g') :
    IdInv ρ g' ∧ SameModel IdentityLaw g g' ∧ g'.nodes = g.nodes.erase r ∧ (∀ q, (g'.node q).op = (g.node q).op) ∧ Carry g g' := by
  obtain ⟨i, o, hin, hout, hi, ho⟩ := hv.shape.ident r hr hop
  have hw := hv.reach.wf
  simp only [G.identityInner, hin, hout, bind, Except.bind] at h
  split at h
  · cases h
  · rename_i g1 hg1
    have hr1 : Reachable g1 := .step (e := .replaceAllInputs o i (some g.nodes)) hv.reach
      (by intro l hl; cases hl; exact fun r h => h) hg1
    have hr2 : Reachable g' := .step (e := .removeNode (g.node r).name) hr1 trivial h
    obtain ⟨s, hn1, -, -⟩ := replaceAllInputs_spec hw (by intro l hl; cases hl; exact fun r h => h) hg1
    obtain ⟨r', hname, hrem⟩ := removeNode_removed hr1.wf h
    have hrr : r' = r := by
      have h1 : r' ∈ g.nodes := by rw [← s.nodes]; exact hrem.mem
      exact hw.name_inj h1 hr (by rw [← s.name, hname])
    subst hrr
    have hrio : i ≠ o := by
      rintro rfl
      exact Nat.lt_irrefl _ (hv.ranked r' hr r' hr ⟨i, hi, by simp [hin], by simp [hout]⟩)
    have hnodes : g'.nodes = g.nodes.erase r' := by rw [hrem.nodes, s.nodes]
    have hmem : ∀ q, q ∈ g'.nodes ↔ q ≠ r' ∧ q ∈ g.nodes := by
      intro q; rw [hnodes, hw.nodup.mem_erase_iff]
    have hnode : ∀ q ∈ g.nodes, g'.node q = (g.node q).redirect o i := by
      intro q hq
      rw [hrem.node, hn1]
      simp [hq]
    have hnode' : ∀ q, (g'.node q).op = (g.node q).op ∧ (g'.node q).output = (g.node q).output := by
      intro q; rw [hrem.node, hn1]; split <;> simp [Node.redirect]
    have hgi : ∀ q, (g'.node q).isGraphInput = (g.node q).isGraphInput := by
      intro q; simp [Node.isGraphInput, (hnode' q).1]
    have hinp : g'.inputs = g.inputs := by
      rw [hrem.inputs, s.inputs, List.erase_of_not_mem]
      intro hc
      have := hv.shape.inputs r' hc
      rw [identity_not_input hop] at this; cases this
    have hoo : o ∉ g.outputs := by
      intro hc
      rw [hout] at hno
      simp [hc] at hno
    have hranked : RankedBy g' ρ := by
      rintro q hq p hp ⟨x, hx, hxin, hxout⟩
      have hq' := (hmem q).1 hq
      have hp' := (hmem p).1 hp
      rw [hnode q hq'.2] at hxin
      rw [(hnode' p).2] at hxout
      rcases mem_redirect_input hxin with ⟨_, hxi⟩ | ⟨rfl, hoi⟩
      · exact hv.ranked q hq'.2 p hp'.2 ⟨x, hx, hxi, hxout⟩
      · exact Nat.lt_trans (hv.ranked r' hr p hp'.2 ⟨x, hx, by simp [hin], hxout⟩)
          (hv.ranked q hq'.2 r' hr ⟨o, ho, hoi, by simp [hout]⟩)
    have hcarry : Carry g g' := by
      refine ⟨fun q hq => ((hmem q).1 hq).2, fun q _ => (hnode' q).1, ?_, ?_, fun q _ => by rw [(hnode' q).2], ?_, fun q _ => by rw [(hnode' q).2]; exact id, ?_⟩
      · intro q hq; rw [hnode q ((hmem q).1 hq).2]; rfl
      · intro q hq; rw [hnode q ((hmem q).1 hq).2]; simp [Node.redirect]
      · intro q hq he hc
        rw [hnode q ((hmem q).1 hq).2] at hc
        rcases mem_redirect_input hc with ⟨_, h1⟩ | ⟨h1, _⟩
        · exact he h1
        · exact hi h1.symm
      · intro hm q hq x hx hxe
        rw [hnode q ((hmem q).1 hq).2] at hx
        have step : ∀ y, y ≠ "" → y ≠ o → (∃ p ∈ g.nodes, y ∈ (g.node p).output) → ∃ p ∈ g'.nodes, y ∈ (g'.node p).output := by
          rintro y hy hyo ⟨p, hp, hyp⟩
          refine ⟨p, (hmem p).2 ⟨?_, hp⟩, by rw [(hnode' p).2]; exact hyp⟩
          rintro rfl
          rw [hout] at hyp; simp at hyp; exact hyo hyp
        rcases mem_redirect_input hx with ⟨h1, h2⟩ | ⟨h1, _⟩
        · exact step x hxe h1 (hm q ((hmem q).1 hq).2 x h2 hxe)
        · subst h1
          exact step x hxe hrio (hm r' hr x (by simp [hin]) hxe)
    refine ⟨⟨hr2, hranked, IdShape.mk' ?_ ?_⟩, ⟨?_, ?_, ?_⟩, hnodes, fun q => (hnode' q).1, hcarry⟩
    · intro q hq hqop
      have hq' := (hmem q).1 hq
      rw [(hnode' q).1] at hqop
      obtain ⟨i', o', h1, h2, h3, h4⟩ := hv.shape.ident q hq'.2 hqop
      rw [hnode q hq'.2]
      refine ⟨if i' = o then i else i', o', by simp [Node.redirect, h1], by simp [Node.redirect, h2], ?_, h4⟩
      split <;> assumption
    · intro q hq
      rw [hgi]; rw [hinp] at hq; exact hv.shape.inputs q hq
    · rw [hrem.outputs, s.outputs]
    · rw [hinp]; exact List.map_congr_left (fun q _ => (hnode' q).2)
    · intro V I hI env out
      refine computes_of_transport hv.reach hv.ranked.acyclic hranked.acyclic (by rw [hrem.outputs, s.outputs]) ?_ out
      intro e he
      have heq : e o = e i :=
        identity_eq hI hop hin hout hi ho (he.1 _ (mem_nodeList.2 ⟨r', hr, rfl⟩))
      refine ⟨fun x => if x = o then env o else e x, ⟨?_, ?_⟩, ?_⟩
      · intro n hn
        obtain ⟨q, hq, rfl⟩ := mem_nodeList.1 hn
        have hq' := (hmem q).1 hq
        rw [hnode q hq'.2]
        intro j y hj hy
        have hy' : y ∈ (g.node q).output := List.mem_of_getElem? hj
        have hyo : y ≠ o := by
          rintro rfl
          exact hq'.1 (hw.out_inj hy hq'.2 hr hy' (by simp [hout]))
        have := he.1 _ (mem_nodeList.2 ⟨q, hq'.2, rfl⟩) j y hj hy
        rw [redirect_argVals' (e := e) ho hi (Ne.symm hrio) heq (by intro x hx; simp [hx])]
        simp only [if_neg hyo]
        exact this
      · intro x hx
        simp only
        split
        · rename_i e'; rw [e']
        · rename_i hxo
          apply he.2
          refine hx.imp id (fun hx n hn hxn => ?_)
          obtain ⟨q, hq, rfl⟩ := mem_nodeList.1 hn
          by_cases e' : q = r'
          · subst e'; rw [hout] at hxn; simp at hxn; exact hxo hxn
          · exact hx _ (mem_nodeList.2 ⟨q, (hmem q).2 ⟨e', hq⟩, rfl⟩) (by rw [(hnode' q).2]; exact hxn)
      · intro x hx
        simp only
        rw [if_neg]
        rintro rfl; exact hoo hx

theorem setShape_same {g g' : G} {n : String} {s : Shapes.Shape} (h : g.setShape n s = .ok g') :
    Same g g' ∧ g'.heap = g.heap := by
  unfold G.setShape at h
  split at h
  · cases h
  · cases h; exact ⟨Same.of_heap rfl rfl rfl rfl rfl rfl, rfl⟩

theorem setDtype_same {g g' : G} {n : String} {t : Nat} (h : g.setDtype n t = .ok g') :
    Same g g' ∧ g'.heap = g.heap := by
  unfold G.setDtype at h
  split at h
  · cases h
  · cases h; exact ⟨Same.of_heap rfl rfl rfl rfl rfl rfl, rfl⟩

theorem setOutputs_io {g g' : G} {r : Ref} {outs : List String} (h : g.setOutputs r outs = .ok g') :
    g'.inputs = g.inputs ∧ g'.outputs = g.outputs := by
  unfold G.setOutputs at h
  simp only [bind, Except.bind] at h
  split at h
  · cases h
  · rename_i g1 hg1
    obtain ⟨a1, a2, a3, a4, a5, a6, a7⟩ := delOutputs_facts _ _ _ hg1
    obtain ⟨b1, b2, b3, b4, b5, b6, b7, b8, b9⟩ := addOutputs_facts _ _ _ _ h
    exact ⟨b5.trans a5, b6.trans a6⟩

/-- Moving a graph output's name to the node that computes it. -/
theorem identityOuter_spec {ρ : Ref → Nat} {g g' : G} {r : Ref} {b : Bool} (hv : IdInv ρ g) (hr : r ∈ g.nodes)
    (hop : (g.node r).op = "Identity") (h : g.identityOuter r = .ok (g', b)) :
    IdInv ρ g' ∧ SameModel IdentityLaw g g' ∧ (b = true → g'.nodes = g.nodes.erase r) ∧ (b = false → g' = g) ∧
    (∀ q, (g'.node q).op = (g.node q).op) ∧ Carry g g' := by
  obtain ⟨i, o, hin, hout, hi, ho⟩ := hv.shape.ident r hr hop
  have hw := hv.reach.wf
  simp only [G.identityOuter, hin, hout] at h
  split at h
  · cases h
  · rename_i p hp
    have hp := (hw.getNodeByOutput hi p).1 hp
    split at h
    · cases h; exact ⟨hv, .refl _ _, by simp, by simp, fun _ => rfl, .refl _⟩
    · rename_i hpi
      split at h
      · cases h; exact ⟨hv, .refl _ _, by simp, by simp, fun _ => rfl, .refl _⟩
      · rename_i hio
        simp only [bind, Except.bind] at h
        split at h
        · cases h
        rename_i g1 hg1
        split at h
        · cases h
        rename_i g2 hg2
        split at h
        · cases h
        rename_i g3 hg3
        split at h
        · cases h
        rename_i g4 hg4
        split at h
        · cases h
        rename_i g5 hg5
        cases h
        -- the state after each edit
        have hr1 : Reachable g1 := .step (e := .removeNode (g.node r).name) hv.reach trivial hg1
        obtain ⟨r', hname, hrem⟩ := removeNode_removed hw hg1
        have hrr : r' = r := hw.name_inj hrem.mem hr hname
        subst hrr
        have hrio : i ≠ o := by
          rintro rfl
          exact Nat.lt_irrefl _ (hv.ranked r' hr r' hr ⟨i, hi, by simp [hin], by simp [hout]⟩)
        have hpr : p ≠ r' := by
          rintro rfl
          rw [hout] at hp; simp at hp; exact hrio hp.2
        have hmem1 : ∀ q, q ∈ g1.nodes ↔ q ≠ r' ∧ q ∈ g.nodes := by
          intro q; rw [hrem.nodes, hw.nodup.mem_erase_iff]
        have hp1 : p ∈ g1.nodes := (hmem1 p).2 ⟨hpr, hp.1⟩
        have hnp : g1.node p = g.node p := hrem.node p
        rw [hnp] at hg2
        have hr2 : Reachable g2 := .step (e := .setOutputs p _) hr1 hp1 hg2
        obtain ⟨hw2, hn2, hheap2, -, -⟩ := setOutputs_spec hr1.wf hp1 hg2
        have hio2 : g2.inputs = g1.inputs ∧ g2.outputs = g1.outputs := setOutputs_io hg2
        have hr3 : Reachable g3 ∧ Same g2 g3 ∧ g3.heap = g2.heap := by
          unfold G.setShapeOpt at hg3
          split at hg3
          · exact ⟨.step (e := .setShape _ _) hr2 trivial hg3, setShape_same hg3⟩
          · cases hg3; exact ⟨hr2, .refl _, rfl⟩
        have hr4 : Reachable g4 ∧ Same g2 g4 ∧ g4.heap = g2.heap := by
          unfold G.setDtypeOpt at hg4
          split at hg4
          · exact ⟨.step (e := .setDtype _ _) hr3.1 trivial hg4, hr3.2.1.trans (setDtype_same hg4).1,
              (setDtype_same hg4).2.trans hr3.2.2⟩
          · cases hg4; exact hr3
        have hr5 : Reachable g' := .step (e := .replaceAllInputs i o (some g4.nodes)) hr4.1
          (by intro l hl; cases hl; exact fun r h => h) hg5
        obtain ⟨s, hn5, -, -⟩ := replaceAllInputs_spec hr4.1.wf (by intro l hl; cases hl; exact fun r h => h) hg5
        have hnodes : g'.nodes = g.nodes.erase r' := by rw [s.nodes, hr4.2.1.nodes, hn2, hrem.nodes]
        have hmem : ∀ q, q ∈ g'.nodes ↔ q ≠ r' ∧ q ∈ g.nodes := by
          intro q; rw [hnodes, hw.nodup.mem_erase_iff]
        have hinputs : g'.inputs = g.inputs := by
          rw [s.inputs, hr4.2.1.inputs, hio2.1, hrem.inputs, List.erase_of_not_mem]
          intro hc
          have := hv.shape.inputs r' hc
          rw [identity_not_input hop] at this; cases this
        have houtputs : g'.outputs = g.outputs := by rw [s.outputs, hr4.2.1.outputs, hio2.2, hrem.outputs]
        have hvp : p < g.heap.length := hw.valid p hp.1
        -- the nodes afterwards
        have hnode4 : ∀ q, g4.node q = if q = p then
            { g.node p with output := (g.node p).output.map (fun y => if y = i then o else y) } else g.node q := by
          intro q
          have : g4.heap = g.heap.set p
              { g.node p with output := (g.node p).output.map (fun y => if y = i then o else y) } := by
            rw [hr4.2.2, hheap2, hrem.heap, hnp]
          simp only [G.node, this]
          split
          · rename_i e; subst e; rw [List.getElem?_set_self hvp]; rfl
          · rename_i e; rw [List.getElem?_set_ne (fun h => e h.symm)]
        have hnodeP : g'.node p = Node.redirect
            { g.node p with output := (g.node p).output.map (fun y => if y = i then o else y) } i o := by
          rw [hn5, hnode4]
          have : p ∈ g4.nodes := by rw [← s.nodes]; exact (hmem p).2 ⟨hpr, hp.1⟩
          simp [this]
        have hnodeQ : ∀ q ∈ g'.nodes, q ≠ p → g'.node q = (g.node q).redirect i o := by
          intro q hq hqp
          rw [hn5, hnode4]
          have : q ∈ g4.nodes := by rw [← s.nodes]; exact hq
          simp [this, hqp]
        have hopq : ∀ q, (g'.node q).op = (g.node q).op := by
          intro q; rw [hn5, hnode4]; split <;> split <;> simp_all [Node.redirect]
        have hgi : ∀ q, (g'.node q).isGraphInput = (g.node q).isGraphInput := by
          intro q; simp [Node.isGraphInput, hopq q]
        have houtQ : ∀ q, q ≠ p → (g'.node q).output = (g.node q).output := by
          intro q hq; rw [hn5, hnode4]; split <;> simp [hq, Node.redirect]
        have hinQ : ∀ q ∈ g'.nodes, (g'.node q).input = ((g.node q).redirect i o).input := by
          intro q hq
          by_cases e : q = p
          · subst e; rw [hnodeP]; rfl
          · rw [hnodeQ q hq e]
        have hprodO : ∀ q ∈ g'.nodes, o ∈ (g'.node q).output → q = p := by
          intro q hq hoq
          by_contra e
          rw [houtQ q e] at hoq
          exact ((hmem q).1 hq).1 (hw.out_inj ho ((hmem q).1 hq).2 hr hoq (by simp [hout]))
        have hprodX : ∀ q x, x ≠ o → x ∈ (g'.node q).output → x ∈ (g.node q).output := by
          intro q x hx hxq
          by_cases e : q = p
          · subst e
            rw [hnodeP] at hxq
            simp only [Node.redirect, List.mem_map] at hxq
            obtain ⟨y, hy, e⟩ := hxq
            split at e
            · exact (hx e.symm).elim
            · subst e; exact hy
          · rwa [houtQ q e] at hxq
        have hranked : RankedBy g' ρ := by
          rintro q hq t ht ⟨x, hx, hxin, hxout⟩
          have hq' := (hmem q).1 hq
          have ht' := (hmem t).1 ht
          rw [hinQ q hq] at hxin
          by_cases hxo : x = o
          · subst hxo
            have := hprodO t ht hxout
            subst this
            rcases mem_redirect_input hxin with ⟨_, hxi⟩ | ⟨_, hoi⟩
            · exact Nat.lt_trans (hv.ranked r' hr t ht'.2 ⟨i, hi, by simp [hin], hp.2⟩)
                (hv.ranked q hq'.2 r' hr ⟨x, ho, hxi, by simp [hout]⟩)
            · exact hv.ranked q hq'.2 t ht'.2 ⟨i, hi, hoi, hp.2⟩
          · rcases mem_redirect_input hxin with ⟨_, hxi⟩ | ⟨rfl, hoi⟩
            · exact hv.ranked q hq'.2 t ht'.2 ⟨x, hx, hxi, hprodX t x hxo hxout⟩
            · exact (hxo rfl).elim
        have hcarry : Carry g g' := by
          refine ⟨fun q hq => ((hmem q).1 hq).2, fun q _ => hopq q, ?_, ?_, ?_, ?_, ?_, ?_⟩
          · intro q hq
            by_cases e : q = p
            · subst e; rw [hnodeP]; rfl
            · rw [hnodeQ q hq e]; rfl
          · intro q hq; rw [hinQ q hq]; simp [Node.redirect]
          · intro q hq
            by_cases e : q = p
            · subst e; rw [hnodeP]; simp [Node.redirect]
            · rw [houtQ q e]
          · intro q hq he hc
            rw [hinQ q hq] at hc
            rcases mem_redirect_input hc with ⟨_, h1⟩ | ⟨h1, _⟩
            · exact he h1
            · exact ho h1.symm
          · intro q hq he hc
            exact he (hprodX q "" (Ne.symm ho) hc)
          · intro hm q hq x hx hxe
            have hpg : p ∈ g'.nodes := (hmem p).2 ⟨hpr, hp.1⟩
            have hpo : o ∈ (g'.node p).output := by
              rw [hnodeP]
              exact List.mem_map.2 ⟨i, hp.2, by simp⟩
            by_cases hxo : x = o
            · subst hxo; exact ⟨p, hpg, hpo⟩
            rw [hinQ q hq] at hx
            rcases mem_redirect_input hx with ⟨h1, h2⟩ | ⟨h1, _⟩
            · obtain ⟨t, ht, hxt⟩ := hm q ((hmem q).1 hq).2 x h2 hxe
              refine ⟨t, (hmem t).2 ⟨?_, ht⟩, ?_⟩
              · rintro rfl
                rw [hout] at hxt; simp at hxt; exact hxo hxt
              · by_cases e : t = p
                · subst e; rw [hnodeP]; exact List.mem_map.2 ⟨x, hxt, by simp [h1]⟩
                · rw [houtQ t e]; exact hxt
            · exact (hxo h1).elim
        refine ⟨⟨hr5, hranked, IdShape.mk' ?_ ?_⟩, ⟨houtputs, ?_, ?_⟩, fun _ => hnodes, by simp, hopq, hcarry⟩
        · intro q hq hqop
          have hq' := (hmem q).1 hq
          rw [hopq q] at hqop
          obtain ⟨i', o', h1, h2, h3, h4⟩ := hv.shape.ident q hq'.2 hqop
          have hinp : (g'.node q).input = [if i' = i then o else i'] := by
            rw [hinQ q hq]; simp [Node.redirect, h1]
          by_cases e : q = p
          · subst e
            refine ⟨if i' = i then o else i', if o' = i then o else o', hinp, ?_, ?_, ?_⟩
            · rw [hnodeP]; simp [Node.redirect, h2]
            · split <;> assumption
            · split <;> assumption
          · refine ⟨if i' = i then o else i', o', hinp, ?_, ?_, h4⟩
            · rw [houtQ q e, h2]
            · split <;> assumption
        · intro q hq
          rw [hgi]; rw [hinputs] at hq; exact hv.shape.inputs q hq
        · rw [hinputs]
          apply List.map_congr_left
          intro q hq
          apply houtQ
          rintro rfl
          exact hpi (hv.shape.inputs q hq)
        · intro V I hI env out
          refine computes_of_transport hv.reach hv.ranked.acyclic hranked.acyclic houtputs ?_ out
          intro e he
          have heq : e o = e i :=
            identity_eq hI hop hin hout hi ho (he.1 _ (mem_nodeList.2 ⟨r', hr, rfl⟩))
          have harg : ∀ q ∈ g'.nodes, argVals (fun x => if x = i then env i else e x) (g'.node q) =
              argVals e (g.node q) := by
            intro q hq
            have h1 : argVals (fun x => if x = i then env i else e x) (g'.node q) =
                argVals (fun x => if x = i then env i else e x) ((g.node q).redirect i o) := by
              unfold argVals; rw [hinQ q hq]
            rw [h1, redirect_argVals' (e := e) hi ho hrio heq.symm (by intro x hx; simp [hx])]
          refine ⟨fun x => if x = i then env i else e x, ⟨?_, ?_⟩, ?_⟩
          · intro n hn
            obtain ⟨q, hq, rfl⟩ := mem_nodeList.1 hn
            have hq' := (hmem q).1 hq
            intro j y hj hy
            rw [harg q hq, hgi q, hopq q]
            by_cases ep : q = p
            · subst ep
              have hdom : (g'.node q).domain = (g.node q).domain ∧ (g'.node q).attr = (g.node q).attr := by
                rw [hnodeP]; exact ⟨rfl, rfl⟩
              rw [hdom.1, hdom.2]
              rw [hnodeP] at hj
              simp only [Node.redirect, List.getElem?_map, Option.map_eq_some_iff] at hj
              obtain ⟨z, hz, ez⟩ := hj
              by_cases hzi : z = i
              · subst hzi
                rw [if_pos rfl] at ez
                subst ez
                have := he.1 _ (mem_nodeList.2 ⟨q, hp.1, rfl⟩) j z hz hi
                simp only [if_neg (Ne.symm hrio)]
                rw [heq, this]
                have : (g.node q).isGraphInput = false := by simpa using hpi
                simp [this]
              · rw [if_neg hzi] at ez
                subst ez
                simp only [if_neg hzi]
                exact he.1 _ (mem_nodeList.2 ⟨q, hp.1, rfl⟩) j z hz hy
            · rw [hnodeQ q hq ep] at hj ⊢
              have hy' : y ∈ (g.node q).output := List.mem_of_getElem? hj
              have hyi : y ≠ i := by
                rintro rfl
                exact ep (hw.out_inj hy hq'.2 hp.1 hy' hp.2)
              simp only [if_neg hyi]
              exact he.1 _ (mem_nodeList.2 ⟨q, hq'.2, rfl⟩) j y hj hy
          · intro x hx
            simp only
            split
            · rename_i e'; rw [e']
            · rename_i hxi
              apply he.2
              refine hx.imp id (fun hx n hn hxn => ?_)
              obtain ⟨q, hq, rfl⟩ := mem_nodeList.1 hn
              by_cases e' : q = r'
              · subst e'
                rw [hout] at hxn; simp at hxn; subst hxn
                refine hx _ (mem_nodeList.2 ⟨p, (hmem p).2 ⟨hpr, hp.1⟩, rfl⟩) ?_
                rw [hnodeP]
                simp only [Node.redirect, List.mem_map]
                exact ⟨i, hp.2, by simp⟩
              · refine hx _ (mem_nodeList.2 ⟨q, (hmem q).2 ⟨e', hq⟩, rfl⟩) ?_
                by_cases ep : q = p
                · subst ep
                  rw [hnodeP]
                  simp only [Node.redirect, List.mem_map]
                  exact ⟨x, hxn, by simp [hxi]⟩
                · rw [houtQ q ep]; exact hxn
          · intro x hx
            simp only
            rw [if_neg]
            rintro rfl; exact hio hx

/-- Deleting what the graph's outputs do not need preserves the model (from C10). -/
theorem deleteUnused_sameModel {P : ∀ V : Type, Interp V → Prop} {g g' : G} (hr : Reachable g) (ha : Acyclic g.nodeList)
    (h : g.deleteUnusedNodes (fun _ => []) g.outputs = .ok g') : SameModel P g g' := by
  have hio : g'.outputs = g.outputs ∧ g'.inputs = g.inputs ∧ g'.heap = g.heap := by
    unfold G.deleteUnusedNodes at h
    split at h
    · cases h; exact ⟨rfl, rfl, rfl⟩
    · have hsub : ∀ r ∈ g.extractSubGraphNodes (fun _ => []) g.outputs, r ∈ g.nodes := by
        intro r hr'
        obtain ⟨o, s, _, hs, hreach⟩ := ((extractSubGraphNodes_spec hr.wf (fun _ => []) g.outputs).2 r).1 hr'
        cases hreach with
        | refl => exact getNodeByOutput_mem hr.wf hs
        | tail _ hab => obtain ⟨x, _, hx⟩ := hab; exact getNodeByOutput_mem hr.wf hx
      have m := resetNodes_reset hr.wf hsub h
      exact ⟨m.outputs, m.inputs, m.heap⟩
  refine ⟨hio.1, ?_, ?_⟩
  · rw [hio.2.1]; apply List.map_congr_left; intro r _; simp [G.node, hio.2.2]
  · intro V I _ env out
    obtain ⟨e, e', h1, h2, h3, h4, h5⟩ := delete_unused_preserves_values hr (fun _ => []) g.outputs h ha I env
    have hmap : g'.outputs.map e' = g.outputs.map e := by rw [hio.1]; exact List.map_congr_left h5
    constructor
    · rintro ⟨f, hf, rfl⟩; rw [h4 f hf, hmap]; exact ⟨e, h1, rfl⟩
    · rintro ⟨f, hf, rfl⟩; rw [h3 f hf, ← hmap]; exact ⟨e', h2, rfl⟩

/-- One turn over a list of identity nodes. -/
theorem identityPass_spec {ρ : Ref → Nat} (rs : List Ref) {g g' : G} {u u' : Bool} (hv : IdInv ρ g)
    (hop : ∀ r ∈ rs, r ∈ g.nodes → (g.node r).op = "Identity")
    (h : g.identityPass rs u = .ok (g', u')) :
    IdInv ρ g' ∧ SameModel IdentityLaw g g' ∧ g'.nodes.length ≤ g.nodes.length ∧
    (u' = true → u = true ∨ g'.nodes.length < g.nodes.length) ∧ Carry g g' := by
  induction rs generalizing g u with
  | nil => simp only [G.identityPass] at h; cases h; exact ⟨hv, .refl _ _, Nat.le_refl _, Or.inl, .refl _⟩
  | cons r rs ih =>
    simp only [G.identityPass, bind, Except.bind] at h
    split at h
    · cases h
    · rename_i gu hg1
      obtain ⟨g1, u1⟩ := gu
      simp only at h
      have hstep : IdInv ρ g1 ∧ SameModel IdentityLaw g g1 ∧ g1.nodes.length ≤ g.nodes.length ∧
          (u1 = true → u = true ∨ g1.nodes.length < g.nodes.length) ∧
          (∀ q ∈ g1.nodes, q ∈ g.nodes) ∧ (∀ q, (g1.node q).op = (g.node q).op) ∧ Carry g g1 := by
        unfold G.identityStep at hg1
        split at hg1
        · cases hg1; exact ⟨hv, .refl _ _, Nat.le_refl _, Or.inl, fun q h => h, fun q => rfl, .refl _⟩
        · rename_i hr
          simp only [not_not] at hr
          have hrop := hop r (by simp) hr
          split at hg1
          · obtain ⟨a1, a2, a3, a4, hops, hca⟩ := identityOuter_spec hv hr hrop hg1
            cases u1 with
            | true =>
              have hn := a3 rfl
              have hlen : g1.nodes.length < g.nodes.length := by
                rw [hn, List.length_erase_of_mem hr]
                have := List.length_pos_of_mem hr
                omega
              exact ⟨a1, a2, Nat.le_of_lt hlen, fun _ => Or.inr hlen,
                fun q hq => by rw [hn] at hq; exact List.mem_of_mem_erase hq, hops, hca⟩
            | false =>
              have hn := a4 rfl
              subst hn
              exact ⟨a1, a2, Nat.le_refl _, by simp, fun q h => h, hops, hca⟩
          · rename_i hno
            simp only [bind, Except.bind] at hg1
            split at hg1
            · cases hg1
            · rename_i g2 hg2
              cases hg1
              obtain ⟨a1, a2, hn, hops, hca⟩ := identityInner_spec hv hr hrop (by simpa using hno) hg2
              have hlen : g1.nodes.length < g.nodes.length := by
                rw [hn, List.length_erase_of_mem hr]
                have := List.length_pos_of_mem hr
                omega
              exact ⟨a1, a2, Nat.le_of_lt hlen, fun _ => Or.inr hlen,
                fun q hq => by rw [hn] at hq; exact List.mem_of_mem_erase hq, hops, hca⟩
      obtain ⟨b1, b2, b3, b4, b5, b6, b7⟩ := hstep
      obtain ⟨c1, c2, c3, c4, c5⟩ := ih b1 (fun q hq hq' => by rw [b6]; exact hop q (by simp [hq]) (b5 q hq')) h
      refine ⟨c1, b2.trans c2, Nat.le_trans c3 b3, fun hu => ?_, b7.trans c5⟩
      rcases c4 hu with h1 | h1
      · rcases b4 h1 with h2 | h2
        · exact Or.inl h2
        · exact Or.inr (Nat.lt_of_le_of_lt c3 h2)
      · exact Or.inr (Nat.lt_of_lt_of_le h1 b3)

/-- The whole loop: it never runs out of the turns the model allows, and preserves the model. -/
theorem identityLoop_spec {ρ : Ref → Nat} (fuel : Nat) {g g' : G} (hv : IdInv ρ g) (h : G.identityLoop fuel g = .ok g') :
    IdInv ρ g' ∧ SameModel IdentityLaw g g' ∧ Carry g g' := by
  induction fuel generalizing g with
  | zero => simp [G.identityLoop] at h
  | succ fuel ih =>
    simp only [G.identityLoop, bind, Except.bind] at h
    split at h
    · cases h
    · rename_i gu hgu
      obtain ⟨g1, u⟩ := gu
      simp only at h
      obtain ⟨a1, a2, -, -, a5⟩ := identityPass_spec _ hv (by
        intro r hr _
        simpa using (List.mem_filter.1 hr).2) hgu
      split at h
      · obtain ⟨b1, b2, b3⟩ := ih a1 h
        exact ⟨b1, a2.trans b2, a5.trans b3⟩
      · cases h; exact ⟨a1, a2, a5⟩

/-- Every turn that asks for another one removed a node, so a graph of `n` nodes needs at most `n + 1` turns: allowing
more changes nothing. -/
theorem identityLoop_fuel {ρ : Ref → Nat} (fuel : Nat) {g : G} (hv : IdInv ρ g) (hf : g.nodes.length < fuel) :
    G.identityLoop (fuel + 1) g = G.identityLoop fuel g := by
  induction fuel generalizing g with
  | zero => omega
  | succ fuel ih =>
    rw [G.identityLoop, G.identityLoop]
    simp only [bind, Except.bind]
    split
    · rfl
    · rename_i gu hgu
      obtain ⟨g1, u⟩ := gu
      simp only
      obtain ⟨a1, a2, a3, a4, -⟩ := identityPass_spec _ hv (by
        intro r hr _
        simpa using (List.mem_filter.1 hr).2) hgu
      split
      · rename_i hu
        rcases a4 hu with h | h
        · cases h
        · exact ih a1 (by omega)
      · rfl

theorem IdInv.start {g : G} (hr : Reachable g) (ha : Acyclic g.nodeList) (hs : IdShape g) : ∃ ρ, IdInv ρ g := by
  obtain ⟨ρ, h⟩ := Acyclic.ranked hr.wf ha
  exact ⟨ρ, hr, h, hs⟩

/-- The identity optimizer never changes the model: the graph it returns has the same output names in the same order,
the same graph inputs, and for every meaning of the operators under which `Identity` is the identity, and all fed
values, the same output values. -/
theorem identity_optimizer_preserves_model {g g' : G} (hr : Reachable g) (ha : Acyclic g.nodeList) (hs : IdShape g)
    (h : g.identityOptimize = .ok g') : SameModel IdentityLaw g g' := by
  obtain ⟨ρ, hv⟩ := IdInv.start hr ha hs
  simp only [G.identityOptimize, bind, Except.bind] at h
  split at h
  · cases h
  · rename_i g1 hg1
    obtain ⟨h1, h2, -⟩ := identityLoop_spec _ hv hg1
    refine h2.trans (deleteUnused_sameModel h1.reach h1.ranked.acyclic h)

/-- A non-trivial case: `x -> Identity -> Relu -> Identity -> out`, where the inner identity disappears and the outer
one hands the name `out` to `Relu`; plus an identity of a graph output, which must stay. -/
def identityScript : List Edit :=
  [.addGraphInput "p" "x", .makeNode "Identity" ["x"] "i1" ["a"] [] "", .makeNode "Relu" ["a"] "r" ["b"] [] "",
   .makeNode "Identity" ["b"] "i2" ["out"] [] "", .addGraphOutput "out", .makeNode "Identity" ["x"] "i3" ["out2"] [] "",
   .addGraphOutput "out2"]

example : ∃ g g', G.run {} identityScript = .ok g ∧ g.identityOptimize = .ok g' ∧ g.nodes = [0, 1, 2, 3, 4] ∧
    g'.nodes = [0, 2, 4] ∧ (g'.node 2).input = ["x"] ∧ (g'.node 2).output = ["out"] ∧ (g'.node 4).input = ["x"] :=
  ⟨_, _, rfl, rfl, by decide⟩

example : ∃ g, G.run {} identityScript = .ok g ∧ Acyclic g.nodeList ∧ IdShape g := by
  refine ⟨_, rfl, ?_, ⟨?_, ?_⟩⟩
  · exact ⟨_, .refl _, by decide⟩
  · decide
  · decide

end Verif.Graph
