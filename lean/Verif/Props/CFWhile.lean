import Verif.Props.C51_Loop
/-!
# `While.version_7`: the graph around the loop (used by C51)
-/
namespace Verif.Graph
open Verif
variable {V : Type}

/-- Membership in the node list, by name. -/
theorem WF.node_eq {g : G} (hw : WF g) {r : Ref} (hr : r ∈ g.nodes) {m : Node} (hm : m ∈ g.nodeList) : m.name = (g.node r).name ↔ m = g.node r := by
  obtain ⟨q, hq, rfl⟩ := mem_nodeList.1 hm
  constructor
  · intro e; rw [hw.name_inj hq hr e]
  · intro e; rw [e]

theorem Made.nodeList {g g' : G} {r : Ref} {n : Node} (hw : WF g) (m : Made g g' r n) : g'.nodeList = g.nodeList ++ [n] := by
  unfold G.nodeList
  rw [m.nodes, List.map_append]
  congr 1
  · exact List.map_congr_left (fun q hq => node_append_lt (hw.valid q hq) _ _ m.heap)
  · simp [m.self]

theorem Removed.mem_list {g g' : G} {r : Ref} (hw : WF g) (m : Removed g g' r) (n : Node) :
    n ∈ g'.nodeList ↔ n ∈ g.nodeList ∧ n ≠ g.node r := by
  have hnode : ∀ q, g'.node q = g.node q := Same.heap_node m.heap
  rw [mem_nodeList, mem_nodeList]
  constructor
  · rintro ⟨q, hq, rfl⟩
    rw [m.nodes] at hq
    have hqg := List.mem_of_mem_erase hq
    refine ⟨⟨q, hqg, (hnode q).symm⟩, fun e => ?_⟩
    rw [hnode] at e
    have := hw.name_inj hqg m.mem (by rw [e])
    subst this
    exact hw.nodup.not_mem_erase hq
  · rintro ⟨⟨q, hq, rfl⟩, hne⟩
    refine ⟨q, ?_, hnode q⟩
    rw [m.nodes]
    exact (List.mem_erase_of_ne (fun e => hne (by rw [e]))).2 hq

/-- The loop node with another tensor as bound. -/
def Node.rebound (n : Node) (m : String) : Node := n.setInput 1 m

/-- What `loopBound` leaves: constants `D` are gone, `T` is new, the loop node reads `mName`. -/
structure BoundDone (g : G) (r : Ref) (gA : G) (mName : String) (D T : List Node) : Prop where
  wf : WF gA
  mem : r ∈ gA.nodes
  node : gA.node r = (g.node r).rebound mName
  list : ∀ m, m ∈ gA.nodeList ↔ (m ∈ g.nodeList ∧ m ≠ g.node r ∧ m ∉ D) ∨ m ∈ T ∨ m = gA.node r
  inputs : r ∉ g.inputs → (∀ d ∈ D, ∀ q ∈ g.inputs, g.node q ≠ d) → gA.inputs = g.inputs
  outputs : gA.outputs = g.outputs
  ne : ∀ m ∈ T, m.name ≠ (g.node r).name

theorem setInput_self {n : Node} {i : Nat} {x : String} (h : n.input[i]? = some x) : n.setInput i x = n := by
  unfold Node.setInput
  congr 1
  have hlt : i < n.input.length := by
    by_contra hge
    rw [List.getElem?_eq_none (Nat.le_of_not_lt hge)] at h; cases h
  rw [List.getElem?_eq_getElem hlt] at h
  cases h
  simp

theorem replaceInputAt_list {g g' : G} (hw : WF g) {r : Ref} (hr : r ∈ g.nodes) {old new : String} {idx : Nat}
    (h : g.replaceInputAt r old new idx = .ok g') :
    WF g' ∧ g'.nodes = g.nodes ∧ g'.node r = (g.node r).setInput idx new ∧ (∀ q, q ≠ r → g'.node q = g.node q) ∧ g'.inputs = g.inputs ∧
      g'.outputs = g.outputs ∧ ∀ m, m ∈ g'.nodeList ↔ (m ∈ g.nodeList ∧ m ≠ g.node r) ∨ m = g'.node r := by
  obtain ⟨_, s, hh, _, _⟩ := replaceInputAt_spec h
  have hn := node_of_heap_set hh
  have h1 : g'.node r = (g.node r).setInput idx new := by rw [hn, node_setNode_self (hw.valid r hr)]
  have h2 : ∀ q, q ≠ r → g'.node q = g.node q := fun q hq => by rw [hn, node_setNode_ne (Ne.symm hq)]
  refine ⟨s.wf hw, s.nodes, h1, h2, s.inputs, s.outputs, ?_⟩
  intro m
  rw [mem_nodeList, mem_nodeList, s.nodes]
  constructor
  · rintro ⟨q, hq, rfl⟩
    by_cases e : q = r
    · subst e; exact Or.inr rfl
    · refine Or.inl ⟨⟨q, hq, (h2 q e).symm⟩, ?_⟩
      rw [h2 q e]
      exact fun e' => e (hw.name_inj hq hr (by rw [e']))
  · rintro (⟨⟨q, hq, rfl⟩, hne⟩ | rfl)
    · exact ⟨q, hq, h2 q (fun e => hne (by rw [e]))⟩
    · exact ⟨r, hr, rfl⟩

/-- The constant made for the trip count. -/
def tripConst (name : String) (t : Tensor) : Node := ⟨name, "Const", "", [("value", .tensor { t with dtype := 7 })], [], [name]⟩

/-- The cast made for the trip count. -/
def tripCast (name x : String) : Node := ⟨name ++ "_cast", "Cast", "", [("to", .int 7)], [x], [name ++ "_cast:0"]⟩

/-- The ways the bound of a loop is handled. -/
inductive BoundCase (g : G) (r : Ref) (x1 fresh : String) : G → String → String → List Node → List Node → Prop
  /-- a constant -1: no limit -/
  | unlimited {c : Ref} {t : Tensor} : c ∈ g.nodes → x1 ∈ (g.node c).output → (g.node c).isConst = true → (g.node c).attr.get "value" = some (.tensor t) →
      t.data = [-1] → t.dims = [] → BoundCase g r x1 fresh g x1 "" [] []
  /-- a constant only the loop reads -/
  | own {c : Ref} {t : Tensor} {gA : G} : c ∈ g.nodes → x1 ∈ (g.node c).output → (g.node c).isConst = true →
      (g.node c).attr.get "value" = some (.tensor t) → ¬ (t.data = [-1] ∧ t.dims = []) →
      (∀ q ∈ g.nodes, q ≠ r → (g.node q).op ≠ "TensorListReserve" → x1 ∉ (g.node q).input) →
      BoundDone g r gA x1 [g.node c] [tripConst x1 t] → BoundCase g r x1 fresh gA x1 x1 [g.node c] [tripConst x1 t]
  /-- a constant others read as well -/
  | shared {c : Ref} {t : Tensor} {gA : G} : c ∈ g.nodes → x1 ∈ (g.node c).output → (g.node c).isConst = true →
      (g.node c).attr.get "value" = some (.tensor t) → ¬ (t.data = [-1] ∧ t.dims = []) → ¬ g.Produces fresh →
      BoundDone g r gA fresh [] [tripConst fresh t] → BoundCase g r x1 fresh gA fresh fresh [] [tripConst fresh t]
  /-- a tensor computed at run time -/
  | dynamic {gA : G} : ¬ g.Produces ((g.node r).name ++ "_cast:0") → (∀ c ∈ g.nodes, x1 ∈ (g.node c).output → (g.node c).isConst = false) →
      BoundDone g r gA x1 [] [tripCast (g.node r).name x1] →
      BoundCase g r x1 fresh gA x1 ((g.node r).name ++ "_cast:0") [] [tripCast (g.node r).name x1]

theorem produces_fresh {g g' : G} {r : Ref} {n : Node} (hw : WF g) (m : Made g g' r n) {o : String} (ho : o ∈ n.output) (hne : o ≠ "") :
    ¬ g.Produces o := by
  rintro ⟨k, hk, hx⟩
  obtain ⟨q, hq, rfl⟩ := mem_nodeList.1 hk
  have := m.freshOut o ho
  rw [(hw.getNodeByOutput hne q).2 ⟨hq, hx⟩] at this
  cases this

theorem loopBound_cases {g gA : G} (hw : WF g) (hi : Idx g) {r : Ref} (hr : r ∈ g.nodes) {x1 fresh mName trip : String}
    (hx1 : (g.node r).input[1]? = some x1) (hne : x1 ≠ "") (hfr : fresh ≠ "") (hself : x1 ∉ (g.node r).output)
    (h : g.loopBound r fresh = .ok (gA, mName, trip)) : ∃ D T, BoundCase g r x1 fresh gA mName trip D T := by
  simp only [G.loopBound, hx1] at h
  split at h
  · cases h
  rename_i c hc
  obtain ⟨hcm, hcx⟩ := (hw.getNodeByOutput hne c).1 hc
  have hcr : c ≠ r := fun e => hself (e ▸ hcx)
  split at h
  · rename_i hconst
    split at h
    · rename_i t ht
      split at h
      · rename_i hm1
        cases h
        exact ⟨[], [], .unlimited hcm hcx hconst ht hm1.1 hm1.2⟩
      · rename_i hm1
        simp only [bind, Except.bind] at h
        split at h
        · cases h
        rename_i q hq
        obtain ⟨gB, nm⟩ := q
        cases h
        by_cases hext : (g.findOutputConsumers x1).filter (fun q => decide (q ≠ r) && decide ((g.node q).op ≠ "TensorListReserve")) = []
        · simp only [G.constBound, hext, if_true, bind, Except.bind] at hq
          split at hq
          · cases hq
          rename_i g1 hg1
          split at hq
          · cases hq
          rename_i q2 hg2
          obtain ⟨g2, rn⟩ := q2
          simp only at hq
          split at hq
          · cases hq
          rename_i g3 hg3
          cases hq
          obtain ⟨c', e, m⟩ := removeNode_removed hw hg1
          have := hw.name_inj m.mem hcm e
          subst this
          have hw1 := m.wf hw
          have made := makeNode_made hg2
          have hw2 := made.wf hw1 hne ((List.nodup_singleton _).sublist List.filter_sublist)
          have hr1 : r ∈ g1.nodes := by rw [m.nodes]; exact (List.mem_erase_of_ne (Ne.symm hcr)).2 hr
          have hr2 : r ∈ g2.nodes := by rw [made.nodes]; simp [hr1]
          have hn2 : g2.node r = g.node r := by
            rw [node_append_lt (hw1.valid r hr1) _ _ made.heap, Same.heap_node m.heap]
          obtain ⟨b1, b2, b3, b4, b5, b6, b7⟩ := replaceInputAt_list hw2 hr2 hg3
          refine ⟨_, _, .own hcm hcx hconst ht hm1 ?_ ⟨b1, by rw [b2]; exact hr2, by rw [b3, hn2]; rfl, ?_, ?_, ?_, ?_⟩⟩
          · intro q hq hqr hqo hqi
            have : q ∈ (g.findOutputConsumers x1).filter (fun q => decide (q ≠ r) && decide ((g.node q).op ≠ "TensorListReserve")) := by
              rw [List.mem_filter, mem_findOutputConsumers hw]
              exact ⟨⟨hq, hqi, hi.complete q hq x1 hqi⟩, by simp [hqr, hqo]⟩
            rw [hext] at this
            cases this
          · intro k
            rw [b7, made.nodeList hw1, List.mem_append, m.mem_list hw, hn2]
            simp only [List.mem_singleton]
            have htc : (⟨x1, "Const", "", [("value", Attr.tensor { t with dtype := 7 })], [], [x1]⟩ : Node) = tripConst x1 t := rfl
            rw [htc]
            have hne' : tripConst x1 t ≠ g.node r := by
              intro e'
              have hfn := made.freshName
              have : g1.node r = tripConst x1 t := by rw [Same.heap_node m.heap, e']
              have hq := (hw1.getNodeByName (tripConst x1 t).name r).2 ⟨hr1, by rw [this]⟩
              rw [show (tripConst x1 t).name = x1 from rfl] at hq
              simp only at hfn
              rw [hq] at hfn
              cases hfn
            constructor
            · rintro (⟨⟨h1, h2⟩ | h1, h3⟩ | h1)
              · exact Or.inl ⟨h1, h3, h2⟩
              · exact Or.inr (Or.inl h1)
              · exact Or.inr (Or.inr h1)
            · rintro (⟨h1, h3, h2⟩ | h1 | h1)
              · exact Or.inl ⟨Or.inl ⟨h1, h2⟩, h3⟩
              · exact Or.inl ⟨Or.inr h1, by rw [h1]; exact hne'⟩
              · exact Or.inr h1
          · intro _ hd
            rw [b5, made.inputs, m.inputs]
            refine List.erase_of_not_mem (fun hci => hd (g.node c') (by simp) c' hci rfl)
          · rw [b6, made.outputs, m.outputs]
          · intro k hk e'
            rw [List.mem_singleton.1 hk] at e'
            have hfn := made.freshName
            have hq := (hw1.getNodeByName x1 r).2 ⟨hr1, by rw [Same.heap_node m.heap, ← e']; rfl⟩
            simp only at hfn
            rw [hq] at hfn
            cases hfn
        · simp only [G.constBound, hext, if_false, bind, Except.bind] at hq
          split at hq
          · cases hq
          rename_i q2 hg2
          obtain ⟨g2, rn⟩ := q2
          simp only at hq
          split at hq
          · cases hq
          rename_i g3 hg3
          cases hq
          have made := makeNode_made hg2
          have hw2 := made.wf hw hfr ((List.nodup_singleton _).sublist List.filter_sublist)
          have hr2 : r ∈ g2.nodes := by rw [made.nodes]; simp [hr]
          have hn2 : g2.node r = g.node r := node_append_lt (hw.valid r hr) _ _ made.heap
          obtain ⟨b1, b2, b3, b4, b5, b6, b7⟩ := replaceInputAt_list hw2 hr2 hg3
          refine ⟨_, _, .shared hcm hcx hconst ht hm1 (produces_fresh hw made (by simp) hfr)
            ⟨b1, by rw [b2]; exact hr2, by rw [b3, hn2]; rfl, ?_, ?_, by rw [b6, made.outputs], ?_⟩⟩
          · intro k
            rw [b7, made.nodeList hw, List.mem_append, hn2]
            simp only [List.mem_singleton, List.not_mem_nil, not_false_eq_true, and_true]
            have htc : (⟨fresh, "Const", "", [("value", Attr.tensor { t with dtype := 7 })], [], [fresh]⟩ : Node) = tripConst fresh t := rfl
            rw [htc]
            have hne' : tripConst fresh t ≠ g.node r := by
              intro e'
              have hfn := made.freshName
              have hq := (hw.getNodeByName (tripConst fresh t).name r).2 ⟨hr, by rw [e']⟩
              rw [show (tripConst fresh t).name = fresh from rfl] at hq
              simp only at hfn
              rw [hq] at hfn
              cases hfn
            constructor
            · rintro (⟨h1 | h1, h3⟩ | h1)
              · exact Or.inl ⟨h1, h3⟩
              · exact Or.inr (Or.inl h1)
              · exact Or.inr (Or.inr h1)
            · rintro (⟨h1, h3⟩ | h1 | h1)
              · exact Or.inl ⟨Or.inl h1, h3⟩
              · exact Or.inl ⟨Or.inr h1, by rw [h1]; exact hne'⟩
              · exact Or.inr h1
          · intro _ _
            rw [b5, made.inputs]
          · intro k hk e'
            rw [List.mem_singleton.1 hk] at e'
            have hfn := made.freshName
            have hq := (hw.getNodeByName fresh r).2 ⟨hr, by rw [← e']; rfl⟩
            simp only at hfn
            rw [hq] at hfn
            cases hfn
    · cases h
  · rename_i hnc
    simp only [bind, Except.bind] at h
    split at h
    · cases h
    rename_i q hq
    obtain ⟨gB, rn⟩ := q
    cases h
    have made := makeNode_made hq
    have hcn : (g.node r).name ++ "_cast" ≠ "" := by
      intro e; have := congrArg String.length e; simp at this
    have hcn0 : (g.node r).name ++ "_cast:0" ≠ "" := by
      intro e; have := congrArg String.length e; simp at this
    have hn2 : gB.node r = g.node r := node_append_lt (hw.valid r hr) _ _ made.heap
    refine ⟨_, _, .dynamic (produces_fresh hw made (by simp) hcn0) (fun c' hc' hx' => by
        rw [hw.out_inj hne hc' hcm hx' hcx]; simpa using hnc)
      ⟨made.wf hw hcn ((List.nodup_singleton _).sublist List.filter_sublist), by rw [made.nodes]; simp [hr], ?_, ?_, fun _ _ => made.inputs, made.outputs, ?_⟩⟩
    · rw [hn2]; exact (setInput_self hx1).symm
    · intro k
      rw [made.nodeList hw, List.mem_append, hn2]
      simp only [List.mem_singleton, List.not_mem_nil, not_false_eq_true, and_true]
      have htc : (⟨(g.node r).name ++ "_cast", "Cast", "", [("to", Attr.int 7)], [x1], [(g.node r).name ++ "_cast:0"]⟩ : Node) =
        tripCast (g.node r).name x1 := rfl
      rw [htc]
      constructor
      · rintro (h1 | h1)
        · by_cases e : k = g.node r
          · exact Or.inr (Or.inr e)
          · exact Or.inl ⟨h1, e⟩
        · exact Or.inr (Or.inl h1)
      · rintro (⟨h1, _⟩ | h1 | h1)
        · exact Or.inl h1
        · exact Or.inr h1
        · exact Or.inl (h1 ▸ node_mem hr)
    · intro k hk e'
      rw [List.mem_singleton.1 hk] at e'
      have := congrArg String.length (show (g.node r).name ++ "_cast" = (g.node r).name from e')
      simp at this

theorem BoundCase.bounded {g gA : G} (hw : WF g) {r : Ref} (hr : r ∈ g.nodes) {x1 fresh mName trip : String} {D T : List Node}
    (hx1 : (g.node r).input[1]? = some x1) (b : BoundCase g r x1 fresh gA mName trip D T) : BoundDone g r gA mName D T := by
  cases b with
  | unlimited =>
    refine ⟨hw, hr, (setInput_self hx1).symm, ?_, fun _ _ => rfl, rfl, by simp⟩
    intro m
    simp only [List.not_mem_nil, not_false_eq_true, and_true, false_or]
    constructor
    · intro h
      by_cases e : m = g.node r
      · exact Or.inr e
      · exact Or.inl ⟨h, e⟩
    · rintro (h | rfl)
      · exact h.1
      · exact node_mem hr
  | own _ _ _ _ _ _ h => exact h
  | shared _ _ _ _ _ _ h => exact h
  | dynamic _ _ h => exact h

/-- `for k, v in output_map.items(): ctx.replace_all_inputs(k, v)`. -/
theorem shiftConsumers_spec (ps : List (String × String)) {g g' : G} (hw : WF g) (hi : Idx g) (h : G.shiftConsumers ps g = .ok g') :
    Same g g' ∧ ∀ r ∈ g.nodes, g'.node r = (g.node r).mapIn (seqRen ps) := by
  induction ps generalizing g with
  | nil =>
    simp [G.shiftConsumers] at h
    subst h
    exact ⟨.refl _, fun r _ => (Node.mapIn_id _).symm⟩
  | cons p ps ih =>
    obtain ⟨k, v⟩ := p
    simp only [G.shiftConsumers, bind, Except.bind] at h
    split at h
    · cases h
    rename_i g1 h1
    obtain ⟨s1, n1⟩ := replaceAllInputs_all hw hi h1
    obtain ⟨_, _, i1, _⟩ := replaceAllInputs_spec hw (by intro l hl; cases hl) h1
    obtain ⟨s2, n2⟩ := ih (s1.wf hw) (i1 hi) h
    refine ⟨s1.trans s2, fun r hr => ?_⟩
    rw [n2 r (by rw [s1.nodes]; exact hr), n1 r hr]
    simp [Node.mapIn, Node.redirect, List.map_map, Function.comp_def, seqRen]

end Verif.Graph
