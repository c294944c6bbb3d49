import Verif.Props.GraphEdits
/-!
# `replace_all_inputs`, the `Node.output` setter and the insert functions
-/
namespace Verif.Graph
open Verif

/-- Redirect every slot reading `old`. -/
def Node.redirect (n : Node) (old new : String) : Node :=
  { n with input := n.input.map (fun x => if x = old then new else x) }

theorem Node.redirect_of_not_mem {n : Node} {old new : String} (h : old ∉ n.input) : n.redirect old new = n := by
  unfold Node.redirect
  have : n.input.map (fun x => if x = old then new else x) = n.input := by
    conv => rhs; rw [← List.map_id n.input]
    apply List.map_congr_left
    intro x hx
    have : x ≠ old := fun e => h (e ▸ hx)
    simp [this]
  rw [this]

theorem Node.not_mem_redirect {n : Node} {old new : String} (h : old ≠ new) : old ∉ (n.redirect old new).input := by
  simp only [Node.redirect, List.mem_map, not_exists, not_and]
  intro x _
  split
  · exact Ne.symm h
  · assumption

theorem replaceSlots_spec (slots : List Nat) {g g' : G} {r : Ref} {old new : String} (hne : old ≠ new) (hw : WF g)
    (hr : r ∈ g.nodes) (h : g.replaceSlots r old new slots = .ok g') :
    Same g g' ∧ (∀ r', r' ≠ r → g'.node r' = g.node r') ∧
    (g'.node r).op = (g.node r).op ∧ (g'.node r).domain = (g.node r).domain ∧ (g'.node r).attr = (g.node r).attr ∧
    (∀ j, (g'.node r).input[j]? =
      if j ∈ slots ∧ (g.node r).input[j]? = some old then some new else (g.node r).input[j]?) ∧
    (IdxBut g r old → IdxBut g' r old) ∧
    ((∀ i, (g.cons i).Nodup) → ∀ i, (g'.cons i).Nodup) := by
  induction slots generalizing g with
  | nil => simp [G.replaceSlots] at h; subst h; exact ⟨Same.refl _, by simp, rfl, rfl, rfl, by simp, id, id⟩
  | cons i slots ih =>
    simp only [G.replaceSlots] at h
    split at h
    · rename_i hi
      simp only [bind, Except.bind] at h
      split at h
      · cases h
      · rename_i g1 hg1
        obtain ⟨a1, a2, a3, a4, a5⟩ := replaceInputAt_spec hg1
        have hself : g1.node r = (g.node r).setInput i new := by
          rw [node_of_heap_set a3, node_setNode_self (hw.valid _ hr)]
        obtain ⟨b1, b2, b3, b4, b5, b6, b7, b8⟩ := ih (a2.wf hw) (by rw [a2.nodes]; exact hr) h
        refine ⟨a2.trans b1, ?_, ?_, ?_, ?_, ?_, ?_, fun hn => b8 (a5 hn)⟩
        · intro r' hr'
          rw [b2 r' hr', node_of_heap_set a3, node_setNode_ne (Ne.symm hr')]
        · rw [b3, hself]; rfl
        · rw [b4, hself]; rfl
        · rw [b5, hself]; rfl
        · intro j
          rw [b6, hself]
          have hs : ((g.node r).setInput i new).input = (g.node r).input.set i new := rfl
          rw [hs]
          simp only [List.mem_cons]
          have hlt : i < (g.node r).input.length := by
            by_contra hge
            rw [List.getElem?_eq_none (Nat.le_of_not_lt hge)] at hi; cases hi
          by_cases hj : i = j
          · subst hj
            simp [List.getElem?_set_self hlt, Ne.symm hne, hi]
          · simp [List.getElem?_set_ne hj, Ne.symm hj]
        · intro hb; exact b7 (replaceInputAt_but hw hr hb hg1)
    · rename_i hi
      obtain ⟨b1, b2, b3, b4, b5, b6, b7, b8⟩ := ih hw hr h
      refine ⟨b1, b2, b3, b4, b5, ?_, b7, b8⟩
      intro j
      rw [b6]
      by_cases hj : j = i
      · subst hj; simp [hi]
      · simp [hj]

theorem replaceSlots_all {g g' : G} {r : Ref} {old new : String} (hne : old ≠ new) (hw : WF g) (hr : r ∈ g.nodes)
    (h : g.replaceSlots r old new (List.range (g.node r).input.length) = .ok g') :
    Same g g' ∧ (∀ r', r' ≠ r → g'.node r' = g.node r') ∧ g'.node r = (g.node r).redirect old new ∧
    (Idx g → Idx g') ∧ ((∀ i, (g.cons i).Nodup) → ∀ i, (g'.cons i).Nodup) := by
  obtain ⟨b1, b2, b3, b4, b5, b6, b7, b8⟩ := replaceSlots_spec _ hne hw hr h
  have hin : (g'.node r).input = (g.node r).input.map (fun x => if x = old then new else x) := by
    apply List.ext_getElem?
    intro j
    rw [b6, List.getElem?_map]
    cases hj : (g.node r).input[j]? with
    | none => simp
    | some x =>
      have hlt : j < (g.node r).input.length := by
        by_contra hge
        rw [List.getElem?_eq_none (Nat.le_of_not_lt hge)] at hj; cases hj
      simp only [List.mem_range, hlt, true_and, Option.some.injEq, Option.map_some]
      split <;> rfl
  have hnode : g'.node r = (g.node r).redirect old new := by
    have hn := b1.name r
    have ho := b1.output r
    unfold Node.redirect
    rw [← hin, ← b3, ← b4, ← b5, ← hn, ← ho]
  refine ⟨b1, b2, hnode, ?_, b8⟩
  intro hi
  apply (b7 (hi.but r old)).idx
  rw [hnode]
  exact Node.not_mem_redirect hne

theorem Same.registerInput (g : G) (i n : String) : Same g (g.registerInput i n) :=
  Same.of_heap rfl rfl rfl rfl rfl rfl

theorem replaceAllIn_spec (rs : List Ref) {g g' : G} {old new : String} (hne : old ≠ new) (hw : WF g)
    (hrs : ∀ r ∈ rs, r ∈ g.nodes) (h : g.replaceAllIn old new rs = .ok g') :
    Same g g' ∧ (∀ r, g'.node r = if r ∈ rs then (g.node r).redirect old new else g.node r) ∧ (Idx g → Idx g') ∧
    ((∀ i, (g.cons i).Nodup) → ∀ i, (g'.cons i).Nodup) := by
  induction rs generalizing g with
  | nil => simp [G.replaceAllIn] at h; subst h; exact ⟨Same.refl _, by simp, id, id⟩
  | cons r rs ih =>
    simp only [G.replaceAllIn] at h
    split at h
    · cases h
    · simp only [bind, Except.bind] at h
      split at h
      · cases h
      · rename_i g1 hg1
        have hs0 := Same.registerInput g new (g.node r).name
        have hw0 := hs0.wf hw
        have hr : r ∈ (g.registerInput new (g.node r).name).nodes := hrs r (by simp)
        obtain ⟨a1, a2, a3, a4, a5⟩ := replaceSlots_all hne hw0 hr hg1
        obtain ⟨b1, b2, b3, b4⟩ := ih (a1.wf hw0) (fun r' hr' => by rw [a1.nodes]; exact hrs r' (by simp [hr'])) h
        refine ⟨(hs0.trans a1).trans b1, ?_, fun hi => b3 (a4 (hi.registerInput _ _)),
          fun hn => b4 (a5 (fun i => ?_))⟩
        rotate_left
        · rw [cons_registerInput]
          split
          · exact nodup_setAdd (hn _)
          · exact hn _
        intro r'
        rw [b2]
        by_cases e : r' = r
        · subst e
          rw [a3, if_pos (by simp : r' ∈ r' :: rs)]
          split
          · rw [Node.redirect_of_not_mem (Node.not_mem_redirect hne)]; rfl
          · rfl
        · rw [a2 r' e]
          simp [e]

theorem consumerRefs_mem {g : G} (hw : WF g) {o : String} {r : Ref} (h : r ∈ g.consumerRefs o) : r ∈ g.nodes := by
  simp only [G.consumerRefs, List.mem_filterMap] at h
  obtain ⟨n, _, hn⟩ := h
  exact ((hw.getNodeByName n r).1 hn).1

/-- Making sure the new tensor has a consumer set. -/
theorem replaceAll_init (g : G) (new : String) :
    (g.ensureConsumers new).heap = g.heap ∧ Same g (g.ensureConsumers new) ∧
    (∀ i, (g.ensureConsumers new).cons i = g.cons i) := by
  unfold G.ensureConsumers
  split
  · rename_i hx
    refine ⟨rfl, Same.of_heap rfl rfl rfl rfl rfl rfl, ?_⟩
    intro i
    simp only [G.cons, Dict.get_set]
    split
    · rename_i e; subst e; simp [hx]
    · rfl
  · exact ⟨rfl, Same.refl _, fun _ => rfl⟩

theorem Idx.congr {g g' : G} (h : Idx g) (e1 : g'.heap = g.heap) (e2 : g'.nodes = g.nodes)
    (e3 : ∀ i, g'.cons i = g.cons i) : Idx g' := by
  have en : ∀ r, g'.node r = g.node r := by intro r; simp [G.node, e1]
  refine ⟨?_, ?_⟩
  · simp only [en, e2, e3]; exact h.complete
  · intro i; rw [e3]; exact h.setNodup i

/-- What `replace_all_inputs` does when it succeeds. -/
theorem replaceAllInputs_spec {g g' : G} {old new : String} {ops : Option (List Ref)} (hw : WF g)
    (hops : ∀ l, ops = some l → ∀ r ∈ l, r ∈ g.nodes) (h : g.replaceAllInputs old new ops = .ok g') :
    Same g g' ∧
    (∀ r, g'.node r = if r ∈ ops.getD (g.consumerRefs old) then (g.node r).redirect old new else g.node r) ∧
    (Idx g → Idx g') ∧
    ((∀ i, (g.cons i).Nodup) → ∀ i, (g'.cons i).Nodup) := by
  unfold G.replaceAllInputs at h
  split at h
  · rename_i e
    cases h
    subst e
    refine ⟨Same.refl _, ?_, id, id⟩
    intro r
    split
    · have : (g.node r).input.map (fun x => if x = old then old else x) = (g.node r).input := by
        conv => rhs; rw [← List.map_id (g.node r).input]
        apply List.map_congr_left
        intro x _
        split
        · rename_i e; exact e.symm
        · rfl
      unfold Node.redirect
      rw [this]
    · rfl
  · rename_i hne
    simp only at h
    obtain ⟨h1, h2, h3⟩ := replaceAll_init g new
    generalize g.ensureConsumers new = g1 at *
    have hcr : g1.consumerRefs old = g.consumerRefs old := by
      have : ∀ n, g1.getNodeByName n = g.getNodeByName n := by intro n; simp [G.getNodeByName, h2.byName]
      have h3 := h3 old
      simp only [G.cons] at h3
      simp only [G.consumerRefs, h3]
      congr 1; funext n; exact this n
    rw [hcr] at h
    obtain ⟨b1, b2, b3, b4⟩ := replaceAllIn_spec _ hne (h2.wf hw) (by
      intro r hr
      rw [h2.nodes]
      cases ops with
      | none => exact consumerRefs_mem hw hr
      | some l => exact hops l rfl r hr) h
    refine ⟨h2.trans b1, ?_, fun hi => b3 (hi.congr h1 h2.nodes h3), fun hn => b4 (fun i => by rw [h3]; exact hn i)⟩
    intro r
    rw [b2]
    simp only [G.node, h1]

/-! ## Node.output setter -/

theorem delOutputs_facts (os : List String) (g g' : G) (h : g.delOutputs os = .ok g') :
    g'.heap = g.heap ∧ g'.nodes = g.nodes ∧ g'.byName = g.byName ∧ g'.consumers = g.consumers ∧
    g'.inputs = g.inputs ∧ g'.outputs = g.outputs ∧
    (∀ o, g'.outToName.get o = if o ∈ os then none else g.outToName.get o) := by
  induction os generalizing g with
  | nil => simp [G.delOutputs] at h; subst h; simp
  | cons a os ih =>
    simp only [G.delOutputs] at h
    split at h
    · cases h
    · obtain ⟨h1, h2, h3, h4, h5, h6, h7⟩ := ih _ h
      refine ⟨h1, h2, h3, h4, h5, h6, ?_⟩
      intro o
      rw [h7]
      simp only [Dict.get_erase, List.mem_cons]
      by_cases e : a = o
      · subst e; simp
      · simp [e, Ne.symm e]

theorem addOutputs_facts (os : List String) (n : String) (g g' : G) (h : g.addOutputs n os = .ok g') :
    g'.heap = g.heap ∧ g'.nodes = g.nodes ∧ g'.byName = g.byName ∧ g'.consumers = g.consumers ∧
    g'.inputs = g.inputs ∧ g'.outputs = g.outputs ∧
    (∀ o, g'.outToName.get o = if o ∈ os then some n else g.outToName.get o) ∧
    os.Nodup ∧ (∀ o ∈ os, g.outToName.get o = none) := by
  induction os generalizing g with
  | nil => simp [G.addOutputs] at h; subst h; simp
  | cons a os ih =>
    simp only [G.addOutputs] at h
    split at h
    · cases h
    · rename_i ha
      obtain ⟨h1, h2, h3, h4, h5, h6, h7, h8, h9⟩ := ih _ h
      simp only [Dict.get_set] at h7 h9
      have hna : a ∉ os := by intro hm; have := h9 a hm; simp at this
      refine ⟨h1, h2, h3, h4, h5, h6, ?_, List.nodup_cons.2 ⟨hna, h8⟩, ?_⟩
      · intro o
        rw [h7]
        simp only [List.mem_cons]
        by_cases e : a = o
        · subst e; simp
        · simp [e, Ne.symm e]
      · intro o ho
        rcases List.mem_cons.1 ho with rfl | ho
        · simpa using ha
        · have := h9 o ho
          split at this
          · cases this
          · exact this

theorem setOutputs_spec {g g' : G} {r : Ref} {outs : List String} (hw : WF g) (hr : r ∈ g.nodes)
    (h : g.setOutputs r outs = .ok g') :
    WF g' ∧ g'.nodes = g.nodes ∧ g'.heap = g.heap.set r { g.node r with output := outs } ∧ (Idx g → Idx g') ∧
    (∀ i, g'.cons i = g.cons i) := by
  unfold G.setOutputs at h
  simp only [bind, Except.bind] at h
  split at h
  · cases h
  · rename_i g1 hg1
    obtain ⟨a1, a2, a3, a4, a5, a6, a7⟩ := delOutputs_facts _ _ _ hg1
    obtain ⟨b1, b2, b3, b4, b5, b6, b7, b8, b9⟩ := addOutputs_facts _ _ _ _ h
    simp only [outToName_setNode, a7] at b7 b9
    have hheap : g'.heap = g.heap.set r { g.node r with output := outs } := by rw [b1]; simp only [G.setNode, a1]
    have hnodes : g'.nodes = g.nodes := b2.trans a2
    have hself : g'.node r = { g.node r with output := outs } := by
      rw [node_of_heap_set hheap, node_setNode_self (hw.valid _ hr)]
    have hother : ∀ r', r' ≠ r → g'.node r' = g.node r' := fun r' e => by
      rw [node_of_heap_set hheap, node_setNode_ne (Ne.symm e)]
    have hname : ∀ r', (g'.node r').name = (g.node r').name := by
      intro r'; by_cases e : r' = r
      · subst e; rw [hself]
      · rw [hother r' e]
    have hby : g'.byName = g.byName := b3.trans a3
    refine ⟨?_, hnodes, hheap, ?_, fun i => by simp [G.cons, b4, a4]⟩
    · refine { valid := ?_, nodup := by rw [hnodes]; exact hw.nodup, nameNe := ?_, byName := ?_, outs := ?_,
               outNodup := ?_ }
      · rw [hnodes, hheap]; simpa using hw.valid
      · simp only [hnodes, hname]; exact hw.nameNe
      · simp only [hnodes, hname, hby]; exact hw.byName
      · intro o n ho
        rw [b7, hnodes]
        constructor
        · intro hx
          split at hx
          · rename_i hin
            cases hx
            exact ⟨r, hr, hname r, by rw [hself]; exact hin⟩
          · split at hx
            · cases hx
            · rename_i hnin hnold
              obtain ⟨r', hr', e1, e2⟩ := (hw.outs o n ho).1 hx
              have e : r' ≠ r := by rintro rfl; exact hnold e2
              exact ⟨r', hr', by rw [hname, e1], by rw [hother r' e]; exact e2⟩
        · rintro ⟨r', hr', e1, e2⟩
          rw [hname] at e1
          by_cases e : r' = r
          · subst e
            rw [hself] at e2
            rw [if_pos e2, e1]
          · rw [hother r' e] at e2
            have hg := (hw.outs o n ho).2 ⟨r', hr', e1, e2⟩
            have hnold : o ∉ (g.node r).output := fun h => e (hw.out_inj ho hr' hr e2 h)
            have hnin : o ∉ outs := by
              intro hin
              have := b9 o hin
              rw [if_neg hnold, hg] at this; cases this
            rw [if_neg hnin, if_neg hnold, hg]
      · intro r' hr'
        rw [hnodes] at hr'
        by_cases e : r' = r
        · subst e; rw [hself]; exact List.Nodup.filter _ b8
        · rw [hother r' e]; exact hw.outNodup r' hr'
    · intro hi
      have hc : ∀ i, g'.cons i = g.cons i := by intro i; simp [G.cons, b4, a4]
      refine ⟨?_, fun i => by rw [hc]; exact hi.setNodup i⟩
      intro r' hr' i hin
      rw [hnodes] at hr'
      rw [hname, hc]
      apply hi.complete r' hr' i
      by_cases e : r' = r
      · subst e; rw [hself] at hin; exact hin
      · rw [hother r' e] at hin; exact hin

/-! ## insert_node_on_output -/

theorem insertNodeOnOutput_eq {g g' : G} {r : Ref} {o : String} (h : g.insertNodeOnOutput r o = .ok g') :
    ∃ newOut rest, (g.node r).output = newOut :: rest ∧
      g.replaceAllInputs o newOut (some ((g.consumerRefs o).filter (· ≠ r))) = .ok g' := by
  unfold G.insertNodeOnOutput at h
  split at h
  · cases h
  · cases h
  · rename_i s newOut rest hs ho
    dsimp only at h
    split at h
    · cases h
    · refine ⟨newOut, rest, ho, ?_⟩
      rw [← h]
      congr 2
      simp only [G.consumerRefs, hs, Option.getD_some]
      congr 1
      rw [List.filterMap_map]; rfl

end Verif.Graph
