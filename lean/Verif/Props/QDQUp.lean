import Verif.Props.QDQBase
/-!
# C43 (2): pushing a quantization up through an operator that moves elements
-/
namespace Verif.Graph
open Verif

/-- What the checks of the upward push establish. -/
structure UpCtx (g : G) (isIdx : String → Prop) (t : Ref) (ps : List String) (inps outs : List Nat) : Prop where
  shape : QShape g isIdx
  mem : t ∈ g.nodes
  io : tensorIdx (g.node t) = some (inps, outs)
  inNidx : ∀ k ∈ inps, ∀ x : String, (g.node t).input[k]? = some x → ¬ isIdx x
  outNidx : ∀ o ∈ (g.node t).output, ¬ isIdx o
  cons : ∀ c ∈ g.nodes, ∀ o ∈ (g.node t).output, o ∈ (g.node c).input → (g.node c).op = "QuantizeLinear" ∧
    (g.node c).attr.get "axis" = none ∧ (g.node c).input.drop 1 = ps ∧ (g.node c).output.headD "" ∉ g.outputs
  scal : ∀ p ∈ ps, ScalarConst g p
  nout : ∀ o ∈ (g.node t).output, o ∉ g.outputs

theorem UpCtx.outNe {g : G} {isIdx : String → Prop} {t : Ref} {ps : List String} {inps outs : List Nat}
    (h : UpCtx g isIdx t ps inps outs) : ∀ o ∈ (g.node t).output, o ≠ "" := by
  intro o ho e
  subst e
  exact (h.shape.outs t h.mem inps outs h.io).2 ho

/-- A reader of an output of the operator. -/
theorem UpCtx.reader {g : G} {isIdx : String → Prop} {t : Ref} {ps : List String} {inps outs : List Nat}
    (h : UpCtx g isIdx t ps inps outs) (hw : WF g) {c : Ref} (hc : c ∈ g.nodes) {o : String} (ho : o ∈ (g.node t).output)
    (hin : o ∈ (g.node c).input) : (g.node c).op = "QuantizeLinear" ∧ (g.node c).attr = [] ∧ (g.node c).domain = "" ∧
      (g.node c).input = o :: ps ∧ ∃ oc, (g.node c).output = [oc] ∧ oc ≠ "" ∧ ¬ isIdx oc ∧ oc ∉ g.outputs := by
  obtain ⟨h1, h2, h3, h4⟩ := h.cons c hc o ho hin
  obtain ⟨h5, h6, x, ps', oc, h7, h8, h9, h10, h11, h12, h13⟩ := h.shape.qd c hc ⟨Or.inl h1, h2⟩
  rw [h7] at h3 hin
  simp only [List.drop_one, List.tail_cons] at h3
  subst h3
  rcases List.mem_cons.1 hin with rfl | hp
  · refine ⟨h1, h5, h6, h7, oc, h8, h10, h12, ?_⟩
    rw [h8] at h4; exact h4
  · exact absurd ho ((h13 o hp).not_output hw h.mem (tensor_not_const h.io))

section
variable {fresh : Nat → String} {ps : List String} {g0 g : G} {t : Ref} {done : List Nat} {nu : Nat → String}

theorem Up1.output (hu : Up1 fresh ps g0 g t done nu) (hw0 : WF g0) {r : Ref} (hr : r ∈ g0.nodes) :
    (g.node r).output = (g0.node r).output := by
  by_cases e : r = t
  · rw [e, hu.tnode]
  · rw [hu.old r (hw0.valid r hr) e]

theorem Up1.op (hu : Up1 fresh ps g0 g t done nu) (hw0 : WF g0) {r : Ref} (hr : r ∈ g0.nodes) :
    (g.node r).op = (g0.node r).op := by
  by_cases e : r = t
  · rw [e, hu.tnode]
  · rw [hu.old r (hw0.valid r hr) e]

theorem Up1.new_output (hu : Up1 fresh ps g0 g t done nu) (hw0 : WF g0) {k : Nat} (hk : k ∈ done) {r : Ref} (hr : r ∈ g0.nodes) :
    nu k ∉ (g0.node r).output := by
  intro hin
  obtain ⟨q, hq, hq0, m, x, _, _, _, h4, h5⟩ := hu.made k hk
  have h1 : nu k ≠ "" := by rw [h5]; exact outName_ne m
  have := hu.reach.wf.out_inj h1 hq (hu.sub r hr) (by rw [h4, h5]; simp [newQ]) (by rw [hu.output hw0 hr]; exact hin)
  subst this
  exact hq0 hr

theorem Up1.new_unread (hu : Up1 fresh ps g0 g t done nu)
    (hunread : ∀ k, g0.heap.length ≤ k → ∀ r ∈ g0.nodes, outName fresh k ∉ (g0.node r).input) {k : Nat} (hk : k ∈ done)
    {r : Ref} (hr : r ∈ g0.nodes) : nu k ∉ (g0.node r).input := by
  obtain ⟨_, _, _, m, x, h1, _, _, _, h5⟩ := hu.made k hk
  rw [h5]
  exact hunread m h1 r hr

/-- Equal new tensors have equal sources. -/
theorem Up1.src (hu : Up1 fresh ps g0 g t done nu) {k k' : Nat} (hk : k ∈ done) (hk' : k' ∈ done) (e : nu k = nu k') :
    (g0.node t).input[k]? = (g0.node t).input[k']? := by
  obtain ⟨q, hq, hq0, m, x, _, _, h3, h4, h5⟩ := hu.made k hk
  obtain ⟨q', hq', hq0', m', x', _, _, h3', h4', h5'⟩ := hu.made k' hk'
  have h1 : nu k ≠ "" := by rw [h5]; exact outName_ne m
  have := hu.reach.wf.out_inj h1 hq hq' (by rw [h4, h5]; simp [newQ]) (by rw [h4', e, h5']; simp [newQ])
  subst this
  rw [h4] at h4'
  simp only [newQ, Node.mk.injEq, List.cons.injEq] at h4'
  rw [h3, h3', h4'.2.2.2.2.1.1]

/-- Once all data slots are done the consumer index is complete again. -/
theorem Up1.idx {isIdx : String → Prop} {inps outs : List Nat} (hu : Up1 fresh ps g0 g t inps nu)
    (hc : UpCtx g0 isIdx t ps inps outs)
    (hunread : ∀ k, g0.heap.length ≤ k → ∀ r ∈ g0.nodes, outName fresh k ∉ (g0.node r).input) : Idx g := by
  refine ⟨fun r hr i hi => ?_, hu.consNodup⟩
  by_cases e : r = t
  · subst e
    obtain ⟨k, hk⟩ := List.mem_iff_getElem?.1 hi
    refine hu.consT k i hk ?_
    intro k' hk' hc'
    by_cases hkd : k ∈ inps
    · have hlt : k < (g0.node r).input.length := by
        rw [← hu.tlen]
        by_contra hge
        rw [List.getElem?_eq_none (Nat.le_of_not_lt hge)] at hk; cases hk
      rw [hu.slot k hkd hlt] at hk
      cases hk
      exact hu.new_unread hunread hkd hc.mem (List.mem_of_getElem? hc')
    · rw [hu.slot' k hkd] at hk
      obtain ⟨x, h1, h2, _⟩ := hc.shape.data r hc.mem inps outs hc.io k' hk'
      rw [h1] at hc'
      cases hc'
      exact hc.inNidx k' hk' i h1 (hc.shape.other r hc.mem inps outs hc.io k i hk hkd h2)
  · exact hu.consOther r hr e i hi

end

/-! ## Skipping the readers -/

theorem copyDtype_redir {g g' : G} (hi : Idx g) {a b : String} (h : g.copyDtype a b = .ok g') : Redir g g' [] := by
  have e : applyPairs [] = id := rfl
  unfold G.copyDtype G.setDtypeOpt at h
  split at h
  · rename_i d _
    have hreach : Reachable g → Reachable g' := fun hr => .step (e := .setDtype _ _) hr trivial h
    unfold G.setDtype at h
    split at h
    · cases h
    · cases h
      exact ⟨⟨rfl, rfl, rfl, rfl, fun _ => rfl, fun _ => rfl, rfl, rfl⟩, hreach, ⟨hi.complete, hi.setNodup⟩, fun r _ => by
        rw [e, List.map_id]; rfl, fun _ _ => rfl⟩
  · cases h
    exact Redir.refl hi

/-- `for c in consumers: graph.replace_all_inputs(c.output[0], node.output[i])`. -/
theorem skipConsumers_redir (o : String) (cs : List Ref) : ∀ {g g' : G}, Reachable g → Idx g →
    G.skipConsumers o cs g = .ok g' → (∀ c ∈ cs, ∃ oc, (g.node c).output = [oc]) →
    Redir g g' (cs.map (fun c => ((g.node c).output.headD "", o))) := by
  induction cs with
  | nil =>
    intro g g' _ hi h _
    cases h
    exact Redir.refl hi
  | cons c cs ih =>
    intro g g' hr hi h hall
    obtain ⟨oc, hoc⟩ := hall c (by simp)
    simp only [G.skipConsumers, hoc, bind, Except.bind] at h
    split at h
    · cases h
    rename_i g1 h1
    have r1 := replaceAllInputs_redir hr.wf hi h1
    have r2 := ih (r1.reach hr) r1.idx h (fun c hc => by rw [r1.same.output]; exact hall c (by simp [hc]))
    have := r1.trans r2
    simp only [r1.same.output] at this
    simpa [hoc] using this

/-- The pairs are exactly: output of a reader of a listed output of `t`, that output. -/
structure SkipPairs (g : G) (t : Ref) (is : List Nat) (P : List (String × String)) : Prop where
  sound : ∀ p ∈ P, ∃ j ∈ is, (g.node t).output[j]? = some p.2 ∧ ∃ c ∈ g.nodes, p.2 ∈ (g.node c).input ∧ (g.node c).output = [p.1]
  complete : ∀ j ∈ is, ∀ o : String, (g.node t).output[j]? = some o → ∀ c ∈ g.nodes, o ∈ (g.node c).input →
    ∀ oc, (g.node c).output = [oc] → (oc, o) ∈ P

theorem pushUpOutputs_redir {g1 : G} (hr1 : Reachable g1) {t : Ref} {qout : String}
    (hinj : ∀ (i j : Nat) (o : String), (g1.node t).output[i]? = some o → (g1.node t).output[j]? = some o → i = j)
    (hread : ∀ c ∈ g1.nodes, ∀ o ∈ (g1.node t).output, o ∈ (g1.node c).input →
      ∃ oc, (g1.node c).output = [oc] ∧ oc ∉ (g1.node t).output) (is : List Nat) :
    ∀ (done : List Nat) (P : List (String × String)) (g g' : G), (done ++ is).Nodup → SkipPairs g1 t done P → Redir g1 g P →
      G.pushUpOutputs t qout is g = .ok g' → ∃ P', SkipPairs g1 t (done ++ is) P' ∧ Redir g1 g' P' := by
  induction is with
  | nil =>
    intro done P g g' _ hp hd h
    cases h
    exact ⟨P, by simpa using hp, hd⟩
  | cons i is ih =>
    intro done P g g' hnd hp hd h
    have hi : i ∉ done := by
      intro hc
      rw [List.nodup_append] at hnd
      exact hnd.2.2 i hc i (by simp) rfl
    simp only [G.pushUpOutputs] at h
    split at h
    · cases h
    rename_i o ho
    rw [hd.same.output] at ho
    simp only [bind, Except.bind] at h
    split at h
    · cases h
    rename_i g2 h2
    split at h
    · cases h
    rename_i g3 h3
    have r2 := copyDtype_redir hd.idx h2
    have r12 := hd.trans r2
    rw [List.append_nil] at r12
    have hst : ∀ p ∈ P, ∀ q ∈ P, p.2 ≠ q.1 := by
      intro p hpm q hqm e
      obtain ⟨j, _, h1, _⟩ := hp.sound p hpm
      obtain ⟨j', _, h1', c, hc, h2', h3'⟩ := hp.sound q hqm
      obtain ⟨oc, h4, h5⟩ := hread c hc q.2 (List.mem_of_getElem? h1') h2'
      rw [h3'] at h4
      cases h4
      exact h5 (by rw [← e]; exact List.mem_of_getElem? h1)
    have hfix : ∀ x, applyPairs P x = o ↔ x = o := by
      intro x
      rcases applyPairs_spec P x hst with ⟨_, h2⟩ | ⟨p, hpm, h1, h2⟩
      · rw [h2]
      · obtain ⟨j, hj, h3, c, hc, h4, h5⟩ := hp.sound p hpm
        obtain ⟨oc, h6, h7⟩ := hread c hc p.2 (List.mem_of_getElem? h3) h4
        rw [h5] at h6
        cases h6
        rw [h2]
        constructor
        · intro e
          rw [e] at h3
          exact absurd (hinj j i o h3 ho ▸ hj) hi
        · intro e
          rw [h1, e] at h7
          exact absurd (List.mem_of_getElem? ho) h7
    have hreads : ∀ c ∈ g1.nodes, (o ∈ (g2.node c).input ↔ o ∈ (g1.node c).input) := by
      intro c hc
      rw [r12.node c hc]
      simp only [List.mem_map]
      constructor
      · rintro ⟨x, hx, e⟩
        rw [(hfix x).1 e] at hx; exact hx
      · intro hx; exact ⟨o, hx, (hfix o).2 rfl⟩
    have hcs : ∀ c, c ∈ g2.findOutputConsumers o ↔ c ∈ g1.nodes ∧ o ∈ (g1.node c).input := by
      intro c
      rw [mem_findOutputConsumers (r12.reach hr1).wf, r12.same.nodes]
      constructor
      · rintro ⟨h1, h2, _⟩; exact ⟨h1, (hreads c h1).1 h2⟩
      · rintro ⟨h1, h2⟩
        have h2' := (hreads c h1).2 h2
        exact ⟨h1, h2', r12.idx.complete c (by rw [r12.same.nodes]; exact h1) o h2'⟩
    have r3 := skipConsumers_redir o _ (r12.reach hr1) r12.idx h3 (by
      intro c hc
      obtain ⟨h1, h2⟩ := (hcs c).1 hc
      obtain ⟨oc, h3, _⟩ := hread c h1 o (List.mem_of_getElem? ho) h2
      exact ⟨oc, by rw [r12.same.output]; exact h3⟩)
    have r13 := r12.trans r3
    have hnew : SkipPairs g1 t (done ++ [i]) (P ++ (g2.findOutputConsumers o).map (fun c => ((g2.node c).output.headD "", o))) := by
      constructor
      · intro p hpm
        rcases List.mem_append.1 hpm with hpm | hpm
        · obtain ⟨j, hj, h1⟩ := hp.sound p hpm
          exact ⟨j, by simp [hj], h1⟩
        · obtain ⟨c, hc, rfl⟩ := List.mem_map.1 hpm
          obtain ⟨h1, h2⟩ := (hcs c).1 hc
          obtain ⟨oc, h3, _⟩ := hread c h1 o (List.mem_of_getElem? ho) h2
          refine ⟨i, by simp, ho, c, h1, h2, ?_⟩
          simp only [r12.same.output, h3, List.headD_cons]
      · intro j hj o' ho' c hc hin oc hoc
        rw [List.mem_append]
        rcases List.mem_append.1 hj with hj | hj
        · exact Or.inl (hp.complete j hj o' ho' c hc hin oc hoc)
        · simp only [List.mem_singleton] at hj
          subst hj
          rw [ho] at ho'
          cases ho'
          refine Or.inr (List.mem_map.2 ⟨c, (hcs c).2 ⟨hc, hin⟩, ?_⟩)
          simp only [r12.same.output, hoc, List.headD_cons]
    have := ih (done ++ [i]) _ g3 g' (by simpa using hnd) hnew r13 h
    simpa using this

end Verif.Graph
