import Verif.Props.QDQUp4
/-!
# C43 (6): pushing a dequantization down through an operator that moves elements: the edits
-/
namespace Verif.Graph
open Verif

/-- `x` is dequantized from `y` with scale and zero point `ps`. -/
def DqSlot (g : G) (ps : List String) (x y : String) : Prop :=
  ∃ d ∈ g.nodes, (g.node d).op = "DequantizeLinear" ∧ (g.node d).attr.get "axis" = none ∧ (g.node d).input = y :: ps ∧
    (g.node d).output = [x]

/-- What the checks of the downward push establish. -/
structure DownCtx (g : G) (isIdx isQ : String → Prop) (t : Ref) (ps : List String) (inps outs : List Nat) : Prop where
  shape : QShape g isIdx
  kinds : QKind g isQ
  mem : t ∈ g.nodes
  io : tensorIdx (g.node t) = some (inps, outs)
  slot : ∀ k ∈ inps, ∀ x : String, (g.node t).input[k]? = some x → ∃ y, DqSlot g ps x y
  ne : inps ≠ []
  scal : ∀ p ∈ ps, ScalarConst g p
  nout : ∀ o ∈ (g.node t).output, o ∉ g.outputs

section
variable {g : G} {isIdx isQ : String → Prop} {t : Ref} {ps : List String} {inps outs : List Nat}

theorem DownCtx.outNe (h : DownCtx g isIdx isQ t ps inps outs) : ∀ o ∈ (g.node t).output, o ≠ "" := by
  intro o ho e
  subst e
  exact (h.shape.outs t h.mem inps outs h.io).2 ho

theorem DqSlot.facts (hs : QShape g isIdx) (hk : QKind g isQ) {x y : String} (h : DqSlot g ps x y) :
    ¬ isIdx x ∧ ¬ isIdx y ∧ x ≠ "" ∧ y ≠ "" ∧ ¬ isQ x ∧ isQ y := by
  obtain ⟨d, hd, h1, h2, h3, h4⟩ := h
  obtain ⟨_, _, y', ps', x', h5, h6, h7, h8, h9, h10, _⟩ := hs.qd d hd ⟨Or.inr h1, h2⟩
  rw [h3] at h5
  cases h5
  rw [h4] at h6
  cases h6
  obtain ⟨h11, h12⟩ := hk.dq d hd h1 h2
  exact ⟨h10, h9, h8, h7, h12 x (by simp [h4]), h11 y ps h3⟩

theorem DownCtx.outN (h : DownCtx g isIdx isQ t ps inps outs) : ∀ o ∈ (g.node t).output, ¬ isIdx o ∧ ¬ isQ o := by
  intro o ho
  obtain ⟨k, hk⟩ := List.exists_mem_of_ne_nil _ h.ne
  obtain ⟨x, h1, _, h3⟩ := h.shape.data t h.mem inps outs h.io k hk
  obtain ⟨y, hy⟩ := h.slot k hk x h1
  obtain ⟨h4, _, _, _, h5, _⟩ := hy.facts h.shape h.kinds
  rw [← h3 o ho, ← h.kinds.data t h.mem inps outs h.io k hk x h1 o ho]
  exact ⟨h4, h5⟩

end

/-! ## The inputs -/

/-- The state while slots of `t` are redirected past their dequantization. -/
structure Down1 (ps : List String) (g0 g : G) (t : Ref) (done : List Nat) : Prop where
  reach : Reachable g
  same : Same g0 g
  old : ∀ r, r ≠ t → g.node r = g0.node r
  tnode : g.node t = { g0.node t with input := (g.node t).input }
  tlen : (g.node t).input.length = (g0.node t).input.length
  slot : ∀ k ∈ done, ∃ x y, (g0.node t).input[k]? = some x ∧ DqSlot g0 ps x y ∧ (g.node t).input[k]? = some y
  slot' : ∀ k, k ∉ done → (g.node t).input[k]? = (g0.node t).input[k]?
  consNodup : ∀ x, (g.cons x).Nodup
  consOther : ∀ r ∈ g.nodes, r ≠ t → ∀ i ∈ (g.node r).input, (g.node r).name ∈ g.cons i
  consT : ∀ (k : Nat) (x : String), (g.node t).input[k]? = some x → (∀ k' ∈ done, (g0.node t).input[k']? ≠ some x) →
    (g.node t).name ∈ g.cons x

theorem Down1.start {ps : List String} {g : G} (hr : Reachable g) (hi : Idx g) {t : Ref} (ht : t ∈ g.nodes) :
    Down1 ps g g t [] where
  reach := hr
  same := Same.refl g
  old := fun _ _ => rfl
  tnode := rfl
  tlen := rfl
  slot := by simp
  slot' := fun _ _ => rfl
  consNodup := hi.setNodup
  consOther := fun r h _ => hi.complete r h
  consT := fun _ x h _ => hi.complete t ht x (List.mem_of_getElem? h)

theorem pushDownInputs_spec {g0 : G} {isIdx isQ : String → Prop} {t : Ref} {ps : List String} {inps outs : List Nat}
    (hc : DownCtx g0 isIdx isQ t ps inps outs) (is : List Nat) :
    ∀ (done : List Nat) (g g' : G), (done ++ is).Nodup → (∀ i ∈ is, i ∈ inps) →
      Down1 ps g0 g t done → G.pushDownInputs t is g = .ok g' → Down1 ps g0 g' t (done ++ is) := by
  induction is with
  | nil =>
    intro done g g' _ _ hu h
    cases h
    simpa using hu
  | cons i is ih =>
    intro done g g' hnd hsub hu h
    have hi : i ∉ done := by
      intro hc
      rw [List.nodup_append] at hnd
      exact hnd.2.2 i hc i (by simp) rfl
    simp only [G.pushDownInputs] at h
    split at h
    · cases h
    rename_i x hx
    have hx0 : (g0.node t).input[i]? = some x := by rw [← hu.slot' i hi]; exact hx
    obtain ⟨y, hy⟩ := hc.slot i (hsub i (by simp)) x hx0
    have hxne := (hy.facts hc.shape hc.kinds).2.2.1
    have hw := hu.reach.wf
    split at h
    · cases h
    rename_i d hd
    obtain ⟨hdm, hdo⟩ := (hw.getNodeByOutput hxne d).1 hd
    obtain ⟨d', hd', h1, h2, h3, h4⟩ := id hy
    have hd'' : d' ∈ g.nodes := by rw [hu.same.nodes]; exact hd'
    have hdd : d = d' := hw.out_inj hxne hdm hd'' hdo (by rw [hu.same.output, h4]; simp)
    subst hdd
    have hdt : d ≠ t := by
      rintro rfl
      have := IsQD.not_tensor (n := g0.node d) ⟨Or.inr h1, h2⟩
      rw [hc.io] at this; cases this
    rw [hu.old d hdt, h3] at h
    simp only [bind, Except.bind] at h
    split at h
    · cases h
    rename_i g2 hg2
    obtain ⟨c1, c2, c3, c4, c5⟩ := replaceInputAt_spec hg2
    have htg : t ∈ g.nodes := by rw [hu.same.nodes]; exact hc.mem
    have hreach2 : Reachable g2 := .step (e := .replaceInputAt t x y i) hu.reach htg hg2
    have hnode2 : ∀ q, q ≠ t → g2.node q = g.node q := by
      intro q hq
      rw [node_of_heap_set c3, node_setNode_ne (Ne.symm hq)]
    have htn2 : g2.node t = (g.node t).setInput i y := by
      rw [node_of_heap_set c3, node_setNode_self (hw.valid t htg)]
    have hilt : i < (g.node t).input.length := by
      by_contra hge
      rw [List.getElem?_eq_none (Nat.le_of_not_lt hge)] at hx; cases hx
    have hup : Down1 ps g0 g2 t (done ++ [i]) := by
      refine
        { reach := hreach2
          same := hu.same.trans c2
          old := fun q hq => by rw [hnode2 q hq, hu.old q hq]
          tnode := ?_
          tlen := by rw [htn2]; simp [Node.setInput, hu.tlen]
          slot := ?_, slot' := ?_
          consNodup := c5 hu.consNodup
          consOther := ?_, consT := ?_ }
      · have e1 := hu.tnode
        have e2 : (g2.node t).input = (g.node t).input.set i y := by rw [htn2]; rfl
        rw [e2, htn2]
        unfold Node.setInput
        conv => lhs; rw [e1]
      · intro k hk
        rw [htn2]
        simp only [Node.setInput, List.getElem?_set]
        by_cases e : i = k
        · subst e
          rw [if_pos rfl, if_pos hilt]
          exact ⟨x, y, hx0, hy, rfl⟩
        · rw [if_neg e]
          exact hu.slot k (by simpa [Ne.symm e] using hk)
      · intro k hk
        simp only [List.mem_append, List.mem_singleton, not_or] at hk
        rw [htn2]
        simp only [Node.setInput]
        rw [List.getElem?_set_ne (Ne.symm hk.2)]
        exact hu.slot' k hk.1
      · intro q hq hqt z hz
        rw [c2.nodes] at hq
        rw [hnode2 q hqt] at hz ⊢
        rw [c4]
        refine Or.inl ⟨hu.consOther q hq hqt z hz, ?_⟩
        rintro ⟨_, e⟩
        exact hqt (hw.name_inj hq htg e)
      · intro k z hz hk
        rw [c2.name, c4]
        rw [htn2] at hz
        simp only [Node.setInput, List.getElem?_set] at hz
        by_cases e : i = k
        · subst e
          rw [if_pos rfl, if_pos hilt] at hz
          cases hz
          exact Or.inr ⟨rfl, rfl⟩
        · rw [if_neg e] at hz
          have hzx : z ≠ x := by rintro rfl; exact hk i (by simp) hx0
          exact Or.inl ⟨hu.consT k z hz (fun k' hk' => hk k' (by simp [hk'])), fun h => hzx h.1⟩
    have := ih (done ++ [i]) g2 g' (by simpa using hnd) (fun j hj => hsub j (by simp [hj])) hup h
    simpa using this

theorem Down1.idx {g0 g : G} {isIdx isQ : String → Prop} {t : Ref} {ps : List String} {inps outs : List Nat}
    (hc : DownCtx g0 isIdx isQ t ps inps outs) (hu : Down1 ps g0 g t inps) : Idx g := by
  refine ⟨fun r hr i hi => ?_, hu.consNodup⟩
  by_cases e : r = t
  · subst e
    obtain ⟨k, hk⟩ := List.mem_iff_getElem?.1 hi
    refine hu.consT k i hk ?_
    intro k' hk' hc'
    obtain ⟨y', hy'⟩ := hc.slot k' hk' i hc'
    have hf := hy'.facts hc.shape hc.kinds
    by_cases hkd : k ∈ inps
    · obtain ⟨x, y, _, h2, h3⟩ := hu.slot k hkd
      rw [h3] at hk
      cases hk
      exact hf.2.2.2.2.1 (h2.facts hc.shape hc.kinds).2.2.2.2.2
    · rw [hu.slot' k hkd] at hk
      exact hf.1 (hc.shape.other r hc.mem inps outs hc.io k i hk hkd hf.2.2.1)
  · exact hu.consOther r hr e i hi

/-! ## The outputs -/

/-- The state while dequantizations are put on the outputs of `t`. -/
structure Down2 (fresh : Nat → String) (ps : List String) (g1 g : G) (t : Ref) (done : List Nat) (mu : Nat → String)
    (P : List (String × String)) : Prop where
  reach : Reachable g
  idx : Idx g
  len : g1.heap.length ≤ g.heap.length
  sub : ∀ r ∈ g1.nodes, r ∈ g.nodes
  node : ∀ r ∈ g1.nodes, g.node r = { g1.node r with input := (g1.node r).input.map (applyPairs P) }
  other : ∀ r, r < g1.heap.length → r ∉ g1.nodes → g.node r = g1.node r
  newRef : ∀ r ∈ g.nodes, r ∉ g1.nodes → g1.heap.length ≤ r
  new : ∀ r ∈ g.nodes, r ∉ g1.nodes → ∃ i ∈ done, ∃ m o, g1.heap.length ≤ m ∧ m < g.heap.length ∧
    (g1.node t).output[i]? = some o ∧ g.node r = newQ fresh "DequantizeLinear" m o ps ∧ mu i = outName fresh m
  made : ∀ i ∈ done, ∃ r ∈ g.nodes, r ∉ g1.nodes ∧ ∃ m o, g1.heap.length ≤ m ∧ m < g.heap.length ∧
    (g1.node t).output[i]? = some o ∧ g.node r = newQ fresh "DequantizeLinear" m o ps ∧ mu i = outName fresh m
  sound : ∀ p ∈ P, ∃ i ∈ done, (g1.node t).output[i]? = some p.1 ∧ p.2 = mu i
  complete : ∀ i ∈ done, ∀ o : String, (g1.node t).output[i]? = some o → (o, mu i) ∈ P
  inputs : g.inputs = g1.inputs
  outputs : g.outputs = g1.outputs

theorem Down2.start {fresh : Nat → String} {ps : List String} {g : G} (hr : Reachable g) (hi : Idx g) (t : Ref)
    (mu : Nat → String) : Down2 fresh ps g g t [] mu [] where
  reach := hr
  idx := hi
  len := Nat.le_refl _
  sub := fun _ h => h
  node := (Redir.refl hi).node
  other := fun _ _ _ => rfl
  newRef := fun r h h' => absurd h h'
  new := fun r h h' => absurd h h'
  made := by simp
  sound := by simp
  complete := by simp
  inputs := rfl
  outputs := rfl

theorem redirect_noop {n : Node} {a b : String} (h : a ∉ n.input) : n.redirect a b = n := by
  unfold Node.redirect
  have : n.input.map (fun x => if x = a then b else x) = n.input := by
    conv => rhs; rw [← List.map_id n.input]
    apply List.map_congr_left
    intro x hx
    rw [if_neg]
    · rfl
    · rintro rfl; exact h hx
  rw [this]

theorem pushDownOutputs_spec {fresh : Nat → String} (hf : FreshNames fresh) {g1 : G} {t : Ref} (ht : t ∈ g1.nodes)
    {ps : List String} {dn : Node} {src : String} (hda : dn.attr.get "axis" = none) (hps : dn.input.drop 1 = ps)
    (hinj : ∀ (i j : Nat) (o : String), (g1.node t).output[i]? = some o → (g1.node t).output[j]? = some o → i = j)
    (hpsT : ∀ a ∈ ps, a ∉ (g1.node t).output) (is : List Nat) :
    ∀ (done : List Nat) (mu : Nat → String) (P : List (String × String)) (g g' : G), (done ++ is).Nodup →
      Down2 fresh ps g1 g t done mu P → G.pushDownOutputs fresh t src dn is g = .ok g' →
      ∃ mu' P', Down2 fresh ps g1 g' t (done ++ is) mu' P' := by
  induction is with
  | nil =>
    intro done mu P g g' _ hu h
    cases h
    exact ⟨mu, P, by simpa using hu⟩
  | cons i is ih =>
    intro done mu P g g' hnd hu h
    have hi : i ∉ done := by
      intro hc
      rw [List.nodup_append] at hnd
      exact hnd.2.2 i hc i (by simp) rfl
    simp only [G.pushDownOutputs] at h
    split at h
    · cases h
    rename_i o ho
    have houtT : (g.node t).output = (g1.node t).output := by rw [hu.node t ht]
    rw [houtT] at ho
    simp only [bind, Except.bind] at h
    split at h
    · cases h
    rename_i ga hga
    split at h
    · cases h
    rename_i pr hgb
    obtain ⟨gb, r⟩ := pr
    simp only at h
    split at h
    · cases h
    rename_i gc hgc
    have ra := copyDtype_redir hu.idx hga
    have hnodea : ∀ q, ga.node q = g.node q := by
      intro q
      by_cases hq : q ∈ g.nodes
      · rw [ra.node q hq]
        have : applyPairs [] = id := rfl
        rw [this, List.map_id]
      · exact ra.other q hq
    have hreacha := ra.reach hu.reach
    have hattr : qdqAttr dn = [] := by unfold qdqAttr; rw [hda]
    unfold G.makeQDQ at hgb
    rw [hattr, hps] at hgb
    have m := makeNode_made hgb
    have hlena : ga.heap.length = g.heap.length := ra.same.len
    have hlenb : gb.heap.length = g.heap.length + 1 := by rw [m.heap]; simp [hlena]
    have hself : gb.node r = newQ fresh "DequantizeLinear" g.heap.length o ps := by
      simp [G.node, m.heap, m.ref, newQ, outName, hlena]
    have hreachb : Reachable gb := by
      refine .step (e := .makeNode "DequantizeLinear" (o :: ps) (fresh ga.heap.length)
        [fresh ga.heap.length ++ ":0"] [] "") hreacha ⟨hf.ne _, ?_⟩ ?_
      · have h1 : fresh ga.heap.length ++ ":0" ≠ "" := outName_ne (fresh := fresh) _
        rw [List.filter_cons_of_pos (by simpa using h1)]
        simp
      · simp only [G.apply, hgb]; rfl
    have hwb := hreachb.wf
    have hidxb : Idx gb := m.idx hreacha.wf ra.idx
    have hnodeb : ∀ q, q < g.heap.length → gb.node q = g.node q := by
      intro q hq
      rw [node_append_lt (by rw [hlena]; exact hq) _ _ m.heap, hnodea q]
    have hnodesb : gb.nodes = g.nodes ++ [r] := by rw [m.nodes, ra.same.nodes]
    have hrlen : r = g.heap.length := by rw [m.ref, hlena]
    have hw := hu.reach.wf
    have hrg : r ∉ g.nodes := by
      intro hc
      have := hw.valid r hc
      rw [hrlen] at this
      exact Nat.lt_irrefl _ this
    have hrm : r ∈ gb.nodes := by rw [hnodesb]; simp
    have hreachc : Reachable gc := .step (e := .insertNodeOnOutput r o) hreachb hrm hgc
    obtain ⟨newOut, rest, hno, hrep⟩ := insertNodeOnOutput_eq hgc
    rw [hself] at hno
    simp only [newQ, List.cons.injEq] at hno
    obtain ⟨hno, _⟩ := hno
    subst hno
    have hops : ∀ l, (some ((gb.consumerRefs o).filter (· ≠ r)) : Option (List Ref)) = some l → ∀ q ∈ l, q ∈ gb.nodes := by
      intro l hl q hq
      cases hl
      simp only [List.mem_filter] at hq
      exact consumerRefs_mem hwb hq.1
    obtain ⟨c1, c2, c3, c4⟩ := replaceAllInputs_spec hwb hops hrep
    simp only [Option.getD_some, List.mem_filter, decide_eq_true_eq] at c2
    have hnodec : ∀ q ∈ g.nodes, gc.node q = (g.node q).redirect o (outName fresh g.heap.length) := by
      intro q hq
      have hqr : q ≠ r := by rintro rfl; exact hrg hq
      have hqb : q ∈ gb.nodes := by rw [hnodesb]; simp [hq]
      rw [c2 q, hnodeb q (hw.valid q hq)]
      split
      · rfl
      · rename_i hn
        rw [redirect_noop]
        intro hin
        apply hn
        refine ⟨?_, hqr⟩
        simp only [G.consumerRefs, List.mem_filterMap]
        refine ⟨(gb.node q).name, ?_, (hwb.getNodeByName _ q).2 ⟨hqb, rfl⟩⟩
        exact hidxb.complete q hqb o (by rw [hnodeb q (hw.valid q hq)]; exact hin)
    have hnoder : gc.node r = newQ fresh "DequantizeLinear" g.heap.length o ps := by
      rw [c2 r, if_neg (by simp), hself]
    have hr1 : r ∉ g1.nodes := fun hc => hrg (hu.sub r hc)
    let mu' : Nat → String := fun k => if k = i then outName fresh g.heap.length else mu k
    have hmu' : ∀ k ∈ done, mu' k = mu k := by
      intro k hk
      have : k ≠ i := by rintro rfl; exact hi hk
      simp [mu', this]
    have hmui : mu' i = outName fresh g.heap.length := by simp [mu']
    have hlenc : gc.heap.length = g.heap.length + 1 := by rw [c1.len, hlenb]
    have hnodesc : gc.nodes = g.nodes ++ [r] := by rw [c1.nodes, hnodesb]
    have hkeep : ∀ q ∈ g.nodes, q ∉ g1.nodes → gc.node q = g.node q := by
      intro q hq hq1
      obtain ⟨i', hi', m', o', _, _, h3, h4, _⟩ := hu.new q hq hq1
      rw [hnodec q hq, redirect_noop]
      rw [h4]
      simp only [newQ, List.mem_cons, not_or]
      refine ⟨?_, fun hp => hpsT o hp (List.mem_of_getElem? ho)⟩
      rintro rfl
      rw [hinj i' i o h3 ho] at hi'
      exact hi hi'
    have hup : Down2 fresh ps g1 gc t (done ++ [i]) mu' (P ++ [(o, outName fresh g.heap.length)]) := by
      refine
        { reach := hreachc
          idx := c3 hidxb
          len := by rw [hlenc]; exact Nat.le_succ_of_le hu.len
          sub := fun q hq => by rw [hnodesc]; simp [hu.sub q hq]
          node := ?_, other := ?_, newRef := ?_, new := ?_, made := ?_, sound := ?_, complete := ?_
          inputs := by rw [c1.inputs, m.inputs, ra.same.inputs, hu.inputs]
          outputs := by rw [c1.outputs, m.outputs, ra.same.outputs, hu.outputs] }
      · intro q hq
        rw [hnodec q (hu.sub q hq), hu.node q hq]
        simp only [Node.redirect, List.map_map]
        congr 1
        apply List.map_congr_left
        intro z _
        rw [applyPairs_append, applyPairs_one]
        rfl
      · intro q hq hqn
        have hqlt : q < g.heap.length := Nat.lt_of_lt_of_le hq hu.len
        have hqr : q ∉ gb.nodes := by
          intro hc
          rw [hnodesb] at hc
          simp only [List.mem_append, List.mem_singleton] at hc
          rcases hc with hc | rfl
          · exact Nat.lt_irrefl _ (Nat.lt_of_lt_of_le hq (hu.newRef q hc hqn))
          · rw [hrlen] at hqlt; exact Nat.lt_irrefl _ hqlt
        rw [c2 q, if_neg (fun h => hqr (consumerRefs_mem hwb h.1)), hnodeb q hqlt, hu.other q hq hqn]
      · intro q hq hq1
        rw [hnodesc] at hq
        simp only [List.mem_append, List.mem_singleton] at hq
        rcases hq with hq | rfl
        · exact hu.newRef q hq hq1
        · rw [hrlen]; exact hu.len
      · intro q hq hq1
        rw [hnodesc] at hq
        simp only [List.mem_append, List.mem_singleton] at hq
        rcases hq with hq | rfl
        · obtain ⟨k, hk, n, y, h1, h2, h3, h4, h5⟩ := hu.new q hq hq1
          exact ⟨k, by simp [hk], n, y, h1, by omega, h3, by rw [hkeep q hq hq1]; exact h4, by rw [hmu' k hk]; exact h5⟩
        · exact ⟨i, by simp, g.heap.length, o, hu.len, by omega, ho, hnoder, hmui⟩
      · intro k hk
        simp only [List.mem_append, List.mem_singleton] at hk
        rcases hk with hk | rfl
        · obtain ⟨q, hq, hq1, n, y, h1, h2, h3, h4, h5⟩ := hu.made k hk
          exact ⟨q, by rw [hnodesc]; simp [hq], hq1, n, y, h1, by omega, h3, by rw [hkeep q hq hq1]; exact h4,
            by rw [hmu' k hk]; exact h5⟩
        · exact ⟨r, by rw [hnodesc]; simp, hr1, g.heap.length, o, hu.len, by omega, ho, hnoder, hmui⟩
      · intro p hp
        simp only [List.mem_append, List.mem_singleton] at hp
        rcases hp with hp | rfl
        · obtain ⟨k, hk, h1, h2⟩ := hu.sound p hp
          exact ⟨k, by simp [hk], h1, by rw [hmu' k hk]; exact h2⟩
        · exact ⟨i, by simp, ho, hmui.symm⟩
      · intro k hk o' ho'
        simp only [List.mem_append, List.mem_singleton] at hk ⊢
        rcases hk with hk | rfl
        · exact Or.inl (by rw [hmu' k hk]; exact hu.complete k hk o' ho')
        · rw [ho] at ho'
          cases ho'
          exact Or.inr (by rw [hmui])
    have := ih (done ++ [i]) mu' _ gc g' (by simpa using hnd) hup h
    simpa using this

end Verif.Graph
