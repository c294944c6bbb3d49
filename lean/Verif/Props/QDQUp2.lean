import Verif.Props.QDQUp
/-!
# C43 (3): the upward push preserves the model
-/
namespace Verif.Graph
open Verif

/-- The graph after the upward push. -/
structure UpFinal (fresh : Nat → String) (ps : List String) (g0 g2 : G) (t : Ref) (inps : List Nat) (nu : Nat → String)
    (P : List (String × String)) : Prop where
  reach : Reachable g2
  idx : Idx g2
  len : g0.heap.length ≤ g2.heap.length
  sub : ∀ r ∈ g0.nodes, r ∈ g2.nodes
  pair : ∀ p ∈ P, p.2 ∈ (g0.node t).output ∧ ∃ c ∈ g0.nodes, c ≠ t ∧ p.2 ∈ (g0.node c).input ∧ (g0.node c).output = [p.1]
  pairs : ∀ c ∈ g0.nodes, ∀ o ∈ (g0.node t).output, o ∈ (g0.node c).input → ∀ oc, (g0.node c).output = [oc] → (oc, o) ∈ P
  node : ∀ r ∈ g0.nodes, r ≠ t → g2.node r = { g0.node r with input := (g0.node r).input.map (applyPairs P) }
  tnode : g2.node t = { g0.node t with input := (g2.node t).input }
  tlen : (g2.node t).input.length = (g0.node t).input.length
  slot : ∀ k ∈ inps, (g2.node t).input[k]? = some (nu k)
  slot' : ∀ k, k ∉ inps → (g2.node t).input[k]? = (g0.node t).input[k]?
  new : ∀ r ∈ g2.nodes, r ∉ g0.nodes → ∃ k ∈ inps, ∃ m x, g0.heap.length ≤ m ∧ m < g2.heap.length ∧
    (g0.node t).input[k]? = some x ∧ g2.node r = newQ fresh "QuantizeLinear" m x ps ∧ nu k = outName fresh m
  made : ∀ k ∈ inps, ∃ r ∈ g2.nodes, r ∉ g0.nodes ∧ ∃ m x, g0.heap.length ≤ m ∧ m < g2.heap.length ∧
    (g0.node t).input[k]? = some x ∧ g2.node r = newQ fresh "QuantizeLinear" m x ps ∧ nu k = outName fresh m
  src : ∀ k ∈ inps, ∀ k' ∈ inps, nu k = nu k' → (g0.node t).input[k]? = (g0.node t).input[k']?
  newOut : ∀ k ∈ inps, ∀ r ∈ g0.nodes, nu k ∉ (g0.node r).output
  newIn : ∀ k ∈ inps, ∀ r ∈ g0.nodes, nu k ∉ (g0.node r).input
  inputs : g2.inputs = g0.inputs
  inputNodes : ∀ r ∈ g0.inputs, (g0.node r).isGraphInput = true → (g2.node r).isGraphInput = true ∧
    (g2.node r).output = (g0.node r).output
  outputs : g2.outputs = g0.outputs

theorem upFinal {fresh : Nat → String} {ps : List String} {g0 g1 g2 : G} {t : Ref} {inps outs : List Nat}
    {nu : Nat → String} {P : List (String × String)} {isIdx : String → Prop} (hv : QInv fresh g0)
    (hc : UpCtx g0 isIdx t ps inps outs) (hu : Up1 fresh ps g0 g1 t inps nu) (hP : SkipPairs g1 t outs P)
    (hd : Redir g1 g2 P) : UpFinal fresh ps g0 g2 t inps nu P := by
  have hw0 := hv.reach.wf
  obtain ⟨ρ, hrk⟩ := hv.ranked
  have hunread : ∀ k, g0.heap.length ≤ k → ∀ r ∈ g0.nodes, outName fresh k ∉ (g0.node r).input :=
    fun k hk => (hv.unread k hk).1
  have hout : ∀ r ∈ g0.nodes, (g1.node r).output = (g0.node r).output := fun r hr => hu.output hw0 hr
  have hselfread : ∀ o ∈ (g0.node t).output, o ∉ (g0.node t).input := by
    intro o ho hin
    exact Nat.lt_irrefl _ (hrk t hc.mem t hc.mem ⟨o, hc.outNe o ho, hin, ho⟩)
  have hnewread : ∀ r ∈ g1.nodes, r ∉ g0.nodes → ∀ o ∈ (g0.node t).output, o ∉ (g1.node r).input := by
    intro r hr hr0 o ho hin
    obtain ⟨k, _, m, x, _, _, h3, h4, _⟩ := hu.new r hr hr0
    rw [h4] at hin
    simp only [newQ, List.mem_cons] at hin
    rcases hin with rfl | hp
    · exact hselfread o ho (List.mem_of_getElem? h3)
    · exact (hc.scal o hp).not_output hw0 hc.mem (tensor_not_const hc.io) ho
  have hinps : ∀ k ∈ inps, k < (g0.node t).input.length := by
    intro k hk
    obtain ⟨x, h1, _⟩ := hc.shape.data t hc.mem inps outs hc.io k hk
    by_contra hge
    rw [List.getElem?_eq_none (Nat.le_of_not_lt hge)] at h1; cases h1
  have htread : ∀ o ∈ (g0.node t).output, o ∉ (g1.node t).input := by
    intro o ho hin
    obtain ⟨k, hk⟩ := List.mem_iff_getElem?.1 hin
    by_cases hkd : k ∈ inps
    · rw [hu.slot k hkd (hinps k hkd)] at hk
      cases hk
      exact hu.new_output hw0 hkd hc.mem ho
    · rw [hu.slot' k hkd] at hk
      exact hselfread o ho (List.mem_of_getElem? hk)
  have hpair : ∀ p ∈ P, p.2 ∈ (g0.node t).output ∧
      ∃ c ∈ g0.nodes, c ≠ t ∧ p.2 ∈ (g0.node c).input ∧ (g0.node c).output = [p.1] := by
    intro p hp
    obtain ⟨j, _, h1, c, hcm, h2, h3⟩ := hP.sound p hp
    rw [hout t hc.mem] at h1
    have h1 := List.mem_of_getElem? h1
    have hc0 : c ∈ g0.nodes := by
      by_contra hn
      exact hnewread c hcm hn _ h1 h2
    have hct : c ≠ t := by rintro rfl; exact htread _ h1 h2
    rw [hout c hc0] at h3
    rw [hu.old c (hw0.valid c hc0) hct] at h2
    exact ⟨h1, c, hc0, hct, h2, h3⟩
  have hpairs : ∀ c ∈ g0.nodes, ∀ o ∈ (g0.node t).output, o ∈ (g0.node c).input → ∀ oc, (g0.node c).output = [oc] →
      (oc, o) ∈ P := by
    intro c hcm o ho hin oc hoc
    have hct : c ≠ t := by rintro rfl; exact hselfread o ho hin
    obtain ⟨j, hj⟩ := List.mem_iff_getElem?.1 ho
    have hjm : j ∈ outs := by
      rw [(hc.shape.outs t hc.mem inps outs hc.io).1, List.mem_range]
      by_contra hge
      rw [List.getElem?_eq_none (Nat.le_of_not_lt hge)] at hj; cases hj
    refine hP.complete j hjm o (by rw [hout t hc.mem]; exact hj) c (hu.sub c hcm) ?_ oc (by rw [hout c hcm]; exact hoc)
    rw [hu.old c (hw0.valid c hcm) hct]; exact hin
  have hst : ∀ p ∈ P, ∀ q ∈ P, p.2 ≠ q.1 := by
    intro p hp q hq e
    obtain ⟨h1, _⟩ := hpair p hp
    obtain ⟨_, c, h2, h3, _, h4⟩ := hpair q hq
    exact h3 (hw0.out_inj (hc.outNe _ h1) h2 hc.mem (by rw [h4, e]; simp) h1)
  have hfix : ∀ x, (∀ p ∈ P, p.1 ≠ x) → applyPairs P x = x := by
    intro x hx
    rcases applyPairs_spec P x hst with ⟨_, h⟩ | ⟨p, hp, h, _⟩
    · exact h
    · exact absurd h (hx p hp)
  have hq : ∀ p ∈ P, ∃ c ∈ g0.nodes, (g0.node c).op = "QuantizeLinear" ∧ (g0.node c).output = [p.1] ∧ p.1 ≠ "" ∧
      ¬ isIdx p.1 ∧ ρ t < ρ c := by
    intro p hp
    obtain ⟨h1, c, h2, h3, h4, h5⟩ := hpair p hp
    obtain ⟨h6, _, _, _, oc, h7, h8, h9, _⟩ := hc.reader hw0 h2 h1 h4
    rw [h5] at h7
    cases h7
    exact ⟨c, h2, h6, h5, h8, h9, hrk c h2 t hc.mem ⟨p.2, hc.outNe _ h1, h4, h1⟩⟩
  have hpsfix : ∀ a ∈ ps, applyPairs P a = a := by
    intro a ha
    apply hfix
    rintro p hp rfl
    obtain ⟨c, h1, h2, h3, _⟩ := hq p hp
    exact (hc.scal _ ha).not_output hw0 h1 (by rw [h2]; decide) (by simp [h3])
  have htinfix : ∀ x ∈ (g0.node t).input, applyPairs P x = x := by
    intro x hx
    apply hfix
    rintro p hp rfl
    obtain ⟨c, h1, h2, h3, h4, _, h5⟩ := hq p hp
    exact Nat.lt_asymm h5 (hrk t hc.mem c h1 ⟨p.1, h4, hx, by simp [h3]⟩)
  have hnufix : ∀ k ∈ inps, applyPairs P (nu k) = nu k := by
    intro k hk
    apply hfix
    intro p hp e
    obtain ⟨c, h1, h2, h3, _⟩ := hq p hp
    exact hu.new_output hw0 hk h1 (by rw [h3, e]; simp)
  have htn := hd.node t (hu.sub t hc.mem)
  have htin : (g2.node t).input = (g1.node t).input.map (applyPairs P) := by rw [htn]
  refine
    { reach := hd.reach hu.reach
      idx := hd.idx
      len := by rw [hd.same.len]; exact hu.len
      sub := fun r hr => by rw [hd.same.nodes]; exact hu.sub r hr
      pair := hpair
      pairs := hpairs
      node := fun r hr hrt => by rw [hd.node r (hu.sub r hr), hu.old r (hw0.valid r hr) hrt]
      tnode := by rw [htin, htn]; conv => lhs; rw [hu.tnode]
      tlen := by rw [htin, List.length_map, hu.tlen]
      slot := fun k hk => by
        rw [htin, List.getElem?_map, hu.slot k hk (hinps k hk)]
        simp [hnufix k hk]
      slot' := fun k hk => by
        rw [htin, List.getElem?_map, hu.slot' k hk]
        cases h : (g0.node t).input[k]? with
        | none => rfl
        | some x => simp [htinfix x (List.mem_of_getElem? h)]
      new := fun r hr hr0 => by
        rw [hd.same.nodes] at hr
        obtain ⟨k, hk, m, x, h1, h2, h3, h4, h5⟩ := hu.new r hr hr0
        refine ⟨k, hk, m, x, h1, by rw [hd.same.len]; exact h2, h3, ?_, h5⟩
        rw [hd.node r hr, h4]
        simp only [newQ, List.map_cons, htinfix x (List.mem_of_getElem? h3), Node.mk.injEq, List.cons.injEq, true_and, and_true]
        rw [List.map_congr_left (g := id) hpsfix, List.map_id]
      made := fun k hk => by
        obtain ⟨r, hr, hr0, m, x, h1, h2, h3, h4, h5⟩ := hu.made k hk
        refine ⟨r, by rw [hd.same.nodes]; exact hr, hr0, m, x, h1, by rw [hd.same.len]; exact h2, h3, ?_, h5⟩
        rw [hd.node r hr, h4]
        simp only [newQ, List.map_cons, htinfix x (List.mem_of_getElem? h3), Node.mk.injEq, List.cons.injEq, true_and, and_true]
        rw [List.map_congr_left (g := id) hpsfix, List.map_id]
      src := fun k hk k' hk' e => hu.src hk hk' e
      newOut := fun k hk r hr => hu.new_output hw0 hk hr
      newIn := fun k hk r hr => hu.new_unread hunread hk hr
      inputs := by rw [hd.same.inputs, hu.inputs]
      inputNodes := ?_
      outputs := by rw [hd.same.outputs, hu.outputs] }
  intro r hr hgi
  have hrt : r ≠ t := by rintro rfl; rw [tensor_not_input hc.io] at hgi; cases hgi
  have hlt : r < g0.heap.length := by
    by_contra hge
    have : g0.node r = noNode := by
      unfold G.node
      rw [List.getElem?_eq_none (Nat.le_of_not_lt hge)]; rfl
    rw [this] at hgi
    exact absurd hgi (by decide)
  have h1 := hu.old r hlt hrt
  by_cases hr1 : r ∈ g1.nodes
  · rw [hd.node r hr1, h1]
    exact ⟨hgi, rfl⟩
  · rw [hd.other r hr1, h1]
    exact ⟨hgi, rfl⟩

/-- A function changed at the names `nu k` (to `f k`, equal names given equal values). -/
theorem exists_patch {V : Type} (idx : List Nat) (nu : Nat → String) (f : Nat → V) (e : String → V)
    (h : ∀ k ∈ idx, ∀ k' ∈ idx, nu k = nu k' → f k = f k') :
    ∃ e' : String → V, (∀ k ∈ idx, e' (nu k) = f k) ∧ ∀ x, (∀ k ∈ idx, nu k ≠ x) → e' x = e x := by
  classical
  refine ⟨fun x => if h : ∃ k, k ∈ idx ∧ nu k = x then f h.choose else e x, ?_, ?_⟩
  · intro k hk
    have hex : ∃ k', k' ∈ idx ∧ nu k' = nu k := ⟨k, hk, rfl⟩
    simp only [dif_pos hex]
    exact h _ hex.choose_spec.1 k hk hex.choose_spec.2
  · intro x hx
    have : ¬ ∃ k, k ∈ idx ∧ nu k = x := by rintro ⟨k, hk, e⟩; exact hx k hk e
    simp only [dif_neg this]

theorem mapAt_get {V : Type} (idx : List Nat) (f : V → V) (l : List (Option V)) (k : Nat) :
    (mapAt idx f l)[k]? = (l[k]?).map (fun a => if k ∈ idx then a.map f else a) := by
  simp [mapAt, List.getElem?_mapIdx]

theorem getElem_of_mem_range {α : Type} {l : List α} {j : Nat} {a : α} (h : l[j]? = some a) : j ∈ List.range l.length := by
  rw [List.mem_range]
  by_contra hge
  rw [List.getElem?_eq_none (Nat.le_of_not_lt hge)] at h; cases h

theorem tensorIdx_congr {n m : Node} (ho : m.op = n.op) (hi : m.input.length = n.input.length)
    (hout : m.output.length = n.output.length) : tensorIdx m = tensorIdx n := by
  unfold tensorIdx
  rw [ho, hi, hout]

section
variable {fresh : Nat → String} {ps : List String} {g0 g2 : G} {t : Ref} {inps outs : List Nat} {nu : Nat → String}
  {P : List (String × String)} {isIdx : String → Prop}

theorem UpFinal.output (hu : UpFinal fresh ps g0 g2 t inps nu P) {r : Ref} (hr : r ∈ g0.nodes) :
    (g2.node r).output = (g0.node r).output := by
  by_cases e : r = t
  · rw [e, hu.tnode]
  · rw [hu.node r hr e]

theorem UpFinal.targets (hu : UpFinal fresh ps g0 g2 t inps nu P) (hc : UpCtx g0 isIdx t ps inps outs) (hw : WF g0) :
    ∀ p ∈ P, ∀ q ∈ P, p.2 ≠ q.1 := by
  intro p hp q hq e
  obtain ⟨h1, _⟩ := hu.pair p hp
  obtain ⟨_, c, h2, h3, _, h4⟩ := hu.pair q hq
  exact h3 (hw.out_inj (hc.outNe _ h1) h2 hc.mem (by rw [h4, e]; simp) h1)

theorem UpFinal.ranked (hu : UpFinal fresh ps g0 g2 t inps nu P) (hc : UpCtx g0 isIdx t ps inps outs) (hv : QInv fresh g0) :
    ∃ ρ, RankedBy g2 ρ := by
  classical
  obtain ⟨ρ, hrk⟩ := hv.ranked
  have hw := hv.reach.wf
  have hw2 := hu.reach.wf
  let ρ' : Ref → Nat := fun r => if r ∈ g0.nodes then (if (g0.node r).input = [] then 0 else 2 * ρ r + 2) else 2 * ρ t + 1
  have hle : ∀ r ∈ g0.nodes, ρ' r ≤ 2 * ρ r + 2 := by
    intro r hr
    simp only [ρ', if_pos hr]
    split <;> omega
  have heq : ∀ r ∈ g0.nodes, (g0.node r).input ≠ [] → ρ' r = 2 * ρ r + 2 := by
    intro r hr hne
    simp only [ρ', if_pos hr, if_neg hne]
  have hnew : ∀ r, r ∉ g0.nodes → ρ' r = 2 * ρ t + 1 := by
    intro r hr
    simp only [ρ', if_neg hr]
  refine ⟨ρ', ?_⟩
  rintro r hr p hp ⟨z, hz, hzin, hzout⟩
  -- reading a tensor of the original graph
  have hold : ∀ x ∈ (g0.node r).input, r ∈ g0.nodes → x ≠ "" → x ∈ (g2.node p).output → p ∈ g0.nodes → ρ p < ρ r := by
    intro x hx hr0 hx0 hxo hp0
    rw [hu.output hp0] at hxo
    exact hrk r hr0 p hp0 ⟨x, hx0, hx, hxo⟩
  by_cases hr0 : r ∈ g0.nodes
  · by_cases hrt : r = t
    · subst hrt
      obtain ⟨k, hk⟩ := List.mem_iff_getElem?.1 hzin
      have hne : (g0.node r).input ≠ [] := by
        intro hc'
        have := hu.tlen
        rw [hc'] at this
        have h0 : (g2.node r).input = [] := List.length_eq_zero_iff.1 (by simpa using this)
        rw [h0] at hk
        simp at hk
      rw [heq r hr0 hne]
      by_cases hki : k ∈ inps
      · rw [hu.slot k hki] at hk
        cases hk
        have hp0 : p ∉ g0.nodes := by
          intro hp0
          rw [hu.output hp0] at hzout
          exact hu.newOut k hki p hp0 hzout
        rw [hnew p hp0]; omega
      · rw [hu.slot' k hki] at hk
        by_cases hp0 : p ∈ g0.nodes
        · have := hold z (List.mem_of_getElem? hk) hr0 hz hzout hp0
          have := hle p hp0
          omega
        · rw [hnew p hp0]; omega
    · rw [hu.node r hr0 hrt] at hzin
      simp only [List.mem_map] at hzin
      obtain ⟨w, hwi, hwe⟩ := hzin
      have hne : (g0.node r).input ≠ [] := by intro hc'; rw [hc'] at hwi; simp at hwi
      rw [heq r hr0 hne]
      rcases applyPairs_spec P w (hu.targets hc hw) with ⟨_, h2⟩ | ⟨a, ha, h1, h2⟩
      · rw [h2] at hwe
        subst hwe
        by_cases hp0 : p ∈ g0.nodes
        · have := hold w hwi hr0 hz hzout hp0
          have := hle p hp0
          omega
        · obtain ⟨k, hk, m, x, _, _, _, h4, h5⟩ := hu.new p hp hp0
          rw [h4] at hzout
          simp only [newQ, List.mem_singleton] at hzout
          exact absurd hwi (by rw [hzout, ← h5]; exact hu.newIn k hk r hr0)
      · obtain ⟨h3, c, h4, h5, h6, h7⟩ := hu.pair a ha
        rw [h2] at hwe
        subst hwe
        have hpt : p = t := hw2.out_inj hz hp (hu.sub t hc.mem) hzout (by rw [hu.output hc.mem]; exact h3)
        subst hpt
        have h8 := hrk c h4 p hc.mem ⟨a.2, hz, h6, h3⟩
        obtain ⟨_, _, _, _, oc, h9, h10, _⟩ := hc.reader hw h4 h3 h6
        rw [h7] at h9
        cases h9
        have h11 := hrk r hr0 c h4 ⟨a.1, h10, by rw [h1]; exact hwi, by simp [h7]⟩
        have := hle p hc.mem
        omega
  · obtain ⟨k, hk, m, x, h1, _, h3, h4, h5⟩ := hu.new r hr hr0
    rw [hnew r hr0]
    rw [h4] at hzin
    simp only [newQ, List.mem_cons] at hzin
    rcases hzin with rfl | hzp
    · by_cases hp0 : p ∈ g0.nodes
      · rw [hu.output hp0] at hzout
        have := hrk t hc.mem p hp0 ⟨z, hz, List.mem_of_getElem? h3, hzout⟩
        have := hle p hp0
        omega
      · obtain ⟨k', hk', m', x', _, _, _, h4', h5'⟩ := hu.new p hp hp0
        rw [h4'] at hzout
        simp only [newQ, List.mem_singleton] at hzout
        exact absurd (List.mem_of_getElem? h3) (by rw [hzout, ← h5']; exact hu.newIn k' hk' t hc.mem)
    · obtain ⟨_, c, hcm, h6, h7, h8, _⟩ := hc.scal z hzp
      have hpc : p = c := hw2.out_inj hz hp (hu.sub c hcm) hzout (by rw [hu.output hcm, h8]; simp)
      subst hpc
      simp only [ρ', if_pos hcm, h7, if_true]
      omega

theorem UpFinal.scalar (hu : UpFinal fresh ps g0 g2 t inps nu P) (hc : UpCtx g0 isIdx t ps inps outs) {p : String}
    (h : ScalarConst g0 p) : ScalarConst g2 p := by
  refine h.mono hu.sub ?_
  intro r hr hop hin
  have hrt : r ≠ t := by rintro rfl; exact tensor_not_const hc.io hop
  rw [hu.node r hr hrt, hin]
  cases hn : g0.node r
  rw [hn] at hin
  simp at hin
  simp [hin]

theorem UpFinal.shape (hu : UpFinal fresh ps g0 g2 t inps nu P) (hc : UpCtx g0 isIdx t ps inps outs) (hw : WF g0) :
    QShape g2 (fun x => isIdx x ∧ ∀ k ∈ inps, nu k ≠ x) := by
  have hs := hc.shape
  have htens : ∀ r ∈ g0.nodes, tensorIdx (g2.node r) = tensorIdx (g0.node r) := by
    intro r hr
    by_cases e : r = t
    · subst e
      exact tensorIdx_congr (by rw [hu.tnode]) hu.tlen (by rw [hu.tnode])
    · rw [hu.node r hr e]
      exact tensorIdx_congr rfl (by simp) rfl
  have hop : ∀ r ∈ g0.nodes, (g2.node r).op = (g0.node r).op ∧ (g2.node r).attr = (g0.node r).attr ∧
      (g2.node r).domain = (g0.node r).domain := by
    intro r hr
    by_cases e : r = t
    · subst e; rw [hu.tnode]; exact ⟨rfl, rfl, rfl⟩
    · rw [hu.node r hr e]; exact ⟨rfl, rfl, rfl⟩
  have hnt : ∀ r ∈ g2.nodes, ∀ io, tensorIdx (g2.node r) = some io → r ∈ g0.nodes := by
    intro r hr io hio
    by_contra hr0
    obtain ⟨k, hk, m, x, _, _, _, h4, _⟩ := hu.new r hr hr0
    rw [h4] at hio
    simp [tensorIdx, newQ] at hio
  -- tensors of the original graph are not new
  have hnin : ∀ r ∈ g0.nodes, ∀ x ∈ (g0.node r).input, ∀ k ∈ inps, nu k ≠ x := by
    rintro r hr x hx k hk rfl
    exact hu.newIn k hk r hr hx
  have hnout : ∀ r ∈ g0.nodes, ∀ x ∈ (g0.node r).output, ∀ k ∈ inps, nu k ≠ x := by
    rintro r hr x hx k hk rfl
    exact hu.newOut k hk r hr hx
  -- a redirected operand
  have hap : ∀ x, (applyPairs P x = x ∧ ∀ p ∈ P, p.1 ≠ x) ∨
      (¬ isIdx x ∧ ¬ isIdx (applyPairs P x) ∧ x ≠ "" ∧ applyPairs P x ≠ "" ∧ ∃ p ∈ P, p.1 = x ∧ applyPairs P x = p.2) := by
    intro x
    rcases applyPairs_spec P x (hu.targets hc hw) with ⟨h1, h2⟩ | ⟨p, hp, h1, h2⟩
    · exact Or.inl ⟨h2, h1⟩
    · obtain ⟨h3, c, h4, h5, h6, h7⟩ := hu.pair p hp
      obtain ⟨_, _, _, _, oc, h9, h10, h11, _⟩ := hc.reader hw h4 h3 h6
      rw [h7] at h9
      cases h9
      rw [h2, ← h1]
      exact Or.inr ⟨h11, hc.outNidx _ h3, h10, hc.outNe _ h3, p, hp, rfl, rfl⟩
  constructor
  · intro r hr hq
    by_cases hr0 : r ∈ g0.nodes
    · have hrt : r ≠ t := by
        rintro rfl
        have h1 := hq.not_tensor
        rw [htens r hr0, hc.io] at h1; cases h1
      obtain ⟨e1, e2, e3⟩ := hop r hr0
      have hq' : IsQD (g0.node r) := by unfold IsQD at hq ⊢; rw [e1, e2] at hq; exact hq
      obtain ⟨h1, h2, x, as, o, h3, h4, h5, h6, h7, h8, h9⟩ := hs.qd r hr0 hq'
      refine ⟨e2.trans h1, e3.trans h2, applyPairs P x, as, o, ?_, by rw [hu.output hr0]; exact h4, ?_, h6, ?_, ?_,
        fun p hp => hu.scalar hc (h9 p hp)⟩
      · rw [hu.node r hr0 hrt]
        simp only [h3, List.map_cons, List.cons.injEq, true_and]
        conv => rhs; rw [← List.map_id as]
        apply List.map_congr_left
        intro a ha
        rcases hap a with ⟨h, _⟩ | ⟨_, _, _, _, p, hp, e, _⟩
        · exact h
        · obtain ⟨h10, c, h11, _, h12, h13⟩ := hu.pair p hp
          obtain ⟨h14, _⟩ := hc.reader hw h11 h10 h12
          exact absurd (by rw [h13, e]; simp) ((h9 a ha).not_output hw h11 (by rw [h14]; decide))
      · rcases hap x with ⟨h, _⟩ | ⟨_, _, _, h, _⟩
        · rw [h]; exact h5
        · exact h
      · rcases hap x with ⟨h, _⟩ | ⟨_, h, _⟩
        · rw [h]; exact fun hh => h7 hh.1
        · exact fun hh => h hh.1
      · exact fun hh => h8 hh.1
    · obtain ⟨k, hk, m, x, h1, h2, h3, h4, h5⟩ := hu.new r hr hr0
      rw [h4]
      obtain ⟨y, hy1, hy2, _⟩ := hs.data t hc.mem inps outs hc.io k hk
      rw [h3] at hy1
      cases hy1
      refine ⟨rfl, rfl, x, ps, outName fresh m, rfl, rfl, hy2, outName_ne m, ?_, ?_, fun p hp => hu.scalar hc (hc.scal p hp)⟩
      · exact fun hh => hc.inNidx k hk x h3 hh.1
      · exact fun hh => hh.2 k hk h5
  · intro r hr io hio
    have hr0 := hnt r hr io hio
    rw [htens r hr0] at hio
    obtain ⟨e1, e2, e3⟩ := hop r hr0
    obtain ⟨h1, h2⟩ := hs.domain r hr0 io hio
    refine ⟨e3.trans h1, ?_⟩
    unfold NoReduction at h2 ⊢
    rw [e2]; exact h2
  · intro r hr is os hio
    have hr0 := hnt r hr _ hio
    rw [htens r hr0] at hio
    rw [hu.output hr0]
    exact hs.outs r hr0 is os hio
  · intro r hr is os hio k hk
    have hr0 := hnt r hr _ hio
    rw [htens r hr0] at hio
    rw [hu.output hr0]
    obtain ⟨x, h1, h2, h3⟩ := hs.data r hr0 is os hio k hk
    by_cases e : r = t
    · subst e
      rw [hc.io] at hio
      cases hio
      refine ⟨nu k, hu.slot k hk, ?_, ?_⟩
      · obtain ⟨_, _, _, m, _, _, _, _, _, h5⟩ := hu.made k hk
        rw [h5]; exact outName_ne m
      · intro o ho
        constructor
        · intro hh; exact absurd rfl (hh.2 k hk)
        · intro hh; exact absurd hh.1 (hc.outNidx o ho)
    · refine ⟨applyPairs P x, by rw [hu.node r hr0 e]; simp [h1], ?_, ?_⟩
      · rcases hap x with ⟨h, _⟩ | ⟨_, _, _, h, _⟩
        · rw [h]; exact h2
        · exact h
      · intro o ho
        have ho' := hnout r hr0 o ho
        have hx' := hnin r hr0 x (List.mem_of_getElem? h1)
        rcases hap x with ⟨h, _⟩ | ⟨h, h', _⟩
        · rw [h]
          constructor
          · intro hh; exact ⟨(h3 o ho).1 hh.1, ho'⟩
          · intro hh; exact ⟨(h3 o ho).2 hh.1, hx'⟩
        · constructor
          · intro hh; exact absurd hh.1 h'
          · intro hh; exact absurd ((h3 o ho).2 hh.1) h
  · intro r hr is os hio k a ha hk hane
    have hr0 := hnt r hr _ hio
    rw [htens r hr0] at hio
    by_cases e : r = t
    · subst e
      rw [hc.io] at hio
      cases hio
      rw [hu.slot' k hk] at ha
      exact ⟨hs.other r hr0 inps outs hc.io k a ha hk hane, hnin r hr0 a (List.mem_of_getElem? ha)⟩
    · rw [hu.node r hr0 e] at ha
      simp only [List.getElem?_map, Option.map_eq_some_iff] at ha
      obtain ⟨b, hb, hbe⟩ := ha
      rcases hap b with ⟨h, _⟩ | ⟨h, _, h0, _⟩
      · rw [h] at hbe
        subst hbe
        exact ⟨hs.other r hr0 is os hio k b hb hk hane, hnin r hr0 b (List.mem_of_getElem? hb)⟩
      · exact absurd (hs.other r hr0 is os hio k b hb hk h0) h
  · intro r hr
    rw [hu.inputs] at hr
    exact (hu.inputNodes r hr (hs.inputs r hr)).1

theorem UpFinal.kinds (hu : UpFinal fresh ps g0 g2 t inps nu P) (hc : UpCtx g0 isIdx t ps inps outs) (hw : WF g0)
    {isQ : String → Prop} (hk : QKind g0 isQ) :
    QKind g2 (fun x => isQ x ∨ x ∈ (g0.node t).output ∨ ∃ k ∈ inps, nu k = x) := by
  have hap : ∀ x, applyPairs P x = x ∨ (isQ x ∧ applyPairs P x ∈ (g0.node t).output) := by
    intro x
    rcases applyPairs_spec P x (hu.targets hc hw) with ⟨h1, h2⟩ | ⟨p, hp, h1, h2⟩
    · exact Or.inl h2
    · obtain ⟨h3, c, h4, h5, h6, h7⟩ := hu.pair p hp
      obtain ⟨h8, h9, _⟩ := hc.reader hw h4 h3 h6
      refine Or.inr ⟨hk.q c h4 h8 (by rw [h9]; rfl) x (by rw [h7, h1]; simp), by rw [h2]; exact h3⟩
  have hnt : ∀ r ∈ g0.nodes, r ≠ t → ∀ o ∈ (g0.node r).output, o ≠ "" → ¬ (o ∈ (g0.node t).output ∨ ∃ k ∈ inps, nu k = o) := by
    rintro r hr hrt o ho ho0 (h | ⟨k, hk, rfl⟩)
    · exact hrt (hw.out_inj ho0 hr hc.mem ho h)
    · exact hu.newOut k hk r hr ho
  constructor
  · intro r hr hop hax
    have hr0 : r ∈ g0.nodes := by
      by_contra hr0
      obtain ⟨k, hk, m, y, _, _, _, h4, _⟩ := hu.new r hr hr0
      rw [h4] at hop
      simp [newQ] at hop
    have hrt : r ≠ t := by
      rintro rfl
      rw [hu.tnode] at hop hax
      have := IsQD.not_tensor (n := g0.node r) ⟨Or.inr hop, hax⟩
      rw [hc.io] at this; cases this
    rw [hu.node r hr0 hrt] at hop hax ⊢
    obtain ⟨h1, h2⟩ := hk.dq r hr0 hop hax
    obtain ⟨_, _, a0, as0, oo, h3, h4, _, h5, _⟩ := hc.shape.qd r hr0 ⟨Or.inr hop, hax⟩
    constructor
    · intro a as ha
      simp only [h3, List.map_cons, List.cons.injEq] at ha
      rw [← ha.1]
      rcases hap a0 with h | h
      · rw [h]; exact Or.inl (h1 a0 as0 h3)
      · exact Or.inr (Or.inl h.2)
    · rintro o ho (h | h)
      · exact h2 o ho h
      · have : o ≠ "" := by
          have ho' : o ∈ (g0.node r).output := ho
          rw [h4] at ho'; simp at ho'; rw [ho']; exact h5
        exact hnt r hr0 hrt o ho this h
  · intro r hr hop hax o ho
    by_cases hr0 : r ∈ g0.nodes
    · have hrt : r ≠ t := by
        rintro rfl
        rw [hu.tnode] at hop hax
        have := IsQD.not_tensor (n := g0.node r) ⟨Or.inl hop, hax⟩
        rw [hc.io] at this; cases this
      rw [hu.node r hr0 hrt] at hop hax ho
      exact Or.inl (hk.q r hr0 hop hax o ho)
    · obtain ⟨k, hk, m, y, _, _, _, h4, h5⟩ := hu.new r hr hr0
      rw [h4] at ho
      simp only [newQ, List.mem_singleton] at ho
      exact Or.inr (Or.inr ⟨k, hk, by rw [h5, ho]⟩)
  · intro r hr is os hio k hkm x hx o ho
    have hr0 : r ∈ g0.nodes := by
      by_contra hr0
      obtain ⟨k, hk, m, y, _, _, _, h4, _⟩ := hu.new r hr hr0
      rw [h4] at hio
      simp [tensorIdx, newQ] at hio
    rw [hu.output hr0] at ho
    by_cases hrt : r = t
    · subst hrt
      have : tensorIdx (g2.node r) = tensorIdx (g0.node r) :=
        tensorIdx_congr (by rw [hu.tnode]) hu.tlen (by rw [hu.tnode])
      rw [this, hc.io] at hio
      cases hio
      rw [hu.slot k hkm] at hx
      cases hx
      exact ⟨fun _ => Or.inr (Or.inl ho), fun _ => Or.inr (Or.inr ⟨k, hkm, rfl⟩)⟩
    · have ht' : tensorIdx (g2.node r) = tensorIdx (g0.node r) := by
        rw [hu.node r hr0 hrt]
        exact tensorIdx_congr rfl (by simp) rfl
      rw [ht'] at hio
      rw [hu.node r hr0 hrt] at hx
      simp only [List.getElem?_map, Option.map_eq_some_iff] at hx
      obtain ⟨b, hb, hbe⟩ := hx
      have hd := hk.data r hr0 is os hio k hkm b hb o ho
      have ho0 : o ≠ "" := by
        rintro rfl
        exact (hc.shape.outs r hr0 is os hio).2 ho
      have hno := hnt r hr0 hrt o ho ho0
      rcases hap b with h | ⟨h, h'⟩
      · rw [h] at hbe
        subst hbe
        constructor
        · rintro (h | h | ⟨k', hk', h⟩)
          · exact Or.inl (hd.1 h)
          · have h1 := (hc.reader hw hr0 h (List.mem_of_getElem? hb)).1
            unfold tensorIdx at hio
            rw [h1] at hio
            simp at hio
          · exact absurd (List.mem_of_getElem? hb) (by rw [← h]; exact hu.newIn k' hk' r hr0)
        · rintro (h | h)
          · exact Or.inl (hd.2 h)
          · exact absurd h hno
      · constructor
        · intro _; exact Or.inl (hd.1 h)
        · intro _; rw [← hbe]; exact Or.inr (Or.inl h')

theorem UpFinal.unmade (hu : UpFinal fresh ps g0 g2 t inps nu P) (hf : FreshNames fresh) (hv : QInv fresh g0) :
    ∀ k, g2.heap.length ≤ k → ∀ r ∈ g2.nodes, outName fresh k ∉ (g2.node r).output := by
  intro k hk r hr hin
  by_cases hr0 : r ∈ g0.nodes
  · rw [hu.output hr0] at hin
    exact hv.unmade k (Nat.le_trans hu.len hk) r hr0 hin
  · obtain ⟨j, hj, m, x, _, h2, _, h4, _⟩ := hu.new r hr hr0
    rw [h4] at hin
    simp only [newQ, List.mem_singleton] at hin
    have := outName_inj hf hin
    omega

theorem UpFinal.unread (hu : UpFinal fresh ps g0 g2 t inps nu P) (hf : FreshNames fresh)
    (hc : UpCtx g0 isIdx t ps inps outs) (hv : QInv fresh g0) {q : Ref} (hq : q ∈ g0.nodes) (hqps : ∀ p ∈ ps, p ∈ (g0.node q).input) :
    ∀ k, g2.heap.length ≤ k → (∀ r ∈ g2.nodes, outName fresh k ∉ (g2.node r).input) ∧ outName fresh k ∉ g2.outputs := by
  have hw := hv.reach.wf
  intro k hk
  obtain ⟨h1, h2⟩ := hv.unread k (Nat.le_trans hu.len hk)
  refine ⟨?_, by rw [hu.outputs]; exact h2⟩
  intro r hr hin
  by_cases hr0 : r ∈ g0.nodes
  · by_cases e : r = t
    · subst e
      obtain ⟨j, hj⟩ := List.mem_iff_getElem?.1 hin
      by_cases hji : j ∈ inps
      · rw [hu.slot j hji] at hj
        obtain ⟨_, _, _, m, _, _, h4, _, _, h5⟩ := hu.made j hji
        rw [h5] at hj
        have := outName_inj hf (Option.some.inj hj)
        omega
      · rw [hu.slot' j hji] at hj
        exact h1 r hr0 (List.mem_of_getElem? hj)
    · rw [hu.node r hr0 e] at hin
      simp only [List.mem_map] at hin
      obtain ⟨w, hwi, hwe⟩ := hin
      rcases applyPairs_spec P w (hu.targets hc hw) with ⟨_, h3⟩ | ⟨p, hp, h3, h4⟩
      · rw [h3] at hwe
        subst hwe
        exact h1 r hr0 hwi
      · obtain ⟨_, c, h5, _, h6, _⟩ := hu.pair p hp
        rw [h4] at hwe
        rw [hwe] at h6
        exact h1 c h5 h6
  · obtain ⟨j, hj, m, x, _, _, h3, h4, _⟩ := hu.new r hr hr0
    rw [h4] at hin
    simp only [newQ, List.mem_cons] at hin
    rcases hin with e | hp
    · exact h1 t hc.mem (by rw [e]; exact List.mem_of_getElem? h3)
    · exact h1 q hq (hqps _ hp)

end

end Verif.Graph
