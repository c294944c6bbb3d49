import Verif.Props.QDQDown
/-!
# C43 (7): the downward push preserves the model
-/
namespace Verif.Graph
open Verif

/-- The graph after the downward push. -/
structure DownFinal (fresh : Nat → String) (ps : List String) (g0 g2 : G) (t : Ref) (inps outs : List Nat) (mu : Nat → String)
    (P : List (String × String)) : Prop where
  reach : Reachable g2
  idx : Idx g2
  len : g0.heap.length ≤ g2.heap.length
  sub : ∀ r ∈ g0.nodes, r ∈ g2.nodes
  node : ∀ r ∈ g0.nodes, r ≠ t → g2.node r = { g0.node r with input := (g0.node r).input.map (applyPairs P) }
  tnode : g2.node t = { g0.node t with input := (g2.node t).input }
  tlen : (g2.node t).input.length = (g0.node t).input.length
  slot : ∀ k ∈ inps, ∃ x y, (g0.node t).input[k]? = some x ∧ DqSlot g0 ps x y ∧ (g2.node t).input[k]? = some y
  slot' : ∀ k, k ∉ inps → (g2.node t).input[k]? = (g0.node t).input[k]?
  new : ∀ r ∈ g2.nodes, r ∉ g0.nodes → ∃ i ∈ outs, ∃ m o, g0.heap.length ≤ m ∧ m < g2.heap.length ∧
    (g0.node t).output[i]? = some o ∧ g2.node r = newQ fresh "DequantizeLinear" m o ps ∧ mu i = outName fresh m
  made : ∀ i ∈ outs, ∃ r ∈ g2.nodes, r ∉ g0.nodes ∧ ∃ m o, g0.heap.length ≤ m ∧ m < g2.heap.length ∧
    (g0.node t).output[i]? = some o ∧ g2.node r = newQ fresh "DequantizeLinear" m o ps ∧ mu i = outName fresh m
  pair : ∀ p ∈ P, ∃ i ∈ outs, (g0.node t).output[i]? = some p.1 ∧ p.2 = mu i
  pairs : ∀ i ∈ outs, ∀ o : String, (g0.node t).output[i]? = some o → (o, mu i) ∈ P
  inputs : g2.inputs = g0.inputs
  inputNodes : ∀ r ∈ g0.inputs, (g0.node r).isGraphInput = true → (g2.node r).isGraphInput = true ∧
    (g2.node r).output = (g0.node r).output
  outputs : g2.outputs = g0.outputs

section
variable {fresh : Nat → String} {ps : List String} {g0 g1 g2 : G} {t : Ref} {inps outs : List Nat} {mu : Nat → String}
  {P : List (String × String)} {isIdx isQ : String → Prop}

theorem DownCtx.not_self (hc : DownCtx g0 isIdx isQ t ps inps outs) (hv : QInv fresh g0) :
    ∀ o ∈ (g0.node t).output, o ∉ (g0.node t).input := by
  obtain ⟨ρ, hrk⟩ := hv.ranked
  intro o ho hin
  exact Nat.lt_irrefl _ (hrk t hc.mem t hc.mem ⟨o, hc.outNe o ho, hin, ho⟩)

theorem downFinal (hv : QInv fresh g0) (hc : DownCtx g0 isIdx isQ t ps inps outs) (h1 : Down1 ps g0 g1 t inps)
    (h2 : Down2 fresh ps g1 g2 t outs mu P) : DownFinal fresh ps g0 g2 t inps outs mu P := by
  have hmem1 : ∀ r, r ∈ g1.nodes ↔ r ∈ g0.nodes := fun r => by rw [h1.same.nodes]
  have hnot : ∀ z, z ∉ (g0.node t).output → applyPairs P z = z := by
    intro z hz
    have hst : ∀ p ∈ P, p.1 ≠ z := by
      rintro p hp rfl
      obtain ⟨i, _, h3, _⟩ := h2.sound p hp
      rw [h1.same.output] at h3
      exact hz (List.mem_of_getElem? h3)
    clear h2
    induction P with
    | nil => rfl
    | cons a P ih =>
      have : applyPairs (a :: P) z = applyPairs P (if z = a.1 then a.2 else z) := rfl
      rw [this, if_neg (fun e => hst a (by simp) e.symm)]
      exact ih (fun p hp => hst p (by simp [hp]))
  have htm : t ∈ g1.nodes := (hmem1 t).2 hc.mem
  have htn := h2.node t htm
  have htin : (g2.node t).input = (g1.node t).input.map (applyPairs P) := by rw [htn]
  refine
    { reach := h2.reach
      idx := h2.idx
      len := by rw [← h1.same.len]; exact h2.len
      sub := fun r hr => h2.sub r ((hmem1 r).2 hr)
      node := fun r hr hrt => by rw [h2.node r ((hmem1 r).2 hr), h1.old r hrt]
      tnode := by rw [htin, htn]; conv => lhs; rw [h1.tnode]
      tlen := by rw [htin, List.length_map, h1.tlen]
      slot := ?_, slot' := ?_
      new := fun r hr hr0 => by
        obtain ⟨i, hi, m, o, a1, a2, a3, a4⟩ := h2.new r hr (fun h => hr0 ((hmem1 r).1 h))
        rw [h1.same.len] at a1
        rw [h1.same.output] at a3
        exact ⟨i, hi, m, o, a1, a2, a3, a4⟩
      made := fun i hi => by
        obtain ⟨r, hr, hr0, m, o, a1, a2, a3, a4⟩ := h2.made i hi
        rw [h1.same.len] at a1
        rw [h1.same.output] at a3
        exact ⟨r, hr, fun h => hr0 ((hmem1 r).2 h), m, o, a1, a2, a3, a4⟩
      pair := fun p hp => by
        obtain ⟨i, hi, a1, a2⟩ := h2.sound p hp
        rw [h1.same.output] at a1
        exact ⟨i, hi, a1, a2⟩
      pairs := fun i hi o ho => h2.complete i hi o (by rw [h1.same.output]; exact ho)
      inputs := by rw [h2.inputs, h1.same.inputs]
      inputNodes := ?_
      outputs := by rw [h2.outputs, h1.same.outputs] }
  · intro k hk
    obtain ⟨x, y, a1, a2, a3⟩ := h1.slot k hk
    refine ⟨x, y, a1, a2, ?_⟩
    rw [htin, List.getElem?_map, a3]
    have hyn : y ∉ (g0.node t).output := by
      intro hy
      exact (hc.outN y hy).2 (a2.facts hc.shape hc.kinds).2.2.2.2.2
    simp [hnot y hyn]
  · intro k hk
    rw [htin, List.getElem?_map, h1.slot' k hk]
    cases hx : (g0.node t).input[k]? with
    | none => rfl
    | some x =>
      simp [hnot x (fun ho => hc.not_self hv x ho (List.mem_of_getElem? hx))]
  · intro r hr hgi
    have hrt : r ≠ t := by rintro rfl; rw [tensor_not_input hc.io] at hgi; cases hgi
    have hlt : r < g0.heap.length := by
      by_contra hge
      have : g0.node r = noNode := by
        unfold G.node
        rw [List.getElem?_eq_none (Nat.le_of_not_lt hge)]; rfl
      rw [this] at hgi
      exact absurd hgi (by decide)
    have h3 := h1.old r hrt
    by_cases hr1 : r ∈ g1.nodes
    · rw [h2.node r hr1, h3]
      exact ⟨hgi, rfl⟩
    · rw [h2.other r (by rw [h1.same.len]; exact hlt) hr1, h3]
      exact ⟨hgi, rfl⟩

theorem DownFinal.output (hu : DownFinal fresh ps g0 g2 t inps outs mu P) {r : Ref} (hr : r ∈ g0.nodes) :
    (g2.node r).output = (g0.node r).output := by
  by_cases e : r = t
  · rw [e, hu.tnode]
  · rw [hu.node r hr e]

theorem DownFinal.newNe (hu : DownFinal fresh ps g0 g2 t inps outs mu P) {i : Nat} (hi : i ∈ outs) : mu i ≠ "" := by
  obtain ⟨_, _, _, m, _, _, _, _, _, h5⟩ := hu.made i hi
  rw [h5]; exact outName_ne m

theorem DownFinal.newOut (hu : DownFinal fresh ps g0 g2 t inps outs mu P) (hv : QInv fresh g0) {i : Nat} (hi : i ∈ outs)
    {r : Ref} (hr : r ∈ g0.nodes) : mu i ∉ (g0.node r).output := by
  obtain ⟨_, _, _, m, _, h1, _, _, _, h5⟩ := hu.made i hi
  rw [h5]; exact hv.unmade m h1 r hr

theorem DownFinal.newIn (hu : DownFinal fresh ps g0 g2 t inps outs mu P) (hv : QInv fresh g0) {i : Nat} (hi : i ∈ outs)
    {r : Ref} (hr : r ∈ g0.nodes) : mu i ∉ (g0.node r).input := by
  obtain ⟨_, _, _, m, _, h1, _, _, _, h5⟩ := hu.made i hi
  rw [h5]; exact (hv.unread m h1).1 r hr

theorem DownFinal.targets (hu : DownFinal fresh ps g0 g2 t inps outs mu P) (hc : DownCtx g0 isIdx isQ t ps inps outs)
    (hv : QInv fresh g0) : ∀ p ∈ P, ∀ q ∈ P, p.2 ≠ q.1 := by
  intro p hp q hq e
  obtain ⟨i, hi, _, h2⟩ := hu.pair p hp
  obtain ⟨j, _, h3, _⟩ := hu.pair q hq
  refine hu.newOut hv hi hc.mem ?_
  rw [← h2, e]
  exact List.mem_of_getElem? h3

/-- Reading through the redirection. -/
theorem DownFinal.ap (hu : DownFinal fresh ps g0 g2 t inps outs mu P) (hc : DownCtx g0 isIdx isQ t ps inps outs)
    (hv : QInv fresh g0) (x : String) : (x ∉ (g0.node t).output ∧ applyPairs P x = x) ∨
      (∃ i ∈ outs, (g0.node t).output[i]? = some x ∧ applyPairs P x = mu i) := by
  rcases applyPairs_spec P x (hu.targets hc hv) with ⟨h1, h2⟩ | ⟨p, hp, h1, h2⟩
  · refine Or.inl ⟨?_, h2⟩
    intro hx
    obtain ⟨i, hi⟩ := List.mem_iff_getElem?.1 hx
    exact h1 _ (hu.pairs i (by
      rw [(hc.shape.outs t hc.mem inps outs hc.io).1]; exact getElem_of_mem_range hi) x hi) rfl
  · obtain ⟨i, hi, h3, h4⟩ := hu.pair p hp
    exact Or.inr ⟨i, hi, by rw [← h1]; exact h3, by rw [h2, h4]⟩

theorem DownFinal.ranked (hu : DownFinal fresh ps g0 g2 t inps outs mu P) (hc : DownCtx g0 isIdx isQ t ps inps outs)
    (hv : QInv fresh g0) : ∃ ρ, RankedBy g2 ρ := by
  classical
  obtain ⟨ρ, hrk⟩ := hv.ranked
  have hw2 := hu.reach.wf
  let ρ' : Ref → Nat := fun r => if r ∈ g0.nodes then (if (g0.node r).input = [] then 0 else 2 * ρ r + 2) else 2 * ρ t + 3
  have hle : ∀ r ∈ g0.nodes, ρ' r ≤ 2 * ρ r + 2 := by
    intro r hr
    simp only [ρ', if_pos hr]
    split <;> omega
  have heq : ∀ r ∈ g0.nodes, (g0.node r).input ≠ [] → ρ' r = 2 * ρ r + 2 := by
    intro r hr hne
    simp only [ρ', if_pos hr, if_neg hne]
  have hnew : ∀ r, r ∉ g0.nodes → ρ' r = 2 * ρ t + 3 := by
    intro r hr
    simp only [ρ', if_neg hr]
  refine ⟨ρ', ?_⟩
  rintro r hr p hp ⟨z, hz, hzin, hzout⟩
  have hpnew : p ∉ g0.nodes → ∃ i ∈ outs, z = mu i := by
    intro hp0
    obtain ⟨i, hi, m, o, _, _, _, h4, h5⟩ := hu.new p hp hp0
    rw [h4] at hzout
    simp only [newQ, List.mem_singleton] at hzout
    exact ⟨i, hi, by rw [hzout, h5]⟩
  by_cases hr0 : r ∈ g0.nodes
  · by_cases hrt : r = t
    · subst hrt
      obtain ⟨k, hk⟩ := List.mem_iff_getElem?.1 hzin
      have hne : (g0.node r).input ≠ [] := by
        intro hc'
        have := hu.tlen
        rw [hc'] at this
        have h0 : (g2.node r).input = [] := List.length_eq_zero_iff.1 (by simpa using this)
        rw [h0] at hk
        simp at hk
      rw [heq r hr0 hne]
      by_cases hki : k ∈ inps
      · obtain ⟨x, y, h1, h2, h3⟩ := hu.slot k hki
        rw [h3] at hk
        cases hk
        obtain ⟨d, hd, _, _, h6, h7⟩ := id h2
        have hf := h2.facts hc.shape hc.kinds
        have hdt := hrk r hr0 d hd ⟨x, hf.2.2.1, List.mem_of_getElem? h1, by simp [h7]⟩
        by_cases hp0 : p ∈ g0.nodes
        · rw [hu.output hp0] at hzout
          have := hrk d hd p hp0 ⟨z, hz, by simp [h6], hzout⟩
          have := hle p hp0
          omega
        · obtain ⟨i, hi, e⟩ := hpnew hp0
          exact absurd (by rw [h6, e]; simp) (hu.newIn hv hi hd)
      · rw [hu.slot' k hki] at hk
        by_cases hp0 : p ∈ g0.nodes
        · rw [hu.output hp0] at hzout
          have := hrk r hr0 p hp0 ⟨z, hz, List.mem_of_getElem? hk, hzout⟩
          have := hle p hp0
          omega
        · obtain ⟨i, hi, e⟩ := hpnew hp0
          exact absurd (by rw [← e]; exact List.mem_of_getElem? hk) (hu.newIn hv hi hr0)
    · rw [hu.node r hr0 hrt] at hzin
      simp only [List.mem_map] at hzin
      obtain ⟨w, hwi, hwe⟩ := hzin
      have hne : (g0.node r).input ≠ [] := by intro hc'; rw [hc'] at hwi; simp at hwi
      rw [heq r hr0 hne]
      rcases hu.ap hc hv w with ⟨_, h2⟩ | ⟨i, hi, h1, h2⟩
      · rw [h2] at hwe
        subst hwe
        by_cases hp0 : p ∈ g0.nodes
        · rw [hu.output hp0] at hzout
          have := hrk r hr0 p hp0 ⟨w, hz, hwi, hzout⟩
          have := hle p hp0
          omega
        · obtain ⟨i, hi, e⟩ := hpnew hp0
          exact absurd (by rw [← e]; exact hwi) (hu.newIn hv hi hr0)
      · have hwo := List.mem_of_getElem? h1
        have h3 := hrk r hr0 t hc.mem ⟨w, hc.outNe w hwo, hwi, hwo⟩
        have hp0 : p ∉ g0.nodes := by
          intro hp0
          rw [hu.output hp0, ← hwe, h2] at hzout
          exact hu.newOut hv hi hp0 hzout
        rw [hnew p hp0]
        omega
  · obtain ⟨i, hi, m, o, h1, _, h3, h4, h5⟩ := hu.new r hr hr0
    rw [hnew r hr0]
    rw [h4] at hzin
    simp only [newQ, List.mem_cons] at hzin
    have hoo := List.mem_of_getElem? h3
    rcases hzin with rfl | hzp
    · have hpt : p = t := hw2.out_inj hz hp (hu.sub t hc.mem) hzout (by rw [hu.output hc.mem]; exact hoo)
      subst hpt
      have := hle p hc.mem
      omega
    · obtain ⟨_, c, hcm, h6, h7, h8, _⟩ := hc.scal z hzp
      have hpc : p = c := hw2.out_inj hz hp (hu.sub c hcm) hzout (by rw [hu.output hcm, h8]; simp)
      subst hpc
      simp only [ρ', if_pos hcm, h7, if_true]
      omega

theorem DownFinal.scalar (hu : DownFinal fresh ps g0 g2 t inps outs mu P) (hc : DownCtx g0 isIdx isQ t ps inps outs)
    {p : String} (h : ScalarConst g0 p) : ScalarConst g2 p := by
  refine h.mono hu.sub ?_
  intro r hr hop hin
  have hrt : r ≠ t := by rintro rfl; exact tensor_not_const hc.io hop
  rw [hu.node r hr hrt, hin]
  cases hn : g0.node r
  rw [hn] at hin
  simp at hin
  simp [hin]

theorem DownFinal.tens (hu : DownFinal fresh ps g0 g2 t inps outs mu P) {r : Ref} (hr : r ∈ g0.nodes) :
    tensorIdx (g2.node r) = tensorIdx (g0.node r) := by
  by_cases e : r = t
  · subst e
    exact tensorIdx_congr (by rw [hu.tnode]) hu.tlen (by rw [hu.tnode])
  · rw [hu.node r hr e]
    exact tensorIdx_congr rfl (by simp) rfl

theorem DownFinal.tens_old (hu : DownFinal fresh ps g0 g2 t inps outs mu P) {r : Ref} (hr : r ∈ g2.nodes)
    {io : List Nat × List Nat} (hio : tensorIdx (g2.node r) = some io) : r ∈ g0.nodes := by
  by_contra hr0
  obtain ⟨k, hk, m, x, _, _, _, h4, _⟩ := hu.new r hr hr0
  rw [h4] at hio
  simp [tensorIdx, newQ] at hio

theorem DownFinal.attrs (hu : DownFinal fresh ps g0 g2 t inps outs mu P) {r : Ref} (hr : r ∈ g0.nodes) :
    (g2.node r).op = (g0.node r).op ∧ (g2.node r).attr = (g0.node r).attr ∧ (g2.node r).domain = (g0.node r).domain := by
  by_cases e : r = t
  · subst e; rw [hu.tnode]; exact ⟨rfl, rfl, rfl⟩
  · rw [hu.node r hr e]; exact ⟨rfl, rfl, rfl⟩

theorem DownFinal.psfix (hu : DownFinal fresh ps g0 g2 t inps outs mu P) (hc : DownCtx g0 isIdx isQ t ps inps outs)
    (hv : QInv fresh g0) {as : List String} (h : ∀ a ∈ as, ScalarConst g0 a) : as.map (applyPairs P) = as := by
  conv => rhs; rw [← List.map_id as]
  apply List.map_congr_left
  intro a ha
  rcases hu.ap hc hv a with ⟨_, h1⟩ | ⟨i, _, h1, _⟩
  · exact h1
  · exact absurd (List.mem_of_getElem? h1) ((h a ha).not_output hv.reach.wf hc.mem (tensor_not_const hc.io))

theorem DownFinal.shape (hu : DownFinal fresh ps g0 g2 t inps outs mu P) (hc : DownCtx g0 isIdx isQ t ps inps outs)
    (hv : QInv fresh g0) : QShape g2 (fun x => isIdx x ∧ ∀ i ∈ outs, mu i ≠ x) := by
  have hs := hc.shape
  have hnin : ∀ r ∈ g0.nodes, ∀ x ∈ (g0.node r).input, ∀ k ∈ outs, mu k ≠ x := by
    rintro r hr x hx k hk rfl
    exact hu.newIn hv hk hr hx
  have hnout : ∀ r ∈ g0.nodes, ∀ x ∈ (g0.node r).output, ∀ k ∈ outs, mu k ≠ x := by
    rintro r hr x hx k hk rfl
    exact hu.newOut hv hk hr hx
  constructor
  · intro r hr hq
    by_cases hr0 : r ∈ g0.nodes
    · have hrt : r ≠ t := by
        rintro rfl
        have h1 := hq.not_tensor
        rw [hu.tens hr0, hc.io] at h1; cases h1
      obtain ⟨e1, e2, e3⟩ := hu.attrs hr0
      have hq' : IsQD (g0.node r) := by unfold IsQD at hq ⊢; rw [e1, e2] at hq; exact hq
      obtain ⟨h1, h2, x, as, o, h3, h4, h5, h6, h7, h8, h9⟩ := hs.qd r hr0 hq'
      refine ⟨e2.trans h1, e3.trans h2, applyPairs P x, as, o, ?_, by rw [hu.output hr0]; exact h4, ?_, h6, ?_, ?_,
        fun p hp => hu.scalar hc (h9 p hp)⟩
      · rw [hu.node r hr0 hrt]
        simp only [h3, List.map_cons, List.cons.injEq, true_and]
        exact hu.psfix hc hv h9
      · rcases hu.ap hc hv x with ⟨_, h⟩ | ⟨i, hi, _, h⟩
        · rw [h]; exact h5
        · rw [h]; exact hu.newNe hi
      · rcases hu.ap hc hv x with ⟨_, h⟩ | ⟨i, hi, _, h⟩
        · rw [h]; exact fun hh => h7 hh.1
        · rw [h]; exact fun hh => hh.2 i hi rfl
      · exact fun hh => h8 hh.1
    · obtain ⟨i, hi, m, o, h1, h2, h3, h4, h5⟩ := hu.new r hr hr0
      rw [h4]
      have ho := List.mem_of_getElem? h3
      refine ⟨rfl, rfl, o, ps, outName fresh m, rfl, rfl, hc.outNe o ho, outName_ne m, ?_, ?_,
        fun p hp => hu.scalar hc (hc.scal p hp)⟩
      · exact fun hh => (hc.outN o ho).1 hh.1
      · exact fun hh => hh.2 i hi h5
  · intro r hr io hio
    have hr0 := hu.tens_old hr hio
    rw [hu.tens hr0] at hio
    obtain ⟨e1, e2, e3⟩ := hu.attrs hr0
    obtain ⟨h1, h2⟩ := hs.domain r hr0 io hio
    refine ⟨e3.trans h1, ?_⟩
    unfold NoReduction at h2 ⊢
    rw [e2]; exact h2
  · intro r hr is os hio
    have hr0 := hu.tens_old hr hio
    rw [hu.tens hr0] at hio
    rw [hu.output hr0]
    exact hs.outs r hr0 is os hio
  · intro r hr is os hio k hk
    have hr0 := hu.tens_old hr hio
    rw [hu.tens hr0] at hio
    rw [hu.output hr0]
    obtain ⟨x, h1, h2, h3⟩ := hs.data r hr0 is os hio k hk
    by_cases e : r = t
    · subst e
      rw [hc.io] at hio
      cases hio
      obtain ⟨x', y, _, a2, a3⟩ := hu.slot k hk
      have hf := a2.facts hc.shape hc.kinds
      refine ⟨y, a3, hf.2.2.2.1, ?_⟩
      intro o ho
      constructor
      · intro hh; exact absurd hh.1 hf.2.1
      · intro hh; exact absurd hh.1 (hc.outN o ho).1
    · refine ⟨applyPairs P x, by rw [hu.node r hr0 e]; simp [h1], ?_, ?_⟩
      · rcases hu.ap hc hv x with ⟨_, h⟩ | ⟨i, hi, _, h⟩
        · rw [h]; exact h2
        · rw [h]; exact hu.newNe hi
      · intro o ho
        have ho' := hnout r hr0 o ho
        have hx' := hnin r hr0 x (List.mem_of_getElem? h1)
        rcases hu.ap hc hv x with ⟨_, h⟩ | ⟨i, hi, hx, h⟩
        · rw [h]
          constructor
          · intro hh; exact ⟨(h3 o ho).1 hh.1, ho'⟩
          · intro hh; exact ⟨(h3 o ho).2 hh.1, hx'⟩
        · rw [h]
          constructor
          · intro hh; exact absurd rfl (hh.2 i hi)
          · intro hh; exact absurd ((h3 o ho).2 hh.1) (hc.outN x (List.mem_of_getElem? hx)).1
  · intro r hr is os hio k a ha hk hane
    have hr0 := hu.tens_old hr hio
    rw [hu.tens hr0] at hio
    by_cases e : r = t
    · subst e
      rw [hc.io] at hio
      cases hio
      rw [hu.slot' k hk] at ha
      exact ⟨hs.other r hr0 inps outs hc.io k a ha hk hane, hnin r hr0 a (List.mem_of_getElem? ha)⟩
    · rw [hu.node r hr0 e] at ha
      simp only [List.getElem?_map, Option.map_eq_some_iff] at ha
      obtain ⟨b, hb, hbe⟩ := ha
      rcases hu.ap hc hv b with ⟨_, h⟩ | ⟨i, hi, h, _⟩
      · rw [h] at hbe
        subst hbe
        exact ⟨hs.other r hr0 is os hio k b hb hk hane, hnin r hr0 b (List.mem_of_getElem? hb)⟩
      · have hbo := List.mem_of_getElem? h
        exact absurd (hs.other r hr0 is os hio k b hb hk (hc.outNe b hbo)) (hc.outN b hbo).1
  · intro r hr
    rw [hu.inputs] at hr
    exact (hu.inputNodes r hr (hs.inputs r hr)).1

theorem DownFinal.kindsOk (hu : DownFinal fresh ps g0 g2 t inps outs mu P) (hc : DownCtx g0 isIdx isQ t ps inps outs)
    (hv : QInv fresh g0) : QKind g2 (fun x => (isQ x ∧ ∀ i ∈ outs, mu i ≠ x) ∨ x ∈ (g0.node t).output) := by
  have hk := hc.kinds
  have hw := hv.reach.wf
  constructor
  · intro r hr hop hax
    by_cases hr0 : r ∈ g0.nodes
    · have hrt : r ≠ t := by
        rintro rfl
        have h1 := IsQD.not_tensor (n := g2.node r) ⟨Or.inr hop, hax⟩
        rw [hu.tens hr0, hc.io] at h1; cases h1
      rw [hu.node r hr0 hrt] at hop hax ⊢
      obtain ⟨h1, h2⟩ := hk.dq r hr0 hop hax
      obtain ⟨_, _, a0, as0, oo, h3, h4, _, h5, _⟩ := hc.shape.qd r hr0 ⟨Or.inr hop, hax⟩
      constructor
      · intro a as ha
        simp only [h3, List.map_cons, List.cons.injEq] at ha
        rw [← ha.1]
        rcases hu.ap hc hv a0 with ⟨_, h⟩ | ⟨i, hi, h, _⟩
        · rw [h]
          refine Or.inl ⟨h1 a0 as0 h3, ?_⟩
          rintro j hj rfl
          exact hu.newIn hv hj hr0 (by simp [h3])
        · exact absurd (h1 a0 as0 h3) (hc.outN a0 (List.mem_of_getElem? h)).2
      · rintro o ho (h | h)
        · exact h2 o ho h.1
        · have ho' : o ∈ (g0.node r).output := ho
          exact hrt (hw.out_inj (hc.outNe o h) hr0 hc.mem ho' h)
    · obtain ⟨i, hi, m, o, h1, h2, h3, h4, h5⟩ := hu.new r hr hr0
      rw [h4]
      constructor
      · intro a as ha
        simp only [newQ, List.cons.injEq] at ha
        rw [← ha.1]
        exact Or.inr (List.mem_of_getElem? h3)
      · intro z hz
        simp only [newQ, List.mem_singleton] at hz
        rw [hz, ← h5]
        rintro (h | h)
        · exact h.2 i hi rfl
        · exact hu.newOut hv hi hc.mem h
  · intro r hr hop hax o ho
    have hr0 : r ∈ g0.nodes := by
      by_contra hr0
      obtain ⟨i, hi, m, o, _, _, _, h4, _⟩ := hu.new r hr hr0
      rw [h4] at hop
      simp [newQ] at hop
    obtain ⟨e1, e2, e3⟩ := hu.attrs hr0
    rw [e1] at hop
    rw [e2] at hax
    rw [hu.output hr0] at ho
    refine Or.inl ⟨hk.q r hr0 hop hax o ho, ?_⟩
    rintro j hj rfl
    exact hu.newOut hv hj hr0 ho
  · intro r hr is os hio k hkm x hx o ho
    have hr0 := hu.tens_old hr hio
    rw [hu.tens hr0] at hio
    rw [hu.output hr0] at ho
    by_cases hrt : r = t
    · subst hrt
      rw [hc.io] at hio
      cases hio
      obtain ⟨x', y, _, a2, a3⟩ := hu.slot k hkm
      rw [a3] at hx
      cases hx
      have hf := a2.facts hc.shape hc.kinds
      obtain ⟨d, hd, _, _, h6, _⟩ := a2
      refine ⟨fun _ => Or.inr ho, fun _ => Or.inl ⟨hf.2.2.2.2.2, ?_⟩⟩
      rintro j hj rfl
      exact hu.newIn hv hj hd (by simp [h6])
    · rw [hu.node r hr0 hrt] at hx
      simp only [List.getElem?_map, Option.map_eq_some_iff] at hx
      obtain ⟨b, hb, hbe⟩ := hx
      have hd := hk.data r hr0 is os hio k hkm b hb o ho
      have ho0 : o ≠ "" := by
        rintro rfl
        exact (hc.shape.outs r hr0 is os hio).2 ho
      have hno : o ∉ (g0.node t).output := fun h => hrt (hw.out_inj ho0 hr0 hc.mem ho h)
      have hmo : ∀ i ∈ outs, mu i ≠ o := by rintro i hi rfl; exact hu.newOut hv hi hr0 ho
      rcases hu.ap hc hv b with ⟨hb1, h⟩ | ⟨i, hi, h, h'⟩
      · rw [h] at hbe
        subst hbe
        have hmb : ∀ i ∈ outs, mu i ≠ b := by rintro i hi rfl; exact hu.newIn hv hi hr0 (List.mem_of_getElem? hb)
        constructor
        · rintro (h | h)
          · exact Or.inl ⟨hd.1 h.1, hmo⟩
          · exact absurd h hb1
        · rintro (h | h)
          · exact Or.inl ⟨hd.2 h.1, hmb⟩
          · exact absurd h hno
      · rw [h'] at hbe
        rw [← hbe]
        constructor
        · rintro (h | h)
          · exact absurd rfl (h.2 i hi)
          · exact absurd h (hu.newOut hv hi hc.mem)
        · rintro (h1 | h1)
          · exact absurd (hd.2 h1.1) (hc.outN b (List.mem_of_getElem? h)).2
          · exact absurd h1 hno

theorem DownFinal.unread (hu : DownFinal fresh ps g0 g2 t inps outs mu P) (hf : FreshNames fresh)
    (hc : DownCtx g0 isIdx isQ t ps inps outs) (hv : QInv fresh g0) {d : Ref} (hd : d ∈ g0.nodes)
    (hdps : ∀ p ∈ ps, p ∈ (g0.node d).input) :
    ∀ k, g2.heap.length ≤ k → (∀ r ∈ g2.nodes, outName fresh k ∉ (g2.node r).input) ∧ outName fresh k ∉ g2.outputs := by
  intro k hk
  obtain ⟨h1, h2⟩ := hv.unread k (Nat.le_trans hu.len hk)
  refine ⟨?_, by rw [hu.outputs]; exact h2⟩
  intro r hr hin
  by_cases hr0 : r ∈ g0.nodes
  · by_cases e : r = t
    · subst e
      obtain ⟨j, hj⟩ := List.mem_iff_getElem?.1 hin
      by_cases hji : j ∈ inps
      · obtain ⟨x, y, _, ⟨d', hd', _, _, h6, _⟩, a3⟩ := hu.slot j hji
        rw [a3] at hj
        cases hj
        exact h1 d' hd' (by simp [h6])
      · rw [hu.slot' j hji] at hj
        exact h1 r hr0 (List.mem_of_getElem? hj)
    · rw [hu.node r hr0 e] at hin
      simp only [List.mem_map] at hin
      obtain ⟨w, hwi, hwe⟩ := hin
      rcases hu.ap hc hv w with ⟨_, h3⟩ | ⟨i, hi, _, h3⟩
      · rw [h3] at hwe
        subst hwe
        exact h1 r hr0 hwi
      · obtain ⟨_, _, _, m, _, _, h4, _, _, h5⟩ := hu.made i hi
        rw [h3, h5] at hwe
        have := outName_inj hf hwe
        omega
  · obtain ⟨j, hj, m, x, _, _, h3, h4, _⟩ := hu.new r hr hr0
    rw [h4] at hin
    simp only [newQ, List.mem_cons] at hin
    rcases hin with e | hp
    · exact hv.unmade k (Nat.le_trans hu.len hk) t hc.mem (by rw [e]; exact List.mem_of_getElem? h3)
    · exact h1 d hd (hdps _ hp)

theorem DownFinal.unmade (hu : DownFinal fresh ps g0 g2 t inps outs mu P) (hf : FreshNames fresh) (hv : QInv fresh g0) :
    ∀ k, g2.heap.length ≤ k → ∀ r ∈ g2.nodes, outName fresh k ∉ (g2.node r).output := by
  intro k hk r hr hin
  by_cases hr0 : r ∈ g0.nodes
  · rw [hu.output hr0] at hin
    exact hv.unmade k (Nat.le_trans hu.len hk) r hr0 hin
  · obtain ⟨j, hj, m, x, _, h2, _, h4, _⟩ := hu.new r hr hr0
    rw [h4] at hin
    simp only [newQ, List.mem_singleton] at hin
    have := outName_inj hf hin
    omega

end

end Verif.Graph
