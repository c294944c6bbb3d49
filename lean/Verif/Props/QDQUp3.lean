import Verif.Props.QDQUp2
/-!
# C43 (4): values across the upward push
-/
namespace Verif.Graph
open Verif

section
variable {fresh : Nat → String} {ps : List String} {g0 g2 : G} {t : Ref} {inps outs : List Nat} {nu : Nat → String}
  {P : List (String × String)} {isIdx : String → Prop}

theorem argVal_eq {V : Type} {e e' : String → V} {x x' : String} (h : argVal e' x' = argVal e x) (hx : x ≠ "") :
    x' ≠ "" ∧ e' x' = e x := by
  unfold argVal at h
  rw [if_neg hx] at h
  split at h
  · cases h
  · rename_i h'
    exact ⟨h', Option.some.inj h⟩

theorem UpFinal.run (hu : UpFinal fresh ps g0 g2 t inps nu P) (hc : UpCtx g0 isIdx t ps inps outs) (hv : QInv fresh g0)
    (V : Type) (I : Interp V) (hI : QDQLaw V I) (env e : String → V) (he : Sat I env e g0.nodeList) (ht : TypedRun I e g0) :
    ∃ e', Sat I env e' g2.nodeList ∧ TypedRun I e' g2 ∧ ∀ o ∈ g0.outputs, e' o = e o := by
  classical
  have hw := hv.reach.wf
  have hs := hc.shape
  obtain ⟨ρ, hrk⟩ := hv.ranked
  let Qf : V → V := quant I (ps.map (argVal e))
  let e1 : String → V := fun x => if x ∈ (g0.node t).output ∨ ∃ p ∈ P, p.1 = x then Qf (e x) else e x
  obtain ⟨e', hnu, hrest⟩ := exists_patch inps nu (fun k => Qf (e (((g0.node t).input[k]?).getD ""))) e1 (by
    intro k hk k' hk' h
    simp only [hu.src k hk k' hk' h])
  have hA : ∀ x, (∀ k ∈ inps, nu k ≠ x) → x ∉ (g0.node t).output → (∀ p ∈ P, p.1 ≠ x) → e' x = e x := by
    intro x h1 h2 h3
    rw [hrest x h1]
    simp only [e1]
    rw [if_neg]
    rintro (h | ⟨p, hp, h⟩)
    · exact h2 h
    · exact h3 p hp h
  have hB : ∀ x ∈ (g0.node t).output, e' x = Qf (e x) := by
    intro x hx
    rw [hrest x (by rintro k hk rfl; exact hu.newOut k hk t hc.mem hx)]
    simp only [e1]
    rw [if_pos (Or.inl hx)]
  have hC : ∀ p ∈ P, e' p.1 = Qf (e p.1) ∧ e p.1 = Qf (e p.2) := by
    intro p hp
    obtain ⟨h1, c, h2, h3, h4, h5⟩ := hu.pair p hp
    obtain ⟨h6, h7, h8, h9, oc, h10, h11, _⟩ := hc.reader hw h2 h1 h4
    rw [h5] at h10
    cases h10
    refine ⟨?_, quant_value he h2 h6 h7 h8 h9 h5 (hc.outNe _ h1) h11⟩
    rw [hrest p.1 (by intro k hk e; exact hu.newOut k hk c h2 (by rw [h5, e]; simp))]
    simp only [e1]
    rw [if_pos (Or.inr ⟨p, hp, rfl⟩)]
  have hCnot : ∀ r ∈ g0.nodes, (g0.node r).op ≠ "QuantizeLinear" → ∀ x ∈ (g0.node r).output, x ≠ "" → ∀ p ∈ P, p.1 ≠ x := by
    rintro r hr hop x hx hx0 p hp rfl
    obtain ⟨h1, c, h2, h3, h4, h5⟩ := hu.pair p hp
    obtain ⟨h6, _⟩ := hc.reader hw h2 h1 h4
    have := hw.out_inj hx0 hr h2 hx (by simp [h5])
    subst this
    exact hop h6
  have hconst : ∀ a, ScalarConst g0 a → e' a = e a := by
    rintro a ⟨ha, c, hcm, h1, h2, h3, h4⟩
    refine hA a ?_ ?_ ?_
    · rintro k hk rfl
      exact hu.newOut k hk c hcm (by simp [h3])
    · intro hin
      have := hw.out_inj ha hcm hc.mem (by simp [h3]) hin
      subst this
      exact tensor_not_const hc.io h1
    · exact hCnot c hcm (by rw [h1]; decide) a (by simp [h3]) ha
  have hps : ps.map (argVal e') = ps.map (argVal e) := map_argVal_congr (fun p hp => hconst p (hc.scal p hp))
  have htinCO : ∀ x ∈ (g0.node t).input, x ≠ "" → ∀ p ∈ P, p.1 ≠ x := by
    rintro x hx hx0 p hp rfl
    obtain ⟨h1, c, h2, h3, h4, h5⟩ := hu.pair p hp
    have h6 := hrk c h2 t hc.mem ⟨p.2, hc.outNe _ h1, h4, h1⟩
    have h7 := hrk t hc.mem c h2 ⟨p.1, hx0, hx, by simp [h5]⟩
    omega
  have htin : ∀ x ∈ (g0.node t).input, x ≠ "" → e' x = e x := by
    intro x hx hx0
    refine hA x ?_ ?_ (htinCO x hx hx0)
    · rintro k hk rfl; exact hu.newIn k hk t hc.mem hx
    · intro ho
      exact Nat.lt_irrefl _ (hrk t hc.mem t hc.mem ⟨x, hx0, hx, ho⟩)
  -- nodes that read no output of the operator see the same values
  have hargs : ∀ r ∈ g0.nodes, r ≠ t → (∀ o ∈ (g0.node t).output, o ∉ (g0.node r).input) →
      (g2.node r).input.map (argVal e') = (g0.node r).input.map (argVal e) := by
    intro r hr hrt hno
    rw [hu.node r hr hrt]
    simp only [List.map_map]
    apply List.map_congr_left
    intro w hwi
    simp only [Function.comp]
    rcases applyPairs_spec P w (hu.targets hc hw) with ⟨h1, h2⟩ | ⟨p, hp, h1, h2⟩
    · rw [h2]
      unfold argVal
      by_cases hw0 : w = ""
      · simp [hw0]
      · rw [if_neg hw0, if_neg hw0, hA w ?_ ?_ h1]
        · rintro k hk rfl; exact hu.newIn k hk r hr hwi
        · intro ho; exact hno w ho hwi
    · obtain ⟨h3, c, h4, h5, h6, h7⟩ := hu.pair p hp
      obtain ⟨_, _, _, _, oc, h9, h10, _⟩ := hc.reader hw h4 h3 h6
      rw [h7] at h9
      cases h9
      rw [h2, ← h1]
      unfold argVal
      rw [if_neg (hc.outNe _ h3), if_neg h10, hB _ h3, (hC p hp).2]
  have hap : ∀ o ∈ (g0.node t).output, applyPairs P o = o := by
    intro o ho
    rcases applyPairs_spec P o (hu.targets hc hw) with ⟨_, h⟩ | ⟨p, hp, h1, _⟩
    · exact h
    · obtain ⟨_, c, h2, h3, _, h5⟩ := hu.pair p hp
      exact absurd (hw.out_inj (hc.outNe _ ho) h2 hc.mem (by rw [h5, h1]; simp) ho) h3
  have happs : ∀ a ∈ ps, applyPairs P a = a := by
    intro a ha
    rcases applyPairs_spec P a (hu.targets hc hw) with ⟨_, h⟩ | ⟨p, hp, h1, _⟩
    · exact h
    · obtain ⟨ha0, c, hcm, h2, h3, h4, _⟩ := hc.scal a ha
      exact absurd h1 (hCnot c hcm (by rw [h2]; decide) a (by simp [h4]) ha0 p hp)
  refine ⟨e', ⟨?_, ?_⟩, ?_, ?_⟩
  · intro n hn
    obtain ⟨r, hr, rfl⟩ := mem_nodeList.1 hn
    by_cases hr0 : r ∈ g0.nodes
    · have hsat := he.1 _ (mem_nodeList.2 ⟨r, hr0, rfl⟩)
      by_cases hrt : r = t
      · subst hrt
        have hni := tensor_not_input hc.io
        intro j o hj ho
        rw [hu.output hr0] at hj
        have hjo : j ∈ outs := by
          rw [(hs.outs r hr0 inps outs hc.io).1]
          exact getElem_of_mem_range hj
        have h1 := hsat j o hj ho
        rw [hni] at h1
        have hargsT : argVals e' (g2.node r) = mapAt inps Qf (argVals e (g0.node r)) := by
          apply List.ext_getElem?
          intro k
          rw [mapAt_get]
          unfold argVals
          rw [List.getElem?_map, List.getElem?_map, Option.map_map]
          by_cases hk : k ∈ inps
          · obtain ⟨x, hx1, hx2, _⟩ := hs.data r hr0 inps outs hc.io k hk
            rw [hu.slot k hk, hx1]
            have hnk := hnu k hk
            rw [hx1] at hnk
            have hne : nu k ≠ "" := by
              obtain ⟨_, _, _, m, _, _, _, _, _, h5⟩ := hu.made k hk
              rw [h5]; exact outName_ne m
            simp [argVal, hne, hx2, hnk, hk]
          · rw [hu.slot' k hk]
            cases hx : (g0.node r).input[k]? with
            | none => rfl
            | some x =>
              simp only [Option.map_some, Function.comp, if_neg hk]
              unfold argVal
              by_cases hx0 : x = ""
              · simp [hx0]
              · rw [if_neg hx0, if_neg hx0, htin x (List.mem_of_getElem? hx) hx0]
        have hgi2 : (g2.node r).isGraphInput = false := by rw [hu.tnode]; exact hni
        rw [hgi2, hargsT, hB o (List.mem_of_getElem? hj), h1]
        have e1 : (g2.node r).op = (g0.node r).op := by rw [hu.tnode]
        have e2 : (g2.node r).attr = (g0.node r).attr := by rw [hu.tnode]
        have e3 : (g2.node r).domain = "" := by rw [hu.tnode]; exact (hs.domain r hr0 _ hc.io).1
        rw [e1, e2, e3, (hs.domain r hr0 _ hc.io).1]
        simp only [Bool.false_eq_true, if_false]
        refine (hI.quant_commutes (g0.node r) inps outs hc.io (hs.domain r hr0 _ hc.io).2 _ (scalarParams_of he hc.scal)
          (argVals e (g0.node r)) (by simp [argVals]) ?_ j hjo).symm
        intro k hk
        obtain ⟨x, hx1, hx2, _⟩ := hs.data r hr0 inps outs hc.io k hk
        exact ⟨e x, by simp [argVals, hx1, argVal, hx2]⟩
      · by_cases hrd : ∃ o ∈ (g0.node t).output, o ∈ (g0.node r).input
        · -- a quantization that is now skipped
          obtain ⟨o, ho, hin⟩ := hrd
          obtain ⟨h1, h2, h3, h4, oc, h5, h6, _⟩ := hc.reader hw hr0 ho hin
          intro j z hj hz
          rw [hu.output hr0, h5] at hj
          cases j with
          | succ j => simp at hj
          | zero =>
            simp only [List.getElem?_cons_zero, Option.some.injEq] at hj
            subst hj
            have hni : (g0.node r).isGraphInput = false := by unfold Node.isGraphInput; rw [h1]; decide
            have h7 := hC (oc, o) (hu.pairs r hr0 o ho hin oc h5)
            have hn2 : g2.node r = { g0.node r with input := o :: ps } := by
              rw [hu.node r hr0 hrt, h4, List.map_cons, hap o ho, List.map_congr_left (g := id) happs, List.map_id]
            rw [h7.1, h7.2, hn2]
            have : ({ g0.node r with input := o :: ps } : Node).isGraphInput = false := hni
            rw [this]
            simp only [Bool.false_eq_true, if_false, h1, h2, h3, argVals, List.map_cons, hps]
            simp only [argVal, if_neg (hc.outNe o ho), hB o ho]
            rfl
        · have hrd' : ∀ o ∈ (g0.node t).output, o ∉ (g0.node r).input := fun o ho hin => hrd ⟨o, ho, hin⟩
          intro j z hj hz
          rw [hu.output hr0] at hj
          have hzo := List.mem_of_getElem? hj
          have hz1 : e' z = e z := by
            refine hA z ?_ ?_ ?_
            · rintro k hk rfl; exact hu.newOut k hk r hr0 hzo
            · intro hzt; exact hrt (hw.out_inj hz hr0 hc.mem hzo hzt)
            · rintro p hp rfl
              obtain ⟨h1, c, h2, h3, h4, h5⟩ := hu.pair p hp
              have := hw.out_inj hz hr0 h2 hzo (by simp [h5])
              subst this
              exact hrd' _ h1 h4
          have h1 := hsat j z hj hz
          rw [hz1, h1]
          have h2 : argVals e' (g2.node r) = argVals e (g0.node r) := hargs r hr0 hrt hrd'
          rw [h2]
          rw [hu.node r hr0 hrt]
          rfl
    · obtain ⟨k, hk, m, x, h1, h2, h3, h4, h5⟩ := hu.new r hr hr0
      intro j z hj hz
      rw [h4] at hj ⊢
      cases j with
      | succ j => simp [newQ] at hj
      | zero =>
        simp only [newQ, List.getElem?_cons_zero, Option.some.injEq] at hj
        subst hj
        obtain ⟨x', hx1, hx2, _⟩ := hs.data t hc.mem inps outs hc.io k hk
        rw [h3] at hx1
        cases hx1
        have hnk := hnu k hk
        rw [h5, h3] at hnk
        simp only [Option.getD_some] at hnk
        rw [hnk]
        have : (newQ fresh "QuantizeLinear" m x ps).isGraphInput = false := by simp [newQ, Node.isGraphInput]
        rw [this]
        simp only [Bool.false_eq_true, if_false, newQ, argVals, List.map_cons, hps]
        simp only [argVal, if_neg hx2, htin x (List.mem_of_getElem? h3) hx2]
        rfl
  · intro x hx
    have hx' : Unproduced g0.nodeList x := by
      refine hx.imp id (fun hx n hn => ?_)
      obtain ⟨r, hr, rfl⟩ := mem_nodeList.1 hn
      have := hx _ (mem_nodeList.2 ⟨r, hu.sub r hr, rfl⟩)
      rwa [hu.output hr] at this
    rw [← he.2 x hx']
    rcases hx with rfl | hx
    · refine hA "" ?_ ?_ ?_
      · intro k hk h
        obtain ⟨_, _, _, m, _, _, _, _, _, h5⟩ := hu.made k hk
        rw [h5] at h; exact outName_ne m h
      · intro h; exact hc.outNe _ h rfl
      · intro p hp h
        obtain ⟨h1, c, h2, h3, h4, h5⟩ := hu.pair p hp
        obtain ⟨_, _, _, _, oc, h9, h10, _⟩ := hc.reader hw h2 h1 h4
        rw [h5] at h9
        cases h9
        exact h10 h
    · refine hA x ?_ ?_ ?_
      · rintro k hk rfl
        obtain ⟨r, hr, _, m, y, _, _, _, h4, h5⟩ := hu.made k hk
        exact hx _ (mem_nodeList.2 ⟨r, hr, rfl⟩) (by rw [h4, h5]; simp [newQ])
      · intro ho
        exact hx _ (mem_nodeList.2 ⟨t, hu.sub t hc.mem, rfl⟩) (by rw [hu.output hc.mem]; exact ho)
      · rintro p hp rfl
        obtain ⟨h1, c, h2, h3, h4, h5⟩ := hu.pair p hp
        exact hx _ (mem_nodeList.2 ⟨c, hu.sub c h2, rfl⟩) (by rw [hu.output h2, h5]; simp)
  · intro r hr hop hax x as hin
    have hr0 : r ∈ g0.nodes := by
      by_contra hr0
      obtain ⟨k, hk, m, y, _, _, _, h4, _⟩ := hu.new r hr hr0
      rw [h4] at hop
      simp [newQ] at hop
    have hrt : r ≠ t := by
      rintro rfl
      rw [hu.tnode] at hop hax
      have := IsQD.not_tensor (n := g0.node r) ⟨Or.inr hop, hax⟩
      rw [hc.io] at this; cases this
    have hop0 : (g0.node r).op = "DequantizeLinear" := by rw [hu.node r hr0 hrt] at hop; exact hop
    have hax0 : (g0.node r).attr.get "axis" = none := by rw [hu.node r hr0 hrt] at hax; exact hax
    have hrd : ∀ o ∈ (g0.node t).output, o ∉ (g0.node r).input := by
      intro o ho hi
      have := (hc.reader hw hr0 ho hi).1
      rw [hop0] at this
      exact absurd this (by decide)
    have hmap := hargs r hr0 hrt hrd
    obtain ⟨_, _, x0, as0, _, h3, _, h5, _⟩ := hs.qd r hr0 ⟨Or.inr hop0, hax0⟩
    rw [hin, h3] at hmap
    simp only [List.map_cons, List.cons.injEq] at hmap
    obtain ⟨y, hy⟩ := ht r hr0 hop0 hax0 x0 as0 h3
    refine ⟨y, ?_⟩
    rw [(argVal_eq hmap.1 h5).2, hy, hmap.2]
  · intro o ho
    refine hA o ?_ ?_ ?_
    · rintro k hk rfl
      obtain ⟨_, _, _, m, _, h1, _, _, _, h5⟩ := hu.made k hk
      rw [h5] at ho
      exact (hv.unread m h1).2 ho
    · intro h; exact hc.nout o h ho
    · rintro p hp rfl
      obtain ⟨h1, c, h2, h3, h4, h5⟩ := hu.pair p hp
      obtain ⟨_, _, _, _, oc, h9, _, _, h10⟩ := hc.reader hw h2 h1 h4
      rw [h5] at h9
      cases h9
      exact h10 ho

end

end Verif.Graph
