import Verif.Props.QDQDown2
/-!
# C43 (8): values across the downward push; `_optimize_dequantize`
-/
namespace Verif.Graph
open Verif

section
variable {fresh : Nat → String} {ps : List String} {g0 g2 : G} {t : Ref} {inps outs : List Nat} {mu : Nat → String}
  {P : List (String × String)} {isIdx isQ : String → Prop}

theorem DownFinal.run (hu : DownFinal fresh ps g0 g2 t inps outs mu P) (hc : DownCtx g0 isIdx isQ t ps inps outs)
    (hv : QInv fresh g0) (V : Type) (I : Interp V) (hI : QDQLaw V I) (env e : String → V) (he : Sat I env e g0.nodeList)
    (ht : TypedRun I e g0) : ∃ e', Sat I env e' g2.nodeList ∧ TypedRun I e' g2 ∧ ∀ o ∈ g0.outputs, e' o = e o := by
  classical
  have hw := hv.reach.wf
  have hs := hc.shape
  have hpv := scalarParams_of he hc.scal
  let psv := ps.map (argVal e)
  have houts := (hs.outs t hc.mem inps outs hc.io).1
  have hinjT : ∀ (i j : Nat) (o : String), (g0.node t).output[i]? = some o → (g0.node t).output[j]? = some o → i = j :=
    fun i j o hi hj => getElem?_inj_filter (hw.outNodup t hc.mem) (hs.outs t hc.mem inps outs hc.io).2 hi hj
  have hmem_outs : ∀ (i : Nat) (o : String), (g0.node t).output[i]? = some o → i ∈ outs := by
    intro i o hi
    rw [houts]; exact getElem_of_mem_range hi
  -- operands of the operator after the push
  let argsY : List (Option V) := (g2.node t).input.map (argVal e)
  have hlenY : argsY.length = (g0.node t).input.length := by simp only [argsY, List.length_map, hu.tlen]
  have hargs0 : argVals e (g0.node t) = mapAt inps (dequant I psv) argsY := by
    apply List.ext_getElem?
    intro k
    rw [mapAt_get]
    simp only [argVals, argsY, List.getElem?_map, Option.map_map]
    by_cases hk : k ∈ inps
    · obtain ⟨x, y, a1, a2, a3⟩ := hu.slot k hk
      have hf := a2.facts hc.shape hc.kinds
      obtain ⟨d, hd, b1, b2, b3, b4⟩ := a2
      obtain ⟨c1, c2, _⟩ := hs.qd d hd ⟨Or.inr b1, b2⟩
      have hval := dequant_value he hd b1 c1 c2 b3 b4 hf.2.2.2.1 hf.2.2.1
      rw [a1, a3]
      simp only [Option.map_some, Function.comp, if_pos hk, argVal, if_neg hf.2.2.1, if_neg hf.2.2.2.1, hval]
      rfl
    · rw [hu.slot' k hk]
      cases (g0.node t).input[k]? with
      | none => rfl
      | some x => simp only [Option.map_some, Function.comp, if_neg hk]
  have hdataY : ∀ k ∈ inps, ∃ v, argsY[k]? = some (some v) := by
    intro k hk
    obtain ⟨x, y, a1, a2, a3⟩ := hu.slot k hk
    have hf := a2.facts hc.shape hc.kinds
    exact ⟨e y, by simp only [argsY, List.getElem?_map, a3, Option.map_some, argVal, if_neg hf.2.2.2.1]⟩
  -- these operands are quantized values
  have hz : ∃ argsZ : List (Option V), argsZ.length = (g0.node t).input.length ∧ (∀ k ∈ inps, ∃ v, argsZ[k]? = some (some v)) ∧
      argsY = mapAt inps (quant I psv) argsZ := by
    have hex : ∀ k, ∃ z : V, k ∈ inps → ∀ v, argsY[k]? = some (some v) → v = quant I psv z := by
      intro k
      by_cases hk : k ∈ inps
      · obtain ⟨x, y, a1, a2, a3⟩ := hu.slot k hk
        have hf := a2.facts hc.shape hc.kinds
        obtain ⟨d, hd, b1, b2, b3, b4⟩ := a2
        obtain ⟨z, hz⟩ := ht d hd b1 b2 y ps b3
        refine ⟨z, fun _ v hv' => ?_⟩
        simp only [argsY, List.getElem?_map, a3, Option.map_some, argVal, if_neg hf.2.2.2.1, Option.some.injEq] at hv'
        rw [← hv', hz]
      · exact ⟨e "", fun h => absurd h hk⟩
    choose z hzs using hex
    refine ⟨argsY.mapIdx (fun k a => if k ∈ inps then some (z k) else a), by simp [hlenY], ?_, ?_⟩
    · intro k hk
      obtain ⟨v, hv'⟩ := hdataY k hk
      exact ⟨z k, by simp [List.getElem?_mapIdx, hv', hk]⟩
    · apply List.ext_getElem?
      intro k
      rw [mapAt_get, List.getElem?_mapIdx, Option.map_map]
      by_cases hk : k ∈ inps
      · obtain ⟨v, hv'⟩ := hdataY k hk
        rw [hv']
        simp only [Option.map_some, Function.comp, if_pos hk]
        rw [hzs k hk v hv']
      · cases argsY[k]? with
        | none => rfl
        | some a => simp only [Option.map_some, Function.comp, if_neg hk]
  let R : Nat → V := fun i => I (g0.node t).op "" (g0.node t).attr argsY i
  have hnored := (hs.domain t hc.mem _ hc.io).2
  have hout : ∀ (i : Nat) (o : String), (g0.node t).output[i]? = some o → e o = dequant I psv (R i) := by
    intro i o hi
    have h1 := he.1 _ (mem_nodeList.2 ⟨t, hc.mem, rfl⟩) i o hi (hc.outNe o (List.mem_of_getElem? hi))
    rw [tensor_not_input hc.io, hargs0, (hs.domain t hc.mem _ hc.io).1] at h1
    simp only [Bool.false_eq_true, if_false] at h1
    rw [h1]
    exact hI.dequant_commutes (g0.node t) inps outs hc.io hnored psv hpv argsY hlenY hdataY i (hmem_outs i o hi)
  have hRq : ∀ i ∈ outs, ∃ y, R i = quant I psv y := by
    intro i hi
    obtain ⟨argsZ, h1, h2, h3⟩ := hz
    refine ⟨I (g0.node t).op "" (g0.node t).attr argsZ i, ?_⟩
    simp only [R]
    rw [h3]
    exact hI.quant_commutes (g0.node t) inps outs hc.io hnored psv hpv argsZ h1 h2 i hi
  -- the new valuation
  let e1 : String → V := fun x => if h : ∃ i, (g0.node t).output[i]? = some x then R h.choose else e x
  have he1 : ∀ (i : Nat) (o : String), (g0.node t).output[i]? = some o → e1 o = R i := by
    intro i o hi
    have hex : ∃ j : Nat, (g0.node t).output[j]? = some o := ⟨i, hi⟩
    simp only [e1, dif_pos hex]
    rw [hinjT _ _ o hex.choose_spec hi]
  have he1' : ∀ x, x ∉ (g0.node t).output → e1 x = e x := by
    intro x hx
    have : ¬ ∃ j : Nat, (g0.node t).output[j]? = some x := by
      rintro ⟨j, hj⟩; exact hx (List.mem_of_getElem? hj)
    simp only [e1, dif_neg this]
  obtain ⟨e', hmu, hrest⟩ := exists_patch outs mu (fun i => e (((g0.node t).output[i]?).getD "")) e1 (by
    intro i hi j hj h
    obtain ⟨q, hq, hq0, m, x, _, _, h3, h4, h5⟩ := hu.made i hi
    obtain ⟨q', hq', hq0', m', x', _, _, h3', h4', h5'⟩ := hu.made j hj
    have := hu.reach.wf.out_inj (hu.newNe hi) hq hq' (by rw [h4, h5]; simp [newQ]) (by rw [h4', h, h5']; simp [newQ])
    subst this
    rw [h4] at h4'
    simp only [newQ, Node.mk.injEq, List.cons.injEq] at h4'
    rw [h3, h3', h4'.2.2.2.2.1.1])
  have hA : ∀ x, (∀ i ∈ outs, mu i ≠ x) → x ∉ (g0.node t).output → e' x = e x := by
    intro x h1 h2
    rw [hrest x h1, he1' x h2]
  have hB : ∀ (i : Nat) (o : String), (g0.node t).output[i]? = some o → e' o = R i := by
    intro i o hi
    rw [hrest o (by rintro j hj rfl; exact hu.newOut hv hj hc.mem (List.mem_of_getElem? hi)), he1 i o hi]
  have hM : ∀ (i : Nat) (o : String), (g0.node t).output[i]? = some o → e' (mu i) = e o := by
    intro i o hi
    rw [hmu i (hmem_outs i o hi), hi]
    rfl
  have hconst : ∀ a, ScalarConst g0 a → e' a = e a := by
    intro a ha
    refine hA a ?_ (ha.not_output hw hc.mem (tensor_not_const hc.io))
    obtain ⟨_, c, hcm, _, _, h3, _⟩ := ha
    rintro i hi rfl
    exact hu.newOut hv hi hcm (by simp [h3])
  have hps : ps.map (argVal e') = psv := map_argVal_congr (fun p hp => hconst p (hc.scal p hp))
  have hread : ∀ r ∈ g0.nodes, ∀ x ∈ (g0.node r).input, x ∉ (g0.node t).output → e' x = e x := by
    intro r hr x hx ho
    refine hA x ?_ ho
    rintro i hi rfl
    exact hu.newIn hv hi hr hx
  have hargs : ∀ r ∈ g0.nodes, r ≠ t → (g2.node r).input.map (argVal e') = (g0.node r).input.map (argVal e) := by
    intro r hr hrt
    rw [hu.node r hr hrt]
    simp only [List.map_map]
    apply List.map_congr_left
    intro w hwi
    simp only [Function.comp]
    rcases hu.ap hc hv w with ⟨h1, h2⟩ | ⟨i, hi, h1, h2⟩
    · rw [h2]
      unfold argVal
      rw [hread r hr w hwi h1]
    · rw [h2]
      unfold argVal
      rw [if_neg (hu.newNe hi), if_neg (hc.outNe w (List.mem_of_getElem? h1)), hM i w h1]
  have hargsT : argVals e' (g2.node t) = argsY := by
    apply List.ext_getElem?
    intro k
    simp only [argVals, argsY, List.getElem?_map]
    by_cases hk : k ∈ inps
    · obtain ⟨x, y, a1, a2, a3⟩ := hu.slot k hk
      have hf := a2.facts hc.shape hc.kinds
      obtain ⟨d, hd, b1, b2, b3, b4⟩ := a2
      rw [a3]
      simp only [Option.map_some, argVal, if_neg hf.2.2.2.1]
      rw [hread d hd y (by simp [b3]) (fun ho => (hc.outN y ho).2 hf.2.2.2.2.2)]
    · rw [hu.slot' k hk]
      cases hx : (g0.node t).input[k]? with
      | none => rfl
      | some x =>
        simp only [Option.map_some, argVal]
        rw [hread t hc.mem x (List.mem_of_getElem? hx) (fun ho => hc.not_self hv x ho (List.mem_of_getElem? hx))]
  refine ⟨e', ⟨?_, ?_⟩, ?_, ?_⟩
  · intro n hn
    obtain ⟨r, hr, rfl⟩ := mem_nodeList.1 hn
    by_cases hr0 : r ∈ g0.nodes
    · by_cases hrt : r = t
      · subst hrt
        intro j o hj ho
        rw [hu.output hr0] at hj
        obtain ⟨e1', e2', e3'⟩ := hu.attrs hr0
        have hgi2 : (g2.node r).isGraphInput = false := by
          have h0 := tensor_not_input hc.io
          rw [hu.tnode]; exact h0
        rw [hB j o hj, hgi2, e1', e2', e3', (hs.domain r hr0 _ hc.io).1, hargsT]
        rfl
      · intro j z hj hz
        have hsat := he.1 _ (mem_nodeList.2 ⟨r, hr0, rfl⟩)
        rw [hu.output hr0] at hj
        have hzo := List.mem_of_getElem? hj
        have hz1 : e' z = e z := by
          refine hA z ?_ ?_
          · rintro k hk rfl; exact hu.newOut hv hk hr0 hzo
          · intro hzt; exact hrt (hw.out_inj hz hr0 hc.mem hzo hzt)
        have h1 := hsat j z hj hz
        rw [hz1, h1]
        have h2 : argVals e' (g2.node r) = argVals e (g0.node r) := hargs r hr0 hrt
        rw [h2, hu.node r hr0 hrt]
        rfl
    · obtain ⟨i, hi, m, o, h1, h2, h3, h4, h5⟩ := hu.new r hr hr0
      intro j z hj hz
      rw [h4] at hj ⊢
      cases j with
      | succ j => simp [newQ] at hj
      | zero =>
        simp only [newQ, List.getElem?_cons_zero, Option.some.injEq] at hj
        subst hj
        have ho := hc.outNe o (List.mem_of_getElem? h3)
        rw [← h5, hM i o h3, hout i o h3]
        have : (newQ fresh "DequantizeLinear" m o ps).isGraphInput = false := by simp [newQ, Node.isGraphInput]
        rw [this]
        simp only [Bool.false_eq_true, if_false, newQ, argVals, List.map_cons, hps]
        simp only [argVal, if_neg ho, hB i o h3]
        rfl
  · intro x hx
    have hx' : Unproduced g0.nodeList x := by
      refine hx.imp id (fun hx n hn => ?_)
      obtain ⟨r, hr, rfl⟩ := mem_nodeList.1 hn
      have := hx _ (mem_nodeList.2 ⟨r, hu.sub r hr, rfl⟩)
      rwa [hu.output hr] at this
    rw [← he.2 x hx']
    rcases hx with rfl | hx
    · exact hA "" (fun i hi => hu.newNe hi) (fun h => hc.outNe _ h rfl)
    · refine hA x ?_ ?_
      · rintro i hi rfl
        obtain ⟨r, hr, _, m, y, _, _, _, h4, h5⟩ := hu.made i hi
        exact hx _ (mem_nodeList.2 ⟨r, hr, rfl⟩) (by rw [h4, h5]; simp [newQ])
      · intro ho
        exact hx _ (mem_nodeList.2 ⟨t, hu.sub t hc.mem, rfl⟩) (by rw [hu.output hc.mem]; exact ho)
  · intro r hr hop hax x as hin
    by_cases hr0 : r ∈ g0.nodes
    · have hrt : r ≠ t := by
        rintro rfl
        have h1 := IsQD.not_tensor (n := g2.node r) ⟨Or.inr hop, hax⟩
        rw [hu.tens hr0, hc.io] at h1; cases h1
      have hmap := hargs r hr0 hrt
      obtain ⟨e1', e2', _⟩ := hu.attrs hr0
      rw [e1'] at hop
      rw [e2'] at hax
      obtain ⟨_, _, x0, as0, _, h3, _, h5, _⟩ := hs.qd r hr0 ⟨Or.inr hop, hax⟩
      rw [hin, h3] at hmap
      simp only [List.map_cons, List.cons.injEq] at hmap
      obtain ⟨y, hy⟩ := ht r hr0 hop hax x0 as0 h3
      refine ⟨y, ?_⟩
      rw [(argVal_eq hmap.1 h5).2, hy, hmap.2]
    · obtain ⟨i, hi, m, o, h1, h2, h3, h4, h5⟩ := hu.new r hr hr0
      rw [h4] at hin
      simp only [newQ, List.cons.injEq] at hin
      obtain ⟨rfl, rfl⟩ := hin
      obtain ⟨y, hy⟩ := hRq i hi
      exact ⟨y, by rw [hB i o h3, hps, hy]⟩
  · intro o ho
    refine hA o ?_ (fun h => hc.nout o h ho)
    rintro i hi rfl
    obtain ⟨_, _, _, m, _, h1, _, _, _, h5⟩ := hu.made i hi
    rw [h5] at ho
    exact (hv.unread m h1).2 ho

end

theorem allDequantized_spec {g : G} {t : Ref} {dn : Node} (is : List Nat) (h : g.allDequantized t dn is = .ok true) :
    ∀ i ∈ is, ∃ x : String, (g.node t).input[i]? = some x ∧ ∃ d, g.getNodeByOutput x = some d ∧
      (g.node d).op = "DequantizeLinear" ∧ sameParams (g.node d) dn = true := by
  induction is with
  | nil => simp
  | cons i is ih =>
    simp only [G.allDequantized] at h
    split at h
    · cases h
    rename_i x hx
    simp only [bind, Except.bind] at h
    split at h
    · cases h
    rename_i b hb
    split at h
    · rename_i hbt
      subst hbt
      intro k hk
      rcases List.mem_cons.1 hk with rfl | hk
      · refine ⟨x, hx, ?_⟩
        unfold G.dequantizedInput at hb
        split at hb
        · cases hb
        rename_i d hd
        simp only [Except.ok.injEq, Bool.and_eq_true, decide_eq_true_eq] at hb
        exact ⟨d, hd, hb.1.1, hb.1.2⟩
      · exact ih h k hk
    · cases h

theorem noGraphOutput_spec {g : G} {t : Ref} (is : List Nat) (h : g.noGraphOutput t is = .ok true) :
    ∀ i ∈ is, ∀ o : String, (g.node t).output[i]? = some o → o ∉ g.outputs := by
  induction is with
  | nil => simp
  | cons i is ih =>
    simp only [G.noGraphOutput] at h
    split at h
    · cases h
    rename_i o ho
    split at h
    · cases h
    rename_i hn
    intro k hk o' ho'
    rcases List.mem_cons.1 hk with rfl | hk
    · rw [ho] at ho'; cases ho'; exact hn
    · exact ih h k hk o' ho'

/-- `_optimize_dequantize_and_node` on a reader of a dequantized tensor. -/
theorem optimizeDequantizeAndNode_spec {fresh : Nat → String} (hf : FreshNames fresh) {g g' : G} {b : Bool}
    (hv : QInv fresh g) {d t : Ref} (hd : d ∈ g.nodes) (hdop : (g.node d).op = "DequantizeLinear")
    (hda : (g.node d).attr.get "axis" = none) (ht : t ∈ g.nodes) (hread : ∃ o ∈ (g.node d).output, o ∈ (g.node t).input)
    (h : g.optimizeDequantizeAndNode fresh d t = .ok (g', b)) : QStep fresh g g' ∧ (b = false → g' = g) := by
  have hw := hv.reach.wf
  unfold G.optimizeDequantizeAndNode at h
  split at h
  · cases h; exact ⟨QStep.refl hv, fun _ => rfl⟩
  rename_i inps outs hio
  simp only [bind, Except.bind] at h
  split at h
  · cases h
  rename_i b1 hb1
  split at h
  · cases h; exact ⟨QStep.refl hv, fun _ => rfl⟩
  rename_i hb1t
  simp only [Bool.not_eq_true', Bool.not_eq_false] at hb1t
  subst hb1t
  split at h
  · cases h
  rename_i b2 hb2
  split at h
  · cases h; exact ⟨QStep.refl hv, fun _ => rfl⟩
  rename_i hb2t
  simp only [Bool.not_eq_true', Bool.not_eq_false] at hb2t
  subst hb2t
  obtain ⟨isIdx, hs⟩ := hv.shape
  obtain ⟨isQ, hk⟩ := hv.kinds
  obtain ⟨_, _, src, ps, o, hdin, hdout, _, ho0, _, hoi, hps⟩ := hs.qd d hd ⟨Or.inr hdop, hda⟩
  rw [hdin] at h
  simp only at h
  split at h
  · cases h
  rename_i g1 hg1
  split at h
  · cases h
  rename_i g2 hg2
  cases h
  have hall := allDequantized_spec inps hb1
  have hc : DownCtx g isIdx isQ t ps inps outs := by
    refine ⟨hs, hk, ht, hio, ?_, ?_, hps, ?_⟩
    · intro k hkm x hx
      obtain ⟨x', h1, d', h2, h3, h4⟩ := hall k hkm
      rw [hx] at h1
      cases h1
      obtain ⟨z, hz1, hz2, _⟩ := hs.data t ht inps outs hio k hkm
      rw [hx] at hz1
      cases hz1
      obtain ⟨h5, h6⟩ := (hw.getNodeByOutput hz2 d').1 h2
      obtain ⟨h7, h8⟩ := sameParams_spec h4
      have h9 : (g.node d').attr.get "axis" = none := by rw [h7, hda]
      obtain ⟨_, _, y, ps', x'', h10, h11, _⟩ := hs.qd d' h5 ⟨Or.inr h3, h9⟩
      rw [h10, hdin] at h8
      simp only [List.drop_one, List.tail_cons] at h8
      rw [h11] at h6
      simp only [List.mem_singleton] at h6
      exact ⟨y, d', h5, h3, h9, by rw [h10, h8], by rw [h11, h6]⟩
    · intro he
      obtain ⟨o', ho', hin⟩ := hread
      rw [hdout] at ho'
      simp only [List.mem_singleton] at ho'
      subst ho'
      obtain ⟨k, hk'⟩ := List.mem_iff_getElem?.1 hin
      exact hoi (hs.other t ht inps outs hio k o' hk' (by rw [he]; simp) ho0)
    · intro o' ho'
      obtain ⟨j, hj⟩ := List.mem_iff_getElem?.1 ho'
      refine noGraphOutput_spec outs hb2 j ?_ o' hj
      rw [(hs.outs t ht inps outs hio).1]
      exact getElem_of_mem_range hj
  obtain ⟨hn1, hn2⟩ := tensorIdx_nodup hio
  have hd1 := pushDownInputs_spec hc inps [] g g1 (by simpa using hn1) (fun _ h => h) (Down1.start hv.reach hv.idx ht) hg1
  rw [List.nil_append] at hd1
  have hidx := hd1.idx hc
  obtain ⟨mu, P, hd2⟩ := pushDownOutputs_spec hf (g1 := g1) (t := t) (by rw [hd1.same.nodes]; exact ht) (ps := ps)
    (dn := g.node d) (src := src) hda (by rw [hdin]; rfl)
    (by
      intro i j o hi hj
      rw [hd1.same.output] at hi hj
      exact getElem?_inj_filter (hw.outNodup t ht) (hs.outs t ht inps outs hio).2 hi hj)
    (by
      intro a ha
      rw [hd1.same.output]
      exact (hps a ha).not_output hw ht (tensor_not_const hio))
    outs [] (fun _ => "") [] g1 g' (by simpa using hn2) (Down2.start hd1.reach hidx t _) hg2
  rw [List.nil_append] at hd2
  have hfin := downFinal hv hc hd1 hd2
  refine ⟨⟨⟨hfin.reach, hfin.idx, hfin.ranked hc hv, ⟨_, hfin.shape hc hv⟩, ⟨_, hfin.kindsOk hc hv⟩,
    hfin.unread hf hc hv hd (by intro p hp; rw [hdin]; simp [hp]), hfin.unmade hf hv⟩, hfin.outputs, ?_, ?_⟩, by simp⟩
  · rw [hfin.inputs]
    exact List.map_congr_left (fun r hr => (hfin.inputNodes r hr (hs.inputs r hr)).2)
  · exact fun V I hI env e he htd => hfin.run hc hv V I hI env e he htd

theorem tryConsumers_spec {fresh : Nat → String} (hf : FreshNames fresh) {g : G}
    (hv : QInv fresh g) {d : Ref} (hd : d ∈ g.nodes) (hdop : (g.node d).op = "DequantizeLinear")
    (hda : (g.node d).attr.get "axis" = none) (ts : List Ref) :
    ∀ {g' : G} {b : Bool}, (∀ t ∈ ts, t ∈ g.nodes ∧ ∃ o ∈ (g.node d).output, o ∈ (g.node t).input) →
    g.tryConsumers fresh d ts = .ok (g', b) → QStep fresh g g' := by
  induction ts with
  | nil => intro g' b _ h; cases h; exact QStep.refl hv
  | cons t ts ih =>
    intro g' b hall h
    simp only [G.tryConsumers, bind, Except.bind] at h
    split at h
    · cases h
    rename_i pr hpr
    obtain ⟨g1, b1⟩ := pr
    obtain ⟨h1, h2⟩ := hall t (by simp)
    obtain ⟨s, _⟩ := optimizeDequantizeAndNode_spec hf hv hd hdop hda h1 h2 hpr
    simp only at h
    split at h
    · cases h; exact s
    · exact ih (fun t' ht' => hall t' (by simp [ht'])) h

theorem optimizeDequantize_spec {fresh : Nat → String} (hf : FreshNames fresh) {g g' : G} {b : Bool} (hv : QInv fresh g)
    {d : Ref} (hd : d ∈ g.nodes) (hdop : (g.node d).op = "DequantizeLinear")
    (h : g.optimizeDequantize fresh d = .ok (g', b)) : QStep fresh g g' := by
  have hw := hv.reach.wf
  unfold G.optimizeDequantize at h
  split at h
  · cases h; exact QStep.refl hv
  rename_i hax
  have hda : (g.node d).attr.get "axis" = none := by
    cases h' : (g.node d).attr.get "axis" with
    | none => rfl
    | some a => rw [h'] at hax; simp at hax
  split at h
  · cases h
  rename_i o rest ho
  refine tryConsumers_spec hf hv hd hdop hda _ ?_ h
  intro t htm
  obtain ⟨h1, h2, _⟩ := (mem_findOutputConsumers hw o t).1 htm
  exact ⟨h1, o, by simp [ho], h2⟩

theorem qdqStep_spec {fresh : Nat → String} (hf : FreshNames fresh) {g g' : G} {b : Bool} (hv : QInv fresh g) {r : Ref}
    (hr : r ∈ g.nodes) (h : g.qdqStep fresh r = .ok (g', b)) : QStep fresh g g' := by
  unfold G.qdqStep at h
  split at h
  · exact optimizeQuantize_spec hf hv hr ‹_› h
  · split at h
    · exact optimizeDequantize_spec hf hv hr ‹_› h
    · cases h; exact QStep.refl hv

theorem qdqPass_spec {fresh : Nat → String} (hf : FreshNames fresh) (fuel : Nat) : ∀ {g g' : G} {i : Nat} {c b : Bool},
    QInv fresh g → G.qdqPass fresh fuel g i c = .ok (g', b) → QStep fresh g g' := by
  induction fuel with
  | zero => intro g g' i c b _ h; cases h
  | succ n ih =>
    intro g g' i c b hv h
    simp only [G.qdqPass] at h
    split at h
    · cases h; exact QStep.refl hv
    rename_i r hr
    simp only [bind, Except.bind] at h
    split at h
    · cases h
    rename_i pr hpr
    obtain ⟨g1, b1⟩ := pr
    have s := qdqStep_spec hf hv (List.mem_of_getElem? hr) hpr
    exact s.trans (ih s.inv h)

theorem qdqLoop_spec {fresh : Nat → String} (hf : FreshNames fresh) (fuel : Nat) : ∀ {g g' : G},
    QInv fresh g → G.qdqLoop fresh fuel g = .ok g' → QStep fresh g g' := by
  induction fuel with
  | zero => intro g g' _ h; cases h
  | succ n ih =>
    intro g g' hv h
    simp only [G.qdqLoop, bind, Except.bind] at h
    split at h
    · cases h
    rename_i pr hpr
    obtain ⟨g1, b1⟩ := pr
    have s := qdqPass_spec hf _ hv hpr
    simp only at h
    split at h
    · exact s.trans (ih s.inv h)
    · cases h; exact s

end Verif.Graph
