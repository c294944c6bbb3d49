import Verif.Props.QDQUp3
/-!
# C43 (5): `_optimize_quantize`
-/
namespace Verif.Graph
open Verif

theorem tensorIdx_nodup {n : Node} {inps outs : List Nat} (h : tensorIdx n = some (inps, outs)) : inps.Nodup ∧ outs.Nodup := by
  unfold tensorIdx at h
  split at h
  · cases h; decide
  split at h
  · cases h; decide
  split at h
  · cases h; decide
  split at h
  · cases h; exact ⟨List.nodup_range, by decide⟩
  split at h
  · cases h; exact ⟨by decide, List.nodup_range⟩
  split at h
  · cases h; decide
  · cases h

theorem getElem?_inj_filter {l : List String} (hn : (l.filter (· ≠ "")).Nodup) (he : "" ∉ l) {i j : Nat} {o : String}
    (hi : l[i]? = some o) (hj : l[j]? = some o) : i = j := by
  have : l.filter (· ≠ "") = l := by
    rw [List.filter_eq_self]
    intro a ha
    simp only [ne_eq, decide_not, Bool.not_eq_eq_eq_not, Bool.not_true, decide_eq_false_iff_not]
    rintro rfl; exact he ha
  rw [this] at hn
  obtain ⟨hi', e1⟩ := List.getElem?_eq_some_iff.1 hi
  obtain ⟨hj', e2⟩ := List.getElem?_eq_some_iff.1 hj
  exact (List.Nodup.getElem_inj_iff hn).1 (e1.trans e2.symm)

theorem allQuantized_spec {g : G} {t : Ref} {qn : Node} (is : List Nat) (h : g.allQuantized t qn is = .ok true) :
    ∀ i ∈ is, ∃ o : String, (g.node t).output[i]? = some o ∧ g.quantizedOnly qn o = true := by
  induction is with
  | nil => simp
  | cons i is ih =>
    simp only [G.allQuantized] at h
    split at h
    · cases h
    rename_i o ho
    split at h
    · rename_i hq
      intro k hk
      rcases List.mem_cons.1 hk with rfl | hk
      · exact ⟨o, ho, hq⟩
      · exact ih h k hk
    · cases h

theorem sameParams_spec {n m : Node} (h : sameParams n m = true) :
    n.attr.get "axis" = m.attr.get "axis" ∧ n.input.drop 1 = m.input.drop 1 := by
  unfold sameParams at h
  simpa using h

/-- The checks establish the context of the push. -/
theorem upCtx_of {fresh : Nat → String} {g : G} (hv : QInv fresh g) {q t : Ref} (hq : q ∈ g.nodes)
    (hqop : (g.node q).op = "QuantizeLinear") (hqa : (g.node q).attr.get "axis" = none) (ht : t ∈ g.nodes) {x : String}
    {ps : List String} (hqin : (g.node q).input = x :: ps) (hxt : x ∈ (g.node t).output) {inps outs : List Nat}
    (hio : tensorIdx (g.node t) = some (inps, outs)) (hall : g.allQuantized t (g.node q) outs = .ok true) :
    ∃ isIdx, UpCtx g isIdx t ps inps outs := by
  obtain ⟨isIdx, hs⟩ := hv.shape
  have hw := hv.reach.wf
  obtain ⟨_, _, x', ps', qo, e1, _, hx0, _, hxi, _, hps⟩ := hs.qd q hq ⟨Or.inl hqop, hqa⟩
  rw [hqin] at e1
  cases e1
  have hall' := allQuantized_spec outs hall
  have houts := (hs.outs t ht inps outs hio).1
  have hquant : ∀ o ∈ (g.node t).output, g.quantizedOnly (g.node q) o = true := by
    intro o ho
    obtain ⟨j, hj⟩ := List.mem_iff_getElem?.1 ho
    obtain ⟨o', h1, h2⟩ := hall' j (by rw [houts]; exact getElem_of_mem_range hj)
    rw [hj] at h1
    cases h1
    exact h2
  have hinN : ∀ k ∈ inps, ∀ y : String, (g.node t).input[k]? = some y → ¬ isIdx y := by
    intro k hk y hy
    obtain ⟨z, h1, _, h3⟩ := hs.data t ht inps outs hio k hk
    rw [hy] at h1
    cases h1
    rw [h3 x hxt]
    exact hxi
  refine ⟨isIdx, hs, ht, hio, hinN, ?_, ?_, hps, ?_⟩
  · intro o ho
    by_cases he : inps = []
    · -- no data operand: a `Concat` of nothing, which has one output
      have h1 : outs = [0] := by
        unfold tensorIdx at hio
        split at hio
        · cases hio; rfl
        split at hio
        · cases hio; rfl
        split at hio
        · cases hio; rfl
        split at hio
        · cases hio; rfl
        split at hio
        · cases hio; cases he
        split at hio
        · cases hio; rfl
        · cases hio
      rw [houts] at h1
      have hl : (g.node t).output.length = 1 := by
        have := congrArg List.length h1
        simpa using this
      obtain ⟨a, ha⟩ := List.length_eq_one_iff.1 hl
      rw [ha] at ho hxt
      simp only [List.mem_singleton] at ho hxt
      rw [ho, ← hxt]
      exact hxi
    · obtain ⟨k, hk⟩ := List.exists_mem_of_ne_nil _ he
      obtain ⟨z, h1, _, h3⟩ := hs.data t ht inps outs hio k hk
      rw [← h3 o ho]
      exact hinN k hk z h1
  · intro c hc o ho hin
    have h1 := hquant o ho
    unfold G.quantizedOnly at h1
    simp only [Bool.and_eq_true, List.all_eq_true, Bool.not_eq_true', decide_eq_false_iff_not, decide_eq_true_eq] at h1
    obtain ⟨⟨h2, h3⟩, h4⟩ := h1.2 c ((mem_findOutputConsumers hw o c).2 ⟨hc, hin, hv.idx.complete c hc o hin⟩)
    obtain ⟨h5, h6⟩ := sameParams_spec h3
    exact ⟨h2, by rw [h5, hqa], by rw [h6, hqin]; rfl, h4⟩
  · intro o ho
    have h1 := hquant o ho
    unfold G.quantizedOnly at h1
    simp only [Bool.and_eq_true, Bool.not_eq_true', decide_eq_false_iff_not] at h1
    exact h1.1

theorem optimizeQuantize_spec {fresh : Nat → String} (hf : FreshNames fresh) {g g' : G} {b : Bool} (hv : QInv fresh g) {q : Ref}
    (hq : q ∈ g.nodes) (hqop : (g.node q).op = "QuantizeLinear") (h : g.optimizeQuantize fresh q = .ok (g', b)) :
    QStep fresh g g' := by
  have hw := hv.reach.wf
  unfold G.optimizeQuantize at h
  split at h
  · cases h; exact QStep.refl hv
  rename_i hax
  have hqa : (g.node q).attr.get "axis" = none := by
    cases h' : (g.node q).attr.get "axis" with
    | none => rfl
    | some a => rw [h'] at hax; simp at hax
  obtain ⟨isIdx, hs⟩ := hv.shape
  obtain ⟨_, _, x, ps, qo, hqin, hqo, hx0, hqo0, _⟩ := hs.qd q hq ⟨Or.inl hqop, hqa⟩
  rw [hqin, hqo] at h
  simp only at h
  split at h
  · cases h
  rename_i t ht
  obtain ⟨htm, hxt⟩ := (hw.getNodeByOutput hx0 t).1 ht
  split at h
  · rename_i htop
    split at h
    · cases h; exact QStep.refl hv
    rename_i hsame
    simp only [Bool.not_eq_true', Bool.not_eq_false] at hsame
    obtain ⟨h1, h2⟩ := sameParams_spec hsame
    have hta : (g.node t).attr.get "axis" = none := by rw [← h1, hqa]
    obtain ⟨_, _, y, ps', tout, htin, htout, hy0, _⟩ := hs.qd t htm ⟨Or.inr htop, hta⟩
    have hps : ps' = ps := by
      rw [hqin, htin] at h2
      simpa using h2.symm
    subst hps
    rw [htin, htout] at h
    simp only at h
    split at h
    · cases h; exact QStep.refl hv
    rename_i hno
    simp only [not_or] at hno
    simp only [bind, Except.bind] at h
    split at h
    · cases h
    rename_i g1 hg1
    split at h
    · cases h
    rename_i g2 hg2
    split at h
    · cases h
    rename_i g3 hg3
    cases h
    obtain ⟨s1, hd⟩ := cancelRedirect_spec hv hq htm hqop hqa htop hta hqin hqo hxt htin hno.1 hg1
    have hq1 : IsQD (g1.node q) := by rw [hd.node q hq]; exact ⟨Or.inl hqop, hqa⟩
    have ht1 : IsQD (g1.node t) := by rw [hd.node t htm]; exact ⟨Or.inr htop, hta⟩
    obtain ⟨s2, hn2, hm2⟩ := removeIfUnread_spec s1.inv (by rw [hd.same.nodes]; exact hq) hq1
      (by rw [hd.same.output]; exact hqo) (by rw [hd.same.outputs]; exact hno.1) hg2
    have htq : t ≠ q := by
      rintro rfl
      rw [hqop] at htop
      exact absurd htop (by decide)
    obtain ⟨s3, _, _⟩ := removeIfUnread_spec s2.inv (hm2 t (by rw [hd.same.nodes]; exact htm) htq) (by rw [hn2]; exact ht1)
      (by rw [hn2, hd.same.output]; exact htout) (by rw [s2.outputs, hd.same.outputs]; exact hno.2) hg3
    exact (s1.trans s2).trans s3
  · split at h
    · cases h; exact QStep.refl hv
    rename_i inps outs hio
    simp only [bind, Except.bind] at h
    split at h
    · cases h
    rename_i ball hball
    split at h
    · cases h; exact QStep.refl hv
    rename_i hb
    simp only [Bool.not_eq_true', Bool.not_eq_false] at hb
    subst hb
    split at h
    · cases h
    rename_i g1 hg1
    split at h
    · cases h
    rename_i g2 hg2
    cases h
    obtain ⟨isIdx', hc⟩ := upCtx_of hv hq hqop hqa htm hqin hxt hio hball
    have hps : (g.node q).input.drop 1 = ps := by rw [hqin]; rfl
    have hunread : ∀ k, g.heap.length ≤ k → ∀ r ∈ g.nodes, outName fresh k ∉ (g.node r).input :=
      fun k hk => (hv.unread k hk).1
    obtain ⟨hn1, hn2⟩ := tensorIdx_nodup hio
    obtain ⟨nu, hu⟩ := pushUpInputs_spec hf hw htm hqa hunread inps [] (fun _ => "") g g1 (by simpa using hn1)
      (Up1.start hv.reach hv.idx htm _) hg1
    rw [hps, List.nil_append] at hu
    have hidx := hu.idx hc hunread
    have hout : ∀ r ∈ g.nodes, (g1.node r).output = (g.node r).output := fun r hr => hu.output hw hr
    obtain ⟨ρ, hrk⟩ := hv.ranked
    have hself : ∀ o ∈ (g.node t).output, o ∉ (g.node t).input := by
      intro o ho hin
      exact Nat.lt_irrefl _ (hrk t htm t htm ⟨o, hc.outNe o ho, hin, ho⟩)
    have hread : ∀ c ∈ g1.nodes, ∀ o ∈ (g1.node t).output, o ∈ (g1.node c).input →
        ∃ oc, (g1.node c).output = [oc] ∧ oc ∉ (g1.node t).output := by
      intro c hcm o ho hin
      rw [hout t htm] at ho ⊢
      have hc0 : c ∈ g.nodes := by
        by_contra hc0
        obtain ⟨k, _, m, z, _, _, h3, h4, _⟩ := hu.new c hcm hc0
        rw [h4] at hin
        simp only [newQ, List.mem_cons] at hin
        rcases hin with rfl | hp
        · exact hself o ho (List.mem_of_getElem? h3)
        · exact (hc.scal o hp).not_output hw htm (tensor_not_const hio) ho
      have hct : c ≠ t := by
        rintro rfl
        obtain ⟨k, hk⟩ := List.mem_iff_getElem?.1 hin
        by_cases hkd : k ∈ inps
        · have hlt : k < (g.node c).input.length := by
            rw [← hu.tlen]
            by_contra hge
            rw [List.getElem?_eq_none (Nat.le_of_not_lt hge)] at hk; cases hk
          rw [hu.slot k hkd hlt] at hk
          cases hk
          exact hu.new_output hw hkd htm ho
        · rw [hu.slot' k hkd] at hk
          exact hself o ho (List.mem_of_getElem? hk)
      rw [hu.old c (hw.valid c hc0) hct] at hin
      obtain ⟨h6, _, _, _, oc, h7, h8, _⟩ := hc.reader hw hc0 ho hin
      refine ⟨oc, by rw [hout c hc0]; exact h7, ?_⟩
      intro hoc
      exact hct (hw.out_inj h8 hc0 htm (by simp [h7]) hoc)
    have hinj : ∀ (i j : Nat) (o : String), (g1.node t).output[i]? = some o → (g1.node t).output[j]? = some o → i = j := by
      intro i j o hi hj
      rw [hout t htm] at hi hj
      exact getElem?_inj_filter (hw.outNodup t htm) (hs.outs t htm inps outs hio).2 hi hj
    obtain ⟨P, hP, hd⟩ := pushUpOutputs_redir (qout := qo) hu.reach hinj hread outs [] [] g1 g' (by simpa using hn2)
      ⟨by simp, by simp⟩ (Redir.refl hidx) hg2
    rw [List.nil_append] at hP
    have hfin := upFinal hv hc hu hP hd
    refine ⟨⟨hfin.reach, hfin.idx, hfin.ranked hc hv, ⟨_, hfin.shape hc hw⟩,
      hv.kinds.elim (fun isQ hk => ⟨_, hfin.kinds hc hw hk⟩), hfin.unread hf hc hv hq (by
      intro p hp; rw [hqin]; simp [hp]), hfin.unmade hf hv⟩, hfin.outputs, ?_, ?_⟩
    · rw [hfin.inputs]
      exact List.map_congr_left (fun r hr => (hfin.inputNodes r hr (hs.inputs r hr)).2)
    · exact fun V I hI env e he htd => hfin.run hc hv V I hI env e he htd

end Verif.Graph
