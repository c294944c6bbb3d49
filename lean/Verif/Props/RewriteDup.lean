import Verif.Props.RewriteBase
/-!
# Rewriters that list a new node twice behave as if they did not (used by C44, C45)
-/
namespace Verif.Graph
open Verif

/-- The same graph object with another node list. -/
def G.withNodes (g : G) (N : List Ref) : G := { g with nodes := N }

variable {g : G} {N : List Ref}

@[simp] theorem withNodes_nodes : (g.withNodes N).nodes = N := rfl
@[simp] theorem withNodes_heap : (g.withNodes N).heap = g.heap := rfl
@[simp] theorem withNodes_node (r : Ref) : (g.withNodes N).node r = g.node r := rfl
@[simp] theorem withNodes_withNodes (M : List Ref) : (g.withNodes N).withNodes M = g.withNodes M := rfl

theorem withNodes_registerInputs (is : List String) (n : String) :
    (g.withNodes N).registerInputs is n = (g.registerInputs is n).withNodes N := by
  induction is generalizing g with
  | nil => rfl
  | cons i is ih => exact ih (g := g.registerInput i n)

theorem withNodes_dropConsumer (x n : String) : (g.withNodes N).dropConsumer x n = (g.dropConsumer x n).withNodes N := by
  unfold G.dropConsumer
  simp only [G.withNodes]
  split <;> rfl

theorem withNodes_moveConsumer (a b n : String) : (g.withNodes N).moveConsumer a b n = (g.moveConsumer a b n).withNodes N := by
  unfold G.moveConsumer
  rw [withNodes_dropConsumer]
  rfl

theorem withNodes_replaceInputAt (r : Ref) (old new : String) (i : Nat) :
    (g.withNodes N).replaceInputAt r old new i = (g.replaceInputAt r old new i).map (·.withNodes N) := by
  unfold G.replaceInputAt
  by_cases hc : (g.node r).input[i]? = some old
  · rw [if_pos (show ((g.withNodes N).node r).input[i]? = some old from hc), if_pos hc,
      show (g.withNodes N).setNode r (((g.withNodes N).node r).setInput i new) = (g.setNode r ((g.node r).setInput i new)).withNodes N from rfl,
      withNodes_moveConsumer]
    rfl
  · rw [if_neg (show ¬ ((g.withNodes N).node r).input[i]? = some old from hc), if_neg hc]; rfl

theorem withNodes_replaceSlots (r : Ref) (old new : String) (is : List Nat) :
    (g.withNodes N).replaceSlots r old new is = (g.replaceSlots r old new is).map (·.withNodes N) := by
  induction is generalizing g with
  | nil => rfl
  | cons i is ih =>
    unfold G.replaceSlots
    rw [withNodes_replaceInputAt]
    by_cases hc : (g.node r).input[i]? = some old
    · rw [if_pos (show ((g.withNodes N).node r).input[i]? = some old from hc), if_pos hc]
      cases h : g.replaceInputAt r old new i with
      | error x => rfl
      | ok g1 => exact ih (g := g1)
    · rw [if_neg (show ¬ ((g.withNodes N).node r).input[i]? = some old from hc), if_neg hc]; exact ih

theorem withNodes_replaceAllIn (old new : String) (rs : List Ref) :
    (g.withNodes N).replaceAllIn old new rs = (g.replaceAllIn old new rs).map (·.withNodes N) := by
  induction rs generalizing g with
  | nil => rfl
  | cons r rs ih =>
    unfold G.replaceAllIn
    by_cases hc : old ∈ (g.node r).input ∧ new ∈ (g.node r).output
    · rw [if_pos (show old ∈ ((g.withNodes N).node r).input ∧ new ∈ ((g.withNodes N).node r).output from hc), if_pos hc]; rfl
    · rw [if_neg (show ¬ (old ∈ ((g.withNodes N).node r).input ∧ new ∈ ((g.withNodes N).node r).output) from hc), if_neg hc,
        show (g.withNodes N).registerInput new ((g.withNodes N).node r).name = (g.registerInput new (g.node r).name).withNodes N from rfl]
      simp only []
      rw [withNodes_replaceSlots, show ((g.withNodes N).node r).input = (g.node r).input from rfl]
      cases h : (g.registerInput new (g.node r).name).replaceSlots r old new (List.range (g.node r).input.length) with
      | error x => rfl
      | ok g1 => exact ih (g := g1)

theorem withNodes_replaceAllInputs (old new : String) (ops : List Ref) :
    (g.withNodes N).replaceAllInputs old new (some ops) = (g.replaceAllInputs old new (some ops)).map (·.withNodes N) := by
  unfold G.replaceAllInputs
  by_cases hc : old = new
  · rw [if_pos hc, if_pos hc]; rfl
  · rw [if_neg hc, if_neg hc]
    have : (g.withNodes N).ensureConsumers new = (g.ensureConsumers new).withNodes N := by
      unfold G.ensureConsumers
      simp only [G.withNodes]
      split <;> rfl
    simp only [Option.getD_some, this]
    exact withNodes_replaceAllIn old new ops

theorem withNodes_setNodeByName (r : Ref) : (g.withNodes N).setNodeByName r = (g.setNodeByName r).withNodes N := by
  unfold G.setNodeByName
  exact withNodes_registerInputs (g := { g with byName := _, outToName := _ }) _ _

theorem withNodes_makeNode (op : String) (xs : List String) (name : String) (outs : List String) (attr : Dict String Attr)
    (dom : String) :
    (g.withNodes N).makeNode op xs name outs attr dom =
      (g.makeNode op xs name outs attr dom).map (fun p => (p.1.withNodes (N ++ [p.2]), p.2)) := by
  unfold G.makeNode
  rw [show (g.withNodes N).getNodeByName = g.getNodeByName from rfl,
    show (g.withNodes N).getNodeByOutput = g.getNodeByOutput from rfl]
  by_cases h1 : (g.getNodeByName name).isSome = true
  · rw [if_pos h1, if_pos h1]; rfl
  rw [if_neg h1, if_neg h1]
  by_cases h2 : (outs.any fun o => (g.getNodeByOutput o).isSome) = true
  · rw [if_pos h2, if_pos h2]; rfl
  rw [if_neg h2, if_neg h2]
  simp only [withNodes_registerInputs]
  generalize g.registerInputs xs name = g1
  have := withNodes_setNodeByName (g := { g1 with heap := g1.heap ++ [Node.mk name op dom attr xs outs] }) (N := N) g1.heap.length
  simp only [G.withNodes] at this ⊢
  rw [this]
  rfl

theorem withNodes_removeOutputs (os : List String) :
    (g.withNodes N).removeOutputs os = (g.removeOutputs os).map (·.withNodes N) := by
  induction os generalizing g with
  | nil => rfl
  | cons o os ih =>
    simp only [G.removeOutputs]
    by_cases h1 : o = ""
    · rw [if_pos h1, if_pos h1]; exact ih
    rw [if_neg h1, if_neg h1, show (g.withNodes N).outToName = g.outToName from rfl]
    by_cases h2 : (g.outToName.get o).isNone = true
    · rw [if_pos h2, if_pos h2]; rfl
    rw [if_neg h2, if_neg h2]
    exact ih (g := { g with outToName := _, shapes := _, dtypes := _ })

theorem withNodes_unregisterInput (i n : String) :
    (g.withNodes N).unregisterInput i n = (g.unregisterInput i n).map (·.withNodes N) := by
  unfold G.unregisterInput
  rw [show (g.withNodes N).consumers = g.consumers from rfl]
  cases g.consumers.get i with
  | none => rfl
  | some s =>
    simp only
    by_cases h1 : i ∈ s
    · rw [if_pos h1, if_pos h1]
      by_cases h2 : n ∈ s
      · rw [if_pos h2, if_pos h2]; rfl
      · rw [if_neg h2, if_neg h2]; rfl
    · rw [if_neg h1, if_neg h1]; rfl

theorem withNodes_removeInputs (n : String) (is : List String) :
    (g.withNodes N).removeInputs n is = (g.removeInputs n is).map (·.withNodes N) := by
  induction is generalizing g with
  | nil => rfl
  | cons o os ih =>
    simp only [G.removeInputs]
    by_cases h1 : o = ""
    · rw [if_pos h1, if_pos h1]; exact ih
    rw [if_neg h1, if_neg h1, show (g.withNodes N).consumers = g.consumers from rfl]
    by_cases h2 : (g.consumers.get o).isNone = true
    · rw [if_pos h2, if_pos h2]; rfl
    rw [if_neg h2, if_neg h2, withNodes_unregisterInput]
    cases g.unregisterInput o n with
    | error x => rfl
    | ok g1 => exact ih (g := g1)

theorem removeOutputs_nodes {os : List String} {g g' : G} (h : g.removeOutputs os = .ok g') : g'.nodes = g.nodes := by
  have := withNodes_removeOutputs (g := g) (N := g.nodes) os
  rw [show g.withNodes g.nodes = g from rfl, h] at this
  exact (congrArg G.nodes (Except.ok.inj this)).trans rfl

theorem removeInputs_nodes {is : List String} {n : String} {g g' : G} (h : g.removeInputs n is = .ok g') : g'.nodes = g.nodes := by
  have := withNodes_removeInputs (g := g) (N := g.nodes) n is
  rw [show g.withNodes g.nodes = g from rfl, h] at this
  exact (congrArg G.nodes (Except.ok.inj this)).trans rfl

theorem withNodes_removeNode (name : String) {g2 : G} (h : (g.withNodes N).removeNode name = .ok g2) :
    ∃ g1 r, g.removeNode name = .ok g1 ∧ g.byName.get name = some r ∧ g2 = g1.withNodes (N.erase r) := by
  unfold G.removeNode at h ⊢
  rw [show (g.withNodes N).byName = g.byName from rfl] at h
  cases hb : g.byName.get name with
  | none => rw [hb] at h; cases h
  | some r =>
    rw [hb] at h
    simp only [withNodes_node, bind, Except.bind] at h ⊢
    have e1 := withNodes_removeOutputs (g := { g with byName := g.byName.erase name, inputs := g.inputs.erase r }) (N := N)
      (g.node r).output
    simp only [G.withNodes] at e1 h
    rw [e1] at h
    cases ho : ({ g with byName := g.byName.erase name, inputs := g.inputs.erase r } : G).removeOutputs (g.node r).output with
    | error x => rw [ho] at h; cases h
    | ok ga =>
      rw [ho] at h
      simp only [Except.map] at h
      have e2 := withNodes_removeInputs (g := ga) (N := N) name (g.node r).input
      simp only [G.withNodes] at e2
      rw [e2] at h
      cases hi : ga.removeInputs name (g.node r).input with
      | error x => rw [hi] at h; cases h
      | ok gb =>
        rw [hi] at h
        simp only [Except.map] at h
        cases h
        refine ⟨{ gb with nodes := gb.nodes.erase r }, r, ?_, rfl, rfl⟩
        simp only [hi]

/-- `g` is `h` except that nodes satisfying `D` may be listed several times. -/
structure Dups (D : Ref → Prop) (g h : G) : Prop where
  eq : g = h.withNodes g.nodes
  mem : ∀ r, r ∈ g.nodes ↔ r ∈ h.nodes
  once : ∀ r, ¬ D r → g.nodes.count r ≤ 1

theorem Dups.refl {D : Ref → Prop} {g : G} (h : g.nodes.Nodup) : Dups D g g :=
  ⟨rfl, fun _ => Iff.rfl, fun r _ => List.nodup_iff_count_le_one.1 h r⟩

theorem Dups.node {D : Ref → Prop} {g h : G} (d : Dups D g h) (r : Ref) : g.node r = h.node r := by
  rw [d.eq]; rfl

theorem Dups.sat {D : Ref → Prop} {g h : G} (d : Dups D g h) {V : Type} (I : Interp V) (env e : String → V) :
    Sat I env e g.nodeList ↔ Sat I env e h.nodeList := by
  have hm : ∀ n, n ∈ g.nodeList ↔ n ∈ h.nodeList := by
    intro n
    rw [mem_nodeList, mem_nodeList]
    constructor
    · rintro ⟨r, hr, rfl⟩; exact ⟨r, (d.mem r).1 hr, (d.node r).symm⟩
    · rintro ⟨r, hr, rfl⟩; exact ⟨r, (d.mem r).2 hr, d.node r⟩
  have hu : ∀ x, Unproduced g.nodeList x ↔ Unproduced h.nodeList x := by
    intro x; unfold Unproduced; simp only [hm]
  unfold Sat
  simp only [hm, hu]

theorem Dups.outputs {D : Ref → Prop} {g h : G} (d : Dups D g h) : g.outputs = h.outputs := by rw [d.eq]; rfl
theorem Dups.inputs {D : Ref → Prop} {g h : G} (d : Dups D g h) : g.inputs = h.inputs := by rw [d.eq]; rfl
theorem Dups.heap {D : Ref → Prop} {g h : G} (d : Dups D g h) : g.heap = h.heap := by rw [d.eq]; rfl

theorem Dups.sameModel {D : Ref → Prop} {g h g0 : G} (d : Dups D g h) {P : ∀ V : Type, Interp V → Prop}
    (s : SameModel P g0 h) : SameModel P g0 g := by
  refine ⟨d.outputs.trans s.outputs, ?_, ?_⟩
  · rw [← s.inputs, d.inputs]
    exact List.map_congr_left (fun r _ => by rw [d.node])
  · intro V I hI env out
    rw [← s.values V I hI env out]
    unfold Computes
    simp only [d.sat, d.outputs]

theorem Dups.safeRemoveLoop {D : Ref → Prop} {all : List Ref} (l : List Ref) {g h g' : G} (hr : Reachable h) (d : Dups D g h)
    (hl : ∀ r ∈ l, r ∈ h.nodes) (hnd : l.Nodup) (hD : ∀ r ∈ l, ¬ D r) (hg : G.safeRemoveLoop all l g = .ok g') :
    ∃ h', G.safeRemoveLoop all l h = .ok h' ∧ Dups D g' h' := by
  induction l generalizing g h with
  | nil => cases hg; exact ⟨h, rfl, d⟩
  | cons r rs ih =>
    have hn := List.nodup_cons.1 hnd
    simp only [G.safeRemoveLoop] at hg ⊢
    have hfc : ∀ o, g.findOutputConsumers o = h.findOutputConsumers o := by intro o; rw [d.eq]; rfl
    simp only [d.node, hfc] at hg
    by_cases hc : ((h.node r).output.all fun o => (h.findOutputConsumers o).all fun x => decide (x ∈ all)) = true
    · rw [if_pos hc] at hg ⊢
      simp only [bind, Except.bind] at hg ⊢
      cases hrm : g.removeNode (h.node r).name with
      | error x => rw [hrm] at hg; cases hg
      | ok g1 =>
        rw [hrm] at hg
        rw [d.eq] at hrm
        obtain ⟨h1, r', e1, e2, e3⟩ := withNodes_removeNode _ hrm
        rw [e1]
        have hrr : r' = r := by
          have := (hr.wf.byName _ r).2 ⟨hl r (by simp), rfl⟩
          rw [e2] at this; exact Option.some.inj this
        subst hrr
        obtain ⟨r2, hname, hrem⟩ := removeNode_removed hr.wf e1
        have : r2 = r' := hr.wf.name_inj hrem.mem (hl r' (by simp)) hname
        subst this
        refine ih (.step (e := .removeNode _) hr trivial e1) ⟨?_, ?_, ?_⟩ ?_ hn.2 (fun q hq => hD q (by simp [hq])) hg
        · rw [e3]; rfl
        · intro q
          rw [e3, hrem.nodes, hr.wf.nodup.mem_erase_iff]
          simp only [withNodes_nodes]
          by_cases e : q = r2
          · subst e
            have h1 := d.once q (hD q (by simp))
            have : q ∉ g.nodes.erase q := by
              rw [← List.count_eq_zero, List.count_erase_self]; omega
            simp [this]
          · rw [List.mem_erase_of_ne e, d.mem]; simp [e]
        · intro q hq
          rw [e3]
          simp only [withNodes_nodes]
          exact Nat.le_trans (List.Sublist.count_le q List.erase_sublist) (d.once q hq)
        · intro q hq
          rw [hrem.nodes, hr.wf.nodup.mem_erase_iff]
          exact ⟨by rintro rfl; exact hn.1 hq, hl q (by simp [hq])⟩
    · rw [if_neg hc] at hg ⊢
      exact ih hr d (fun q hq => hl q (by simp [hq])) hn.2 (fun q hq => hD q (by simp [hq])) hg

/-- One replacement that may list its new node twice. -/
theorem Dups.rewriteTo {fresh : Nat → String} (hf : FreshNames fresh) {order : List Ref → List Ref} (hord : SetOrder order)
    {again : Bool} {n0 : Nat} {g h g' : G} (hr : Reachable h)
    (d : Dups (fun r => n0 ≤ r) g h) {w : Rw} (hdel : ∀ r ∈ w.del, r ∈ h.nodes ∧ r < n0) (hn0 : n0 ≤ h.heap.length)
    (hg : g.rewriteTo fresh order again w.root w.op w.xs w.attr w.del = .ok g') :
    ∃ h', RewriteRun fresh order h w h' ∧ Dups (fun r => n0 ≤ r) g' h' := by
  unfold G.rewriteTo at hg
  rw [d.node] at hg
  cases ho : (h.node w.root).output with
  | nil => rw [ho] at hg; cases hg
  | cons o os =>
    rw [ho, d.heap] at hg
    simp only [bind, Except.bind] at hg
    have e1 := withNodes_makeNode (g := h) (N := g.nodes) w.op w.xs (fresh h.heap.length) [fresh h.heap.length ++ ":0"] w.attr ""
    rw [← d.eq] at e1
    rw [e1] at hg
    cases hmk : h.makeNode w.op w.xs (fresh h.heap.length) [fresh h.heap.length ++ ":0"] w.attr with
    | error x => rw [hmk] at hg; cases hg
    | ok p =>
      obtain ⟨h1, r⟩ := p
      rw [hmk] at hg
      simp only [Except.map] at hg
      have m := makeNode_made hmk
      have hr1 : Reachable h1 := .step
        (e := .makeNode w.op w.xs (fresh h.heap.length) [fresh h.heap.length ++ ":0"] w.attr "") hr
        ⟨hf.ne _, (List.nodup_singleton _).filter _⟩ (by simp only [G.apply, hmk]; rfl)
      have hrl : @Eq Nat r h.heap.length := m.ref
      have hN : ∃ N, (h1.withNodes (g.nodes ++ [r])).appendAgain again r = h1.withNodes N ∧ (∀ q, q ∈ N ↔ q ∈ h1.nodes) ∧
          ∀ q, ¬ n0 ≤ q → N.count q ≤ 1 := by
        cases again with
        | true =>
          refine ⟨g.nodes ++ [r] ++ [r], rfl, ?_, ?_⟩
          · intro q; rw [m.nodes]; simp [d.mem]
          · intro q hq
            have hqr : r ≠ q := by rintro rfl; exact hq (by omega)
            simp [List.count_append, hqr]
            exact d.once q hq
        | false =>
          refine ⟨g.nodes ++ [r], rfl, ?_, ?_⟩
          · intro q; rw [m.nodes]; simp [d.mem]
          · intro q hq
            have hqr : r ≠ q := by rintro rfl; exact hq (by omega)
            simp [List.count_append, hqr]
            exact d.once q hq
      obtain ⟨N, hN1, hN2, hN3⟩ := hN
      rw [hN1] at hg
      rw [withNodes_nodes, withNodes_replaceAllInputs] at hg
      cases hra : h1.replaceAllInputs o (fresh r ++ ":0") (some N) with
      | error x => rw [hra] at hg; cases hg
      | ok h2 =>
        rw [hra] at hg
        simp only [Except.map] at hg
        have hleg : ∀ l, some N = some l → ∀ q ∈ l, q ∈ h1.nodes := by
          intro l hl; cases hl; exact fun q hq => (hN2 q).1 hq
        have hr2 : Reachable h2 := .step (e := .replaceAllInputs _ _ _) hr1 hleg hra
        obtain ⟨hs, _⟩ := replaceAllInputs_spec hr1.wf hleg hra
        have d2 : Dups (fun r => n0 ≤ r) (h2.withNodes N) h2 :=
          ⟨rfl, fun q => by rw [withNodes_nodes, hN2, hs.nodes], hN3⟩
        obtain ⟨hon, hom⟩ := hord w.del
        obtain ⟨h', e', d'⟩ := Dups.safeRemoveLoop (order w.del) hr2 d2
          (fun q hq => by
            rw [hs.nodes, m.nodes]
            simp [(hdel q ((hom q).1 hq)).1]) hon
          (fun q hq hc => absurd (hdel q ((hom q).1 hq)).2 (Nat.not_lt.2 hc)) hg
        exact ⟨h', ⟨o, os, h1, r, N, h2, ho, hmk, hN2, hra, e'⟩, d'⟩

/-- A loop over matches computed in advance. `it.2` is the replacement that goes with match `it.1`; `f` either leaves the graph
alone or carries it out, provided the matched nodes still have their initial contents. If each replacement spares the
nodes of the later matches, the result is the same model. -/
theorem forMatches_spec {P : ∀ V : Type, Interp V → Prop} {fresh : Nat → String} (hf : FreshNames fresh)
    {order : List Ref → List Ref} (hord : SetOrder order) {again : Bool} {f : G → Matcher.Result Ref → Except String G} {g0 : G}
    (items : List (Matcher.Result Ref × Rw)) {cur h cur' : G} (hv : RwInv fresh h) (d : Dups (fun r => g0.heap.length ≤ r) cur h)
    (hlen : g0.heap.length ≤ h.heap.length) (hlt : ∀ r ∈ g0.nodes, r < g0.heap.length)
    (hpat : ∀ it ∈ items, ∀ p ∈ it.2.pats, p ∈ g0.nodes ∧ p ∈ h.nodes ∧ h.node p = g0.node p)
    (hstep : ∀ it ∈ items, ∀ c c', (∀ p ∈ it.2.pats, c.node p = g0.node p) → f c it.1 = .ok c' → c' = c ∨
      (it.2.Valid P g0 ∧ c.rewriteTo fresh order again it.2.root it.2.op it.2.xs it.2.attr it.2.del = .ok c'))
    (hsp : items.Pairwise (fun a b => a.2.Valid P g0 → Rw.Spares g0 a.2 b.2)) (hout : h.outputs = g0.outputs)
    (hrun : forMatches f (items.map (·.1)) cur = .ok cur') :
    ∃ h', RwStep P fresh h h' ∧ Dups (fun r => g0.heap.length ≤ r) cur' h' := by
  induction items generalizing cur h with
  | nil => cases hrun; exact ⟨h, RwStep.refl hv, d⟩
  | cons it items ih =>
    simp only [List.map_cons, forMatches, bind, Except.bind] at hrun
    split at hrun
    · cases hrun
    rename_i c1 hc1
    have hpw := List.pairwise_cons.1 hsp
    rcases hstep it (by simp) cur c1 (fun p hp => by rw [d.node]; exact (hpat it (by simp) p hp).2.2) hc1 with rfl | ⟨hval, hrw⟩
    · exact ih hv d hlen (fun a ha => hpat a (by simp [ha])) (fun a ha => hstep a (by simp [ha])) hpw.2 hout hrun
    · have hP := hpat it (by simp)
      have hvalh : it.2.Valid P h := hval.intact hout (fun p hp => (hP p hp).2)
      obtain ⟨h1, hrun1, d1⟩ := Dups.rewriteTo hf hord hv.reach d (w := it.2)
        (fun r hr => ⟨(hP r (hval.del r hr)).2.1, hlt r (hP r (hval.del r hr)).1⟩) hlen hrw
      obtain ⟨s, hsame, hkept⟩ := rewriteTo_spec hf hord hv hvalh hrun1
      have hroot := (hP _ hval.root).2.2
      have hint : ∀ a ∈ items, ∀ p ∈ a.2.pats, p ∈ h1.nodes ∧ h1.node p = h.node p := by
        intro a ha p hp
        have hS := hpw.1 a ha hval
        have hA := hpat a (by simp [ha])
        have hno : ∀ q ∈ a.2.pats, ∀ o ∈ (h.node it.2.root).output, o ∉ (h.node q).input := by
          intro q hq
          rw [hroot, (hA q hq).2.2]; exact hS.noRead q hq
        refine ⟨hkept p (hA p hp).2.1 ?_, hsame p (hA p hp).2.1 (hno p hp)⟩
        by_cases hd : p ∈ it.2.del
        · right
          obtain ⟨q, hq, h1', x, h2, h3⟩ := hS.kept p hp hd
          exact ⟨q, (hA q hq).2.1, h1', hno q hq, x, by rw [(hA p hp).2.2]; exact h2, by rw [(hA q hq).2.2]; exact h3⟩
        · exact Or.inl hd
      obtain ⟨h', s', d'⟩ := ih s.inv d1 (Nat.le_trans hlen s.heap)
        (fun a ha p hp => by
          have hA := hpat a (by simp [ha]) p hp
          have hI := hint a ha p hp
          exact ⟨hA.1, hI.1, hI.2.trans hA.2.2⟩)
        (fun a ha => hstep a (by simp [ha])) hpw.2 (s.outputs.trans hout) hrun
      exact ⟨h', s.trans s', d'⟩

/-- The same for a whole rewriter, started on a graph with a duplicate-free node list. -/
theorem forMatches_sameModel {P : ∀ V : Type, Interp V → Prop} {fresh : Nat → String} (hf : FreshNames fresh)
    {order : List Ref → List Ref} (hord : SetOrder order) {again : Bool} {f : G → Matcher.Result Ref → Except String G} {g g' : G}
    (hv : RwInv fresh g) (items : List (Matcher.Result Ref × Rw))
    (hpat : ∀ it ∈ items, ∀ p ∈ it.2.pats, p ∈ g.nodes)
    (hstep : ∀ it ∈ items, ∀ c c', (∀ p ∈ it.2.pats, c.node p = g.node p) → f c it.1 = .ok c' → c' = c ∨
      (it.2.Valid P g ∧ c.rewriteTo fresh order again it.2.root it.2.op it.2.xs it.2.attr it.2.del = .ok c'))
    (hsp : items.Pairwise (fun a b => a.2.Valid P g → Rw.Spares g a.2 b.2))
    (hrun : forMatches f (items.map (·.1)) g = .ok g') : SameModel P g g' := by
  have hw := hv.reach.wf
  obtain ⟨h', s, d⟩ := forMatches_spec hf hord (g0 := g) items hv (Dups.refl hw.nodup) (Nat.le_refl _) hw.valid
    (fun it hit p hp => ⟨hpat it hit p hp, hpat it hit p hp, rfl⟩) hstep hsp rfl hrun
  obtain ⟨ρ, hrk⟩ := hv.ranked
  exact d.sameModel (s.sameModel hv.reach hrk.acyclic)

/-- The matches come from distinct nodes of the list. -/
theorem matchOps_spec {g : G} {fuel : Nat} {allow : Bool} {p : Matcher.Pat} (rs : List Ref) {ms : List (Matcher.Result Ref)}
    (h : g.matchOps fuel allow p rs = .ok ms) :
    ∃ l : List (Matcher.Result Ref × Ref), l.map (·.1) = ms ∧ (l.map (·.2)).Sublist rs ∧
      ∀ it ∈ l, Matcher.matchOp g.gr allow fuel p it.2 = .ok (some it.1) := by
  induction rs generalizing ms with
  | nil => cases h; exact ⟨[], rfl, .slnil, by simp⟩
  | cons r rs ih =>
    simp only [G.matchOps, bind, Except.bind] at h
    split at h
    · cases h
    rename_i m hm
    split at h
    · cases h
    rename_i ms' hms'
    cases h
    obtain ⟨l, h1, h2, h3⟩ := ih hms'
    cases m with
    | none => exact ⟨l, by simpa using h1, h2.cons _, h3⟩
    | some m =>
      refine ⟨(m, r) :: l, by simp [h1], h2.cons_cons _, ?_⟩
      intro it hit
      rcases List.mem_cons.1 hit with rfl | hit
      · exact hm
      · exact h3 it hit

end Verif.Graph
