import Verif.Model.Rewriters
import Verif.Props.QDQBase
/-!
# Replacing a matched region by one new operator: the generic step of the pattern rewriters (used by C44, C45)
-/
namespace Verif.Graph
open Verif

/-- What holds of the graph before and after every replacement. -/
structure RwInv (fresh : Nat → String) (g : G) : Prop where
  reach : Reachable g
  idx : Idx g
  ranked : ∃ ρ, RankedBy g ρ
  inputs : ∀ r ∈ g.inputs, (g.node r).isGraphInput = true
  unread : ∀ k, g.heap.length ≤ k → (∀ r ∈ g.nodes, outName fresh k ∉ (g.node r).input) ∧ outName fresh k ∉ g.outputs
  unmade : ∀ k, g.heap.length ≤ k → ∀ r ∈ g.nodes, outName fresh k ∉ (g.node r).output

/-- What a replacement guarantees. -/
structure RwStep (P : ∀ V : Type, Interp V → Prop) (fresh : Nat → String) (g g' : G) : Prop where
  inv : RwInv fresh g'
  heap : g.heap.length ≤ g'.heap.length
  outputs : g'.outputs = g.outputs
  inputs : g'.inputs.map (fun r => (g'.node r).output) = g.inputs.map (fun r => (g.node r).output)
  run : ∀ (V : Type) (I : Interp V), P V I → ∀ env e, Sat I env e g.nodeList →
    ∃ e', Sat I env e' g'.nodeList ∧ ∀ o ∈ g.outputs, e' o = e o

theorem RwStep.refl {P : ∀ V : Type, Interp V → Prop} {fresh : Nat → String} {g : G} (h : RwInv fresh g) : RwStep P fresh g g :=
  ⟨h, Nat.le_refl _, rfl, rfl, fun _ _ _ _ e he => ⟨e, he, fun _ _ => rfl⟩⟩

theorem RwStep.trans {P : ∀ V : Type, Interp V → Prop} {fresh : Nat → String} {a b c : G} (h : RwStep P fresh a b)
    (h' : RwStep P fresh b c) : RwStep P fresh a c := by
  refine ⟨h'.inv, Nat.le_trans h.heap h'.heap, h'.outputs.trans h.outputs, h'.inputs.trans h.inputs, ?_⟩
  intro V I hI env e he
  obtain ⟨e1, h1, h3⟩ := h.run V I hI env e he
  obtain ⟨e2, h4, h6⟩ := h'.run V I hI env e1 h1
  exact ⟨e2, h4, fun o ho => by rw [h6 o (by rw [h.outputs]; exact ho), h3 o ho]⟩

/-- A step gives the same model. -/
theorem RwStep.sameModel {P : ∀ V : Type, Interp V → Prop} {fresh : Nat → String} {g g' : G} (hr : Reachable g)
    (ha : Acyclic g.nodeList) (s : RwStep P fresh g g') : SameModel P g g' := by
  obtain ⟨ρ, hrk⟩ := s.inv.ranked
  exact ⟨s.outputs, s.inputs, fun V I hI env out =>
    computes_of_transport hr ha hrk.acyclic s.outputs (fun e he => s.run V I hI env e he) out⟩

/-! ## `safe_remove_nodes` -/

/-- Nobody outside `all` reads an output of `r`. -/
def OnlyReadBy (g : G) (all : List Ref) (r : Ref) : Prop :=
  ∀ o ∈ (g.node r).output, ∀ c ∈ g.nodes, o ∈ (g.node c).input → c ∈ all

/-- What removing a set of nodes does. -/
structure Dropped (g g' : G) (R : Ref → Prop) : Prop where
  reach : Reachable g'
  idx : Idx g'
  heap : g'.heap = g.heap
  nodes : ∀ r, r ∈ g'.nodes ↔ r ∈ g.nodes ∧ ¬ R r
  outputs : g'.outputs = g.outputs
  inputs : (∀ r ∈ g.inputs, ¬ R r) → g'.inputs = g.inputs

theorem Dropped.node {g g' : G} {R : Ref → Prop} (h : Dropped g g' R) (r : Ref) : g'.node r = g.node r := by
  unfold G.node; rw [h.heap]

theorem safeRemoveLoop_spec {all : List Ref} (l : List Ref) {g g' : G} (hr : Reachable g) (hi : Idx g) (hn : l.Nodup)
    (hl : ∀ r ∈ l, r ∈ g.nodes) (hla : ∀ r ∈ l, r ∈ all) (h : G.safeRemoveLoop all l g = .ok g') :
    Dropped g g' (fun r => r ∈ l ∧ OnlyReadBy g all r) := by
  induction l generalizing g with
  | nil =>
    cases h
    exact ⟨hr, hi, rfl, fun r => by simp, rfl, fun _ => rfl⟩
  | cons d ds ih =>
    have hw := hr.wf
    have hnd := List.nodup_cons.1 hn
    have hcond : (g.node d).output.all (fun o => (g.findOutputConsumers o).all (· ∈ all)) = true ↔ OnlyReadBy g all d := by
      simp only [List.all_eq_true, decide_eq_true_eq, OnlyReadBy]
      constructor
      · intro hc o ho c hcm hin
        exact hc o ho c ((mem_findOutputConsumers hw o c).2 ⟨hcm, hin, hi.complete c hcm o hin⟩)
      · intro hc o ho c hcm
        obtain ⟨h1, h2, _⟩ := (mem_findOutputConsumers hw o c).1 hcm
        exact hc o ho c h1 h2
    simp only [G.safeRemoveLoop, bind, Except.bind] at h
    split at h
    · rename_i hc
      have hd := hcond.1 hc
      split at h
      · cases h
      rename_i g1 hg1
      obtain ⟨r', hname, hrem⟩ := removeNode_removed hw hg1
      have : r' = d := hw.name_inj hrem.mem (hl d (by simp)) hname
      subst this
      have hmem : ∀ q, q ∈ g1.nodes ↔ q ≠ r' ∧ q ∈ g.nodes := by
        intro q; rw [hrem.nodes, hw.nodup.mem_erase_iff]
      have hr1 : Reachable g1 := .step (e := .removeNode _) hr trivial hg1
      have ho : ∀ q, OnlyReadBy g1 all q ↔ OnlyReadBy g all q := by
        intro q
        unfold OnlyReadBy
        simp only [hrem.node]
        constructor
        · intro hq o ho' c hcm hin
          by_cases e : c = r'
          · subst e; exact hla c (by simp)
          · exact hq o ho' c ((hmem c).2 ⟨e, hcm⟩) hin
        · intro hq o ho' c hcm hin
          exact hq o ho' c ((hmem c).1 hcm).2 hin
      have hs := ih hr1 (hrem.idx hw hi) hnd.2
        (fun q hq => (hmem q).2 ⟨by rintro rfl; exact hnd.1 hq, hl q (by simp [hq])⟩) (fun q hq => hla q (by simp [hq])) h
      refine ⟨hs.reach, hs.idx, hs.heap.trans hrem.heap, ?_, hs.outputs.trans hrem.outputs, ?_⟩
      · intro q
        rw [hs.nodes, hmem, ho]
        by_cases e : q = r'
        · subst e; simp [hd]
        · simp [e]
      · intro hin
        have h1 : r' ∉ g.inputs := fun hc' => hin r' hc' ⟨by simp, hd⟩
        have h2 : g1.inputs = g.inputs := by rw [hrem.inputs, List.erase_of_not_mem h1]
        rw [hs.inputs, h2]
        intro q hq hc'
        rw [h2] at hq
        exact hin q hq ⟨by simp [hc'.1], (ho q).1 hc'.2⟩
    · rename_i hc
      have hd : ¬ OnlyReadBy g all d := fun hx => hc (hcond.2 hx)
      have hs := ih hr hi hnd.2 (fun q hq => hl q (by simp [hq])) (fun q hq => hla q (by simp [hq])) h
      refine ⟨hs.reach, hs.idx, hs.heap, ?_, hs.outputs, ?_⟩
      · intro q
        rw [hs.nodes]
        by_cases e : q = d
        · subst e; simp [hd]
        · simp [e]
      · intro hin
        exact hs.inputs (fun q hq hc' => hin q hq ⟨by simp [hc'.1], hc'.2⟩)

/-! ## One replacement -/

/-- `p` is in `pats` and the root depends on it through nodes of `pats`. -/
inductive Below (g : G) (pats : List Ref) (root : Ref) : Ref → Prop
  | root : Below g pats root root
  | step {q p : Ref} : Below g pats root q → p ∈ pats → Reads g q p → Below g pats root p

/-- A replacement a rewriter decided on: the matched nodes `pats` with root `root`, the new operator, its inputs and
attributes, and the nodes to delete. -/
structure Rw where
  root : Ref
  op : String
  xs : List String
  attr : Dict String Attr
  pats : List Ref
  del : List Ref

/-- The replacement is justified in `g`: the new operator gives the root's value whenever the matched nodes' equations hold
(`law`), it reads only what matched nodes read, and the nodes to delete are matched nodes that only the root reads among
them and that produce no graph output. -/
structure Rw.Valid (P : ∀ V : Type, Interp V → Prop) (g : G) (w : Rw) : Prop where
  mem : ∀ p ∈ w.pats, p ∈ g.nodes
  root : w.root ∈ w.pats
  out : ∃ o, (g.node w.root).output = [o] ∧ o ≠ ""
  below : ∀ p ∈ w.pats, Below g w.pats w.root p
  reads : ∀ x ∈ w.xs, x ≠ "" → ∃ p ∈ w.pats, x ∈ (g.node p).input
  del : ∀ d ∈ w.del, d ∈ w.pats
  rootDel : w.root ∈ w.del
  notInput : ∀ d ∈ w.del, (g.node d).isGraphInput = false
  notOutput : ∀ d ∈ w.del, ∀ o ∈ (g.node d).output, o ∉ g.outputs
  delReads : ∀ d ∈ w.del, d ≠ w.root → ∀ c ∈ w.del, (∃ x ∈ (g.node d).output, x ∈ (g.node c).input) → c = w.root
  newOp : (Node.mk "" w.op "" w.attr w.xs []).isGraphInput = false
  law : ∀ (V : Type) (I : Interp V), P V I → ∀ env e, (∀ p ∈ w.pats, NodeSat I env e (g.node p)) →
    ∀ o, (g.node w.root).output = [o] → I w.op "" w.attr (w.xs.map (argVal e)) 0 = e o

/-- `order` is an iteration order of sets: each element once. -/
def SetOrder (order : List Ref → List Ref) : Prop := ∀ l, (order l).Nodup ∧ ∀ x, x ∈ order l ↔ x ∈ l

theorem Below.rank {g : G} {ρ : Ref → Nat} (hrk : RankedBy g ρ) {pats : List Ref} (hm : ∀ p ∈ pats, p ∈ g.nodes) {root p : Ref}
    (hroot : root ∈ pats) (h : Below g pats root p) : p ∈ pats ∧ ρ p ≤ ρ root := by
  induction h with
  | root => exact ⟨hroot, Nat.le_refl _⟩
  | step _ hp hrd ih => exact ⟨hp, Nat.le_trans (Nat.le_of_lt (hrk _ (hm _ ih.1) _ (hm _ hp) hrd)) ih.2⟩

theorem Node.isGraphInput_congr {n m : Node} (h : n.op = m.op) : n.isGraphInput = m.isGraphInput := by
  simp [Node.isGraphInput, h]

/-- A replacement carried out on a graph without repetitions in its node list; `ops` is the list of nodes to redirect, possibly
with repetitions. -/
def RewriteRun (fresh : Nat → String) (order : List Ref → List Ref) (g : G) (w : Rw) (g' : G) : Prop :=
  ∃ o os g1 r ops g2, (g.node w.root).output = o :: os ∧
    g.makeNode w.op w.xs (fresh g.heap.length) [fresh g.heap.length ++ ":0"] w.attr = .ok (g1, r) ∧
    (∀ q, q ∈ ops ↔ q ∈ g1.nodes) ∧ g1.replaceAllInputs o (fresh r ++ ":0") (some ops) = .ok g2 ∧
    G.safeRemoveLoop w.del (order w.del) g2 = .ok g'

/-- What one replacement does. -/
theorem rewriteTo_spec {P : ∀ V : Type, Interp V → Prop} {fresh : Nat → String} (hf : FreshNames fresh)
    {order : List Ref → List Ref} (hord : SetOrder order) {g g' : G} (hv : RwInv fresh g) {w : Rw} (hw' : w.Valid P g)
    (h : RewriteRun fresh order g w g') :
    RwStep P fresh g g' ∧
    (∀ p ∈ g.nodes, (∀ o ∈ (g.node w.root).output, o ∉ (g.node p).input) → g'.node p = g.node p) ∧
    (∀ p ∈ g.nodes, (p ∉ w.del ∨ ∃ q ∈ g.nodes, q ∉ w.del ∧ (∀ o ∈ (g.node w.root).output, o ∉ (g.node q).input) ∧
      ∃ x ∈ (g.node p).output, x ∈ (g.node q).input) → p ∈ g'.nodes) := by
  have hw := hv.reach.wf
  obtain ⟨ρ, hrk⟩ := hv.ranked
  obtain ⟨o, hout, hone⟩ := hw'.out
  have hrootm := hw'.mem _ hw'.root
  have hnr : ∀ p ∈ w.pats, o ∉ (g.node p).input := by
    intro p hp hin
    have h1 := (hw'.below p hp).rank hrk hw'.mem hw'.root
    have h2 := hrk p (hw'.mem p hp) _ hrootm ⟨o, hone, hin, by simp [hout]⟩
    omega
  have hox : o ∉ w.xs := by
    intro hx
    obtain ⟨p, hp, hin⟩ := hw'.reads o hx hone
    exact hnr p hp hin
  obtain ⟨oo, os, g1, r, ops, g2, hout', hmk, hops, hg2, h⟩ := h
  rw [hout] at hout'
  obtain ⟨rfl, rfl⟩ := List.cons.inj hout'
  have m := makeNode_made hmk
  have hrl : @Eq Nat r g.heap.length := m.ref
  have hr1 : Reachable g1 := .step
    (e := .makeNode w.op w.xs (fresh g.heap.length) [fresh g.heap.length ++ ":0"] w.attr "") hv.reach
    ⟨hf.ne _, (List.nodup_singleton _).filter _⟩ (by simp only [G.apply, hmk]; rfl)
  have hi1 : Idx g1 := m.idx hw hv.idx
  have hfo : ∀ k, fresh k ++ ":0" = outName fresh k := fun _ => rfl
  rw [hfo] at hg2
  obtain ⟨hs, hn2, hi2, _⟩ := replaceAllInputs_spec hr1.wf (by intro l hl; cases hl; exact fun r hr => (hops r).1 hr) hg2
  have hi2 := hi2 hi1
  have hr2 : Reachable g2 := .step (e := .replaceAllInputs _ _ _) hr1 (by intro l hl; cases hl; exact fun r hr => (hops r).1 hr) hg2
  have hw2 := hr2.wf
  generalize ho' : outName fresh r = o' at *
  have ho'ne : o' ≠ "" := by rw [← ho']; exact outName_ne r
  have hunr := hv.unread r (by omega)
  have hunm := hv.unmade r (by omega)
  rw [ho'] at hunr hunm
  have hoo : o ≠ o' := by
    rintro rfl
    exact hunm _ hrootm (by simp [hout])
  have hrn : r ∉ g.nodes := fun hc => by have : @LT.lt Nat _ r g.heap.length := hw.valid r hc; omega
  have hnodes : g2.nodes = g.nodes ++ [r] := by rw [hs.nodes, m.nodes]
  have hnode1 : ∀ p ∈ g.nodes, g1.node p = g.node p := fun p hp => node_append_lt (hw.valid p hp) _ _ m.heap
  have hnode : ∀ p ∈ g.nodes, g2.node p = (g.node p).redirect o o' := by
    intro p hp
    rw [hn2 p]
    simp only [Option.getD_some]
    rw [if_pos (by rw [hops, m.nodes]; simp [hp]), hnode1 p hp]
  have hnew : g2.node r = ⟨fresh r, w.op, "", w.attr, w.xs, [o']⟩ := by
    rw [hn2 r]
    simp only [Option.getD_some]
    have h1 : g1.node r = ⟨fresh r, w.op, "", w.attr, w.xs, [o']⟩ := by
      unfold G.node
      rw [m.heap, hrl]
      simp only [List.getElem?_append_right (Nat.le_refl _), Nat.sub_self, List.getElem?_cons_zero, Option.getD_some]
      rw [← ho', hrl]
      rfl
    rw [if_pos (by rw [hops, m.nodes]; simp), h1]
    exact Node.redirect_of_not_mem hox
  have hsame : ∀ p ∈ g.nodes, o ∉ (g.node p).input → g2.node p = g.node p := by
    intro p hp hin
    rw [hnode p hp]; exact Node.redirect_of_not_mem hin
  have hout2 : ∀ p ∈ g.nodes, (g2.node p).output = (g.node p).output := by
    intro p hp; rw [hnode p hp]; rfl
  have hmem2 : ∀ q, q ∈ g2.nodes ↔ q ∈ g.nodes ∨ q = r := by intro q; rw [hnodes]; simp
  have hin2 : ∀ p ∈ g.nodes, ∀ x, x ∈ (g2.node p).input ↔ (x ≠ o ∧ x ∈ (g.node p).input) ∨ (x = o' ∧ o ∈ (g.node p).input) := by
    intro p hp x
    rw [hnode p hp]
    simp only [Node.redirect, List.mem_map]
    constructor
    · rintro ⟨y, hy, e⟩
      split at e
      · rename_i e'; subst e'; exact Or.inr ⟨e.symm, hy⟩
      · rename_i e'; subst e; exact Or.inl ⟨e', hy⟩
    · rintro (⟨h1, h2⟩ | ⟨rfl, h2⟩)
      · exact ⟨x, h2, if_neg h1⟩
      · exact ⟨o, h2, if_pos rfl⟩
  -- no reader of the old output is left
  have hnone : ∀ c ∈ g2.nodes, o ∉ (g2.node c).input := by
    intro c hc hin
    rcases (hmem2 c).1 hc with hc | rfl
    · rcases (hin2 c hc o).1 hin with ⟨h1, _⟩ | ⟨h1, _⟩
      · exact h1 rfl
      · exact hoo h1
    · rw [hnew] at hin; exact hox hin
  -- ranking
  have hxsrank : ∀ x ∈ w.xs, x ≠ "" → ∀ q ∈ g.nodes, x ∈ (g.node q).output → ρ q < ρ w.root := by
    intro x hx hne q hq hxo
    obtain ⟨p, hp, hin⟩ := hw'.reads x hx hne
    have h1 := hrk p (hw'.mem p hp) q hq ⟨x, hne, hin, hxo⟩
    have h2 := (hw'.below p hp).rank hrk hw'.mem hw'.root
    omega
  have hrk2 : RankedBy g2 (fun q => if q = r then 2 * ρ w.root + 1 else 2 * ρ q) := by
    rintro c hc q hq ⟨x, hx, hin, hxo⟩
    rcases (hmem2 c).1 hc with hc | rfl
    · have hcr : c ≠ r := by rintro rfl; exact hrn hc
      simp only [if_neg hcr]
      rcases (hin2 c hc x).1 hin with ⟨h1, h2⟩ | ⟨rfl, h2⟩
      · rcases (hmem2 q).1 hq with hq | rfl
        · have hqr : q ≠ r := by rintro rfl; exact hrn hq
          rw [if_neg hqr]
          rw [hout2 q hq] at hxo
          have := hrk c hc q hq ⟨x, hx, h2, hxo⟩
          omega
        · rw [hnew] at hxo
          simp only [List.mem_singleton] at hxo
          subst hxo
          exact (hunr.1 c hc h2).elim
      · rcases (hmem2 q).1 hq with hq | rfl
        · rw [hout2 q hq] at hxo
          exact (hunm q hq hxo).elim
        · rw [if_pos rfl]
          have := hrk c hc w.root hrootm ⟨o, hone, h2, by simp [hout]⟩
          omega
    · simp only [if_true]
      rw [hnew] at hin
      rcases (hmem2 q).1 hq with hq | rfl
      · have hqr : q ≠ c := by rintro rfl; exact hrn hq
        rw [if_neg hqr]
        rw [hout2 q hq] at hxo
        have := hxsrank x hin hx q hq hxo
        omega
      · rw [hnew] at hxo
        simp only [List.mem_singleton] at hxo
        subst hxo
        obtain ⟨p, hp, hin'⟩ := hw'.reads _ hin hx
        exact (hunr.1 p (hw'.mem p hp) hin').elim
  -- removal
  obtain ⟨hon, hom⟩ := hord w.del
  have hdm : ∀ d ∈ w.del, d ∈ g.nodes := fun d hd => hw'.mem d (hw'.del d hd)
  have hD := safeRemoveLoop_spec (all := w.del) (order w.del) hr2 hi2 hon
    (fun d hd => (hmem2 d).2 (Or.inl (hdm d ((hom d).1 hd)))) (fun d hd => (hom d).1 hd) h
  have hmem3 : ∀ q, q ∈ g'.nodes ↔ q ∈ g2.nodes ∧ ¬ (q ∈ w.del ∧ OnlyReadBy g2 w.del q) := by
    intro q; rw [hD.nodes, hom]
  have hrootdrop : OnlyReadBy g2 w.del w.root := by
    intro x hx c hc hin
    rw [hout2 _ hrootm, hout] at hx
    simp only [List.mem_singleton] at hx
    subst hx
    exact (hnone c hc hin).elim
  have hinp2 : g2.inputs = g.inputs := by rw [hs.inputs, m.inputs]
  have hinm : ∀ q ∈ g.inputs, q ∈ g.nodes ∨ q ∉ g2.nodes := by
    intro q hq
    by_cases e : q ∈ g2.nodes
    · rcases (hmem2 q).1 e with e | e
      · exact Or.inl e
      · subst e
        have := hv.inputs q hq
        have hno : g.node q = noNode := by unfold G.node; rw [hrl]; simp
        rw [hno] at this
        cases this
    · exact Or.inr e
  have hisin : ∀ q, q ∈ g.nodes → (g2.node q).isGraphInput = (g.node q).isGraphInput := by
    intro q hq; rw [hnode q hq]; rfl
  have hinp3 : g'.inputs = g.inputs := by
    rw [hD.inputs ?_, hinp2]
    rintro q hq ⟨h1, _⟩
    rw [hinp2] at hq
    have := hw'.notInput q ((hom q).1 h1)
    rw [hv.inputs q hq] at this
    cases this
  have hheap : g'.heap.length = g.heap.length + 1 := by rw [hD.heap, hs.len, m.heap]; simp
  have hnode2 : ∀ q, q ∉ g.nodes → q ≠ r → g2.node q = g.node q := by
    intro q hq hqr
    rw [hn2 q]
    simp only [Option.getD_some]
    rw [if_neg (by rw [hops, m.nodes]; simp [hq, hqr])]
    unfold G.node
    rw [m.heap]
    have hqr' : ¬ @Eq Nat q r := hqr
    by_cases hl : @LT.lt Nat _ q g.heap.length
    · rw [List.getElem?_append_left hl]
    · rw [List.getElem?_append_right (by omega)]
      rw [List.getElem?_eq_none (by simp; omega), List.getElem?_eq_none (by omega)]
  have hinput3 : ∀ q ∈ g.inputs, (g'.node q).output = (g.node q).output ∧ (g'.node q).isGraphInput = (g.node q).isGraphInput := by
    intro q hq
    rw [hD.node]
    by_cases e : q ∈ g.nodes
    · exact ⟨hout2 q e, hisin q e⟩
    · have hqr : q ≠ r := by
        rintro rfl
        rcases hinm q hq with h1 | h1
        · exact e h1
        · exact h1 ((hmem2 q).2 (Or.inr rfl))
      rw [hnode2 q e hqr]
      exact ⟨rfl, rfl⟩
  refine ⟨⟨⟨hD.reach, hD.idx, ⟨fun q => if q = r then 2 * ρ w.root + 1 else 2 * ρ q, ?_⟩, ?_, ?_, ?_⟩, by omega, hD.outputs.trans (hs.outputs.trans m.outputs), ?_, ?_⟩, ?_, ?_⟩
  · rintro c hc q hq ⟨x, hx, hin, hxo⟩
    rw [hD.node] at hin hxo
    exact hrk2 c ((hmem3 c).1 hc).1 q ((hmem3 q).1 hq).1 ⟨x, hx, hin, hxo⟩
  · intro q hq
    rw [hinp3] at hq
    rw [(hinput3 q hq).2]
    exact hv.inputs q hq
  · intro k hk
    rw [hheap] at hk
    have h1 := hv.unread k (by omega)
    refine ⟨fun q hq hin => ?_, by rw [hD.outputs, hs.outputs, m.outputs]; exact h1.2⟩
    rw [hD.node] at hin
    rcases (hmem2 q).1 ((hmem3 q).1 hq).1 with hq' | rfl
    · rcases (hin2 q hq' _).1 hin with ⟨_, h2⟩ | ⟨h2, _⟩
      · exact h1.1 q hq' h2
      · rw [← ho'] at h2
        have := outName_inj hf h2
        omega
    · rw [hnew] at hin
      obtain ⟨p, hp, hin'⟩ := hw'.reads _ hin (outName_ne k)
      exact h1.1 p (hw'.mem p hp) hin'
  · intro k hk q hq hxo
    rw [hheap] at hk
    rw [hD.node] at hxo
    rcases (hmem2 q).1 ((hmem3 q).1 hq).1 with hq' | rfl
    · rw [hout2 q hq'] at hxo
      exact hv.unmade k (by omega) q hq' hxo
    · rw [hnew] at hxo
      simp only [List.mem_singleton] at hxo
      rw [← ho'] at hxo
      have := outName_inj hf hxo
      omega
  · rw [hinp3]
    exact List.map_congr_left (fun q hq => (hinput3 q hq).1)
  · intro V I hI env e he
    have heq := hw'.law V I hI env e (fun p hp => he.1 _ (mem_nodeList.2 ⟨p, hw'.mem p hp, rfl⟩)) o hout
    -- the extended valuation
    have hE : Sat I env (fun x => if x = o' then e o else e x) g2.nodeList := by
      constructor
      · intro n hn
        obtain ⟨q, hq, rfl⟩ := mem_nodeList.1 hn
        rcases (hmem2 q).1 hq with hq' | rfl
        · intro j y hj hy
          have hyo : y ≠ o' := by
            rintro rfl
            exact hunm q hq' (by rw [← hout2 q hq']; exact List.mem_of_getElem? hj)
          have hargs : argVals (fun x => if x = o' then e o else e x) (g2.node q) = argVals e (g.node q) := by
            rw [hnode q hq']
            unfold argVals Node.redirect
            simp only [List.map_map]
            apply List.map_congr_left
            intro x hx
            simp only [Function.comp, argVal]
            by_cases e1 : x = o
            · subst e1
              simp [ho'ne, hone]
            · have : x ≠ o' := by rintro rfl; exact hunr.1 q hq' hx
              simp [e1, this]
          rw [hargs]
          simp only [if_neg hyo]
          have := he.1 _ (mem_nodeList.2 ⟨q, hq', rfl⟩) j y (by rw [← hout2 q hq']; exact hj) hy
          rw [this, hisin q hq']
          rw [hnode q hq']
          rfl
        · intro j y hj hy
          rw [hnew] at hj ⊢
          have hj0 : j = 0 ∧ y = o' := by
            rcases j with _ | j
            · simp at hj; exact ⟨rfl, hj.symm⟩
            · simp at hj
          obtain ⟨rfl, rfl⟩ := hj0
          have hni : (Node.mk (fresh q) w.op "" w.attr w.xs [y]).isGraphInput = false := by
            rw [← hw'.newOp]; exact Node.isGraphInput_congr rfl
          rw [hni]
          simp only [if_true, Bool.false_eq_true, if_false]
          rw [← heq]
          congr 1
          unfold argVals
          apply List.map_congr_left
          intro x hx
          unfold argVal
          by_cases e0 : x = ""
          · simp [e0]
          · simp only [if_neg e0]
            have : x ≠ y := by
              rintro rfl
              obtain ⟨p, hp, hin⟩ := hw'.reads x hx e0
              exact hunr.1 p (hw'.mem p hp) hin
            simp [this]
      · intro x hx
        have hxo : x ≠ o' := by
          rintro rfl
          rcases hx with e0 | hx
          · exact ho'ne e0
          · exact hx _ (mem_nodeList.2 ⟨r, (hmem2 r).2 (Or.inr rfl), rfl⟩) (by rw [hnew]; simp)
        simp only [if_neg hxo]
        apply he.2
        refine hx.imp id (fun hx n hn hxn => ?_)
        obtain ⟨q, hq, rfl⟩ := mem_nodeList.1 hn
        exact hx _ (mem_nodeList.2 ⟨q, (hmem2 q).2 (Or.inl hq), rfl⟩) (by rw [hout2 q hq]; exact hxn)
    -- restrict to what is kept
    have hsub : ∀ n ∈ g'.nodeList, n ∈ g2.nodeList := by
      intro n hn
      obtain ⟨q, hq, rfl⟩ := mem_nodeList.1 hn
      exact mem_nodeList.2 ⟨q, ((hmem3 q).1 hq).1, (hD.node q).symm⟩
    have hclosed : ∀ n ∈ g'.nodeList, ∀ i ∈ n.input, i ≠ "" → ∀ k ∈ g2.nodeList, i ∈ k.output → k ∈ g'.nodeList := by
      intro n hn i hin hne k hk hio
      obtain ⟨c, hc, rfl⟩ := mem_nodeList.1 hn
      obtain ⟨d, hd, rfl⟩ := mem_nodeList.1 hk
      rw [hD.node] at hin
      refine mem_nodeList.2 ⟨d, (hmem3 d).2 ⟨hd, ?_⟩, hD.node d⟩
      rintro ⟨h1, h2⟩
      obtain ⟨hc2, hcn⟩ := (hmem3 c).1 hc
      have hcdel := h2 i hio c hc2 hin
      have hdr : d ≠ w.root := by
        rintro rfl
        rw [hout2 _ hrootm, hout] at hio
        simp only [List.mem_singleton] at hio
        subst hio
        exact hnone c hc2 hin
      have hcp := hw'.del c hcdel
      have hcg := hw'.mem c hcp
      have : c = w.root := by
        apply hw'.delReads d h1 hdr c hcdel
        refine ⟨i, by rw [← hout2 d (hdm d h1)]; exact hio, ?_⟩
        rw [hsame c hcg (hnr c hcp)] at hin
        exact hin
      subst this
      exact hcn ⟨hw'.rootDel, hrootdrop⟩
    obtain ⟨e', he', hag⟩ := sat_restrict hsub hclosed hE
    refine ⟨e', he', fun y hy => ?_⟩
    have hyo : y ≠ o' := by rintro rfl; exact hunr.2 hy
    rw [hag y, if_neg hyo]
    by_cases hu : Unproduced g2.nodeList y
    · exact Or.inr hu
    · left
      simp only [Unproduced, not_or, not_forall, not_not] at hu
      obtain ⟨_, n, hn, hyn⟩ := hu
      obtain ⟨q, hq, rfl⟩ := mem_nodeList.1 hn
      refine ⟨g2.node q, mem_nodeList.2 ⟨q, (hmem3 q).2 ⟨hq, ?_⟩, hD.node q⟩, hyn⟩
      rintro ⟨h1, _⟩
      rw [hout2 q (hdm q h1)] at hyn
      exact hw'.notOutput q h1 y hyn hy
  · intro p hp hno
    rw [hD.node]
    exact hsame p hp (hno o (by simp [hout]))
  · intro p hp hcase
    refine (hmem3 p).2 ⟨(hmem2 p).2 (Or.inl hp), ?_⟩
    rintro ⟨h1, h2⟩
    rcases hcase with hc | ⟨q, hq, hqd, hqo, x, hx, hin⟩
    · exact hc h1
    · have hqo' := hqo o (by simp [hout])
      exact hqd (h2 x (by rw [hout2 p hp]; exact hx) q ((hmem2 q).2 (Or.inl hq)) (by rw [hsame q hq hqo']; exact hin))

/-! ## Replacements decided in advance -/

/-- Replacing `w` leaves the nodes `v` relies on alone: none of them reads the replaced output, and each one that `w` would
delete is read by another one that `w` does not delete. -/
structure Rw.Spares (g : G) (w v : Rw) : Prop where
  noRead : ∀ p ∈ v.pats, ∀ o ∈ (g.node w.root).output, o ∉ (g.node p).input
  kept : ∀ p ∈ v.pats, p ∈ w.del → ∃ q ∈ v.pats, q ∉ w.del ∧ ∃ x ∈ (g.node p).output, x ∈ (g.node q).input

/-- `v`'s nodes are live and have the same contents in `g'`. -/
def Rw.Intact (g g' : G) (v : Rw) : Prop := ∀ p ∈ v.pats, p ∈ g'.nodes ∧ g'.node p = g.node p

theorem Rw.Valid.intact {P : ∀ V : Type, Interp V → Prop} {g g' : G} {v : Rw} (hv : v.Valid P g) (ho : g'.outputs = g.outputs)
    (hi : v.Intact g g') : v.Valid P g' := by
  have hn : ∀ p ∈ v.pats, g'.node p = g.node p := fun p hp => (hi p hp).2
  have hroot := hn _ hv.root
  refine ⟨fun p hp => (hi p hp).1, hv.root, by rw [hroot]; exact hv.out, fun p hp => ?_, fun x hx hne => ?_, hv.del, hv.rootDel,
    fun d hd => by rw [hn d (hv.del d hd)]; exact hv.notInput d hd,
    fun d hd => by rw [hn d (hv.del d hd), ho]; exact hv.notOutput d hd,
    fun d hd hne c hc => by rw [hn d (hv.del d hd), hn c (hv.del c hc)]; exact hv.delReads d hd hne c hc, hv.newOp,
    fun V I hI env e he o hout => ?_⟩
  · have hb := hv.below p hp
    have key : ∀ q, Below g v.pats v.root q → q ∈ v.pats ∧ Below g' v.pats v.root q := by
      intro q hq
      induction hq with
      | root => exact ⟨hv.root, .root⟩
      | step _ hp' hrd ih =>
        refine ⟨hp', .step ih.2 hp' ?_⟩
        obtain ⟨x, h1, h2, h3⟩ := hrd
        exact ⟨x, h1, by rw [hn _ ih.1]; exact h2, by rw [hn _ hp']; exact h3⟩
    exact (key p hb).2
  · obtain ⟨p, hp, hin⟩ := hv.reads x hx hne
    exact ⟨p, hp, by rw [hn p hp]; exact hin⟩
  · refine hv.law V I hI env e (fun p hp => ?_) o (by rw [← hroot]; exact hout)
    rw [← hn p hp]; exact he p hp

end Verif.Graph
