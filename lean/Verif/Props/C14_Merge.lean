import Verif.Props.C13_Identity
import Verif.Model.MergeDup
/-!
# C14: merging duplicate nodes preserves the model
-/
namespace Verif.Graph
open Verif

/-- Operators look at attributes by name only, and a constant is its `value` attribute. (That an operator is a function
of its inputs at all is already built into `Interp`: random operators are outside the property.) -/
structure MergeLaw (V : Type) (I : Interp V) : Prop where
  attr : ∀ op dom (a b : Dict String Attr) ins j, (∀ k, a.get k = b.get k) → I op dom a ins j = I op dom b ins j
  const : ∀ op dom (a b : Dict String Attr) ins j, (op = "Const" ∨ op = "ConstV2") → a.get "value" = b.get "value" →
    I op dom a ins j = I op dom b ins j

/-- Side conditions: every output of every node is named, an op type is used with one domain only, and `Graph.inputs`
lists placeholders. -/
structure MergeShape (g : G) : Prop where
  named : ∀ r ∈ g.nodes, "" ∉ (g.node r).output
  domain : ∀ r ∈ g.nodes, ∀ q ∈ g.nodes, (g.node r).op = (g.node q).op → (g.node r).domain = (g.node q).domain
  inputs : ∀ r ∈ g.inputs, (g.node r).isGraphInput = true

/-- Invariant of the pass. -/
structure MInv (g : G) : Prop where
  reach : Reachable g
  idx : Idx g
  ranked : ∃ ρ, RankedBy g ρ
  shape : MergeShape g

/-- Equal as far as an operator can see. -/
def AttrEq (n m : Node) : Prop :=
  (∀ k, n.attr.get k = m.attr.get k) ∨ (n.isConst = true ∧ n.attr.get "value" = m.attr.get "value")

/-- Nodes that compute the same. -/
structure Twins (n m : Node) : Prop where
  op : n.op = m.op
  input : n.input = m.input
  attr : AttrEq n m

theorem get_none_of_all {κ β : Type} [DecidableEq κ] {d : Dict κ β} {k : κ} (h : ∀ p ∈ d, p.1 ≠ k) : d.get k = none := by
  induction d with
  | nil => rfl
  | cons p d ih =>
    obtain ⟨k', v⟩ := p
    have h1 : k' ≠ k := h (k', v) (by simp)
    rw [Dict.get]
    simp only [h1, if_false]
    exact ih (fun q hq => h q (by simp [hq]))

theorem dictEq_spec {κ β : Type} [DecidableEq κ] [DecidableEq β] {a b : Dict κ β} (h : dictEq a b = true) (k : κ) :
    a.get k = b.get k := by
  simp only [dictEq, Bool.and_eq_true, List.all_eq_true, decide_eq_true_eq] at h
  by_cases ha : ∃ p ∈ a, p.1 = k
  · obtain ⟨p, hp, rfl⟩ := ha; exact (h.1 p hp).symm
  · by_cases hb : ∃ p ∈ b, p.1 = k
    · obtain ⟨p, hp, rfl⟩ := hb; exact h.2 p hp
    · rw [get_none_of_all (fun p hp e => ha ⟨p, hp, e⟩), get_none_of_all (fun p hp e => hb ⟨p, hp, e⟩)]

theorem tensorValue_eq {n m : Node} {x y : Tensor} (hn : n.tensorValue = some x) (hm : m.tensorValue = some y)
    (h : x = y) : n.attr.get "value" = m.attr.get "value" := by
  unfold Node.tensorValue at hn hm
  split at hn
  · rename_i h1
    split at hm
    · rename_i h2
      cases hn; cases hm; subst h; rw [h1, h2]
    · cases hm
  · cases hn

theorem haveEqualAttr_spec {g : G} {a b : Ref} (h : g.haveEqualAttr a b = true) : AttrEq (g.node a) (g.node b) := by
  unfold G.haveEqualAttr at h
  simp only at h
  split at h
  · rename_i hd; exact Or.inl (dictEq_spec hd)
  · split at h
    · rename_i hc
      simp only [Bool.and_eq_true] at hc
      refine Or.inr ⟨hc.1, ?_⟩
      split at h
      · split at h
        · cases h
        · split at h
          · rename_i hn hm; exact tensorValue_eq hn hm (by simpa using h)
          · cases h
      · split at h
        · rename_i hn hm; exact tensorValue_eq hn hm (by simpa using h)
        · cases h
    · cases h

theorem twins_value {V : Type} {I : Interp V} (hI : MergeLaw V I) {n m : Node} (ht : Twins n m)
    (hd : n.domain = m.domain) (ins : List (Option V)) (j : Nat) :
    I n.op n.domain n.attr ins j = I m.op m.domain m.attr ins j := by
  rw [← ht.op, ← hd]
  rcases ht.attr with h | ⟨h1, h2⟩
  · exact hI.attr _ _ _ _ _ _ h
  · refine hI.const _ _ _ _ _ _ ?_ h2
    simpa [Node.isConst] using h1

/-- All inputs renamed by one map. -/
def Node.mapInput (n : Node) (σ : String → String) : Node := { n with input := n.input.map σ }

theorem Twins.mapInput {n m : Node} (h : Twins n m) (σ : String → String) : Twins (n.mapInput σ) (m.mapInput σ) :=
  ⟨h.op, by simp [Node.mapInput, h.input], h.attr⟩

/-- What one or several merging steps did. `gone` lists the only nodes that may have disappeared. -/
structure MStep (g g' : G) (gone : List Ref) : Prop where
  inv : MInv g'
  model : SameModel MergeLaw g g'
  sub : ∀ r ∈ g'.nodes, r ∈ g.nodes
  kept : ∀ r ∈ g.nodes, r ∉ gone → r ∈ g'.nodes
  map : ∃ σ : String → String, ∀ r ∈ g'.nodes, g'.node r = (g.node r).mapInput σ
  len : g'.nodes.length ≤ g.nodes.length
  carry : Carry g g'

theorem MStep.refl {g : G} (h : MInv g) : MStep g g [] :=
  ⟨h, .refl _ _, fun _ h => h, fun _ h _ => h, ⟨id, by simp [Node.mapInput]⟩, Nat.le_refl _, .refl _⟩

theorem MStep.trans {a b c : G} {x y : List Ref} (h : MStep a b x) (h' : MStep b c y) : MStep a c (x ++ y) := by
  refine ⟨h'.inv, h.model.trans h'.model, fun r hr => h.sub r (h'.sub r hr), ?_, ?_, Nat.le_trans h'.len h.len, h.carry.trans h'.carry⟩
  · intro r hr hn
    simp only [List.mem_append, not_or] at hn
    exact h'.kept r (h.kept r hr hn.1) hn.2
  · obtain ⟨σ, hσ⟩ := h.map
    obtain ⟨τ, hτ⟩ := h'.map
    refine ⟨τ ∘ σ, fun r hr => ?_⟩
    rw [hτ r hr, hσ r (h'.sub r hr)]
    simp [Node.mapInput]

theorem MStep.mono {a b : G} {x y : List Ref} (h : MStep a b x) (hs : ∀ r ∈ x, r ∈ y) : MStep a b y :=
  ⟨h.inv, h.model, h.sub, fun r hr hn => h.kept r hr (fun hx => hn (hs r hx)), h.map, h.len, h.carry⟩

theorem MergeShape.same {g g' : G} (h : MergeShape g) (hsub : ∀ r ∈ g'.nodes, r ∈ g.nodes)
    (hin : ∀ r ∈ g'.inputs, r ∈ g.inputs)
    (hop : ∀ r, (g'.node r).op = (g.node r).op) (hout : ∀ r, (g'.node r).output = (g.node r).output)
    (hdom : ∀ r, (g'.node r).domain = (g.node r).domain) : MergeShape g' := by
  refine ⟨fun r hr => by rw [hout]; exact h.named r (hsub r hr), fun r hr q hq e => ?_, fun r hr => ?_⟩
  · rw [hdom, hdom]; rw [hop, hop] at e; exact h.domain r (hsub r hr) q (hsub q hq) e
  · have := h.inputs r (hin r hr); unfold Node.isGraphInput at *; rwa [hop]

/-- Redirecting one output of a node to the same output of its twin. -/
theorem redirectTwin {ρ : Ref → Nat} {g g' : G} (hv : MInv g) (hrk : RankedBy g ρ) {d k : Ref} (hd : d ∈ g.nodes)
    (hk : k ∈ g.nodes) (hdk : d ≠ k) (ht : Twins (g.node d) (g.node k)) (hle : ρ k ≤ ρ d)
    (hni : (g.node d).isGraphInput = false) {j : Nat} {o n : String} (ho : (g.node d).output[j]? = some o)
    (hn : (g.node k).output[j]? = some n) (h : g.replaceAllInputs o n none = .ok g') :
    MInv g' ∧ RankedBy g' ρ ∧ SameModel MergeLaw g g' ∧ Same g g' ∧
    (∀ r ∈ g.nodes, g'.node r = (g.node r).redirect o n) ∧ o ≠ n := by
  have hw := hv.reach.wf
  have hod : o ∈ (g.node d).output := List.mem_of_getElem? ho
  have hnk : n ∈ (g.node k).output := List.mem_of_getElem? hn
  have hoe : o ≠ "" := by rintro rfl; exact hv.shape.named d hd hod
  have hne : n ≠ "" := by rintro rfl; exact hv.shape.named k hk hnk
  have hon : o ≠ n := by rintro rfl; exact hdk (hw.out_inj hoe hd hk hod hnk)
  obtain ⟨s, hnode⟩ := replaceAllInputs_all hw hv.idx h
  obtain ⟨-, hnodeall, hidx, -⟩ := replaceAllInputs_spec hw (by intro l hl; cases hl) h
  have hr' : Reachable g' := .step (e := .replaceAllInputs o n none) hv.reach (by intro l hl; cases hl) h
  have hop : ∀ r, (g'.node r).op = (g.node r).op ∧ (g'.node r).domain = (g.node r).domain := by
    intro r; rw [hnodeall]; split <;> simp [Node.redirect]
  have hranked : RankedBy g' ρ := by
    rintro q hq p hp ⟨x, hx, hxin, hxout⟩
    rw [s.nodes] at hq hp
    rw [hnode q hq] at hxin
    rw [s.output] at hxout
    rcases mem_redirect_input hxin with ⟨_, hxi⟩ | ⟨rfl, hoi⟩
    · exact hrk q hq p hp ⟨x, hx, hxi, hxout⟩
    · have hpk : p = k := hw.out_inj hx hp hk hxout hnk
      subst hpk
      exact Nat.lt_of_le_of_lt hle (hrk q hq d hd ⟨o, hoe, hoi, hod⟩)
  refine ⟨⟨hr', hidx hv.idx, ⟨ρ, hranked⟩, ?_⟩, hranked, ⟨s.outputs, ?_, ?_⟩, s, hnode, hon⟩
  · exact hv.shape.same (by rw [s.nodes]; exact fun _ h => h) (by rw [s.inputs]; exact fun _ h => h)
      (fun r => (hop r).1) s.output (fun r => (hop r).2)
  · rw [s.inputs]; exact List.map_congr_left (fun r _ => s.output r)
  · intro V I hI env out
    refine computes_of_transport hv.reach hrk.acyclic hranked.acyclic s.outputs ?_ out
    intro e he
    have h1 := he.1 _ (mem_nodeList.2 ⟨d, hd, rfl⟩) j o ho hoe
    have h2 := he.1 _ (mem_nodeList.2 ⟨k, hk, rfl⟩) j n hn hne
    have hni' : (g.node k).isGraphInput = false := by unfold Node.isGraphInput at *; rw [← ht.op]; exact hni
    rw [hni] at h1
    rw [hni'] at h2
    have heq : e o = e n := by
      rw [h1, h2]
      simp only [Bool.false_eq_true, if_false]
      rw [twins_value hI ht (hv.shape.domain d hd k hk ht.op)]
      unfold argVals
      rw [ht.input]
    refine ⟨e, ⟨?_, fun x hx => he.2 x ((same_unproduced s x).1 hx)⟩, fun _ _ => rfl⟩
    intro m hm
    obtain ⟨r, hr, rfl⟩ := mem_nodeList.1 hm
    rw [s.nodes] at hr
    rw [hnode r hr, redirect_nodeSat hoe hne heq]
    exact he.1 _ (mem_nodeList.2 ⟨r, hr, rfl⟩)

theorem redirect_eq_mapInput (n : Node) (o m : String) :
    n.redirect o m = n.mapInput (fun x => if x = o then m else x) := rfl

/-- Redirecting several outputs. -/
theorem redirectPairs_spec {ρ : Ref → Nat} {d k : Ref} (hdk : d ≠ k) (ps : List (String × String)) {g g' : G}
    (hv : MInv g) (hrk : RankedBy g ρ) (hd : d ∈ g.nodes) (hk : k ∈ g.nodes) (ht : Twins (g.node d) (g.node k))
    (hle : ρ k ≤ ρ d) (hni : (g.node d).isGraphInput = false)
    (hps : ∀ p ∈ ps, ∃ j : Nat, (g.node d).output[j]? = some p.1 ∧ (g.node k).output[j]? = some p.2)
    (h : g.redirectPairs ps = .ok g') :
    MInv g' ∧ RankedBy g' ρ ∧ SameModel MergeLaw g g' ∧ Same g g' ∧
    (∃ σ : String → String, ∀ r ∈ g.nodes, g'.node r = (g.node r).mapInput σ) ∧
    (∀ r ∈ g.nodes, ∀ x ∈ (g'.node r).input, (x ∈ (g.node r).input ∨ x ∈ (g.node k).output) ∧ ∀ p ∈ ps, p.1 ≠ x) := by
  induction ps generalizing g with
  | nil =>
    simp only [G.redirectPairs] at h; cases h
    exact ⟨hv, hrk, .refl _ _, .refl _, ⟨id, by simp [Node.mapInput]⟩, fun r _ x hx => ⟨Or.inl hx, by simp⟩⟩
  | cons p ps ih =>
    obtain ⟨o, n⟩ := p
    simp only [G.redirectPairs, bind, Except.bind] at h
    split at h
    · cases h
    · rename_i g1 hg1
      obtain ⟨j, hj1, hj2⟩ := hps (o, n) (by simp)
      simp only at hj1 hj2
      obtain ⟨a1, a2, a3, a4, a5, a6⟩ := redirectTwin hv hrk hd hk hdk ht hle hni hj1 hj2 hg1
      have hd1 : d ∈ g1.nodes := by rw [a4.nodes]; exact hd
      have hk1 : k ∈ g1.nodes := by rw [a4.nodes]; exact hk
      obtain ⟨b1, b2, b3, b4, ⟨σ, hσ⟩, b6⟩ := ih a1 a2 hd1 hk1
        (by rw [a5 d hd, a5 k hk]; exact ht.mapInput _)
        (by rw [a5 d hd]; exact hni)
        (by intro p hp; rw [a4.output, a4.output]; exact hps p (by simp [hp])) h
      refine ⟨b1, b2, a3.trans b3, a4.trans b4, ⟨fun x => σ (if x = o then n else x), ?_⟩, ?_⟩
      · intro r hr
        rw [hσ r (by rw [a4.nodes]; exact hr), a5 r hr, redirect_eq_mapInput]
        simp [Node.mapInput, Function.comp_def]
      · intro r hr x hx
        have hw := hv.reach.wf
        have hod : o ∈ (g.node d).output := List.mem_of_getElem? hj1
        have hnk : n ∈ (g.node k).output := List.mem_of_getElem? hj2
        have hoe : o ≠ "" := by rintro rfl; exact hv.shape.named d hd hod
        obtain ⟨c1, c2⟩ := b6 r (by rw [a4.nodes]; exact hr) x hx
        rw [a4.output] at c1
        refine ⟨?_, ?_⟩
        · rcases c1 with c1 | c1
          · rw [a5 r hr] at c1
            rcases mem_redirect_input c1 with ⟨_, h1⟩ | ⟨h1, _⟩
            · exact Or.inl h1
            · subst h1; exact Or.inr hnk
          · exact Or.inr c1
        · intro p hp
          rcases List.mem_cons.1 hp with rfl | hp
          · rintro rfl
            rcases c1 with c1 | c1
            · rw [a5 r hr] at c1; exact Node.not_mem_redirect a6 c1
            · exact hdk (hw.out_inj hoe hd hk hod c1)
          · exact c2 p hp

/-- Removing a node nobody reads, which produces no graph output and is no graph input. -/
theorem removeUnread_spec {P : ∀ V : Type, Interp V → Prop} {ρ : Ref → Nat} {g g' : G} (hr : Reachable g)
    (hrk : RankedBy g ρ) {d : Ref} (hd : d ∈ g.nodes)
    (hunread : ∀ r ∈ g.nodes, ∀ x ∈ (g.node r).input, x ≠ "" → x ∉ (g.node d).output)
    (hno : ∀ x ∈ (g.node d).output, x ∉ g.outputs) (hnin : d ∉ g.inputs)
    (h : g.removeNode (g.node d).name = .ok g') :
    Removed g g' d ∧ RankedBy g' ρ ∧ SameModel P g g' := by
  have hw := hr.wf
  obtain ⟨r', hname, hrem⟩ := removeNode_removed hw h
  have : r' = d := hw.name_inj hrem.mem hd hname
  subst this
  have hmem : ∀ q, q ∈ g'.nodes ↔ q ≠ r' ∧ q ∈ g.nodes := by
    intro q; rw [hrem.nodes, hw.nodup.mem_erase_iff]
  have hranked : RankedBy g' ρ := by
    rintro q hq p hp ⟨x, hx, hxin, hxout⟩
    rw [hrem.node] at hxin hxout
    exact hrk q ((hmem q).1 hq).2 p ((hmem p).1 hp).2 ⟨x, hx, hxin, hxout⟩
  refine ⟨hrem, hranked, ⟨hrem.outputs, ?_, ?_⟩⟩
  · rw [hrem.inputs, List.erase_of_not_mem hnin]
    exact List.map_congr_left (fun r _ => by rw [hrem.node])
  · intro V I _ env out
    refine computes_of_transport hr hrk.acyclic hranked.acyclic hrem.outputs ?_ out
    intro e he
    refine ⟨fun x => if x ∈ (g.node r').output then env x else e x, ⟨?_, ?_⟩, ?_⟩
    · intro n hn
      obtain ⟨q, hq, rfl⟩ := mem_nodeList.1 hn
      have hq' := (hmem q).1 hq
      rw [hrem.node]
      intro j y hj hy
      have hyd : y ∉ (g.node r').output := fun hc => hq'.1 (hw.out_inj hy hq'.2 hd (List.mem_of_getElem? hj) hc)
      have harg : argVals (fun x => if x ∈ (g.node r').output then env x else e x) (g.node q) = argVals e (g.node q) := by
        apply argVals_congr
        intro i hi hie
        simp [hunread q hq'.2 i hi hie]
      rw [harg]
      simp only [if_neg hyd]
      exact he.1 _ (mem_nodeList.2 ⟨q, hq'.2, rfl⟩) j y hj hy
    · intro x hx
      simp only
      split
      · rfl
      · rename_i hxd
        apply he.2
        refine hx.imp id (fun hx n hn hxn => ?_)
        obtain ⟨q, hq, rfl⟩ := mem_nodeList.1 hn
        by_cases e' : q = r'
        · subst e'; exact hxd hxn
        · exact hx _ (mem_nodeList.2 ⟨q, (hmem q).2 ⟨e', hq⟩, rfl⟩) (by rw [hrem.node]; exact hxn)
    · intro x hx
      simp only
      rw [if_neg]
      exact fun hc => hno x hc hx

/-- Lowering the rank of a node to that of its twin. -/
theorem RankedBy.lower {ρ : Ref → Nat} {g : G} (h : RankedBy g ρ) {d k : Ref} (hd : d ∈ g.nodes)
    (hin : (g.node d).input = (g.node k).input) (hdk : d ≠ k) :
    ∃ ρ' : Ref → Nat, RankedBy g ρ' ∧ ρ' k ≤ ρ' d := by
  refine ⟨fun r => if r = k then min (ρ k) (ρ d) else ρ r, ?_, ?_⟩
  · rintro q hq p hp ⟨x, hx, hxin, hxout⟩
    have h1 := h q hq p hp ⟨x, hx, hxin, hxout⟩
    have h2 : q = k → ρ p < ρ d := by
      rintro rfl
      exact h d hd p hp ⟨x, hx, by rw [hin]; exact hxin, hxout⟩
    simp only
    split <;> split <;> subst_vars <;> simp_all <;> omega
  · simp only [if_true, if_neg hdk]; omega

theorem mem_zip_output {a b : List String} {p : String × String} (h : p ∈ a.zip b) :
    ∃ j : Nat, a[j]? = some p.1 ∧ b[j]? = some p.2 := by
  obtain ⟨j, hj⟩ := List.mem_iff_getElem?.1 h
  obtain ⟨x, y⟩ := p
  rw [List.getElem?_zip_eq_some] at hj
  exact ⟨j, hj⟩

theorem mergeInto_spec {k : Ref} (ds : List Ref) {g g' : G} {u u' : Bool} (hv : MInv g) (hk : k ∈ g.nodes)
    (hnd : (k :: ds).Nodup) (hds : ∀ d ∈ ds, d ∈ g.nodes) (ht : ∀ d ∈ ds, Twins (g.node d) (g.node k))
    (hlen : ∀ d ∈ ds, (g.node d).output.length ≤ (g.node k).output.length) (hni : (g.node k).isGraphInput = false)
    (h : g.mergeInto k ds u = .ok (g', u')) :
    MStep g g' ds ∧ (u' = true → u = true ∨ g'.nodes.length < g.nodes.length) := by
  induction ds generalizing g u with
  | nil => simp only [G.mergeInto] at h; cases h; exact ⟨.refl hv, Or.inl⟩
  | cons d ds ih =>
    have hnd' : (k :: ds).Nodup := by
      simp only [List.nodup_cons, List.mem_cons, not_or] at hnd ⊢; exact ⟨hnd.1.2, hnd.2.2⟩
    have hdk : d ≠ k := by
      simp only [List.nodup_cons, List.mem_cons, not_or] at hnd; exact fun e => hnd.1.1 e.symm
    have hdds : d ∉ ds := by
      simp only [List.nodup_cons, List.mem_cons, not_or] at hnd; exact hnd.2.1
    simp only [G.mergeInto] at h
    split at h
    · obtain ⟨a1, a2⟩ := ih hv hk hnd' (fun x hx => hds x (by simp [hx])) (fun x hx => ht x (by simp [hx]))
        (fun x hx => hlen x (by simp [hx])) hni h
      exact ⟨a1.mono (fun r hr => by simp [hr]), a2⟩
    · rename_i hno
      simp only [bind, Except.bind] at h
      split at h
      · cases h
      rename_i g1 hg1
      split at h
      · cases h
      rename_i g2 hg2
      have hd := hds d (by simp)
      have htd := ht d (by simp)
      obtain ⟨ρ0, hρ0⟩ := hv.ranked
      obtain ⟨ρ, hrk, hle⟩ := hρ0.lower hd htd.input hdk
      have hnid : (g.node d).isGraphInput = false := by unfold Node.isGraphInput at *; rw [htd.op]; exact hni
      obtain ⟨b1, b2, b3, b4, ⟨σ, b5⟩, b6⟩ := redirectPairs_spec hdk _ hv hrk hd hk htd hle hnid
        (fun p hp => mem_zip_output hp) hg1
      have hw := hv.reach.wf
      have hd1 : d ∈ g1.nodes := by rw [b4.nodes]; exact hd
      have hcover : ∀ x ∈ (g.node d).output, ∃ p ∈ (g.node d).output.zip (g.node k).output, p.1 = x := by
        intro x hx
        obtain ⟨j, hj⟩ := List.mem_iff_getElem?.1 hx
        have hjl : j < (g.node d).output.length := (List.getElem?_eq_some_iff.1 hj).1
        have hjk : j < (g.node k).output.length := Nat.lt_of_lt_of_le hjl (hlen d (by simp))
        refine ⟨(x, (g.node k).output[j]), ?_, rfl⟩
        rw [List.mem_iff_getElem?]
        exact ⟨j, by rw [List.getElem?_zip_eq_some]; exact ⟨hj, by simp [hjk]⟩⟩
      rw [← b4.name d] at hg2
      have hndin : d ∉ g.inputs := by
        intro hc; have := hv.shape.inputs d hc; rw [hnid] at this; cases this
      obtain ⟨c1, c2, c3⟩ := removeUnread_spec (P := MergeLaw) b1.reach b2 hd1 (by
          intro r hr x hx hxe hxd
          rw [b4.nodes] at hr
          rw [b4.output] at hxd
          obtain ⟨p, hp, hpx⟩ := hcover x hxd
          exact (b6 r hr x hx).2 p hp hpx)
        (by
          intro x hx
          rw [b4.output] at hx
          rw [b4.outputs]
          simp only [List.any_eq_true, decide_eq_true_eq, not_exists, not_and] at hno
          exact hno x hx)
        (by rw [b4.inputs]; exact hndin) hg2
      have hr2 : Reachable g2 := .step (e := .removeNode _) b1.reach trivial hg2
      have hmem : ∀ q, q ∈ g2.nodes ↔ q ≠ d ∧ q ∈ g.nodes := by
        intro q; rw [c1.nodes, b1.reach.wf.nodup.mem_erase_iff, b4.nodes]
      have hinv2 : MInv g2 := by
        refine ⟨hr2, c1.idx b1.reach.wf b1.idx, ⟨ρ, c2⟩, b1.shape.same ?_ ?_ ?_ ?_ ?_⟩
        · intro r hr; rw [c1.nodes] at hr; exact List.mem_of_mem_erase hr
        · intro r hr; rw [c1.inputs] at hr; exact List.mem_of_mem_erase hr
        · intro r; rw [c1.node]
        · intro r; rw [c1.node]
        · intro r; rw [c1.node]
      have hnode2 : ∀ r ∈ g.nodes, g2.node r = (g.node r).mapInput σ := by
        intro r hr; rw [c1.node]; exact b5 r hr
      have hlen2 : g2.nodes.length < g.nodes.length := by
        rw [c1.nodes, b4.nodes, List.length_erase_of_mem hd]
        have := List.length_pos_of_mem hd
        omega
      have hstep : MStep g g2 [d] :=
        { inv := hinv2
          model := b3.trans c3
          sub := fun r hr => ((hmem r).1 hr).2
          kept := fun r hr hn => (hmem r).2 ⟨by simpa using hn, hr⟩
          map := ⟨σ, fun r hr => hnode2 r ((hmem r).1 hr).2⟩
          len := Nat.le_of_lt hlen2
          carry := by
            have hin2 : ∀ r ∈ g2.nodes, ∀ x ∈ (g2.node r).input, (x ∈ (g.node r).input ∨ x ∈ (g.node k).output) ∧ x ∉ (g.node d).output := by
              intro r hr x hx
              rw [c1.node] at hx
              obtain ⟨e1, e2⟩ := b6 r ((hmem r).1 hr).2 x hx
              refine ⟨e1, fun hc => ?_⟩
              obtain ⟨p, hp, hpx⟩ := hcover x hc
              exact e2 p hp hpx
            have hn2 : ∀ r ∈ g2.nodes, g2.node r = (g.node r).mapInput σ := fun r hr => hnode2 r ((hmem r).1 hr).2
            refine ⟨fun r hr => ((hmem r).1 hr).2, fun r hr => by rw [hn2 r hr]; rfl, fun r hr => by rw [hn2 r hr]; rfl,
              fun r hr => by rw [hn2 r hr]; simp [Node.mapInput], fun r hr => by rw [hn2 r hr]; rfl, ?_,
              fun r hr h => by rw [hn2 r hr]; exact h, ?_⟩
            · intro r hr he hc
              rcases (hin2 r hr "" hc).1 with h1 | h1
              · exact he h1
              · exact hv.shape.named k hk h1
            · intro hm r hr x hx hxe
              obtain ⟨h1, h2⟩ := hin2 r hr x hx
              have step : (∃ p ∈ g.nodes, x ∈ (g.node p).output) → ∃ p ∈ g2.nodes, x ∈ (g2.node p).output := by
                rintro ⟨p, hp, hxp⟩
                have hpd : p ≠ d := by rintro rfl; exact h2 hxp
                refine ⟨p, (hmem p).2 ⟨hpd, hp⟩, ?_⟩
                rw [hnode2 p hp]; exact hxp
              rcases h1 with h1 | h1
              · exact step (hm r ((hmem r).1 hr).2 x h1 hxe)
              · exact step ⟨k, hk, h1⟩ }
      have hmem' : ∀ x ∈ ds, x ∈ g.nodes := fun x hx => hds x (by simp [hx])
      obtain ⟨d1, d2⟩ := ih hinv2 ((hmem k).2 ⟨hdk.symm, hk⟩) hnd'
        (fun x hx => (hmem x).2 ⟨by rintro rfl; exact hdds hx, hmem' x hx⟩)
        (fun x hx => by rw [hnode2 x (hmem' x hx), hnode2 k hk]; exact (ht x (by simp [hx])).mapInput σ)
        (fun x hx => by rw [hnode2 x (hmem' x hx), hnode2 k hk]; exact hlen x (by simp [hx]))
        (by rw [hnode2 k hk]; exact hni) h
      refine ⟨hstep.trans d1, fun _ => Or.inr (Nat.lt_of_le_of_lt d1.len hlen2)⟩

theorem insertByOutputs_perm (len : Ref → Nat) (r : Ref) (l : List Ref) :
    (insertByOutputs len r l).Perm (r :: l) := by
  induction l with
  | nil => exact .refl _
  | cons a l ih =>
    simp only [insertByOutputs]
    split
    · exact .refl _
    · exact (ih.cons a).trans (.swap _ _ _)

theorem sortByOutputs_perm (len : Ref → Nat) (l : List Ref) : (sortByOutputs len l).Perm l := by
  induction l with
  | nil => exact .refl _
  | cons r l ih => exact (insertByOutputs_perm len r _).trans (ih.cons r)

theorem insertByOutputs_sorted (len : Ref → Nat) (r : Ref) (l : List Ref) (h : l.Pairwise (fun a b => len b ≤ len a)) :
    (insertByOutputs len r l).Pairwise (fun a b => len b ≤ len a) := by
  induction l with
  | nil => simp [insertByOutputs]
  | cons a l ih =>
    have h' := List.pairwise_cons.1 h
    simp only [insertByOutputs]
    split
    · rename_i hle
      refine List.pairwise_cons.2 ⟨?_, h⟩
      intro b hb
      rcases List.mem_cons.1 hb with rfl | hb
      · exact hle
      · exact Nat.le_trans (h'.1 b hb) hle
    · rename_i hnle
      refine List.pairwise_cons.2 ⟨?_, ih h'.2⟩
      intro b hb
      rcases List.mem_cons.1 ((insertByOutputs_perm len r l).mem_iff.1 hb) with rfl | hb
      · omega
      · exact h'.1 b hb

theorem sortByOutputs_sorted (len : Ref → Nat) (l : List Ref) :
    (sortByOutputs len l).Pairwise (fun a b => len b ≤ len a) := by
  induction l with
  | nil => simp [sortByOutputs]
  | cons r l ih => exact insertByOutputs_sorted len r _ ih

theorem Twins.symm {n m : Node} (h : Twins n m) : Twins m n := by
  refine ⟨h.op.symm, h.input.symm, ?_⟩
  rcases h.attr with h1 | ⟨h1, h2⟩
  · exact Or.inl (fun k => (h1 k).symm)
  · refine Or.inr ⟨?_, h2.symm⟩
    unfold Node.isConst at *; rw [← h.op]; exact h1

theorem Twins.trans {n m l : Node} (h : Twins n m) (h' : Twins m l) : Twins n l := by
  refine ⟨h.op.trans h'.op, h.input.trans h'.input, ?_⟩
  rcases h.attr with h1 | ⟨h1, h2⟩ <;> rcases h'.attr with h3 | ⟨h3, h4⟩
  · exact Or.inl (fun k => (h1 k).trans (h3 k))
  · exact Or.inr ⟨by unfold Node.isConst at *; rw [h.op]; exact h3, (h1 _).trans h4⟩
  · exact Or.inr ⟨h1, h2.trans (h3 _)⟩
  · exact Or.inr ⟨h1, h2.trans h4⟩

theorem mergeNodes_spec {l : List Ref} {r : Ref} {g g' : G} {u u' : Bool} (hv : MInv g) (hnd : l.Nodup) (hr : r ∈ l)
    (hl : ∀ d ∈ l, d ∈ g.nodes) (ht : ∀ d ∈ l, Twins (g.node d) (g.node r)) (hni : (g.node r).isGraphInput = false)
    (h : g.mergeNodes l u = .ok (g', u')) :
    MStep g g' l ∧ (u' = true → u = true ∨ g'.nodes.length < g.nodes.length) := by
  unfold G.mergeNodes at h
  have hp := sortByOutputs_perm (fun r => (g.node r).output.length) l
  have hs := sortByOutputs_sorted (fun r => (g.node r).output.length) l
  generalize sortByOutputs (fun r => (g.node r).output.length) l = sl at h hp hs
  cases sl with
  | nil => cases h
  | cons k ds =>
    simp only at h
    have hk : k ∈ l := hp.mem_iff.1 (by simp)
    have hds : ∀ d ∈ ds, d ∈ l := fun d hd => hp.mem_iff.1 (by simp [hd])
    have hs' := List.pairwise_cons.1 hs
    obtain ⟨a1, a2⟩ := mergeInto_spec ds hv (hl k hk) (hp.nodup_iff.2 hnd) (fun d hd => hl d (hds d hd))
      (fun d hd => (ht d (hds d hd)).trans (ht k hk).symm) hs'.1
      (by have := (ht k hk).op; unfold Node.isGraphInput at *; rw [this]; exact hni) h
    exact ⟨a1.mono hds, a2⟩

/-- The members of a group agree on what the grouping compares. -/
def GroupOK (g : G) (l : List Ref) : Prop :=
  ∀ a ∈ l, ∀ b ∈ l, (g.node a).op = (g.node b).op ∧ (g.node a).input = (g.node b).input

theorem GroupOK.step {g g' : G} {x l : List Ref} (h : GroupOK g l) (m : MStep g g' x) (hl : ∀ r ∈ l, r ∈ g'.nodes) :
    GroupOK g' l := by
  obtain ⟨σ, hσ⟩ := m.map
  intro a ha b hb
  rw [hσ a (hl a ha), hσ b (hl b hb)]
  obtain ⟨h1, h2⟩ := h a ha b hb
  exact ⟨h1, by simp [Node.mapInput, h2]⟩

theorem delDuplicated_spec (fuel : Nat) {l : List Ref} {g g' : G} {u u' : Bool} (hv : MInv g) (hnd : l.Nodup)
    (hl : ∀ r ∈ l, r ∈ g.nodes) (hok : GroupOK g l) (hni : ∀ r ∈ l, (g.node r).isGraphInput = false)
    (h : G.delDuplicated fuel g l u = .ok (g', u')) :
    MStep g g' l ∧ (u' = true → u = true ∨ g'.nodes.length < g.nodes.length) := by
  induction fuel generalizing g l u with
  | zero =>
    have : g' = g ∧ u' = u := by
      match l, h with
      | [], h => simp only [G.delDuplicated] at h; cases h; exact ⟨rfl, rfl⟩
      | [_], h => simp only [G.delDuplicated] at h; cases h; exact ⟨rfl, rfl⟩
      | _ :: _ :: _, h => simp only [G.delDuplicated] at h; cases h; exact ⟨rfl, rfl⟩
    obtain ⟨rfl, rfl⟩ := this
    exact ⟨(MStep.refl hv).mono (by simp), Or.inl⟩
  | succ fuel ih =>
    match l, h with
    | [], h => simp only [G.delDuplicated] at h; cases h; exact ⟨.refl hv, Or.inl⟩
    | [_], h => simp only [G.delDuplicated] at h; cases h; exact ⟨(MStep.refl hv).mono (by simp), Or.inl⟩
    | r :: r' :: rs, h =>
      simp only [G.delDuplicated, bind, Except.bind] at h
      split at h
      · cases h
      rename_i gu hgu
      obtain ⟨g1, u1⟩ := gu
      simp only at h
      have hnd' := List.nodup_cons.1 hnd
      generalize hL : r' :: rs = L at *
      have hsame : (r :: L.filter (fun q => g.haveEqualAttr q r)).Nodup :=
        List.nodup_cons.2 ⟨fun hc => hnd'.1 (List.mem_filter.1 hc).1, List.Nodup.filter _ hnd'.2⟩
      have hin : ∀ d ∈ r :: L.filter (fun q => g.haveEqualAttr q r), d ∈ r :: L := by
        intro d hd
        rcases List.mem_cons.1 hd with rfl | hd
        · simp
        · exact List.mem_cons_of_mem _ (List.mem_filter.1 hd).1
      obtain ⟨a1, a2⟩ := mergeNodes_spec (r := r) hv hsame (by simp) (fun d hd => hl d (hin d hd))
        (by
          intro d hd
          obtain ⟨h1, h2⟩ := hok d (hin d hd) r (by simp)
          refine ⟨h1, h2, ?_⟩
          rcases List.mem_cons.1 hd with rfl | hd
          · exact Or.inl (fun _ => rfl)
          · exact haveEqualAttr_spec (List.mem_filter.1 hd).2)
        (hni r (by simp)) hgu
      have hrest : ∀ d ∈ L.filter (fun q => !g.haveEqualAttr q r), d ∈ g1.nodes := by
        intro d hd
        obtain ⟨hd1, hd2⟩ := List.mem_filter.1 hd
        refine a1.kept d (hl d (by simp [hd1])) ?_
        intro hc
        rcases List.mem_cons.1 hc with rfl | hc
        · exact hnd'.1 hd1
        · have := (List.mem_filter.1 hc).2
          rw [this] at hd2; cases hd2
      have hrestL : ∀ d ∈ L.filter (fun q => !g.haveEqualAttr q r), d ∈ r :: L :=
        fun d hd => List.mem_cons_of_mem _ (List.mem_filter.1 hd).1
      obtain ⟨b1, b2⟩ := ih a1.inv (List.Nodup.filter _ hnd'.2) hrest
        (GroupOK.step (fun a ha b hb => hok a (hrestL a ha) b (hrestL b hb)) a1 hrest)
        (by
          intro d hd
          obtain ⟨σ, hσ⟩ := a1.map
          rw [hσ d (hrest d hd)]
          exact hni d (hrestL d hd)) h
      refine ⟨(a1.trans b1).mono ?_, fun hu => ?_⟩
      · intro d hd
        rcases List.mem_append.1 hd with hd | hd
        · exact hin d hd
        · exact hrestL d hd
      · rcases b2 hu with h1 | h1
        · rcases a2 h1 with h2 | h2
          · exact Or.inl h2
          · exact Or.inr (Nat.lt_of_le_of_lt b1.len h2)
        · exact Or.inr (Nat.lt_of_lt_of_le h1 a1.len)

theorem mergeGroups_spec (ls : List (List Ref)) {g g' : G} {u u' : Bool} (hv : MInv g) (hnd : ls.flatten.Nodup)
    (hl : ∀ l ∈ ls, ∀ r ∈ l, r ∈ g.nodes) (hok : ∀ l ∈ ls, GroupOK g l) (h : g.mergeGroups ls u = .ok (g', u')) :
    MStep g g' ls.flatten ∧ (u' = true → u = true ∨ g'.nodes.length < g.nodes.length) := by
  induction ls generalizing g u with
  | nil => simp only [G.mergeGroups] at h; cases h; exact ⟨.refl hv, Or.inl⟩
  | cons l ls ih =>
    rw [List.flatten_cons, List.nodup_append] at hnd
    simp only [G.mergeGroups] at h
    split at h
    · cases h
    · rename_i r rs
      split at h
      · obtain ⟨a1, a2⟩ := ih hv hnd.2.1 (fun l hl' => hl l (by simp [hl'])) (fun l hl' => hok l (by simp [hl'])) h
        exact ⟨a1.mono (by intro x hx; rw [List.flatten_cons]; simp [hx]), a2⟩
      · rename_i hskip
        simp only [bind, Except.bind] at h
        split at h
        · cases h
        rename_i gu hgu
        obtain ⟨g1, u1⟩ := gu
        simp only at h
        have hskip' : (g.node r).isGraphInput = false := by
          unfold Node.skipMerge at hskip
          simp only [Bool.or_eq_true, not_or] at hskip
          simpa using hskip.2
        obtain ⟨a1, a2⟩ := delDuplicated_spec _ hv hnd.1 (hl _ (by simp)) (hok _ (by simp))
          (by
            intro q hq
            have := (hok _ (List.mem_cons_self ..) q hq r (by simp)).1
            unfold Node.isGraphInput at *; rw [this]; exact hskip') hgu
        have hkeep : ∀ l' ∈ ls, ∀ q ∈ l', q ∈ g1.nodes := by
          intro l' hl' q hq
          refine a1.kept q (hl l' (by simp [hl']) q hq) ?_
          intro hc
          exact hnd.2.2 q hc q (List.mem_flatten.2 ⟨l', hl', hq⟩) rfl
        obtain ⟨b1, b2⟩ := ih a1.inv hnd.2.1 hkeep
          (fun l' hl' => (hok l' (by simp [hl'])).step a1 (hkeep l' hl')) h
        refine ⟨by rw [List.flatten_cons]; exact a1.trans b1, fun hu => ?_⟩
        rcases b2 hu with h1 | h1
        · rcases a2 h1 with h2 | h2
          · exact Or.inl h2
          · exact Or.inr (Nat.lt_of_le_of_lt b1.len h2)
        · exact Or.inr (Nat.lt_of_lt_of_le h1 a1.len)

theorem set_append_flatten {κ : Type} [DecidableEq κ] (d : Dict κ (List Ref)) (k : κ) (r : Ref) :
    ((d.set k ((d.get k).getD [] ++ [r])).map (·.2)).flatten.Perm (r :: (d.map (·.2)).flatten) := by
  induction d with
  | nil => simp [Dict.set, Dict.get]
  | cons p d ih =>
    obtain ⟨k', v⟩ := p
    simp only [Dict.set, Dict.get]
    by_cases e : k' = k
    · subst e
      simp only [if_true, Option.getD_some, List.map_cons, List.flatten_cons]
      rw [List.append_assoc]
      refine List.perm_middle.trans ?_
      simp
    · simp only [e, if_false, List.map_cons, List.flatten_cons]
      exact (ih.append_left v).trans List.perm_middle

theorem mem_set {κ β : Type} [DecidableEq κ] {d : Dict κ β} {k : κ} {v : β} {p : κ × β} (h : p ∈ d.set k v) :
    p = (k, v) ∨ p ∈ d := by
  induction d with
  | nil => simp [Dict.set] at h; exact Or.inl h
  | cons q d ih =>
    obtain ⟨k', v'⟩ := q
    simp only [Dict.set] at h
    split at h
    · rename_i e
      rcases List.mem_cons.1 h with h | h
      · left; rw [h, e]
      · right; simp [h]
    · rcases List.mem_cons.1 h with h | h
      · right; simp [h]
      · rcases ih h with h | h
        · exact Or.inl h
        · right; simp [h]

theorem mem_of_get {κ β : Type} [DecidableEq κ] {d : Dict κ β} {k : κ} {v : β} (h : d.get k = some v) : (k, v) ∈ d := by
  induction d with
  | nil => cases h
  | cons q d ih =>
    obtain ⟨k', v'⟩ := q
    simp only [Dict.get] at h
    split at h
    · rename_i e; cases h; subst e; simp
    · simp [ih h]

/-- Grouping is a partition into groups of nodes with equal type and inputs. -/
theorem groupNodes_spec {g : G} {hash : List Int → Int} (rs : List Ref) (d : Dict GroupKey (List Ref))
    {d' : Dict GroupKey (List Ref)} (h : g.groupNodes hash rs d = .ok d')
    (hd : ∀ p ∈ d, ∀ r ∈ p.2, (g.node r).op = p.1.1 ∧ (g.node r).input = p.1.2.1) :
    (∀ p ∈ d', ∀ r ∈ p.2, (g.node r).op = p.1.1 ∧ (g.node r).input = p.1.2.1) ∧
    ∃ l : List Ref, l.Sublist rs ∧ (d'.map (·.2)).flatten.Perm (l.reverse ++ (d.map (·.2)).flatten) := by
  induction rs generalizing d with
  | nil => simp only [G.groupNodes] at h; cases h; exact ⟨hd, [], by simp, by simp⟩
  | cons r rs ih =>
    have add : ∀ key : GroupKey, key.1 = (g.node r).op → key.2.1 = (g.node r).input →
        g.groupNodes hash rs (d.set key ((d.get key).getD [] ++ [r])) = .ok d' →
        (∀ p ∈ d', ∀ r ∈ p.2, (g.node r).op = p.1.1 ∧ (g.node r).input = p.1.2.1) ∧
        ∃ l : List Ref, l.Sublist (r :: rs) ∧ (d'.map (·.2)).flatten.Perm (l.reverse ++ (d.map (·.2)).flatten) := by
      intro key h1 h2 h
      obtain ⟨a1, l, a2, a3⟩ := ih _ h (by
        intro p hp q hq
        rcases mem_set hp with rfl | hp
        · simp only at hq ⊢
          rcases List.mem_append.1 hq with hq | hq
          · cases hg : d.get key with
            | none => rw [hg] at hq; simp at hq
            | some v => rw [hg] at hq; exact hd _ (mem_of_get hg) q hq
          · simp at hq; subst hq; exact ⟨h1.symm, h2.symm⟩
        · exact hd p hp q hq)
      refine ⟨a1, r :: l, a2.cons_cons r, a3.trans ?_⟩
      rw [List.reverse_cons, List.append_assoc]
      exact (set_append_flatten d key r).append_left _
    simp only [G.groupNodes, bind, Except.bind] at h
    split at h
    · cases h
    · split at h
      · obtain ⟨a1, l, a2, a3⟩ := ih d h hd
        exact ⟨a1, l, a2.cons r, a3⟩
      · split at h
        · split at h
          · cases h
          · exact add _ rfl rfl h
        · exact add _ rfl rfl h

theorem mergePass_spec {hash : List Int → Int} {g g' : G} {u' : Bool} {d : Dict GroupKey (List Ref)} (hv : MInv g)
    (hd : g.groupNodes hash g.nodes [] = .ok d) (h : g.mergeGroups (d.map (·.2)) false = .ok (g', u')) :
    MInv g' ∧ SameModel MergeLaw g g' ∧ (u' = true → g'.nodes.length < g.nodes.length) ∧ Carry g g' := by
  obtain ⟨h1, l, h2, h3⟩ := groupNodes_spec g.nodes [] hd (by simp)
  simp only [List.map_nil, List.flatten_nil, List.append_nil] at h3
  have hmem : ∀ x ∈ d.map (·.2), ∀ r ∈ x, r ∈ g.nodes := by
    intro x hx r hr
    have := h3.mem_iff.1 (List.mem_flatten.2 ⟨x, hx, hr⟩)
    exact h2.subset (List.mem_reverse.1 this)
  obtain ⟨a1, a2⟩ := mergeGroups_spec _ hv
    (h3.nodup_iff.2 (List.nodup_reverse.2 (h2.nodup hv.reach.wf.nodup))) hmem
    (by
      intro x hx a ha b hb
      obtain ⟨p, hp, rfl⟩ := List.mem_map.1 hx
      obtain ⟨e1, e2⟩ := h1 p hp a ha
      obtain ⟨e3, e4⟩ := h1 p hp b hb
      exact ⟨e1.trans e3.symm, e2.trans e4.symm⟩) h
  exact ⟨a1.inv, a1.model, fun hu => (a2 hu).resolve_left (by simp), a1.carry⟩

theorem mergeLoop_spec {hash : List Int → Int} (fuel : Nat) {g g' : G} (hv : MInv g)
    (h : G.mergeLoop hash fuel g = .ok g') : MInv g' ∧ SameModel MergeLaw g g' ∧ Carry g g' := by
  induction fuel generalizing g with
  | zero => simp [G.mergeLoop] at h
  | succ fuel ih =>
    simp only [G.mergeLoop, bind, Except.bind] at h
    split at h
    · cases h
    rename_i d hd
    split at h
    · cases h
    rename_i gu hgu
    obtain ⟨g1, u⟩ := gu
    simp only at h
    obtain ⟨a1, a2, -, a4⟩ := mergePass_spec hv hd hgu
    split at h
    · obtain ⟨b1, b2, b3⟩ := ih a1 h
      exact ⟨b1, a2.trans b2, a4.trans b3⟩
    · cases h; exact ⟨a1, a2, a4⟩

/-- Every turn that asks for another one removed a node: `n + 1` turns suffice, allowing more changes nothing. -/
theorem mergeLoop_fuel {hash : List Int → Int} (fuel : Nat) {g : G} (hv : MInv g) (hf : g.nodes.length < fuel) :
    G.mergeLoop hash (fuel + 1) g = G.mergeLoop hash fuel g := by
  induction fuel generalizing g with
  | zero => omega
  | succ fuel ih =>
    rw [G.mergeLoop, G.mergeLoop]
    simp only [bind, Except.bind]
    split
    · rfl
    rename_i d hd
    split
    · rfl
    rename_i gu hgu
    obtain ⟨g1, u⟩ := gu
    simp only
    obtain ⟨a1, a2, a3, -⟩ := mergePass_spec hv hd hgu
    split
    · rename_i hu
      have := a3 hu
      exact ih a1 (by omega)
    · rfl

/-- The duplicate-node optimizer never changes the model: same output names and order, same graph inputs, and the same
output values for every meaning of the operators and all fed values, whatever the hash function does.

Partial: the side conditions `MergeShape` are needed. `merge_ignores_domain_violated` and
`merge_unnamed_output_violated` below show that the property fails of the code without them. -/
theorem merge_duplicated_preserves_model_partial {hash : List Int → Int} {g g' : G} (hr : Reachable g) (hi : Idx g)
    (ha : Acyclic g.nodeList) (hs : MergeShape g) (h : g.mergeOptimize hash = .ok g') : SameModel MergeLaw g g' := by
  have hv : MInv g := ⟨hr, hi, Acyclic.ranked hr.wf ha, hs⟩
  simp only [G.mergeOptimize, bind, Except.bind] at h
  split at h
  · cases h
  · rename_i g1 hg1
    obtain ⟨h1, h2, -⟩ := mergeLoop_spec _ hv hg1
    obtain ⟨ρ, hρ⟩ := h1.ranked
    exact h2.trans (deleteUnused_sameModel h1.reach hρ.acyclic h)

/-- A non-trivial case: two equal constants and two equal `Add` nodes are merged, the `Mul` reads one result twice. -/
def mergeScript : List Edit :=
  [.addGraphInput "p" "x",
   .makeNode "Const" [] "c1" ["k1"] [("value", .tensor ⟨1, [1], [7]⟩)] "",
   .makeNode "Const" [] "c2" ["k2"] [("value", .tensor ⟨1, [1], [7]⟩)] "",
   .makeNode "Add" ["x", "k1"] "a1" ["s"] [] "", .makeNode "Add" ["x", "k2"] "a2" ["t"] [] "",
   .makeNode "Mul" ["s", "t"] "m" ["out"] [] "", .addGraphOutput "out"]

example : ∃ g g', G.run {} mergeScript = .ok g ∧ g.mergeOptimize (fun _ => 0) = .ok g' ∧
    g.nodes = [0, 1, 2, 3, 4, 5] ∧ g'.nodes.length = 4 ∧ (g'.node 5).input = ["s", "s"] ∧
    Acyclic g.nodeList ∧ MergeShape g :=
  ⟨_, _, rfl, rfl, by decide, by decide, by decide, ⟨_, .refl _, by decide⟩, ⟨by decide, by decide, by decide⟩⟩

/-- A graph whose nodes, in order of creation, are in executable order computes what running them computes. -/
theorem computes_exec {g : G} (hu : UniqueOutputs g.nodeList) (hx : Executable ((sortRank id g.nodes).map g.node))
    {V : Type} (I : Interp V) (env : String → V) (out : List V) :
    Computes I g env out ↔ out = g.outputs.map (exec I env ((sortRank id g.nodes).map g.node)) := by
  have hp : ((sortRank id g.nodes).map g.node).Perm g.nodeList := (sortRank_perm id g.nodes).map _
  have hs := (exec_sat (I := I) (env := env) (hu.perm hp.symm) hx).perm hp
  constructor
  · rintro ⟨e, he, rfl⟩; rw [sat_unique ⟨_, hp, hx⟩ he hs]
  · rintro rfl; exact ⟨_, hs, rfl⟩

instance (ns : List Node) : Decidable (UniqueOutputs ns) := by unfold UniqueOutputs; infer_instance

/-- A meaning of operators over strings used by the two counterexamples. -/
def witnessInterp : Interp String := fun op dom _ ins _ =>
  if op = "Foo" then "Foo of " ++ dom
  else if op = "Snd" then
    match ins with
    | [_, some v] => v
    | [_, none] => "absent"
    | _ => "?"
  else "?"

theorem witnessInterp_law : MergeLaw String witnessInterp :=
  ⟨fun _ _ _ _ _ _ _ => rfl, fun _ _ _ _ _ _ _ _ => rfl⟩

/-- Two nodes of one type but of different domains. -/
def domainScript : List Edit :=
  [.addGraphInput "p" "x", .makeNode "Foo" ["x"] "f" ["s"] [] "a", .makeNode "Foo" ["x"] "g" ["t"] [] "b",
   .makeNode "Snd" ["s", "t"] "m" ["out"] [] "", .addGraphOutput "out"]

/-- The property fails without the domain condition: nodes of different operator domains are merged. -/
theorem merge_ignores_domain_violated : ∃ g g', G.run {} domainScript = .ok g ∧ Acyclic g.nodeList ∧
    g.mergeOptimize (fun _ => 0) = .ok g' ∧ ¬ SameModel MergeLaw g g' := by
  refine ⟨_, _, rfl, ⟨_, .refl _, by decide⟩, rfl, fun h => ?_⟩
  have h1 := (h.values String witnessInterp witnessInterp_law (fun _ => "") ["Foo of b"]).2
    ((computes_exec (by decide) (by decide) _ _ _).2 (by rfl))
  exact absurd ((computes_exec (by decide) (by decide) _ _ _).1 h1) (by decide)

/-- One of two equal nodes leaves its second output unnamed; a third node leaves its second input absent. -/
def unnamedScript : List Edit :=
  [.addGraphInput "p" "x", .makeNode "Foo" ["x"] "f" ["s", "u"] [] "", .makeNode "Foo" ["x"] "g" ["t", ""] [] "",
   .makeNode "Snd" ["t", ""] "m" ["out"] [] "", .addGraphOutput "out"]

/-- The property fails without the named-output condition: the absent input of an unrelated node is redirected. -/
theorem merge_unnamed_output_violated : ∃ g g', G.run {} unnamedScript = .ok g ∧ Acyclic g.nodeList ∧
    g.mergeOptimize (fun _ => 0) = .ok g' ∧ ¬ SameModel MergeLaw g g' := by
  refine ⟨_, _, rfl, ⟨_, .refl _, by decide⟩, rfl, fun h => ?_⟩
  have h1 := (h.values String witnessInterp witnessInterp_law (fun _ => "") ["absent"]).2
    ((computes_exec (by decide) (by decide) _ _ _).2 (by rfl))
  exact absurd ((computes_exec (by decide) (by decide) _ _ _).1 h1) (by decide)

end Verif.Graph
