import Verif.Model.Construct
import Verif.Props.C13_Identity
import Mathlib.Data.List.Nodup
/-!
# C12: the names of the model's outputs, and the values under them, survive the construction of a `Graph`
-/
namespace Verif.Graph
open Verif

/-- What the loop needs and keeps. -/
structure WInv (ρ : Ref → Nat) (g : G) : Prop where
  reach : Reachable g
  ranked : RankedBy g ρ
  inputs : ∀ r ∈ g.inputs, (g.node r).isGraphInput = true

/-- `x` names no tensor of the graph. -/
def NewName (g : G) (x : String) : Prop :=
  x ≠ "" ∧ x ∉ g.outputs ∧ ∀ r ∈ g.nodes, x ∉ (g.node r).input ∧ x ∉ (g.node r).output

theorem map_rename_nodup {l : List String} {o raw : String} (h : (l.filter (· ≠ "")).Nodup) (ho : o ≠ "")
    (hraw : raw ≠ "") (hnew : raw ∉ l) :
    ((l.map (fun x => if x = o then raw else x)).filter (· ≠ "")).Nodup := by
  have e : (l.map (fun x => if x = o then raw else x)).filter (· ≠ "")
      = (l.filter (· ≠ "")).map (fun x => if x = o then raw else x) := by
    rw [List.filter_map]
    congr 1
    apply List.filter_congr
    intro x _
    simp only [Function.comp]
    by_cases hx : x = o
    · subst hx; simp [ho, hraw]
    · simp [hx]
  rw [e]
  refine List.Nodup.map_on ?_ h
  intro x hx y hy
  have hx := (List.mem_filter.1 hx).1
  have hy := (List.mem_filter.1 hy).1
  by_cases h1 : x = o <;> by_cases h2 : y = o <;> simp only [h1, h2, if_true, if_false]
  · exact fun _ => trivial
  · rintro rfl; exact (hnew hy).elim
  · intro hc; subst hc; exact (hnew hx).elim
  · exact id

theorem Reachable.makeNode {g g' : G} {r : Ref} {op : String} {input : List String} {name : String}
    {output : List String} {attr : Dict String Attr} {domain : String} (hr : Reachable g) (hname : name ≠ "")
    (hnd : (output.filter (· ≠ "")).Nodup) (h : g.makeNode op input name output attr domain = .ok (g', r)) :
    Reachable g' :=
  .step (e := .makeNode op input name output attr domain) hr ⟨hname, hnd⟩ (by simp only [G.apply, h]; rfl)

/-- What one round does when it changes the graph: node `r` becomes `r2`, and `r4` is the identity. -/
structure Wrapped (g g' : G) (o raw idName : String) (r r2 r4 : Ref) : Prop where
  reach : Reachable g'
  mem_r : r ∈ g.nodes
  out_r : o ∈ (g.node r).output
  notInput : (g.node r).isGraphInput = false
  hne24 : r4 ≠ r2
  hold2 : ∀ q ∈ g.nodes, q ≠ r2
  hold4 : ∀ q ∈ g.nodes, q ≠ r4
  hmem : ∀ q, q ∈ g'.nodes ↔ (q ≠ r ∧ q ∈ g.nodes) ∨ q = r2 ∨ q = r4
  hold : ∀ q ∈ g.nodes, q ≠ r → g'.node q = (g.node q).redirect o raw
  hnew2 : g'.node r2 = Node.redirect { g.node r with
      output := (g.node r).output.map (fun x => if x = o then raw else x) } o raw
  hnew4 : g'.node r4 = { name := idName, op := "Identity", domain := "", attr := [], input := [raw], output := [o] }
  hinputs : g'.inputs = g.inputs
  houtputs : g'.outputs = g.outputs
  hinv : ∀ q ∈ g.inputs, (g'.node q).output = (g.node q).output ∧
      (g'.node q).isGraphInput = (g.node q).isGraphInput

theorem wrapOutput_wrapped {ρ : Ref → Nat} {g g' : G} {o raw idName : String} (hv : WInv ρ g) (ho : o ≠ "")
    (hid : idName ≠ "") (hnew : NewName g raw) (hro : raw ≠ o) (h : g.wrapOutput o raw idName = .ok g') :
    g' = g ∨ ∃ r r2 r4, Wrapped g g' o raw idName r r2 r4 := by
  have hw := hv.reach.wf
  unfold G.wrapOutput at h
  split at h
  · cases h
  rename_i r hr
  have hr := (hw.getNodeByOutput ho r).1 hr
  simp only at h
  split at h
  · cases h
    exact Or.inl rfl
  rename_i hgi
  simp only [bind, Except.bind] at h
  split at h
  · cases h
  rename_i g1 hg1
  split at h
  · cases h
  rename_i p2 hg2
  obtain ⟨g2, r2⟩ := p2
  simp only at h
  split at h
  · cases h
  rename_i g3 hg3
  split at h
  · cases h
  rename_i p4 hg4
  obtain ⟨g4, r4⟩ := p4
  simp only [Except.ok.injEq] at h
  subst g4
  have hname : (g.node r).name ≠ "" := hw.nameNe r hr.1
  have hnd : (((g.node r).output.map (fun x => if x = o then raw else x)).filter (· ≠ "")).Nodup :=
    map_rename_nodup (hw.outNodup r hr.1) ho hnew.1 (hnew.2.2 r hr.1).2
  have hr1 : Reachable g1 := .step (e := .removeNode (g.node r).name) hv.reach trivial hg1
  obtain ⟨r', hn', hrem⟩ := removeNode_removed hw hg1
  have hrr : r' = r := hw.name_inj hrem.mem hr.1 hn'
  subst hrr
  have hr2 : Reachable g2 := hr1.makeNode hname hnd hg2
  have m2 := makeNode_made hg2
  have hr3 : Reachable g3 := .step (e := .replaceAllInputs o raw (some g2.nodes)) hr2
    (by intro l hl; cases hl; exact fun r h => h) hg3
  obtain ⟨s3, hn3, -, -⟩ := replaceAllInputs_spec hr2.wf (by intro l hl; cases hl; exact fun r h => h) hg3
  have hr4 : Reachable g' := hr3.makeNode hid (by simp [ho]) hg4
  have m4 := makeNode_made hg4
  -- references
  have hvr : r' < g.heap.length := hw.valid r' hr.1
  have hr2e : @Eq Nat r2 g.heap.length := by rw [m2.ref, hrem.heap]
  have hr4e : @Eq Nat r4 (g.heap.length + 1) := by
    rw [m4.ref, s3.len, m2.heap, hrem.heap]; simp
  have hnodes : g'.nodes = g.nodes.erase r' ++ [r2] ++ [r4] := by
    rw [m4.nodes, s3.nodes, m2.nodes, hrem.nodes]
  have hmem : ∀ q, q ∈ g'.nodes ↔ (q ≠ r' ∧ q ∈ g.nodes) ∨ q = r2 ∨ q = r4 := by
    intro q; rw [hnodes]; simp [hw.nodup.mem_erase_iff, or_assoc]
  -- nodes afterwards
  have hold : ∀ q ∈ g.nodes, q ≠ r' → g'.node q = (g.node q).redirect o raw := by
    intro q hq hqr
    have hqv := hw.valid q hq
    have hq3 : q < g3.heap.length := by rw [s3.len, m2.heap, hrem.heap, List.length_append]; exact Nat.lt_add_right _ hqv
    have hq1 : q < g1.heap.length := by rw [hrem.heap]; exact hqv
    rw [node_append_lt hq3 _ _ m4.heap, hn3]
    have : q ∈ g2.nodes := by rw [m2.nodes, hrem.nodes]; simp [hw.nodup.mem_erase_iff, hqr, hq]
    simp only [Option.getD_some, this, if_true]
    rw [node_append_lt hq1 _ _ m2.heap, hrem.node]
  have hnew2 : g'.node r2 = Node.redirect { g.node r' with
      output := (g.node r').output.map (fun x => if x = o then raw else x) } o raw := by
    have hq3 : r2 < g3.heap.length := by rw [s3.len, m2.heap, hrem.heap, hr2e]; simp
    rw [node_append_lt hq3 _ _ m4.heap, hn3]
    have : r2 ∈ g2.nodes := by rw [m2.nodes]; simp
    simp only [Option.getD_some, this, if_true]
    simp only [G.node, m2.heap, m2.ref, List.getElem?_concat_length, Option.getD_some]
  have hnew4 : g'.node r4 = { name := idName, op := "Identity", domain := "", attr := [], input := [raw], output := [o] } := by
    simp only [G.node, m4.heap, m4.ref, List.getElem?_concat_length, Option.getD_some]
  have hlow : ∀ q, q < g.heap.length → q ∉ g.nodes → g'.node q = g.node q := by
    intro q hqv hq
    have hq3 : q < g3.heap.length := by rw [s3.len, m2.heap, hrem.heap, List.length_append]; exact Nat.lt_add_right _ hqv
    have hq1 : q < g1.heap.length := by rw [hrem.heap]; exact hqv
    rw [node_append_lt hq3 _ _ m4.heap, hn3]
    have : q ∉ g2.nodes := by
      rw [m2.nodes, hrem.nodes]; simp [hw.nodup.mem_erase_iff, hq]; exact fun hc => by rw [hc, hr2e] at hqv; exact Nat.lt_irrefl _ hqv
    simp only [Option.getD_some, this, if_false]
    rw [node_append_lt hq1 _ _ m2.heap, hrem.node]
  have hinputs : g'.inputs = g.inputs := by
    rw [m4.inputs, s3.inputs, m2.inputs, hrem.inputs, List.erase_of_not_mem]
    intro hc; exact hgi (hv.inputs r' hc)
  have houtputs : g'.outputs = g.outputs := by
    rw [m4.outputs, s3.outputs, m2.outputs, hrem.outputs]
  have hinv : ∀ q ∈ g.inputs, (g'.node q).output = (g.node q).output ∧
      (g'.node q).isGraphInput = (g.node q).isGraphInput := by
    intro q hq
    have hgq := hv.inputs q hq
    have hqv : q < g.heap.length := by
      by_contra hc
      simp [G.node, List.getElem?_eq_none (Nat.le_of_not_lt hc), noNode, Node.isGraphInput] at hgq
    by_cases hqn : q ∈ g.nodes
    · have hqr : q ≠ r' := by rintro rfl; exact hgi hgq
      rw [hold q hqn hqr]; exact ⟨rfl, rfl⟩
    · rw [hlow q hqv hqn]; exact ⟨rfl, rfl⟩
  have hne24 : r4 ≠ r2 := fun hc => by rw [hc, hr2e] at hr4e; exact Nat.ne_of_lt (Nat.lt_succ_self _) hr4e
  have h2 : ∀ q ∈ g.nodes, q ≠ r2 := fun q hq hc => by
    have hqv : @LT.lt Nat _ q g.heap.length := hw.valid q hq
    rw [hc, hr2e] at hqv; exact Nat.lt_irrefl _ hqv
  have h4 : ∀ q ∈ g.nodes, q ≠ r4 := fun q hq hc => by
    have hqv : @LT.lt Nat _ q g.heap.length := hw.valid q hq
    rw [hc, hr4e] at hqv; exact Nat.not_succ_lt_self hqv
  exact Or.inr ⟨r', r2, r4, hr4, hr.1, hr.2, by simpa using hgi, hne24, h2, h4, hmem, hold, hnew2, hnew4, hinputs,
    houtputs, hinv⟩

theorem Wrapped.hout2 {g g' : G} {o raw idName : String} {r' r2 r4 : Ref} (w : Wrapped g g' o raw idName r' r2 r4) (x : String) :
    x ∈ (g'.node r2).output ↔ x = raw ∨ (x ≠ o ∧ x ∈ (g.node r').output) := by
  rw [w.hnew2]
  simp only [Node.redirect, List.mem_map]
  constructor
  · rintro ⟨y, hy, hyx⟩
    split at hyx
    · exact Or.inl hyx.symm
    · subst hyx; rename_i hyo; exact Or.inr ⟨hyo, hy⟩
  · rintro (rfl | ⟨h1, h2⟩)
    · exact ⟨o, w.out_r, by simp⟩
    · exact ⟨x, h2, by simp [h1]⟩

theorem Wrapped.noself {g g' : G} {o raw idName : String} {r' r2 r4 : Ref} (w : Wrapped g g' o raw idName r' r2 r4) {ρ : Ref → Nat} (hv : RankedBy g ρ)
    (ho : o ≠ "") : o ∉ (g.node r').input := fun hc =>
  Nat.lt_irrefl _ (hv r' w.mem_r r' w.mem_r ⟨o, ho, hc, w.out_r⟩)

theorem Wrapped.hin2 {g g' : G} {o raw idName : String} {r' r2 r4 : Ref} (w : Wrapped g g' o raw idName r' r2 r4) (hnoself : o ∉ (g.node r').input) (x : String)
    (hx : x ∈ (g'.node r2).input) : x ∈ (g.node r').input := by
  rw [w.hnew2] at hx
  rcases mem_redirect_input hx with ⟨_, h⟩ | ⟨_, h⟩
  · exact h
  · exact (hnoself h).elim

/-- The rank of the rebuilt node is its old one, the identity comes right after it. -/
def wrapRank (ρ : Ref → Nat) (r r2 r4 : Ref) : Ref → Nat :=
  fun q => if q = r2 then ρ r else if q = r4 then ρ r + 1 else ρ q

theorem Wrapped.ranked {g g' : G} {o raw idName : String} {r' r2 r4 : Ref} (w : Wrapped g g' o raw idName r' r2 r4) {ρ : Ref → Nat} (hv : RankedBy g ρ)
    (ho : o ≠ "") (hnew : NewName g raw) (hro : raw ≠ o) : RankedBy g' (wrapRank ρ r' r2 r4) := by
  have hnoself := w.noself hv ho
  have hin2 := w.hin2 hnoself
  have hout2 := w.hout2
  have hmem := w.hmem
  have hold := w.hold
  have hnew2 := w.hnew2
  have hnew4 := w.hnew4
  have hr : r' ∈ g.nodes ∧ o ∈ (g.node r').output := ⟨w.mem_r, w.out_r⟩
  have hρo : ∀ q ∈ g.nodes, wrapRank ρ r' r2 r4 q = ρ q := by
    intro q hq; simp [wrapRank, w.hold2 q hq, w.hold4 q hq]
  have hρ2 : wrapRank ρ r' r2 r4 r2 = ρ r' := by simp [wrapRank]
  have hρ4 : wrapRank ρ r' r2 r4 r4 = ρ r' + 1 := by simp [wrapRank, w.hne24]
  rintro q hq p hp ⟨x, hxe, hin, hout⟩
  rw [hmem] at hq hp
  -- nobody but the identity produces `o`, nobody reads it
  have hxo : x ≠ o := by
    rintro rfl
    rcases hq with ⟨h1, h2⟩ | rfl | rfl
    · rw [hold q h2 h1] at hin
      rcases mem_redirect_input hin with ⟨h, _⟩ | ⟨h, _⟩
      · exact h rfl
      · exact hro h.symm
    · exact hnoself (hin2 _ hin)
    · rw [hnew4] at hin; simp at hin; exact hro hin.symm
  have hp4 : p ≠ r4 := by
    rintro rfl
    rw [hnew4] at hout; simp at hout; exact hxo hout
  -- the old producer of what `p` produces
  have hprod : (x = raw ∧ p = r2) ∨ (x ≠ raw ∧ ∃ p0 ∈ g.nodes, wrapRank ρ r' r2 r4 p = ρ p0 ∧ x ∈ (g.node p0).output) := by
    rcases hp with ⟨h1, h2⟩ | rfl | rfl
    · rw [hold p h2 h1] at hout
      refine Or.inr ⟨?_, p, h2, hρo p h2, hout⟩
      rintro rfl; exact (hnew.2.2 p h2).2 hout
    · rcases (hout2 x).1 hout with h | ⟨_, h⟩
      · exact Or.inl ⟨h, rfl⟩
      · refine Or.inr ⟨?_, r', hr.1, hρ2, h⟩
        rintro rfl; exact (hnew.2.2 r' hr.1).2 h
    · exact (hp4 rfl).elim
  rcases hq with ⟨h1, h2⟩ | rfl | rfl
  · rw [hold q h2 h1] at hin
    rw [hρo q h2]
    rcases mem_redirect_input hin with ⟨_, h⟩ | ⟨h, h'⟩
    · rcases hprod with ⟨rfl, _⟩ | ⟨_, p0, hp0, he, hx⟩
      · exact ((hnew.2.2 q h2).1 h).elim
      · rw [he]; exact hv q h2 p0 hp0 ⟨x, hxe, h, hx⟩
    · rcases hprod with ⟨_, rfl⟩ | ⟨hc, _⟩
      · rw [hρ2]; exact hv q h2 r' hr.1 ⟨o, ho, h', hr.2⟩
      · exact (hc h).elim
  · rw [hρ2]
    have hin := hin2 _ hin
    rcases hprod with ⟨rfl, _⟩ | ⟨_, p0, hp0, he, hx⟩
    · exact ((hnew.2.2 r' hr.1).1 hin).elim
    · rw [he]; exact hv r' hr.1 p0 hp0 ⟨x, hxe, hin, hx⟩
  · rw [hρ4]
    rw [hnew4] at hin; simp at hin
    rcases hprod with ⟨_, rfl⟩ | ⟨hc, _⟩
    · rw [hρ2]; omega
    · exact (hc hin).elim

theorem Wrapped.values {g g' : G} {o raw idName : String} {r' r2 r4 : Ref} (w : Wrapped g g' o raw idName r' r2 r4) (ho : o ≠ "") (hnew : NewName g raw)
    (hro : raw ≠ o) {V : Type} {I : Interp V} (hI : IdentityLaw V I) {env : String → V} (e : String → V)
    (he : Sat I env e g.nodeList) : ∃ e', Sat I env e' g'.nodeList ∧ ∀ o ∈ g.outputs, e' o = e o := by
  have hout2 := w.hout2
  have hmem := w.hmem
  have hold := w.hold
  have hnew2 := w.hnew2
  have hnew4 := w.hnew4
  have hgi := w.notInput
  have hr : r' ∈ g.nodes ∧ o ∈ (g.node r').output := ⟨w.mem_r, w.out_r⟩
  refine ⟨fun x => if x = raw then e o else e x, ⟨?_, ?_⟩, ?_⟩
  · intro n hn
    obtain ⟨q, hq, rfl⟩ := mem_nodeList.1 hn
    have hargs : ∀ q ∈ g.nodes, ∀ n : Node, n.input = (g.node q).input →
        argVals (fun x => if x = raw then e o else e x) (n.redirect o raw) = argVals e (g.node q) := by
      intro q hq n hn
      simp only [argVals, Node.redirect, hn, List.map_map]
      apply List.map_congr_left
      intro x hx
      have hxr : x ≠ raw := fun hc => (hnew.2.2 q hq).1 (hc ▸ hx)
      by_cases hxo : x = o
      · simp [Function.comp, argVal, hxo, ho, hnew.1]
      · simp [Function.comp, argVal, hxo, hxr]
    rcases (hmem q).1 hq with ⟨h1, h2⟩ | rfl | rfl
    · rw [hold q h2 h1]
      intro j x hx hxe
      have hxr : x ≠ raw := fun hc => (hnew.2.2 q h2).2 (hc ▸ List.mem_of_getElem? hx)
      have := he.1 _ (mem_nodeList.2 ⟨q, h2, rfl⟩) j x hx hxe
      simp only [hxr, if_false]
      rw [hargs q h2 _ rfl, this]
      rfl
    · rw [hnew2]
      intro j x hx hxe
      simp only [Node.redirect, List.getElem?_map, Option.map_eq_some_iff] at hx
      obtain ⟨y, hy, hyx⟩ := hx
      have hye : y ≠ "" := by
        rintro rfl
        rw [if_neg (fun hc => ho hc.symm)] at hyx
        exact hxe hyx.symm
      have := he.1 _ (mem_nodeList.2 ⟨r', hr.1, rfl⟩) j y hy hye
      rw [hargs r' hr.1 { g.node r' with output := (g.node r').output.map (fun x => if x = o then raw else x) } rfl]
      have hval : (if x = raw then e o else e x) = e y := by
        by_cases hyo : y = o
        · subst hyo; simp at hyx; simp [hyx]
        · simp [hyo] at hyx; subst hyx
          have : y ≠ raw := fun hc => (hnew.2.2 r' hr.1).2 (hc ▸ List.mem_of_getElem? hy)
          simp [this]
      have hgi' : (g.node r').isGraphInput = false := hgi
      rw [hgi'] at this
      simp only [hval, this]
      have e1 : ({ g.node r' with output := (g.node r').output.map (fun x => if x = o then raw else x) }.redirect o
        raw).isGraphInput = false := hgi'
      rw [e1]
      rfl
    · rw [hnew4]
      intro j x hx hxe
      cases j with
      | succ j => simp at hx
      | zero =>
        simp at hx; subst hx
        have e1 : ({ name := idName, op := "Identity", domain := "", attr := [], input := [raw], output := [o] } :
          Node).isGraphInput = false := identity_not_input rfl
        rw [e1]
        simp only [if_neg (Ne.symm hro), argVals, argVal, List.map_cons, List.map_nil, hnew.1, if_false, if_true]
        rw [if_neg (by decide)]
        exact (hI _ _ _).symm
  · intro x hx
    have hxr : x ≠ raw := by
      rintro rfl
      rcases hx with h | h
      · exact hnew.1 h
      · exact h _ (mem_nodeList.2 ⟨r2, (hmem r2).2 (by simp), rfl⟩) ((hout2 x).2 (Or.inl rfl))
    simp only [hxr, if_false]
    refine he.2 x ?_
    rcases hx with h | h
    · exact Or.inl h
    · refine Or.inr ?_
      intro n hn hxn
      obtain ⟨q, hq, rfl⟩ := mem_nodeList.1 hn
      by_cases hqr : q = r'
      · subst hqr
        by_cases hxo : x = o
        · subst hxo
          exact h _ (mem_nodeList.2 ⟨r4, (hmem r4).2 (by simp), rfl⟩) (by rw [hnew4]; simp)
        · exact h _ (mem_nodeList.2 ⟨r2, (hmem r2).2 (by simp), rfl⟩) ((hout2 x).2 (Or.inr ⟨hxo, hxn⟩))
      · exact h _ (mem_nodeList.2 ⟨q, (hmem q).2 (Or.inl ⟨hqr, hq⟩), rfl⟩) (by rw [hold q hq hqr]; exact hxn)
  · intro x hx
    have : x ≠ raw := fun hc => hnew.2.1 (hc ▸ hx)
    simp [this]

theorem wrapOutput_spec {ρ : Ref → Nat} {g g' : G} {o raw idName : String} (hv : WInv ρ g) (ho : o ≠ "")
    (hid : idName ≠ "") (hnew : NewName g raw) (hro : raw ≠ o) (h : g.wrapOutput o raw idName = .ok g') :
    ∃ ρ', WInv ρ' g' ∧ SameModel IdentityLaw g g' ∧
      (∀ x, (∃ r ∈ g.nodes, x ∈ (g.node r).output) → ∃ r ∈ g'.nodes, x ∈ (g'.node r).output) ∧
      ∀ x, x ≠ raw → NewName g x → x ≠ o → NewName g' x := by
  rcases wrapOutput_wrapped hv ho hid hnew hro h with rfl | ⟨r', r2, r4, w⟩
  · exact ⟨ρ, hv, .refl _ _, fun _ => id, fun x _ hx _ => hx⟩
  have hranked := w.ranked hv.ranked ho hnew hro
  have hin2 := w.hin2 (w.noself hv.ranked ho)
  have hout2 := w.hout2
  have hmem := w.hmem
  have hold := w.hold
  have hnew4 := w.hnew4
  have hr : r' ∈ g.nodes ∧ o ∈ (g.node r').output := ⟨w.mem_r, w.out_r⟩
  refine ⟨_, ⟨w.reach, hranked, ?_⟩, ⟨w.houtputs, ?_, ?_⟩, ?_, ?_⟩
  · intro q hq
    rw [w.hinputs] at hq
    rw [(w.hinv q hq).2]; exact hv.inputs q hq
  · rw [w.hinputs]
    apply List.map_congr_left
    intro q hq
    exact (w.hinv q hq).1
  · intro V I hI env out
    exact computes_of_transport hv.reach hv.ranked.acyclic hranked.acyclic w.houtputs
      (fun e he => w.values ho hnew hro hI e he) out
  · rintro x ⟨q, hq, hx⟩
    by_cases hxo : x = o
    · exact ⟨r4, (hmem r4).2 (by simp), by rw [hnew4]; simp [hxo]⟩
    · by_cases hqr : q = r'
      · exact ⟨r2, (hmem r2).2 (by simp), (hout2 x).2 (Or.inr ⟨hxo, hqr ▸ hx⟩)⟩
      · exact ⟨q, (hmem q).2 (Or.inl ⟨hqr, hq⟩), by rw [hold q hq hqr]; exact hx⟩
  · intro x hxr hx hxo
    refine ⟨hx.1, by rw [w.houtputs]; exact hx.2.1, ?_⟩
    intro q hq
    rcases (hmem q).1 hq with ⟨h1, h2⟩ | rfl | rfl
    · rw [hold q h2 h1]
      refine ⟨?_, (hx.2.2 q h2).2⟩
      intro hc
      rcases mem_redirect_input hc with ⟨_, h⟩ | ⟨h, _⟩
      · exact (hx.2.2 q h2).1 h
      · exact hxr h
    · refine ⟨fun hc => (hx.2.2 r' hr.1).1 (hin2 x hc), fun hc => ?_⟩
      rcases (hout2 x).1 hc with h | ⟨_, h⟩
      · exact hxr h
      · exact (hx.2.2 r' hr.1).2 h
    · rw [hnew4]; simp [hxr, hxo]


/-- The generated names are new: not the name of a tensor of the graph, and pairwise distinct. -/
structure NewNames (g : G) (wraps : List (String × String × String)) : Prop where
  new : ∀ w ∈ wraps, NewName g w.2.1
  distinct : (wraps.map (·.2.1)).Nodup
  ids : ∀ w ∈ wraps, w.2.2 ≠ ""

theorem wrapOutputs_spec (wraps : List (String × String × String)) {ρ : Ref → Nat} {g g' : G} (hv : WInv ρ g)
    (hsub : ∀ w ∈ wraps, w.1 ∈ g.outputs ∧ w.1 ≠ "") (hn : NewNames g wraps) (h : g.wrapOutputs wraps = .ok g') :
    ∃ ρ', WInv ρ' g' ∧ SameModel IdentityLaw g g' ∧
      (∀ x, (∃ r ∈ g.nodes, x ∈ (g.node r).output) → ∃ r ∈ g'.nodes, x ∈ (g'.node r).output) := by
  induction wraps generalizing g ρ with
  | nil => cases h; exact ⟨ρ, hv, .refl _ _, fun _ => id⟩
  | cons w ws ih =>
    obtain ⟨o, raw, idName⟩ := w
    simp only [G.wrapOutputs, bind, Except.bind] at h
    split at h
    · cases h
    rename_i g1 hg1
    have ho := hsub _ (List.mem_cons_self ..)
    have hraw := hn.new _ (List.mem_cons_self ..)
    simp only at ho hraw
    have hro : raw ≠ o := fun hc => hraw.2.1 (hc ▸ ho.1)
    obtain ⟨ρ1, hv1, hs1, hp1, hk1⟩ := wrapOutput_spec hv ho.2 (hn.ids _ (List.mem_cons_self ..)) hraw hro hg1
    have hdist := List.nodup_cons.1 (by simpa using hn.distinct :
      (raw :: ws.map (·.2.1)).Nodup)
    have hn1 : NewNames g1 ws := by
      refine ⟨fun w hw => ?_, hdist.2, fun w hw => hn.ids w (List.mem_cons_of_mem _ hw)⟩
      have hnw := hn.new w (List.mem_cons_of_mem _ hw)
      refine hk1 _ ?_ hnw ?_
      · intro hc; exact hdist.1 (hc ▸ List.mem_map.2 ⟨w, hw, rfl⟩)
      · intro hc; exact hnw.2.1 (hc ▸ ho.1)
    obtain ⟨ρ', hv', hs', hp'⟩ := ih hv1 (fun w hw => by rw [hs1.outputs]; exact hsub w (List.mem_cons_of_mem _ hw)) hn1 h
    refine ⟨ρ', hv', hs1.trans hs', ?_⟩
    exact fun x hx => hp' x (hp1 x hx)

/-! ## Specification: running a node list with some tensors fed from outside -/

/-- `e` is a valuation of `ns` when the tensors in `fed` are given by the environment, whoever produces them. -/
def SatFed {V : Type} (I : Interp V) (env e : String → V) (fed : List String) (ns : List Node) : Prop :=
  (∀ n ∈ ns, ∀ j o, n.output[j]? = some o → o ≠ "" →
    e o = if n.isGraphInput ∨ o ∈ fed then env o else I n.op n.domain n.attr (argVals e n) j) ∧
  ∀ x, Unproduced ns x → e x = env x

theorem satFed_nil {V : Type} {I : Interp V} {env e : String → V} {ns : List Node} :
    SatFed I env e [] ns ↔ Sat I env e ns := by
  simp [SatFed, Sat, NodeSat]

theorem cutNode_input (names : List String) (alloc : String → String) (n : Node) :
    (cutNode names alloc n).input = n.input := by unfold cutNode; split <;> rfl

theorem cutNode_gi (names : List String) (alloc : String → String) (n : Node) :
    (cutNode names alloc n).isGraphInput = n.isGraphInput := by unfold cutNode; split <;> rfl

theorem mem_cutNode_output {names : List String} {alloc : String → String} {n : Node} {x : String}
    (h : x ∈ (cutNode names alloc n).output) : x ∈ n.output ∨ ∃ o ∈ names, o ∈ n.output ∧ x = alloc o := by
  unfold cutNode at h
  split at h
  · exact Or.inl h
  · simp only [List.mem_map] at h
    obtain ⟨o, ho, e⟩ := h
    split at e
    · rename_i hm; exact Or.inr ⟨o, hm, ho, e.symm⟩
    · exact Or.inl (e ▸ ho)

theorem mem_cutHolders {names : List String} {n p : Node} (h : p ∈ cutHolders names n) :
    ∃ o ∈ n.output, o ∈ names ∧ n.isGraphInput = false ∧
      p = { name := o, op := "Placeholder", input := [], output := [o] } := by
  unfold cutHolders at h
  split at h
  · cases h
  · rename_i hg
    simp only [List.mem_map, List.mem_filter, decide_eq_true_eq] at h
    obtain ⟨o, ⟨h1, h2⟩, rfl⟩ := h
    exact ⟨o, h1, h2, by simpa using hg, rfl⟩

theorem holder_gi (o : String) :
    ({ name := o, op := "Placeholder", input := [], output := [o] } : Node).isGraphInput = true := rfl

theorem executable_append {a b : List Node} (ha : ∀ n ∈ a, n.input = []) (hb : Executable b) : Executable (a ++ b) := by
  induction a with
  | nil => exact hb
  | cons n a ih =>
    refine ⟨?_, ih (fun m hm => ha m (List.mem_cons_of_mem _ hm))⟩
    rw [ha n (List.mem_cons_self ..)]
    simp

theorem cut_acyclic {names : List String} {alloc : String → String} {ns : List Node} (ha : Acyclic ns)
    (hnew : ∀ o ∈ names, alloc o = "" ∨ ∀ n ∈ ns, alloc o ∉ n.input) : Acyclic (cutNodes names alloc ns) := by
  obtain ⟨l, hp, hx⟩ := ha
  have hnew' : ∀ o ∈ names, alloc o = "" ∨ ∀ n ∈ l, alloc o ∉ n.input := by
    intro o ho
    rcases hnew o ho with h | h
    · exact Or.inl h
    · exact Or.inr fun n hn => h n (hp.mem_iff.1 hn)
  refine ⟨ns.flatMap (cutHolders names) ++ l.map (cutNode names alloc), ?_, ?_⟩
  · exact (List.perm_append_comm).trans ((hp.map _).append_right _)
  · refine executable_append ?_ ?_
    · intro p hp
      obtain ⟨n, _, hn⟩ := List.mem_flatMap.1 hp
      obtain ⟨o, _, _, _, rfl⟩ := mem_cutHolders hn
      rfl
    · clear hp
      induction l with
      | nil => trivial
      | cons n l ih =>
        refine ⟨?_, ih hx.2 (fun o ho => (hnew' o ho).imp id (fun h m hm => h m (List.mem_cons_of_mem _ hm)))⟩
        intro i hi hie m hm him
        rw [cutNode_input] at hi
        rw [← List.map_cons (f := cutNode names alloc)] at hm
        obtain ⟨m, hm', rfl⟩ := List.mem_map.1 hm
        rcases mem_cutNode_output him with h | ⟨o, ho, _, rfl⟩
        · exact hx.1 i hi hie m hm' h
        · rcases hnew' o ho with h | h
          · exact hie h
          · exact h n (List.mem_cons_self ..) hi

/-- A valuation of the cut nodes, put back under the old names, is a valuation with the cut tensors fed. -/
theorem cut_to_fed {V : Type} {I : Interp V} {env e' : String → V} {names : List String} {alloc : String → String}
    {ns : List Node} (hne : "" ∉ names)
    (hnew : ∀ o ∈ names, alloc o = "" ∨ ∀ n ∈ ns, alloc o ∉ n.input ∧ alloc o ∉ n.output)
    (hs : Sat I env e' (cutNodes names alloc ns)) :
    SatFed I env (fun x => if x ≠ "" ∧ ∃ o ∈ names, alloc o = x then env x else e' x) names ns := by
  have hkeep : ∀ n ∈ ns, ∀ x, x ≠ "" → x ∈ n.input ∨ x ∈ n.output → ¬ ∃ o ∈ names, alloc o = x := by
    rintro n hn x hx hor ⟨o, ho, rfl⟩
    rcases hnew o ho with h | h
    · exact hx h
    · rcases hor with h' | h'
      · exact (h n hn).1 h'
      · exact (h n hn).2 h'
  refine ⟨?_, ?_⟩
  · intro n hn j o hj hoe
    have hk := hkeep n hn o hoe (Or.inr (List.mem_of_getElem? hj))
    simp only [hk, and_false, if_false]
    have hargs : argVals (fun x => if x ≠ "" ∧ ∃ o ∈ names, alloc o = x then env x else e' x) n
        = argVals e' (cutNode names alloc n) := by
      unfold argVals; rw [cutNode_input]
      apply List.map_congr_left
      intro x hx
      unfold argVal
      split
      · rfl
      · rename_i hxe
        have := hkeep n hn x hxe (Or.inl hx)
        simp [this]
    rw [hargs]
    by_cases hg : n.isGraphInput = true
    · have h1 : cutNode names alloc n = n := by unfold cutNode; simp [hg]
      have := hs.1 n (List.mem_append_left _ (List.mem_map.2 ⟨n, hn, h1⟩)) j o hj hoe
      simpa [hg] using this
    · by_cases hon : o ∈ names
      · have hp : ({ name := o, op := "Placeholder", input := [], output := [o] } : Node) ∈ cutNodes names alloc ns := by
          refine List.mem_append_right _ (List.mem_flatMap.2 ⟨n, hn, ?_⟩)
          unfold cutHolders
          simp only [hg, Bool.false_eq_true, if_false, List.mem_map, List.mem_filter, decide_eq_true_eq]
          exact ⟨o, ⟨List.mem_of_getElem? hj, hon⟩, rfl⟩
        have := hs.1 _ hp 0 o rfl hoe
        rw [holder_gi, if_pos rfl] at this
        simp [hon, this]
      · have hmem : cutNode names alloc n ∈ cutNodes names alloc ns :=
          List.mem_append_left _ (List.mem_map.2 ⟨n, hn, rfl⟩)
        have hc : cutNode names alloc n = { n with output := n.output.map (fun o => if o ∈ names then alloc o else o) } := by
          unfold cutNode; simp [hg]
        have hj' : (cutNode names alloc n).output[j]? = some o := by
          rw [hc]; simp only [List.getElem?_map, hj, Option.map_some, if_neg hon]
        have := hs.1 _ hmem j o hj' hoe
        rw [cutNode_gi] at this
        simp only [hg, hon, or_self, if_false, Bool.false_eq_true] at this ⊢
        rw [this, hc]
  · intro x hx
    show (if x ≠ "" ∧ ∃ o ∈ names, alloc o = x then env x else e' x) = env x
    split
    · rfl
    · rename_i hnot
      refine hs.2 x ?_
      rcases hx with h | h
      · exact Or.inl h
      · by_cases hxe : x = ""
        · exact Or.inl hxe
        · refine Or.inr ?_
          intro m hm hxm
          rcases List.mem_append.1 hm with hm | hm
          · obtain ⟨n, hn, rfl⟩ := List.mem_map.1 hm
            rcases mem_cutNode_output hxm with h' | ⟨o, ho, _, rfl⟩
            · exact h n hn h'
            · exact hnot ⟨hxe, o, ho, rfl⟩
          · obtain ⟨n, hn, hmn⟩ := List.mem_flatMap.1 hm
            obtain ⟨o, ho, _, _, rfl⟩ := mem_cutHolders hmn
            simp at hxm; subst hxm
            exact h n hn ho

/-- A fed valuation is a valuation of the nodes with the fed outputs blanked out and placeholders for them. -/
theorem fed_to_blank {V : Type} {I : Interp V} {env e : String → V} {names : List String} {ns : List Node}
    (hs : SatFed I env e names ns) : Sat I env e (cutNodes names (fun _ => "") ns) := by
  refine ⟨?_, ?_⟩
  · intro m hm j o hj hoe
    rcases List.mem_append.1 hm with hm | hm
    · obtain ⟨n, hn, rfl⟩ := List.mem_map.1 hm
      by_cases hg : n.isGraphInput = true
      · have h1 : cutNode names (fun _ => "") n = n := by unfold cutNode; simp [hg]
        rw [h1] at hj ⊢
        have := hs.1 n hn j o hj hoe
        simpa [hg] using this
      · have hc : cutNode names (fun _ => "") n = { n with output := n.output.map (fun o => if o ∈ names then "" else o) } := by
          unfold cutNode; simp [hg]
        rw [cutNode_gi]
        rw [hc] at hj ⊢
        simp only [List.getElem?_map, Option.map_eq_some_iff] at hj
        obtain ⟨y, hy, hyo⟩ := hj
        split at hyo
        · exact (hoe hyo.symm).elim
        · rename_i hyn
          subst hyo
          have := hs.1 n hn j y hy hoe
          simp only [hg, hyn, or_self, if_false, Bool.false_eq_true] at this ⊢
          exact this
    · obtain ⟨n, hn, hmn⟩ := List.mem_flatMap.1 hm
      obtain ⟨y, hy, hyn, hg, rfl⟩ := mem_cutHolders hmn
      cases j with
      | succ j => simp at hj
      | zero =>
        simp at hj; subst hj
        rw [holder_gi, if_pos rfl]
        obtain ⟨k, hk⟩ := List.getElem?_of_mem hy
        have := hs.1 n hn k y hk hoe
        simpa [hyn] using this
  · intro x hx
    refine hs.2 x ?_
    rcases hx with h | h
    · exact Or.inl h
    · by_cases hxe : x = ""
      · exact Or.inl hxe
      refine Or.inr fun n hn hxn => ?_
      by_cases hg : n.isGraphInput = true
      · have h1 : cutNode names (fun _ => "") n = n := by unfold cutNode; simp [hg]
        exact h n (List.mem_append_left _ (List.mem_map.2 ⟨n, hn, h1⟩)) hxn
      · by_cases hxm : x ∈ names
        · refine h { name := x, op := "Placeholder", input := [], output := [x] } ?_ (by simp)
          refine List.mem_append_right _ (List.mem_flatMap.2 ⟨n, hn, ?_⟩)
          unfold cutHolders
          simp only [hg, Bool.false_eq_true, if_false, List.mem_map, List.mem_filter, decide_eq_true_eq]
          exact ⟨x, ⟨hxn, hxm⟩, rfl⟩
        · refine h _ (List.mem_append_left _ (List.mem_map.2 ⟨n, hn, rfl⟩)) ?_
          unfold cutNode
          simp only [hg, Bool.false_eq_true, if_false, List.mem_map]
          exact ⟨x, hxn, by simp [hxm]⟩

/-- Fed valuations are unique. -/
theorem satFed_unique {V : Type} {I : Interp V} {env e e' : String → V} {names : List String} {ns : List Node}
    (ha : Acyclic ns) (h : SatFed I env e names ns) (h' : SatFed I env e' names ns) : e = e' :=
  sat_unique (cut_acyclic (alloc := fun _ => "") ha (fun _ _ => Or.inl rfl)) (fed_to_blank h) (fed_to_blank h')

theorem cutNodes_nil (alloc : String → String) (ns : List Node) : cutNodes [] alloc ns = ns := by
  have h1 : ∀ n : Node, cutNode [] alloc n = n := by
    intro n; unfold cutNode; split
    · rfl
    · simp
  have h2 : ∀ n : Node, cutHolders [] n = [] := by
    intro n; unfold cutHolders; split <;> simp
  unfold cutNodes
  have e1 : ns.map (cutNode [] alloc) = ns := by
    rw [List.map_congr_left (g := id) (fun n _ => h1 n), List.map_id]
  rw [e1, List.flatMap_eq_nil_iff.2 (fun n _ => h2 n), List.append_nil]

theorem nodeList_of_heap {g : G} {ns : List Node} (h1 : g.heap = ns) (h2 : g.nodes = List.range ns.length) :
    g.nodeList = ns := by
  subst h1
  apply List.ext_getElem
  · simp [G.nodeList, h2]
  · intro i hi hi'
    simp [G.nodeList, h2, G.node, hi']

theorem dict_mem_set {β : Type} {d : Dict String β} {x : String} {b : β} {p : String × β} (h : p ∈ d.set x b) :
    p ∈ d ∨ p = (x, b) := by
  induction d with
  | nil => simpa [Dict.set] using h
  | cons a d ih =>
    obtain ⟨k, v⟩ := a
    simp only [Dict.set] at h
    split at h
    · rename_i e; subst e
      rcases List.mem_cons.1 h with h | h
      · exact Or.inr h
      · exact Or.inl (List.mem_cons_of_mem _ h)
    · rcases List.mem_cons.1 h with h | h
      · exact Or.inl (h ▸ List.mem_cons_self ..)
      · rcases ih h with h | h
        · exact Or.inl (List.mem_cons_of_mem _ h)
        · exact Or.inr h

theorem inputNodes_spec (ns : List Node) (p : String × Ref) (h : p ∈ inputNodes ns) :
    ∃ n, ns[(p.2 : Nat)]? = some n ∧ n.isGraphInput = true ∧ n.output.headD "" = p.1 := by
  unfold inputNodes at h
  have key : ∀ (l : List Nat) (d : Dict String Ref),
      (∀ p ∈ d, ∃ n, ns[(p.2 : Nat)]? = some n ∧ n.isGraphInput = true ∧ n.output.headD "" = p.1) →
      ∀ p ∈ (l.foldl (fun d r => match ns[r]? with
        | some n => if n.isGraphInput then d.set (n.output.headD "") r else d
        | none => d) d), ∃ n, ns[(p.2 : Nat)]? = some n ∧ n.isGraphInput = true ∧ n.output.headD "" = p.1 := by
    intro l
    induction l with
    | nil => exact fun d hd => hd
    | cons k l ih =>
      intro d hd
      rw [List.foldl_cons]
      apply ih
      intro p hx
      cases hk : ns[k]? with
      | none => rw [hk] at hx; exact hd p hx
      | some n =>
        rw [hk] at hx
        simp only at hx
        split at hx
        · rename_i hg
          rcases dict_mem_set hx with hx | rfl
          · exact hd p hx
          · exact ⟨n, hk, hg, rfl⟩
        · exact hd p hx
  exact key _ _ (by simp) p h

theorem lookupAll_spec {d : Dict String Ref} (xs : List String) {rs : List Ref} (h : lookupAll d xs = .ok rs) :
    rs.length = xs.length ∧ ∀ (i : Nat) r, rs[i]? = some r → ∃ x, xs[i]? = some x ∧ d.get x = some r := by
  induction xs generalizing rs with
  | nil => cases h; simp
  | cons x xs ih =>
    simp only [lookupAll] at h
    split at h
    · cases h
    · rename_i r hr
      simp only [bind, Except.bind] at h
      split at h
      · cases h
      · rename_i rs' hrs
        cases h
        obtain ⟨h1, h2⟩ := ih hrs
        refine ⟨by simp [h1], ?_⟩
        intro i q hq
        cases i with
        | zero => simp at hq; subst hq; exact ⟨x, by simp, hr⟩
        | succ i => simp at hq; simpa using h2 i q hq

/-- The generated names are new for the node list: not the name of a tensor, not an output, pairwise distinct. -/
structure NewNamesFor (ns : List Node) (wraps : List (String × String × String)) : Prop where
  new : ∀ w ∈ wraps, w.2.1 ≠ "" ∧ w.2.1 ∉ wraps.map (·.1) ∧ ∀ n ∈ ns, w.2.1 ∉ n.input ∧ w.2.1 ∉ n.output
  distinct : (wraps.map (·.2.1)).Nodup
  ids : ∀ w ∈ wraps, w.2.2 ≠ ""

theorem load_wrap_spec {ns : List Node} {inputs : List Ref} {wraps : List (String × String × String)} {g g' : G}
    (hn : WellNamed ns) (ha : Acyclic ns) (hout : ∀ w ∈ wraps, w.1 ≠ "") (hnew : NewNamesFor ns wraps)
    (hin : ∀ r ∈ inputs, ∃ n, ns[(r : Nat)]? = some n ∧ n.isGraphInput = true)
    (h : G.load ns inputs (wraps.map Prod.fst) [] [] = .ok g) (h' : g.wrapOutputs wraps = .ok g') :
    Reachable g' ∧ g'.outputs = wraps.map (·.1) ∧
    (∀ o ∈ g'.outputs, ∃ r ∈ g'.nodes, o ∈ (g'.node r).output ∧ ∀ q ∈ g'.nodes, o ∈ (g'.node q).output → q = r) ∧
    g'.inputs.map (fun r => (g'.node r).output) = inputs.map (fun r => ((ns[(r : Nat)]?).getD noNode).output) ∧
    ∀ V I, IdentityLaw V I → ∀ env out, Computes I g' env out ↔ ∃ e, Sat I env e ns ∧ out = (wraps.map (·.1)).map e := by
  obtain ⟨hw, -, hheap, hnodes, hinputs, houtputs⟩ := load_spec hn h
  have hreach : Reachable g := .load hn h
  have hnl := nodeList_of_heap hheap hnodes
  have hnode : ∀ r : Nat, g.node r = (ns[r]?).getD noNode := by intro r; simp [G.node, hheap]
  have hmemn : ∀ r ∈ g.nodes, g.node r ∈ ns := by
    intro r hr; rw [← hnl]; exact mem_nodeList.2 ⟨r, hr, rfl⟩
  obtain ⟨ρ, hρ⟩ := Acyclic.ranked hw (hnl ▸ ha)
  have hv : WInv ρ g := ⟨hreach, hρ, by
    intro r hr
    rw [hinputs] at hr
    obtain ⟨n, h1, h2⟩ := hin r hr
    rw [hnode, h1]; exact h2⟩
  have hnn : NewNames g wraps := by
    refine ⟨fun w hw => ?_, hnew.distinct, hnew.ids⟩
    obtain ⟨h1, h2, h3⟩ := hnew.new w hw
    exact ⟨h1, by rw [houtputs]; exact h2, fun r hr => h3 _ (hmemn r hr)⟩
  obtain ⟨ρ', hv', hs, hp⟩ := wrapOutputs_spec wraps hv (fun w hw => by
    rw [houtputs]; exact ⟨List.mem_map.2 ⟨w, hw, rfl⟩, hout w hw⟩) hnn h'
  have ho : g'.outputs = wraps.map (·.1) := hs.outputs.trans houtputs
  refine ⟨hv'.reach, ho, ?_, ?_, ?_⟩
  · intro o hoo
    rw [ho] at hoo
    have hone : o ≠ "" := by
      obtain ⟨w, hw, rfl⟩ := List.mem_map.1 hoo; exact hout w hw
    have : ∃ r ∈ g.nodes, o ∈ (g.node r).output := by
      have hchk : (g.outToName.get o).isNone = false := by
        unfold G.load G.resetNodes at h
        simp only at h
        split at h
        · cases h
        · split at h
          · cases h
          · rename_i hany
            cases h
            simp only [List.any_eq_true, not_exists, not_and, Bool.not_eq_true] at hany
            exact hany o hoo
      cases hg : g.outToName.get o with
      | none => rw [hg] at hchk; cases hchk
      | some nm =>
        obtain ⟨r, hr, _, hx⟩ := (hw.outs o nm hone).1 hg
        exact ⟨r, hr, hx⟩
    obtain ⟨r, hr, hx⟩ := hp o this
    exact ⟨r, hr, hx, fun q hq hxq => hv'.reach.wf.out_inj hone hq hr hxq hx⟩
  · rw [hs.inputs, hinputs]
    apply List.map_congr_left
    intro r _
    rw [hnode]
  · intro V I hI env out
    rw [hs.values V I hI env out]
    unfold Computes
    rw [hnl, houtputs]

/-- Building a `Graph` for a list of output names (and, optionally, of input names): the graph's outputs are those
names in that order; each is produced by exactly one node; the graph inputs carry the requested names; and the values
under the output names are the ones the original node list computes, with the tensors named as inputs fed. -/
theorem constructor_preserves_outputs {ns : List Node} {inputNames : Option (List String)} {alloc : String → String}
    {wraps : List (String × String × String)} {g' : G}
    (hn : WellNamed (cutNodes (inputNames.getD []) alloc ns)) (ha : Acyclic ns) (hne : "" ∉ inputNames.getD [])
    (halloc : ∀ o ∈ inputNames.getD [], alloc o ≠ "" ∧ alloc o ∉ wraps.map (·.1) ∧
      ∀ n ∈ ns, alloc o ∉ n.input ∧ alloc o ∉ n.output)
    (hout : ∀ w ∈ wraps, w.1 ≠ "") (hnew : NewNamesFor (cutNodes (inputNames.getD []) alloc ns) wraps)
    (h : G.construct ns inputNames alloc wraps = .ok g') :
    g'.outputs = wraps.map (·.1) ∧
    (∀ o ∈ g'.outputs, ∃ r ∈ g'.nodes, o ∈ (g'.node r).output ∧ ∀ q ∈ g'.nodes, o ∈ (g'.node q).output → q = r) ∧
    (∀ names, inputNames = some names → g'.inputs.map (fun r => (g'.node r).output.headD "") = names) ∧
    ∀ V I, IdentityLaw V I → ∀ env out, Computes I g' env out ↔
      ∃ e, SatFed I env e (inputNames.getD []) ns ∧ out = (wraps.map (·.1)).map e := by
  have hac : Acyclic (cutNodes (inputNames.getD []) alloc ns) :=
    cut_acyclic ha (fun o ho => Or.inr fun n hn => ((halloc o ho).2.2 n hn).1)
  obtain ⟨inputs, g, hin, hnames, hl, hwr⟩ : ∃ inputs g,
      (∀ r ∈ inputs, ∃ n, (cutNodes (inputNames.getD []) alloc ns)[(r : Nat)]? = some n ∧ n.isGraphInput = true) ∧
      (∀ names, inputNames = some names → inputs.map (fun r =>
        (((cutNodes (inputNames.getD []) alloc ns)[(r : Nat)]?).getD noNode).output.headD "") = names) ∧
      G.load (cutNodes (inputNames.getD []) alloc ns) inputs (wraps.map Prod.fst) [] [] = .ok g ∧
      g.wrapOutputs wraps = .ok g' := by
    unfold G.construct at h
    split at h
    · simp only [bind, Except.bind] at h
      split at h
      · cases h
      · rename_i g hg
        refine ⟨(inputNodes ns).map Prod.snd, g, ?_, (fun _ hc => by cases hc), by rw [Option.getD_none, cutNodes_nil]; exact hg, h⟩
        intro r hr
        obtain ⟨p, hp, rfl⟩ := List.mem_map.1 hr
        obtain ⟨n, h1, h2, _⟩ := inputNodes_spec ns p hp
        rw [Option.getD_none, cutNodes_nil]
        exact ⟨n, h1, h2⟩
    · rename_i names
      simp only [bind, Except.bind] at h
      split at h
      · cases h
      · rename_i inputs hinp
        split at h
        · cases h
        · rename_i g hg
          obtain ⟨hlen, hget⟩ := lookupAll_spec _ hinp
          refine ⟨inputs, g, ?_, ?_, hg, h⟩
          · intro r hr
            obtain ⟨i, hi⟩ := List.getElem?_of_mem hr
            obtain ⟨x, _, hx⟩ := hget i r hi
            obtain ⟨n, h1, h2, _⟩ := inputNodes_spec _ _ (Dict.get_eq_some_mem hx)
            exact ⟨n, h1, h2⟩
          · intro names' e
            cases e
            apply List.ext_getElem?
            intro i
            rw [List.getElem?_map]
            cases hi : inputs[i]? with
            | none =>
              rw [List.getElem?_eq_none_iff] at hi
              rw [Option.map_none, eq_comm, List.getElem?_eq_none_iff]; omega
            | some r =>
              obtain ⟨x, hx1, hx⟩ := hget i r hi
              obtain ⟨n, h1, _, h3⟩ := inputNodes_spec _ _ (Dict.get_eq_some_mem hx)
              rw [Option.map_some, hx1]
              simp only at h1 h3
              simp only [Option.getD_some]
              rw [h1]
              simpa using h3
  obtain ⟨-, h1, h2, h3, h4⟩ := load_wrap_spec hn hac hout hnew hin hl hwr
  refine ⟨h1, h2, ?_, ?_⟩
  · intro names e
    rw [← hnames names e]
    have := congrArg (List.map (fun l : List String => l.headD "")) h3
    rw [List.map_map, List.map_map] at this
    exact this
  · intro V I hI env out
    rw [h4 V I hI env out]
    have hne' : ∀ e' : String → V, Sat I env e' (cutNodes (inputNames.getD []) alloc ns) →
        ∃ e, SatFed I env e (inputNames.getD []) ns ∧ ∀ o ∈ wraps.map (·.1), e o = e' o := by
      intro e' he'
      refine ⟨_, cut_to_fed hne (fun o ho => Or.inr (halloc o ho).2.2) he', ?_⟩
      intro o ho
      have : ¬ (o ≠ "" ∧ ∃ x ∈ inputNames.getD [], alloc x = o) := by
        rintro ⟨_, x, hx, rfl⟩; exact (halloc x hx).2.1 ho
      simp only [if_neg this]
    constructor
    · rintro ⟨e', he', rfl⟩
      obtain ⟨e, he, hee⟩ := hne' e' he'
      exact ⟨e, he, List.map_congr_left (fun o ho => (hee o ho).symm)⟩
    · rintro ⟨e, he, rfl⟩
      obtain ⟨e', he'⟩ := sat_exists (I := I) (env := env) (ns := cutNodes (inputNames.getD []) alloc ns) hn.outs hac
      obtain ⟨e2, he2, hee⟩ := hne' e' he'
      have := satFed_unique ha he he2
      subst this
      exact ⟨e', he', List.map_congr_left (fun o ho => hee o ho)⟩

/-- A two-output node whose first output is read internally and is a graph output listed twice; `"mid"` is an
intermediate tensor named as an input. -/
def constructNodes : List Node :=
  [{ name := "p", op := "Placeholder", input := [], output := ["x"] },
   { name := "m", op := "Relu", input := ["x"], output := ["mid"] },
   { name := "s", op := "Split", input := ["mid"], output := ["a", "b"] },
   { name := "t", op := "Add", input := ["a", "b"], output := ["c"] }]

def constructWraps : List (String × String × String) :=
  [("a", "s_raw__1:0", "id1"), ("c", "t_raw__2:0", "id2"), ("a", "s_raw__3:0", "id3")]

example : ∃ g', G.construct constructNodes (some ["mid"]) (fun _ => "@@ALLOC__1") constructWraps = .ok g' ∧
    g'.outputs = ["a", "c", "a"] ∧ g'.nodes.length = 8 := ⟨_, rfl, by decide⟩

example : WellNamed (cutNodes ["mid"] (fun _ => "@@ALLOC__1") constructNodes) ∧ Acyclic constructNodes :=
  ⟨⟨by decide, by decide, by decide⟩, ⟨constructNodes, .refl _, by simp [constructNodes, Executable]⟩⟩

example : NewNamesFor (cutNodes ["mid"] (fun _ => "@@ALLOC__1") constructNodes) constructWraps :=
  ⟨by decide, by decide, by decide⟩

end Verif.Graph
