import Verif.Model.ControlFlow
import Verif.Spec.ControlFlow
import Verif.Props.HandlerKit
/-!
# `prefix_graph`: the copy of a function graph with new names (used by C50)
-/
namespace Verif.Graph
open Verif

/-- The name a tensor gets from a list of renamings. -/
def renBy (D : List (String × String)) (x : String) : String := (Dict.get D x).getD x

/-- Old and new names of the outputs of a node. -/
def copyPairs (scope : String) (n : Node) : List (String × String) := n.output.zip (ports (scopedName scope n.name) n.output.length)

/-- The copy of a node: new name, new names for tensors, no domain. -/
def Node.copy (scope : String) (ren : String → String) (n : Node) : Node :=
  ⟨scopedName scope n.name, n.op, "", n.attr, n.input.map ren, ports (scopedName scope n.name) n.output.length⟩

/-- The copies of nodes: each reads under the names given so far. -/
def copies (scope : String) : List (String × String) → List Node → List Node
  | _, [] => []
  | D, n :: ns => n.copy scope (renBy D) :: copies scope (D ++ copyPairs scope n) ns

theorem copies_append (scope : String) (D : List (String × String)) (a b : List Node) :
    copies scope D (a ++ b) = copies scope D a ++ copies scope (D ++ a.flatMap (copyPairs scope)) b := by
  induction a generalizing D with
  | nil => simp [copies]
  | cons n a ih => simp [copies, ih]

/-! ## Names -/

theorem length_ports (name : String) (k : Nat) : (ports name k).length = k := by simp [ports]

theorem toString_nat_inj {i j : Nat} (h : toString i = toString j) : i = j := by
  have h2 : Nat.toDigits 10 i = Nat.toDigits 10 j := by
    have := congrArg String.toList h
    simpa using this
  have h3 := congrArg (fun l => Nat.ofDigitChars 10 l 0) h2
  simpa using h3

theorem nodup_ports (name : String) (k : Nat) : (ports name k).Nodup := by
  unfold ports
  refine List.Nodup.map ?_ List.nodup_range
  intro i j h
  have : toString i = toString j := by
    have := congrArg String.toList h
    simp only [String.toList_append] at this
    exact String.toList_injective (List.append_cancel_left this)
  exact toString_nat_inj this

theorem port_ne {name x : String} {k : Nat} (h : x ∈ ports name k) : x ≠ "" := by
  simp only [ports, List.mem_map] at h
  obtain ⟨i, _, rfl⟩ := h
  intro e
  have := congrArg String.length e
  simp at this

theorem renBy_nil (x : String) : renBy [] x = x := rfl

theorem get_append {D E : List (String × String)} {x : String} :
    Dict.get (D ++ E : List (String × String)) x = (Dict.get D x).or (Dict.get E x) := by
  induction D with
  | nil => simp [Dict.get]
  | cons p D ih =>
    obtain ⟨a, b⟩ := p
    show Dict.get ((a, b) :: (D ++ E)) x = _
    simp only [Dict.get]
    split
    · simp
    · exact ih

theorem get_none {D : List (String × String)} {x : String} : Dict.get D x = none ↔ ∀ p ∈ D, p.1 ≠ x := by
  induction D with
  | nil => simp
  | cons p D ih =>
    obtain ⟨a, b⟩ := p
    simp only [Dict.get, List.mem_cons, forall_eq_or_imp]
    split
    · rename_i h; simp [h]
    · rename_i h; simp [h, ih]

theorem get_mem {D : List (String × String)} {x y : String} (h : Dict.get D x = some y) : (x, y) ∈ D := by
  induction D with
  | nil => simp at h
  | cons p D ih =>
    obtain ⟨a, b⟩ := p
    simp only [Dict.get] at h
    split at h
    · rename_i e; cases h; subst e; simp
    · exact List.mem_cons_of_mem _ (ih h)

theorem renBy_fixed {D : List (String × String)} {x : String} (h : ∀ p ∈ D, p.1 ≠ x) : renBy D x = x := by
  simp [renBy, get_none.2 h]

theorem renBy_cases (D : List (String × String)) (x : String) : renBy D x = x ∨ ∃ p ∈ D, p.1 = x ∧ renBy D x = p.2 := by
  unfold renBy
  cases h : Dict.get D x with
  | none => simp
  | some y => exact Or.inr ⟨(x, y), get_mem h, rfl, rfl⟩

/-- Renaming one pair after the other. -/
def seqRen (ps : List (String × String)) (y : String) : String := ps.foldl (fun y p => if y = p.1 then p.2 else y) y

theorem seqRen_eq {ps : List (String × String)} {O : String → Prop} (h1 : ∀ p ∈ ps, O p.1) (h2 : ∀ p ∈ ps, ¬ O p.2) (y : String) :
    seqRen ps y = renBy ps y := by
  have hstay : ∀ (ps : List (String × String)), (∀ p ∈ ps, O p.1) → ∀ z, ¬ O z → seqRen ps z = z := by
    intro ps hps z hz
    induction ps with
    | nil => rfl
    | cons p ps ih =>
      have : z ≠ p.1 := fun e => hz (e ▸ hps p (by simp))
      simp only [seqRen, List.foldl_cons, this, if_false]
      exact ih (fun q hq => hps q (by simp [hq]))
  induction ps with
  | nil => rfl
  | cons p ps ih =>
    have ih := ih (fun q hq => h1 q (by simp [hq])) (fun q hq => h2 q (by simp [hq]))
    obtain ⟨a, b⟩ := p
    simp only [seqRen, List.foldl_cons]
    by_cases e : y = a
    · subst e
      simp only [if_true, renBy, Dict.get, Option.getD_some]
      exact hstay ps (fun q hq => h1 q (by simp [hq])) b (h2 (y, b) (by simp))
    · have e' : a ≠ y := Ne.symm e
      simp only [e, if_false, renBy, Dict.get, e']
      exact ih

theorem renBy_append {D E : List (String × String)} {O : String → Prop} (h1 : ∀ p ∈ E, O p.1) (h2 : ∀ p ∈ D, ¬ O p.2) (x : String) :
    renBy E (renBy D x) = renBy (D ++ E) x := by
  rcases hx : Dict.get D x with _ | y
  · have : renBy D x = x := by simp [renBy, hx]
    rw [this]
    simp [renBy, get_append, hx]
  · have hy := h2 _ (get_mem hx)
    have : renBy D x = y := by simp [renBy, hx]
    rw [this, renBy_fixed (fun p hp e => hy (by simpa using e ▸ h1 p hp))]
    simp [renBy, get_append, hx]

theorem renameFirst_not_mem {old new : String} {l : List String} (h : old ∉ l) : renameFirst old new l = l := by
  induction l with
  | nil => rfl
  | cons a l ih =>
    simp only [List.mem_cons, not_or] at h
    simp [renameFirst, Ne.symm h.1, ih h.2]

theorem renameFirst_map {old new : String} {l : List String} {f : String → String} (hn : l.Nodup) (h : ∀ x, f x = old → x = old) :
    renameFirst old new (l.map f) = l.map (fun x => if f x = old then new else f x) := by
  induction l with
  | nil => rfl
  | cons a l ih =>
    rw [List.nodup_cons] at hn
    simp only [List.map_cons, renameFirst]
    split
    · rename_i e
      congr 1
      apply List.map_congr_left
      intro x hx
      have : f x ≠ old := fun e' => hn.1 (by rw [h a e, ← h x e']; exact hx)
      simp [this]
    · rw [ih hn.2]

/-! ## The loop over the outputs of a node -/

/-- The part of the graph renaming leaves alone. -/
structure Frame (g g' : G) : Prop where
  len : g'.heap.length = g.heap.length
  nodes : g'.nodes = g.nodes
  byName : g'.byName = g.byName
  outToName : g'.outToName = g.outToName
  name : ∀ r, (g'.node r).name = (g.node r).name
  output : ∀ r, (g'.node r).output = (g.node r).output
  inputs : g'.inputs = g.inputs

theorem Frame.refl (g : G) : Frame g g := ⟨rfl, rfl, rfl, rfl, fun _ => rfl, fun _ => rfl, rfl⟩

theorem Frame.trans {a b c : G} (h : Frame a b) (h' : Frame b c) : Frame a c :=
  ⟨h'.len.trans h.len, h'.nodes.trans h.nodes, h'.byName.trans h.byName, h'.outToName.trans h.outToName,
   fun r => (h'.name r).trans (h.name r), fun r => (h'.output r).trans (h.output r), h'.inputs.trans h.inputs⟩

theorem Same.frame {g g' : G} (h : Same g g') : Frame g g' := ⟨h.len, h.nodes, h.byName, h.outToName, h.name, h.output, h.inputs⟩

theorem Frame.wf {g g' : G} (h : WF g) (s : Frame g g') : WF g' where
  valid := by rw [s.nodes, s.len]; exact h.valid
  nodup := by rw [s.nodes]; exact h.nodup
  nameNe := by simp only [s.nodes, s.name]; exact h.nameNe
  byName := by simp only [s.nodes, s.name, s.byName]; exact h.byName
  outs := by simp only [s.nodes, s.name, s.output, s.outToName]; exact h.outs
  outNodup := by simp only [s.nodes, s.output]; exact h.outNodup

theorem prefixOutputs_spec {ops : List Ref} (ps : List (String × String)) {g g' : G} (hw : WF g) (hops : ∀ r ∈ ops, r ∈ g.nodes)
    {O : String → Prop} (h1 : ∀ p ∈ ps, O p.1) (h2 : ∀ p ∈ ps, ¬ O p.2) {f : String → String} (hf : ∀ x, O (f x) → f x = x)
    {l : List String} (hl : l.Nodup) (ho : g.outputs = l.map f) {N : Ref → Node} (hN : ∀ r ∈ ops, g.node r = (N r).mapIn f)
    (h : G.prefixOutputs ops ps g = .ok g') :
    Frame g g' ∧ g'.outputs = l.map (fun x => seqRen ps (f x)) ∧ (∀ r ∈ ops, g'.node r = (N r).mapIn (fun x => seqRen ps (f x))) ∧
      (∀ r, r ∉ ops → g'.node r = g.node r) ∧ (Idx g → Idx g') := by
  induction ps generalizing g f with
  | nil => simp [G.prefixOutputs] at h; subst h; exact ⟨.refl _, ho, hN, fun _ _ => rfl, id⟩
  | cons p ps ih =>
    obtain ⟨old, new⟩ := p
    simp only [G.prefixOutputs, bind, Except.bind] at h
    split at h
    · cases h
    rename_i g1 hg1
    have hO := h1 (old, new) (by simp)
    have hO' := h2 (old, new) (by simp)
    have hfr : Frame g { g with outputs := renameFirst old new g.outputs } := ⟨rfl, rfl, rfl, rfl, fun _ => rfl, fun _ => rfl, rfl⟩
    obtain ⟨a1, a2, a3, a4⟩ := replaceAllInputs_spec (hfr.wf hw) (by intro l hl; cases hl; exact hops) hg1
    have hfr1 := hfr.trans a1.frame
    have hstep : ∀ x, seqRen ps (if f x = old then new else f x) = seqRen ((old, new) :: ps) (f x) := fun x => rfl
    have hnode : ∀ r, G.node { g with outputs := renameFirst old new g.outputs } r = g.node r := fun r => rfl
    obtain ⟨b1, b2, b3, b4, b5⟩ := ih (f := fun x => if f x = old then new else f x) (g := g1) (hfr1.wf hw)
      (fun r hr => by rw [hfr1.nodes]; exact hops r hr)
      (fun q hq => h1 q (by simp [hq])) (fun q hq => h2 q (by simp [hq]))
      (by
        intro x hx
        by_cases e : f x = old
        · simp only [e, if_true] at hx; exact (hO' hx).elim
        · simp only [e, if_false] at hx ⊢; exact hf x hx)
      (by
        rw [a1.outputs]
        show renameFirst old new g.outputs = _
        rw [ho]
        exact renameFirst_map hl (fun x hx => by rw [← hx]; exact (hf x (by rw [hx]; exact hO)).symm))
      (by
        intro r hr
        rw [a2 r]
        simp only [Option.getD_some, hr, if_true, hnode]
        rw [hN r hr, Node.redirect_mapIn])
      h
    refine ⟨hfr1.trans b1, ?_, ?_, ?_, fun hi => b5 (a3 (hi.congr rfl rfl (fun _ => rfl)))⟩
    · rw [b2]; apply List.map_congr_left; intro x _; exact hstep x
    · intro r hr; rw [b3 r hr]; simp only [hstep]
    · intro r hr; rw [b4 r hr, a2 r]; simp only [Option.getD_some, hr, if_false, hnode]

theorem copyPorts_spec {src : G} (ps : List (String × String)) {g g' : G} (h : G.copyPorts src ps g = .ok g') :
    Same g g' ∧ g'.heap = g.heap ∧ g'.consumers = g.consumers := by
  induction ps generalizing g with
  | nil => simp [G.copyPorts] at h; subst h; exact ⟨.refl _, rfl, rfl⟩
  | cons p ps ih =>
    obtain ⟨a, b⟩ := p
    simp only [G.copyPorts, bind, Except.bind] at h
    split at h
    · cases h
    rename_i g1 hg1
    obtain ⟨a1, a2, a3, -⟩ := copyInfo_spec hg1
    obtain ⟨b1, b2, b3⟩ := ih h
    exact ⟨a1.trans b1, b2.trans a2, b3.trans a3⟩

theorem Same.heap_node {g g' : G} (h : g'.heap = g.heap) (r : Ref) : g'.node r = g.node r := by simp only [G.node, h]

theorem Made.self {g g' : G} {r : Ref} {n : Node} (m : Made g g' r n) : g'.node r = n := by
  simp [G.node, m.heap, m.ref]

theorem map_renBy_zip {l k : List String} (hn : l.Nodup) (hlen : k.length = l.length) : l.map (renBy (l.zip k)) = k := by
  induction l generalizing k with
  | nil => cases k <;> simp_all
  | cons a l ih =>
    cases k with
    | nil => simp at hlen
    | cons b k =>
      rw [List.nodup_cons] at hn
      simp only [List.zip_cons_cons, List.map_cons]
      congr 1
      · simp [renBy, Dict.get]
      · refine Eq.trans ?_ (ih (k := k) hn.2 (by simpa using hlen))
        apply List.map_congr_left
        intro x hx
        have : a ≠ x := fun e => hn.1 (e ▸ hx)
        simp [renBy, Dict.get, this]

theorem executable_mid {a b : List Node} {n : Node} (h : Executable (a ++ n :: b)) :
    (∀ i ∈ n.input, i ≠ "" → i ∉ n.output) ∧ ∀ m ∈ a, ∀ i ∈ m.input, i ≠ "" → i ∉ n.output := by
  induction a with
  | nil => exact ⟨fun i hi hne => h.1 i hi hne n (by simp), by simp⟩
  | cons c a ih =>
    obtain ⟨h1, h2⟩ := ih h.2
    refine ⟨h1, ?_⟩
    intro m hm i hi hne
    rcases List.mem_cons.1 hm with rfl | hm
    · exact h.1 i hi hne n (by simp)
    · exact h2 m hm i hi hne

/-- The nodes `prefix_graph` copies. -/
def G.inner (g : G) (l : List Ref) : List Ref := l.filter (fun r => !(g.node r).isGraphInput)

/-- All renamings made for the nodes `l`. -/
def G.renamings (g : G) (scope : String) (l : List Ref) : List (String × String) := (g.inner l).flatMap (fun r => copyPairs scope (g.node r))

/-- In the middle of `prefix_graph`: the nodes `dn` have been copied. -/
structure PInv (g0 : G) (scope : String) (dn : List Ref) (g : G) : Prop where
  wf : WF g
  idx : Idx g0 → Idx g
  nodes : ∃ R, g.nodes = g0.nodes ++ R ∧
    R.map g.node = copies scope [] ((g0.inner dn).map g0.node)
  old : ∀ r ∈ g0.nodes, g.node r = (g0.node r).mapIn (renBy (g0.renamings scope dn))
  outputs : g.outputs = g0.outputs.map (renBy (g0.renamings scope dn))
  inputs : g.inputs = g0.inputs
  fresh : ∀ p ∈ g0.renamings scope dn, ∀ r ∈ g0.nodes, p.2 ∉ (g0.node r).output
  made : ∀ p ∈ g0.renamings scope dn, ∃ q ∈ g.nodes, p.2 ∈ (g.node q).output
  sndNodup : ((g0.renamings scope dn).map Prod.snd).Nodup

theorem mem_copyPairs {scope : String} {n : Node} {p : String × String} (h : p ∈ copyPairs scope n) :
    p.1 ∈ n.output ∧ p.2 ∈ ports (scopedName scope n.name) n.output.length :=
  ⟨(List.of_mem_zip h).1, (List.of_mem_zip h).2⟩

theorem mem_renamings {g : G} {scope : String} {l : List Ref} {p : String × String} (h : p ∈ g.renamings scope l) :
    ∃ r ∈ l, (g.node r).isGraphInput = false ∧ p ∈ copyPairs scope (g.node r) := by
  simp only [G.renamings, G.inner, List.mem_flatMap, List.mem_filter] at h
  obtain ⟨r, ⟨h1, h2⟩, h3⟩ := h
  exact ⟨r, h1, by simpa using h2, h3⟩

theorem scopedName_ne {scope name : String} (h : name ≠ "") : scopedName scope name ≠ "" := by
  unfold scopedName
  split
  · exact h
  · intro e
    have := congrArg String.length e
    simp at this

theorem Node.mapIn_isGraphInput (n : Node) (f : String → String) : (n.mapIn f).isGraphInput = n.isGraphInput := rfl

theorem PInv.step {g0 : G} (hw0 : WF g0) (hl : g0.outputs.Nodup) {scope : String} {dn todo : List Ref} {r : Ref}
    (hsplit : g0.nodes = dn ++ r :: todo) {g g' : G} (hi : PInv g0 scope dn g) (hin : (g0.node r).isGraphInput = false)
    {g1 g2 : G} {r1 : Ref}
    (hm : g.makeNode (g.node r).op (g.node r).input (scopedName scope (g.node r).name)
      (ports (scopedName scope (g.node r).name) (g.node r).output.length) (g.node r).attr = .ok (g1, r1))
    (hcp : G.copyPorts g ((g.node r).output.zip (ports (scopedName scope (g.node r).name) (g.node r).output.length)) g1 = .ok g2)
    (hpo : G.prefixOutputs g0.nodes ((g.node r).output.zip (ports (scopedName scope (g.node r).name) (g.node r).output.length)) g2 = .ok g') :
    PInv g0 scope (dn ++ [r]) g' := by
  have hrmem : r ∈ g0.nodes := by rw [hsplit]; simp
  have hnd := hw0.nodup
  rw [hsplit] at hnd
  have hrdn : r ∉ dn := by
    intro h
    rw [List.nodup_append] at hnd
    exact hnd.2.2 r h r (by simp) rfl
  have hnr := hi.old r hrmem
  rw [hnr] at hm hcp hpo
  simp only [Node.mapIn] at hm hcp hpo
  change G.copyPorts g (copyPairs scope (g0.node r)) g1 = .ok g2 at hcp
  change G.prefixOutputs g0.nodes (copyPairs scope (g0.node r)) g2 = .ok g' at hpo
  have made := makeNode_made hm
  have hw1 : WF g1 := made.wf hi.wf (scopedName_ne (hw0.nameNe r hrmem)) ((nodup_ports _ _).filter _)
  obtain ⟨c1, c2, c3⟩ := copyPorts_spec _ hcp
  have hw2 : WF g2 := c1.wf hw1
  obtain ⟨R, hR1, hR2⟩ := hi.nodes
  have hr1 : r1 ∉ g0.nodes := by
    intro h
    have := hi.wf.valid r1 (by rw [hR1]; simp [h])
    rw [made.ref] at this; exact Nat.lt_irrefl _ this
  have hold1 : ∀ q ∈ g.nodes, g2.node q = g.node q := by
    intro q hq
    rw [Same.heap_node c2]
    exact node_append_lt (hi.wf.valid q hq) _ _ made.heap
  -- new names are not names of the old graph
  have hfresh : ∀ p ∈ copyPairs scope (g0.node r), ∀ q ∈ g0.nodes, p.2 ∉ (g0.node q).output := by
    intro p hp q hq hmem
    have hport := (mem_copyPairs hp).2
    have hne := port_ne hport
    have hno := made.freshOut p.2 hport
    have hqg : q ∈ g.nodes := by rw [hR1]; simp [hq]
    have := (hi.wf.getNodeByOutput hne q).2 ⟨hqg, by rw [hi.old q hq]; exact hmem⟩
    rw [this] at hno; cases hno
  have hD : g0.renamings scope (dn ++ [r]) = g0.renamings scope dn ++ copyPairs scope (g0.node r) := by
    simp [G.renamings, G.inner, hin]
  let O : String → Prop := fun x => ∃ q ∈ g0.nodes, x ∈ (g0.node q).output
  have hO1 : ∀ p ∈ copyPairs scope (g0.node r), O p.1 := fun p hp => ⟨r, hrmem, (mem_copyPairs hp).1⟩
  have hO2 : ∀ p ∈ copyPairs scope (g0.node r), ¬ O p.2 := by
    rintro p hp ⟨q, hq, hm⟩; exact hfresh p hp q hq hm
  have hDO : ∀ p ∈ g0.renamings scope dn, ¬ O p.2 := by
    rintro p hp ⟨q, hq, hm⟩; exact hi.fresh p hp q hq hm
  have hops : ∀ q ∈ g0.nodes, q ∈ g2.nodes := by
    intro q hq; rw [c1.nodes, made.nodes, hR1]; simp [hq]
  obtain ⟨d1, d2, d3, d4, d5⟩ := prefixOutputs_spec (copyPairs scope (g0.node r)) hw2 hops hO1 hO2
    (f := renBy (g0.renamings scope dn))
    (by
      intro x hx
      rcases renBy_cases (g0.renamings scope dn) x with h | ⟨p, hp, _, h⟩
      · exact h
      · rw [h] at hx; exact (hDO p hp hx).elim)
    hl (by rw [c1.outputs, made.outputs, hi.outputs]) (N := g0.node)
    (by intro q hq; rw [hold1 q (by rw [hR1]; simp [hq])]; exact hi.old q hq) hpo
  have hren : ∀ x, seqRen (copyPairs scope (g0.node r)) (renBy (g0.renamings scope dn) x) = renBy (g0.renamings scope (dn ++ [r])) x := by
    intro x
    rw [seqRen_eq hO1 hO2, renBy_append hO1 hDO, hD]
  have hRnot : ∀ q ∈ R, q ∉ g0.nodes := by
    intro q hq h
    have := hi.wf.nodup
    rw [hR1, List.nodup_append] at this
    exact this.2.2 q h q hq rfl
  refine
    { wf := d1.wf hw2
      idx := fun h0 => d5 (((made.idx hi.wf (hi.idx h0))).congr c2 c1.nodes (fun i => by simp only [G.cons, c3]))
      nodes := ⟨R ++ [r1], by rw [d1.nodes, c1.nodes, made.nodes, hR1]; simp, ?_⟩
      old := ?_
      outputs := by rw [d2]; exact List.map_congr_left (fun x _ => hren x)
      inputs := by rw [d1.inputs, c1.inputs, made.inputs, hi.inputs]
      fresh := ?_
      made := ?_
      sndNodup := ?_ }
  · have hin' : g0.inner (dn ++ [r]) = g0.inner dn ++ [r] := by simp [G.inner, hin]
    rw [hin', List.map_append, List.map_append, copies_append]
    congr 1
    · rw [show R.map g'.node = R.map g.node from List.map_congr_left (fun q hq => by
        rw [d4 q (hRnot q hq), hold1 q (by rw [hR1]; simp [hq])]), hR2]
    · simp only [List.map_cons, List.map_nil, copies]
      rw [d4 r1 hr1, Same.heap_node c2]
      rw [made.self]
      simp [Node.copy, G.renamings, List.flatMap_map]
  · intro q hq
    rw [d3 q hq]
    simp only [hren]
  · intro p hp q hq
    rw [hD] at hp
    rcases List.mem_append.1 hp with hp | hp
    · exact hi.fresh p hp q hq
    · exact hfresh p hp q hq
  · intro p hp
    rw [hD] at hp
    rcases List.mem_append.1 hp with hp | hp
    · obtain ⟨q, hq, hm⟩ := hi.made p hp
      refine ⟨q, by rw [d1.nodes, c1.nodes, made.nodes]; simp [hq], ?_⟩
      rw [d1.output, hold1 q hq]; exact hm
    · refine ⟨r1, by rw [d1.nodes, c1.nodes, made.nodes]; simp, ?_⟩
      rw [d1.output, Same.heap_node c2, made.self]
      exact (mem_copyPairs hp).2
  · rw [hD, List.map_append, List.nodup_append]
    refine ⟨hi.sndNodup, ?_, ?_⟩
    · rw [copyPairs, List.map_snd_zip (by simp [length_ports])]
      exact nodup_ports _ _
    · intro a ha b hb e
      subst e
      obtain ⟨p, hp, rfl⟩ := List.mem_map.1 ha
      obtain ⟨p', hp', e⟩ := List.mem_map.1 hb
      obtain ⟨q, hq, hm⟩ := hi.made p hp
      have hport := (mem_copyPairs hp').2
      rw [e] at hport
      have hno := made.freshOut p.2 hport
      rw [(hi.wf.getNodeByOutput (port_ne hport) q).2 ⟨hq, hm⟩] at hno
      cases hno

theorem prefixNodes_spec {g0 : G} (hw0 : WF g0) (hl : g0.outputs.Nodup) {scope : String} (todo : List Ref) {dn : List Ref}
    (hsplit : g0.nodes = dn ++ todo) {g g' : G} (hi : PInv g0 scope dn g) (h : G.prefixNodes scope g0.nodes todo g = .ok g') :
    PInv g0 scope g0.nodes g' := by
  induction todo generalizing dn g with
  | nil => simp [G.prefixNodes] at h; subst h; simp at hsplit; rw [hsplit]; exact hi
  | cons r todo ih =>
    have hrmem : r ∈ g0.nodes := by rw [hsplit]; simp
    have hg : (g.node r).isGraphInput = (g0.node r).isGraphInput := by rw [hi.old r hrmem]; rfl
    simp only [G.prefixNodes] at h
    split at h
    · rename_i hin
      rw [hg] at hin
      refine ih (dn := dn ++ [r]) (by rw [hsplit]; simp) (g := g) ?_ h
      have e1 : g0.inner (dn ++ [r]) = g0.inner dn := by simp [G.inner, hin]
      have e2 : g0.renamings scope (dn ++ [r]) = g0.renamings scope dn := by simp [G.renamings, e1]
      exact ⟨hi.wf, hi.idx, by rw [e1]; exact hi.nodes, by rw [e2]; exact hi.old, by rw [e2]; exact hi.outputs, hi.inputs,
        by rw [e2]; exact hi.fresh, by rw [e2]; exact hi.made, by rw [e2]; exact hi.sndNodup⟩
    · rename_i hin
      rw [hg] at hin
      simp only [bind, Except.bind] at h
      split at h
      · cases h
      rename_i p hm
      obtain ⟨g1, r1⟩ := p
      simp only at h
      split at h
      · cases h
      rename_i g2 hcp
      split at h
      · cases h
      rename_i g3 hpo
      exact ih (dn := dn ++ [r]) (by rw [hsplit]; simp)
        (hi.step hw0 hl hsplit (by simpa using hin) hm hcp hpo) h

theorem PInv.start {g0 : G} (hw0 : WF g0) (scope : String) : PInv g0 scope [] g0 := by
  have : g0.renamings scope [] = [] := rfl
  refine ⟨hw0, id, ⟨[], by simp, rfl⟩, ?_, ?_, rfl, ?_, by rw [this]; simp, by rw [this]; simp⟩
  · intro r _
    rw [this]
    show g0.node r = (g0.node r).mapIn id
    rw [Node.mapIn_id]
  · rw [this]
    show g0.outputs = g0.outputs.map id
    simp
  · rw [this]; simp

theorem removeAll_spec (ns : List String) {g g' : G} (hw : WF g) (h : G.removeAll ns g = .ok g') :
    WF g' ∧ (Idx g → Idx g') ∧ g'.heap = g.heap ∧ g'.outputs = g.outputs ∧
      g'.nodes = g.nodes.filter (fun r => (g.node r).name ∉ ns) ∧
      ((∀ r ∈ g.inputs, r ∈ g.nodes) → g.inputs.Nodup → g'.inputs = g.inputs.filter (fun r => (g.node r).name ∉ ns)) := by
  induction ns generalizing g with
  | nil => simp [G.removeAll] at h; subst h; exact ⟨hw, id, rfl, rfl, by simp, fun _ _ => by simp⟩
  | cons n ns ih =>
    simp only [G.removeAll, bind, Except.bind] at h
    split at h
    · cases h
    rename_i g1 hg1
    obtain ⟨r, hr, m⟩ := removeNode_removed hw hg1
    obtain ⟨a1, a2, a3, a4, a5, a6⟩ := ih (m.wf hw) h
    have hfilt : ∀ l : List Ref, l.Nodup → (∀ q ∈ l, q ∈ g.nodes) →
        (l.erase r).filter (fun q => (g1.node q).name ∉ ns) = l.filter (fun q => (g.node q).name ∉ n :: ns) := by
      intro l hl hsub
      rw [hl.erase_eq_filter, List.filter_filter]
      refine List.filter_congr (fun q hq => ?_)
      rw [m.node]
      have : q = r ↔ (g.node q).name = n := by
        constructor
        · rintro rfl; exact hr
        · intro e; exact hw.name_inj (hsub q hq) m.mem (e.trans hr.symm)
      by_cases e : q = r
      · have := this.1 e; simp [e, ← this]
      · have := mt this.2 e; simp [e, this]
    refine ⟨a1, fun hi => a2 (m.idx hw hi), a3.trans m.heap, a4.trans m.outputs, ?_, ?_⟩
    · rw [a5, m.nodes]; exact hfilt _ hw.nodup (fun _ h => h)
    · intro hsub hnd
      rw [a6 ?_ (by rw [m.inputs]; exact hnd.erase _), m.inputs]
      · exact hfilt _ hnd hsub
      · intro q hq
        rw [m.inputs] at hq
        rw [m.nodes]
        exact (List.mem_erase_of_ne (fun e => by subst e; exact hnd.not_mem_erase hq)).2 (hsub q (List.mem_of_mem_erase hq))

/-- What `prefix_graph` leaves: the graph inputs that were not bound, and a copy of every other node. -/
structure Prefixed (g0 : G) (scope : String) (g' : G) : Prop where
  wf : WF g'
  idx : Idx g0 → Idx g'
  nodes : ∃ R, g'.nodes = g0.nodes.filter (fun r => (g0.node r).isGraphInput) ++ R ∧
    R.map g'.node = copies scope [] ((g0.inner g0.nodes).map g0.node)
  outputs : g'.outputs = g0.outputs.map (renBy (g0.renamings scope g0.nodes))
  inputs : (∀ r ∈ g0.inputs, r ∈ g0.nodes) → g0.inputs.Nodup → g'.inputs = g0.inputs.filter (fun r => (g0.node r).isGraphInput)
  fresh : ∀ p ∈ g0.renamings scope g0.nodes, ∀ r ∈ g0.nodes, p.2 ∉ (g0.node r).output
  sndNodup : ((g0.renamings scope g0.nodes).map Prod.snd).Nodup

theorem prefixGraph_spec {g0 g' : G} (hw0 : WF g0) (hl : g0.outputs.Nodup) {scope : String} (h : g0.prefixGraph scope = .ok g') :
    Prefixed g0 scope g' := by
  simp only [G.prefixGraph, bind, Except.bind] at h
  split at h
  · cases h
  rename_i g1 hg1
  have p := prefixNodes_spec hw0 hl (dn := []) g0.nodes rfl (PInv.start hw0 scope) hg1
  obtain ⟨a1, a2, a3, a4, a5, a6⟩ := removeAll_spec _ p.wf h
  obtain ⟨R, hR1, hR2⟩ := p.nodes
  have hname : ∀ r ∈ g0.nodes, (g1.node r).name = (g0.node r).name := fun r hr => by rw [p.old r hr]; rfl
  have hgone : ∀ r ∈ g0.nodes, ((g1.node r).name ∉ (g0.inner g0.nodes).map (fun r => (g0.node r).name)) ↔ (g0.node r).isGraphInput = true := by
    intro r hr
    rw [hname r hr]
    constructor
    · intro hn
      by_contra hf
      exact hn (List.mem_map.2 ⟨r, by simp [G.inner, hr, hf], rfl⟩)
    · intro hin hm
      obtain ⟨q, hq, e⟩ := List.mem_map.1 hm
      simp only [G.inner, List.mem_filter] at hq
      have := hw0.name_inj hq.1 hr e
      subst this
      simp [hin] at hq
  have hnd := p.wf.nodup
  rw [hR1, List.nodup_append] at hnd
  have hnew : ∀ q ∈ R, (g1.node q).name ∉ (g0.inner g0.nodes).map (fun r => (g0.node r).name) := by
    intro q hq hm
    obtain ⟨r, hr, e⟩ := List.mem_map.1 hm
    simp only [G.inner, List.mem_filter] at hr
    rw [← hname r hr.1] at e
    have := p.wf.name_inj (by rw [hR1]; simp [hr.1]) (by rw [hR1]; simp [hq]) e
    exact hnd.2.2 r hr.1 q hq this
  have hfl : ∀ l : List Ref, (∀ r ∈ l, r ∈ g0.nodes) →
      l.filter (fun r => decide ((g1.node r).name ∉ (g0.inner g0.nodes).map (fun r => (g0.node r).name))) =
        l.filter (fun r => (g0.node r).isGraphInput) := by
    intro l hl
    refine List.filter_congr (fun r hr => ?_)
    rw [Bool.eq_iff_iff, decide_eq_true_iff]
    exact hgone r (hl r hr)
  refine ⟨a1, fun hi => a2 (p.idx hi), ⟨R, ?_, ?_⟩, a4.trans p.outputs, ?_, p.fresh, p.sndNodup⟩
  · rw [a5, hR1, List.filter_append]
    congr 1
    · exact hfl _ (fun _ h => h)
    · exact List.filter_eq_self.2 (fun q hq => decide_eq_true (hnew q hq))
  · rw [← hR2]
    exact List.map_congr_left (fun q _ => Same.heap_node a3 q)
  · intro hsub hn
    rw [a6 (by rw [p.inputs, hR1]; intro r hr; simp [hsub r hr]) (by rw [p.inputs]; exact hn), p.inputs]
    exact hfl _ hsub

end Verif.Graph
