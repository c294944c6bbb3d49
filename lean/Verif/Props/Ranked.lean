import Verif.Props.C09_ReplaceAll
/-!
# Acyclicity through a rank function on node objects (stable under in-place edits)
-/
namespace Verif.Graph
open Verif

/-- `r` reads a tensor that `q` produces. -/
def Reads (g : G) (r q : Ref) : Prop := ∃ x, x ≠ "" ∧ x ∈ (g.node r).input ∧ x ∈ (g.node q).output

/-- Producers rank strictly below their readers. -/
def RankedBy (g : G) (ρ : Ref → Nat) : Prop := ∀ r ∈ g.nodes, ∀ q ∈ g.nodes, Reads g r q → ρ q < ρ r

/-- Every tensor a node reads is made by a node of the graph. -/
def ReadsMade (g : G) : Prop := ∀ r ∈ g.nodes, ∀ x ∈ (g.node r).input, x ≠ "" → ∃ p ∈ g.nodes, x ∈ (g.node p).output

/-- What removing and renaming keeps of the nodes that stay. -/
structure Carry (g g' : G) : Prop where
  sub : ∀ q ∈ g'.nodes, q ∈ g.nodes
  op : ∀ q ∈ g'.nodes, (g'.node q).op = (g.node q).op
  dom : ∀ q ∈ g'.nodes, (g'.node q).domain = (g.node q).domain
  inLen : ∀ q ∈ g'.nodes, (g'.node q).input.length = (g.node q).input.length
  outLen : ∀ q ∈ g'.nodes, (g'.node q).output.length = (g.node q).output.length
  inNe : ∀ q ∈ g'.nodes, "" ∉ (g.node q).input → "" ∉ (g'.node q).input
  outNe : ∀ q ∈ g'.nodes, "" ∉ (g.node q).output → "" ∉ (g'.node q).output
  made : ReadsMade g → ReadsMade g'

theorem Carry.refl (g : G) : Carry g g :=
  ⟨fun _ h => h, fun _ _ => rfl, fun _ _ => rfl, fun _ _ => rfl, fun _ _ => rfl, fun _ _ h => h, fun _ _ h => h, id⟩

theorem Carry.trans {a b c : G} (h : Carry a b) (k : Carry b c) : Carry a c :=
  ⟨fun q hq => h.sub q (k.sub q hq), fun q hq => (k.op q hq).trans (h.op q (k.sub q hq)), fun q hq => (k.dom q hq).trans (h.dom q (k.sub q hq)),
   fun q hq => (k.inLen q hq).trans (h.inLen q (k.sub q hq)), fun q hq => (k.outLen q hq).trans (h.outLen q (k.sub q hq)),
   fun q hq e => k.inNe q hq (h.inNe q (k.sub q hq) e), fun q hq e => k.outNe q hq (h.outNe q (k.sub q hq) e), fun m => k.made (h.made m)⟩

theorem executable_idx {l : List Node} (hx : Executable l) (hn : l.Nodup) {n m : Node} (hnl : n ∈ l) (hml : m ∈ l)
    {x : String} (hxe : x ≠ "") (hin : x ∈ n.input) (hout : x ∈ m.output) : l.idxOf m < l.idxOf n := by
  induction l with
  | nil => simp at hnl
  | cons a l ih =>
    have hn' := List.nodup_cons.1 hn
    rcases List.mem_cons.1 hnl with rfl | hnl
    · exact (hx.1 x hin hxe m hml hout).elim
    · have hna : a ≠ n := by rintro rfl; exact hn'.1 hnl
      rw [List.idxOf_cons_ne l hna]
      rcases List.mem_cons.1 hml with rfl | hml
      · rw [List.idxOf_cons_self]; omega
      · have hma : a ≠ m := by rintro rfl; exact hn'.1 hml
        rw [List.idxOf_cons_ne l hma]
        exact Nat.succ_lt_succ (ih hx.2 hn'.2 hnl hml)

theorem Acyclic.ranked {g : G} (hw : WF g) (h : Acyclic g.nodeList) : ∃ ρ, RankedBy g ρ := by
  obtain ⟨l, hp, hx⟩ := h
  refine ⟨fun r => l.idxOf (g.node r), ?_⟩
  rintro r hr q hq ⟨x, hxe, hin, hout⟩
  exact executable_idx hx (hp.nodup_iff.2 (G.nodup_nodeList hw)) (hp.mem_iff.2 (List.mem_map.2 ⟨r, hr, rfl⟩))
    (hp.mem_iff.2 (List.mem_map.2 ⟨q, hq, rfl⟩)) hxe hin hout

/-- Insert by rank. -/
def insertRank (ρ : Ref → Nat) (r : Ref) : List Ref → List Ref
  | [] => [r]
  | a :: as => if ρ r ≤ ρ a then r :: a :: as else a :: insertRank ρ r as

/-- Sort by rank. -/
def sortRank (ρ : Ref → Nat) : List Ref → List Ref
  | [] => []
  | r :: rs => insertRank ρ r (sortRank ρ rs)

theorem insertRank_perm (ρ : Ref → Nat) (r : Ref) (l : List Ref) : (insertRank ρ r l).Perm (r :: l) := by
  induction l with
  | nil => exact .refl _
  | cons a l ih =>
    simp only [insertRank]
    split
    · exact .refl _
    · exact (ih.cons a).trans (.swap _ _ _)

theorem sortRank_perm (ρ : Ref → Nat) (l : List Ref) : (sortRank ρ l).Perm l := by
  induction l with
  | nil => exact .refl _
  | cons r l ih => exact (insertRank_perm ρ r _).trans (ih.cons r)

theorem insertRank_sorted (ρ : Ref → Nat) (r : Ref) (l : List Ref) (h : l.Pairwise (fun a b => ρ a ≤ ρ b)) :
    (insertRank ρ r l).Pairwise (fun a b => ρ a ≤ ρ b) := by
  induction l with
  | nil => simp [insertRank]
  | cons a l ih =>
    have h' := List.pairwise_cons.1 h
    simp only [insertRank]
    split
    · rename_i hle
      refine List.pairwise_cons.2 ⟨?_, h⟩
      intro b hb
      rcases List.mem_cons.1 hb with rfl | hb
      · exact hle
      · exact Nat.le_trans hle (h'.1 b hb)
    · rename_i hnle
      refine List.pairwise_cons.2 ⟨?_, ih h'.2⟩
      intro b hb
      rcases List.mem_cons.1 ((insertRank_perm ρ r l).mem_iff.1 hb) with rfl | hb
      · omega
      · exact h'.1 b hb

theorem sortRank_sorted (ρ : Ref → Nat) (l : List Ref) : (sortRank ρ l).Pairwise (fun a b => ρ a ≤ ρ b) := by
  induction l with
  | nil => simp [sortRank]
  | cons r l ih => exact insertRank_sorted ρ r _ ih

theorem RankedBy.acyclic {g : G} {ρ : Ref → Nat} (h : RankedBy g ρ) : Acyclic g.nodeList := by
  refine ⟨(sortRank ρ g.nodes).map g.node, (sortRank_perm ρ g.nodes).map _, ?_⟩
  have hsub : ∀ r ∈ sortRank ρ g.nodes, r ∈ g.nodes := fun r hr => (sortRank_perm ρ g.nodes).mem_iff.1 hr
  have hs := sortRank_sorted ρ g.nodes
  generalize sortRank ρ g.nodes = l at hsub hs
  induction l with
  | nil => trivial
  | cons r l ih =>
    have hs' := List.pairwise_cons.1 hs
    refine ⟨?_, ih (fun q hq => hsub q (by simp [hq])) hs'.2⟩
    intro i hi hne m hm hout
    rw [← List.map_cons (f := g.node) (a := r) (l := l)] at hm
    obtain ⟨q, hq, rfl⟩ := List.mem_map.1 hm
    have hlt := h r (hsub r (by simp)) q (hsub q hq) ⟨i, hne, hi, hout⟩
    rcases List.mem_cons.1 hq with rfl | hq
    · exact Nat.lt_irrefl _ hlt
    · have := hs'.1 q hq; omega

end Verif.Graph
