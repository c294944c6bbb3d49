import Verif.Model.TopoSort
import Verif.Props.Exec
import Verif.Props.C06_Lookup
import Mathlib.Logic.Relation
/-!
# C11: the exported node order is executable

`Ordered g implicit l`: every node of `l` follows the producers of everything it reads, directly or through its
bodies. `topological_sort` returns such a permutation, or reports a cycle exactly when there is one.
-/
namespace Verif.Graph
open Verif

/-- `i` reads (directly or in a body) a tensor produced by `j`. -/
def DependsOn (g : G) (implicit : Ref → List String) (i j : Ref) : Prop :=
  ∃ x, x ≠ "" ∧ (x ∈ (g.node i).input ∨ x ∈ implicit i) ∧ x ∈ (g.node j).output

/-- No node of the list depends on itself or on a later node. -/
def Ordered (g : G) (implicit : Ref → List String) : List Ref → Prop
  | [] => True
  | r :: rs => (∀ m ∈ r :: rs, ¬ DependsOn g implicit r m) ∧ Ordered g implicit rs

/-! ## Depth first search -/

/-- Each node of the list is followed by all its children. -/
def Closed (es : List (Ref × Ref)) : List Ref → Prop
  | [] => True
  | t :: rest => (∀ c ∈ children es t, c ∈ rest) ∧ Closed es rest

/-- Consecutive stack elements are joined by an edge. -/
def Chain (es : List (Ref × Ref)) : List Ref → Prop
  | [] => True
  | [_] => True
  | a :: b :: st => a ∈ children es b ∧ Chain es (b :: st)

structure DInv (es : List (Ref × Ref)) (ops : List Ref) (s : DFS) : Prop where
  nodup : s.notVisited.Nodup
  stackNodup : s.stack.Nodup
  stackSub : ∀ v ∈ s.stack, v ∈ s.notVisited
  perm : (s.ret ++ s.notVisited).Perm ops
  closed : Closed es s.ret
  chain : Chain es s.stack

theorem Chain.path {es : List (Ref × Ref)} {t : Ref} {st : List Ref} (h : Chain es (t :: st)) {c : Ref}
    (hc : c ∈ t :: st) : Relation.ReflTransGen (fun a b => b ∈ children es a) c t := by
  induction st generalizing t with
  | nil => simp at hc; subst hc; exact .refl
  | cons b st ih =>
    rcases List.mem_cons.1 hc with rfl | hc
    · exact .refl
    · exact (ih h.2 hc).tail h.1

theorem dfs_sound {es : List (Ref × Ref)} {ops : List Ref} (hsub : ∀ a, ∀ b ∈ children es a, b ∈ ops) (fuel : Nat)
    (s : DFS) (hi : DInv es ops s) :
    (∀ ret, dfs es fuel s = .ok ret → ret.Perm ops ∧ Closed es ret) ∧
    (dfs es fuel s = .error "ValueError: Graph has cycles" →
      ∃ v, Relation.TransGen (fun a b => b ∈ children es a) v v) := by
  induction fuel generalizing s with
  | zero => exact ⟨fun _ h => (by cases h), fun h => by simp [dfs] at h⟩
  | succ fuel ih =>
    simp only [dfs]
    split
    · rename_i hst
      split
      · rename_i hnv
        constructor
        · intro ret h
          cases h
          have := hi.perm
          rw [hnv, List.append_nil] at this
          exact ⟨this, hi.closed⟩
        · intro h; cases h
      · rename_i v rest hnv
        apply ih
        exact ⟨hi.nodup, by simp, by intro w hw; simp at hw; subst hw; rw [hnv]; simp, hi.perm, hi.closed, trivial⟩
    · rename_i t st hst
      split
      · rename_i c hc
        have hcc : c ∈ children es t := List.mem_of_find?_eq_some hc
        have hcn : c ∈ s.notVisited := by simpa using List.find?_some hc
        split
        · rename_i hin
          constructor
          · intro ret h; cases h
          · intro _
            have := (by have := hi.chain; rw [hst] at this; exact this : Chain es (t :: st)).path hin
            exact ⟨c, Relation.TransGen.tail' this hcc⟩
        · rename_i hnin
          apply ih
          refine ⟨hi.nodup, List.nodup_cons.2 ⟨hnin, by rw [← hst]; exact hi.stackNodup⟩, ?_, hi.perm, hi.closed, ?_⟩
          · intro v hv
            rcases List.mem_cons.1 hv with rfl | hv
            · exact hcn
            · exact hi.stackSub v (by rw [hst]; exact hv)
          · exact ⟨hcc, by have := hi.chain; rw [hst] at this; exact this⟩
      · rename_i hnone
        rw [List.find?_eq_none] at hnone
        have htn : t ∈ s.notVisited := hi.stackSub t (by rw [hst]; simp)
        have hnd := hi.stackNodup
        rw [hst] at hnd
        have hnd' := List.nodup_cons.1 hnd
        apply ih
        refine ⟨hi.nodup.erase t, hnd'.2, ?_, ?_, ?_, ?_⟩
        · intro v hv
          rw [hi.nodup.mem_erase_iff]
          exact ⟨by rintro rfl; exact hnd'.1 hv, hi.stackSub v (by rw [hst]; simp [hv])⟩
        · refine List.Perm.trans ?_ hi.perm
          refine List.Perm.trans (List.perm_append_comm (l₁ := t :: s.ret)) ?_
          refine List.Perm.trans ?_ List.perm_append_comm
          refine List.Perm.trans List.perm_middle ?_
          exact List.Perm.append_right _ (List.perm_cons_erase htn).symm
        · refine ⟨?_, hi.closed⟩
          intro c hc
          have h1 := hnone c hc
          have h2 := hi.perm.mem_iff.2 (hsub t c hc)
          rcases List.mem_append.1 h2 with h2 | h2
          · exact h2
          · simp [h2] at h1
        · have hch := hi.chain
          rw [hst] at hch
          cases st with
          | nil => trivial
          | cons b st => exact hch.2

/-- `2 n + 1` stack operations are enough. -/
theorem dfs_fuel {es : List (Ref × Ref)} {ops : List Ref} (hsub : ∀ a, ∀ b ∈ children es a, b ∈ ops) (fuel : Nat)
    (s : DFS) (hi : DInv es ops s) (hf : 2 * s.notVisited.length < fuel + s.stack.length) :
    dfs es fuel s ≠ .error "out of fuel" := by
  induction fuel generalizing s with
  | zero =>
    exfalso
    have : s.stack.length ≤ s.notVisited.length :=
      (List.subperm_of_subset hi.stackNodup hi.stackSub).length_le
    omega
  | succ fuel ih =>
    simp only [dfs]
    split
    · rename_i hst
      split
      · intro h; cases h
      · rename_i v rest hnv
        apply ih
        · exact ⟨hi.nodup, by simp, by intro w hw; simp at hw; subst hw; rw [hnv]; simp, hi.perm, hi.closed, trivial⟩
        · rw [hst] at hf; simp at hf ⊢; omega
    · rename_i t st hst
      split
      · rename_i c hc
        have hcc : c ∈ children es t := List.mem_of_find?_eq_some hc
        have hcn : c ∈ s.notVisited := by simpa using List.find?_some hc
        split
        · intro h; simp at h
        · rename_i hnin
          apply ih
          · refine ⟨hi.nodup, List.nodup_cons.2 ⟨hnin, by rw [← hst]; exact hi.stackNodup⟩, ?_, hi.perm, hi.closed, ?_⟩
            · intro v hv
              rcases List.mem_cons.1 hv with rfl | hv
              · exact hcn
              · exact hi.stackSub v (by rw [hst]; exact hv)
            · exact ⟨hcc, by have := hi.chain; rw [hst] at this; exact this⟩
          · rw [hst] at hf; simp at hf ⊢; omega
      · rename_i hnone
        rw [List.find?_eq_none] at hnone
        have htn : t ∈ s.notVisited := hi.stackSub t (by rw [hst]; simp)
        have hnd := hi.stackNodup
        rw [hst] at hnd
        have hnd' := List.nodup_cons.1 hnd
        apply ih
        · refine ⟨hi.nodup.erase t, hnd'.2, ?_, ?_, ?_, ?_⟩
          · intro v hv
            rw [hi.nodup.mem_erase_iff]
            exact ⟨by rintro rfl; exact hnd'.1 hv, hi.stackSub v (by rw [hst]; simp [hv])⟩
          · refine List.Perm.trans ?_ hi.perm
            refine List.Perm.trans (List.perm_append_comm (l₁ := t :: s.ret)) ?_
            refine List.Perm.trans ?_ List.perm_append_comm
            refine List.Perm.trans List.perm_middle ?_
            exact List.Perm.append_right _ (List.perm_cons_erase htn).symm
          · refine ⟨?_, hi.closed⟩
            intro c hc
            have h1 := hnone c hc
            have h2 := hi.perm.mem_iff.2 (hsub t c hc)
            rcases List.mem_append.1 h2 with h2 | h2
            · exact h2
            · simp [h2] at h1
          · have hch := hi.chain
            rw [hst] at hch
            cases st with
            | nil => trivial
            | cons b st => exact hch.2
        · have := List.length_erase_of_mem htn
          have hpos : 0 < s.notVisited.length := List.length_pos_of_mem htn
          rw [hst] at hf; simp only [List.length_cons] at hf
          simp only [this]; omega

/-- The search raises nothing else. -/
theorem dfs_errors {es : List (Ref × Ref)} (fuel : Nat) (s : DFS) (m : String) (h : dfs es fuel s = .error m) :
    m = "out of fuel" ∨ m = "ValueError: Graph has cycles" := by
  induction fuel generalizing s with
  | zero => simp [dfs] at h; exact Or.inl h.symm
  | succ fuel ih =>
    simp only [dfs] at h
    split at h
    · split at h
      · cases h
      · exact ih _ h
    · split at h
      · split at h
        · simp at h; exact Or.inr h.symm
        · exact ih _ h
      · exact ih _ h

/-! ## Edges -/

theorem edgesOf_ok {g : G} {ops : List Ref} {i : Ref} (xs : List String) {es : List (Ref × Ref)}
    (h : g.edgesOf ops i xs = .ok es) :
    (∀ p ∈ es, p.1 ∈ ops ∧ p.2 = i ∧ ∃ x ∈ xs, g.getNodeByOutput x = some p.1) ∧
    (∀ x ∈ xs, ∃ j, g.getNodeByOutput x = some j ∧ (j, i) ∈ es) := by
  induction xs generalizing es with
  | nil => simp [G.edgesOf] at h; subst h; simp
  | cons x xs ih =>
    simp only [G.edgesOf] at h
    split at h
    · cases h
    · rename_i j hj
      split at h
      · rename_i hjo
        simp only [bind, Except.bind] at h
        split at h
        · cases h
        · rename_i es' hes'
          cases h
          obtain ⟨h1, h2⟩ := ih hes'
          constructor
          · intro p hp
            rcases List.mem_cons.1 hp with rfl | hp
            · exact ⟨hjo, rfl, x, by simp, hj⟩
            · obtain ⟨a, b, y, hy, hy'⟩ := h1 p hp
              exact ⟨a, b, y, by simp [hy], hy'⟩
          · intro y hy
            rcases List.mem_cons.1 hy with rfl | hy
            · exact ⟨j, hj, by simp⟩
            · obtain ⟨j', a, b⟩ := h2 y hy
              exact ⟨j', a, by simp [b]⟩
      · cases h

theorem edges_ok {g : G} {implicit : Ref → List String} {ops : List Ref} (is : List Ref) {es : List (Ref × Ref)}
    (h : g.edges implicit ops is = .ok es) :
    (∀ p ∈ es, p.1 ∈ ops ∧ p.2 ∈ is ∧ ∃ x ∈ g.allInputs implicit p.2, g.getNodeByOutput x = some p.1) ∧
    (∀ i ∈ is, ∀ x ∈ g.allInputs implicit i, ∃ j, g.getNodeByOutput x = some j ∧ (j, i) ∈ es) := by
  induction is generalizing es with
  | nil => simp [G.edges] at h; subst h; simp
  | cons i is ih =>
    simp only [G.edges, bind, Except.bind] at h
    split at h
    · cases h
    · rename_i a ha
      split at h
      · cases h
      · rename_i b hb
        cases h
        obtain ⟨a1, a2⟩ := edgesOf_ok _ ha
        obtain ⟨b1, b2⟩ := ih hb
        constructor
        · intro p hp
          rcases List.mem_append.1 hp with hp | hp
          · obtain ⟨c1, c2, c3⟩ := a1 p hp
            exact ⟨c1, by rw [c2]; simp, by rw [c2]; exact c3⟩
          · obtain ⟨c1, c2, c3⟩ := b1 p hp
            exact ⟨c1, by simp [c2], c3⟩
        · intro k hk x hx
          rcases List.mem_cons.1 hk with rfl | hk
          · obtain ⟨j, c1, c2⟩ := a2 x hx; exact ⟨j, c1, by simp [c2]⟩
          · obtain ⟨j, c1, c2⟩ := b2 k hk x hx; exact ⟨j, c1, by simp [c2]⟩

theorem mem_children {es : List (Ref × Ref)} {v c : Ref} : c ∈ children es v ↔ (v, c) ∈ es := by
  simp only [children, List.mem_map, List.mem_filter, decide_eq_true_eq]
  constructor
  · rintro ⟨p, ⟨hp, rfl⟩, rfl⟩; exact hp
  · intro h; exact ⟨(v, c), ⟨h, rfl⟩, rfl⟩

theorem mem_allInputs {g : G} {implicit : Ref → List String} {r : Ref} {x : String} :
    x ∈ g.allInputs implicit r ↔ (x ∈ (g.node r).input ∨ x ∈ implicit r) ∧ x ≠ "" := by
  simp only [G.allInputs, List.mem_filter, List.mem_append, ne_eq, decide_not, Bool.not_eq_eq_eq_not, Bool.not_true, decide_eq_false_iff_not]

theorem edges_dependsOn {g : G} (hw : WF g) {implicit : Ref → List String} {ops : List Ref} {es : List (Ref × Ref)}
    (hsub : ∀ r ∈ ops, r ∈ g.nodes) (h : g.edges implicit ops ops = .ok es) (i j : Ref) :
    i ∈ children es j ↔ i ∈ ops ∧ j ∈ ops ∧ DependsOn g implicit i j := by
  obtain ⟨h1, h2⟩ := edges_ok _ h
  rw [mem_children]
  constructor
  · intro hp
    obtain ⟨a, b, x, hx, hx'⟩ := h1 _ hp
    rw [mem_allInputs] at hx
    exact ⟨b, a, x, hx.2, hx.1, ((hw.getNodeByOutput hx.2 j).1 hx').2⟩
  · rintro ⟨hi, hj, x, hx, hin, hout⟩
    obtain ⟨j', hj', he⟩ := h2 i hi x (mem_allInputs.2 ⟨hin, hx⟩)
    have := (hw.getNodeByOutput hx j').1 hj'
    have := hw.out_inj hx this.1 (hsub j hj) this.2 hout
    subst this; exact he

/-! ## The theorems -/

theorem closed_ordered {g : G} {implicit : Ref → List String} {es : List (Ref × Ref)} {l : List Ref} (hn : l.Nodup)
    (hc : Closed es l) (hd : ∀ i ∈ l, ∀ j ∈ l, DependsOn g implicit i j → i ∈ children es j) :
    Ordered g implicit l := by
  induction l with
  | nil => trivial
  | cons t rest ih =>
    have hn' := List.nodup_cons.1 hn
    refine ⟨?_, ih hn'.2 hc.2 (fun i hi j hj => hd i (by simp [hi]) j (by simp [hj]))⟩
    intro m hm hdep
    have hch := hd t (by simp) m hm hdep
    -- t is a child of m, so it occurs after m in the list: impossible
    rcases List.mem_cons.1 hm with rfl | hm
    · exact hn'.1 (hc.1 m hch)
    · have : ∀ l : List Ref, Closed es l → m ∈ l → t ∈ l := by
        intro l
        induction l with
        | nil => simp
        | cons a l ih' =>
          intro hcl hml
          rcases List.mem_cons.1 hml with rfl | hml
          · exact List.mem_cons_of_mem _ (hcl.1 t hch)
          · exact List.mem_cons_of_mem _ (ih' hcl.2 hml)
      exact hn'.1 (this rest hc.2 hm)

theorem insertByName_perm (g : G) (r : Ref) (l : List Ref) : (g.insertByName r l).Perm (r :: l) := by
  induction l with
  | nil => exact .refl _
  | cons a l ih =>
    simp only [G.insertByName]
    split
    · exact .refl _
    · exact (ih.cons a).trans (.swap _ _ _)

theorem sortByName_perm (g : G) (ops : List Ref) : (g.sortByName ops).Perm ops := by
  induction ops with
  | nil => exact .refl _
  | cons r ops ih => exact (insertByName_perm g r _).trans (ih.cons r)

theorem initial_inv {es : List (Ref × Ref)} {ops : List Ref} (hn : ops.Nodup) :
    DInv es ops { notVisited := ops, stack := [], ret := [] } :=
  ⟨hn, by simp, by simp, by simp, trivial, trivial⟩

theorem sortNodes_ordered {g : G} (hw : WF g) {implicit : Ref → List String} {ret : List Ref}
    (h : g.sortNodes implicit g.nodes = .ok ret) : ret.Perm g.nodes ∧ Ordered g implicit ret := by
  simp only [G.sortNodes, bind, Except.bind] at h
  split at h
  · cases h
  · rename_i es hes
    have hp := sortByName_perm g g.nodes
    have hsub : ∀ r ∈ g.sortByName g.nodes, r ∈ g.nodes := fun r hr => hp.mem_iff.1 hr
    have hch := edges_dependsOn hw hsub hes
    have hnd := hp.nodup_iff.2 hw.nodup
    obtain ⟨h1, _⟩ := dfs_sound (ops := g.sortByName g.nodes) (fun a b hb => ((hch b a).1 hb).1) _ _ (initial_inv hnd)
    obtain ⟨h2, h3⟩ := h1 ret h
    refine ⟨h2.trans hp, closed_ordered (h2.nodup_iff.2 hnd) h3 ?_⟩
    intro i hi j hj hd
    exact (hch i j).2 ⟨h2.mem_iff.1 hi, h2.mem_iff.1 hj, hd⟩

/-- `topological_sort` rearranges the nodes so that every node follows the producers of everything it reads, directly
or through its bodies; nothing is lost or duplicated, no node is modified. -/
theorem topological_sort_executable {g g' : G} (hr : Reachable g) (implicit : Ref → List String)
    (h : g.topologicalSort implicit g.nodes = .ok g') :
    g'.nodes.Perm g.nodes ∧ Ordered g' implicit g'.nodes ∧ g'.heap = g.heap ∧ g'.outputs = g.outputs ∧
    g'.inputs = g.inputs ∧ Reachable g' := by
  simp only [G.topologicalSort, bind, Except.bind] at h
  split at h
  · cases h
  · rename_i ret hret
    obtain ⟨h1, h2⟩ := sortNodes_ordered hr.wf hret
    have hlegal : Legal g (.resetNodes ret) := ⟨h1.nodup_iff.2 hr.wf.nodup, fun r hr' => h1.mem_iff.1 hr'⟩
    have m := resetNodes_reset hr.wf hlegal.2 h
    refine ⟨by rw [m.nodes]; exact h1, ?_, m.heap, m.outputs, m.inputs, .step hr hlegal h⟩
    rw [m.nodes]
    have hd : ∀ i j, DependsOn g' implicit i j ↔ DependsOn g implicit i j := by
      intro i j; unfold DependsOn; simp only [m.node]
    have : ∀ l, Ordered g implicit l → Ordered g' implicit l := by
      intro l
      induction l with
      | nil => exact id
      | cons a l ih => intro ho; exact ⟨fun m hm => by rw [hd]; exact ho.1 m hm, ih ho.2⟩
    exact this ret h2

/-- When the sort reports a cycle, there is one. -/
theorem topological_sort_cycle_real {g : G} (hr : Reachable g) (implicit : Ref → List String)
    (h : g.sortNodes implicit g.nodes = .error "ValueError: Graph has cycles") :
    ∃ r ∈ g.nodes, Relation.TransGen (fun j i => i ∈ g.nodes ∧ j ∈ g.nodes ∧ DependsOn g implicit i j) r r := by
  have hw := hr.wf
  simp only [G.sortNodes, bind, Except.bind] at h
  have hp := sortByName_perm g g.nodes
  split at h
  · rename_i e hes
    cases h
    exfalso
    have key : ∀ is : List Ref, g.edges implicit (g.sortByName g.nodes) is ≠ .error "ValueError: Graph has cycles" := by
      have key1 : ∀ i xs, g.edgesOf (g.sortByName g.nodes) i xs ≠ .error "ValueError: Graph has cycles" := by
        intro i xs
        induction xs with
        | nil => intro h; cases h
        | cons x xs ih =>
          simp only [G.edgesOf]
          split
          · intro h; simp at h
          · split
            · simp only [bind, Except.bind]
              split
              · rename_i e he; intro h; cases h; exact ih he
              · intro h; cases h
            · intro h; simp at h
      intro is
      induction is with
      | nil => intro h; cases h
      | cons i is ih =>
        simp only [G.edges, bind, Except.bind]
        split
        · rename_i e he; intro h; cases h; exact key1 _ _ he
        · split
          · rename_i e he; intro h; cases h; exact ih he
          · intro h; cases h
    exact key _ hes
  · rename_i es hes
    have hsub : ∀ r ∈ g.sortByName g.nodes, r ∈ g.nodes := fun r hr => hp.mem_iff.1 hr
    have hch := edges_dependsOn hw hsub hes
    have hnd := hp.nodup_iff.2 hw.nodup
    obtain ⟨_, h1⟩ := dfs_sound (ops := g.sortByName g.nodes) (fun a b hb => ((hch b a).1 hb).1) _ _ (initial_inv hnd)
    obtain ⟨v, hv⟩ := h1 h
    have hmono : Relation.TransGen (fun j i => i ∈ g.nodes ∧ j ∈ g.nodes ∧ DependsOn g implicit i j) v v := by
      refine Relation.TransGen.mono ?_ _ _ hv
      intro a b hab
      obtain ⟨x, y, z⟩ := (hch b a).1 hab
      exact ⟨hsub b x, hsub a y, z⟩
    refine ⟨v, ?_, hmono⟩
    cases hmono with
    | single h => exact h.1
    | tail _ h => exact h.1

theorem edgesOf_total {g : G} {ops : List Ref} {i : Ref} (xs : List String)
    (h : ∀ x ∈ xs, ∃ j ∈ ops, g.getNodeByOutput x = some j) : ∃ es, g.edgesOf ops i xs = .ok es := by
  induction xs with
  | nil => exact ⟨[], rfl⟩
  | cons x xs ih =>
    obtain ⟨j, hj, hj'⟩ := h x (by simp)
    obtain ⟨es, hes⟩ := ih (fun y hy => h y (by simp [hy]))
    exact ⟨(j, i) :: es, by simp [G.edgesOf, hj', hj, hes, bind, Except.bind]⟩

theorem edges_total {g : G} {implicit : Ref → List String} {ops : List Ref} (is : List Ref)
    (h : ∀ i ∈ is, ∀ x ∈ g.allInputs implicit i, ∃ j ∈ ops, g.getNodeByOutput x = some j) :
    ∃ es, g.edges implicit ops is = .ok es := by
  induction is with
  | nil => exact ⟨[], rfl⟩
  | cons i is ih =>
    obtain ⟨a, ha⟩ := edgesOf_total (g := g) (ops := ops) (i := i) (g.allInputs implicit i) (fun x hx => h i (by simp) x hx)
    obtain ⟨b, hb⟩ := ih (fun j hj => h j (by simp [hj]))
    exact ⟨a ++ b, by simp [G.edges, ha, hb, bind, Except.bind]⟩

/-- On a graph whose reads all have a producer and that has no cycle, the sort succeeds. -/
theorem topological_sort_succeeds {g : G} (hr : Reachable g) (implicit : Ref → List String)
    (hclosed : ∀ r ∈ g.nodes, ∀ x, (x ∈ (g.node r).input ∨ x ∈ implicit r) → x ≠ "" →
      ∃ p ∈ g.nodes, x ∈ (g.node p).output)
    (hacyc : ∀ r ∈ g.nodes,
      ¬ Relation.TransGen (fun j i => i ∈ g.nodes ∧ j ∈ g.nodes ∧ DependsOn g implicit i j) r r) :
    ∃ ret, g.sortNodes implicit g.nodes = .ok ret := by
  have hw := hr.wf
  have hp := sortByName_perm g g.nodes
  cases hs : g.sortNodes implicit g.nodes with
  | ok ret => exact ⟨ret, rfl⟩
  | error m =>
    exfalso
    have hs0 := hs
    simp only [G.sortNodes, bind, Except.bind] at hs
    obtain ⟨es, hes⟩ := edges_total (g := g) (implicit := implicit) (ops := g.sortByName g.nodes)
      (g.sortByName g.nodes) (by
        intro i hi x hx
        rw [mem_allInputs] at hx
        obtain ⟨p, hp', hx'⟩ := hclosed i (hp.mem_iff.1 hi) x hx.1 hx.2
        exact ⟨p, hp.mem_iff.2 hp', (hw.getNodeByOutput hx.2 p).2 ⟨hp', hx'⟩⟩)
    rw [hes] at hs
    simp only at hs
    have hsub : ∀ r ∈ g.sortByName g.nodes, r ∈ g.nodes := fun r hr => hp.mem_iff.1 hr
    have hch := edges_dependsOn hw hsub hes
    have hnd := hp.nodup_iff.2 hw.nodup
    rcases dfs_errors _ _ _ hs with rfl | rfl
    · exact dfs_fuel (ops := g.sortByName g.nodes) (fun a b hb => ((hch b a).1 hb).1) _ _ (initial_inv hnd)
        (by simp) hs
    · obtain ⟨r, hr', hc⟩ := topological_sort_cycle_real hr implicit hs0
      exact hacyc r hr' hc

/-! ## Execution of the exported order -/

theorem ordered_executable {g : G} {l : List Ref} (h : Ordered g (fun _ => []) l) : Executable (l.map g.node) := by
  induction l with
  | nil => trivial
  | cons r l ih =>
    refine ⟨?_, ih h.2⟩
    intro i hi hne m hm hout
    rw [← List.map_cons (f := g.node) (a := r) (l := l)] at hm
    obtain ⟨q, hq, rfl⟩ := List.mem_map.1 hm
    exact h.1 q hq ⟨i, hne, Or.inl hi, hout⟩

theorem Reachable.uniqueOutputs {g : G} (h : Reachable g) : UniqueOutputs g.nodeList := by
  have := output_names_unique h
  unfold UniqueOutputs G.nodeList
  rw [List.flatMap_map]; exact this

/-- Executing the nodes one after the other in the exported order (no bodies) computes the valuation of the original
graph, and that valuation is the only one. -/
theorem exported_order_computes {g g' : G} (hr : Reachable g) (h : g.topologicalSort (fun _ => []) g.nodes = .ok g')
    {V : Type} (I : Interp V) (env : String → V) :
    Sat I env (exec I env g'.nodeList) g.nodeList ∧
    ∀ e, Sat I env e g.nodeList → e = exec I env g'.nodeList := by
  obtain ⟨h1, h2, h3, _, _, h6⟩ := topological_sort_executable hr _ h
  have hnode : g'.node = g.node := by funext r; simp [G.node, h3]
  have hperm : g'.nodeList.Perm g.nodeList := by unfold G.nodeList; rw [hnode]; exact h1.map _
  have hex : Executable g'.nodeList := ordered_executable h2
  have hs : Sat I env (exec I env g'.nodeList) g.nodeList := (exec_sat h6.uniqueOutputs hex).perm hperm
  exact ⟨hs, fun e he => sat_unique ⟨_, hperm, hex⟩ he hs⟩

/-- Non-vacuity: a graph listed in the wrong order. -/
def shuffled : G :=
  { heap := [⟨"b", "Add", "", [], ["u", "x"], ["v"]⟩, ⟨"a", "Relu", "", [], ["x"], ["u"]⟩,
             ⟨"p", "Placeholder", "", [], [], ["x"]⟩]
    nodes := [0, 1, 2]
    byName := [("b", 0), ("a", 1), ("p", 2)]
    outToName := [("v", "b"), ("u", "a"), ("x", "p")]
    consumers := [("u", ["b"]), ("x", ["b", "a"])]
    outputs := ["v"] }

def shuffleScript : List Edit :=
  [.makeNode "Add" ["u", "x"] "b" ["v"] [] "", .makeNode "Relu" ["x"] "a" ["u"] [] "",
   .makeNode "Placeholder" [] "p" ["x"] [] "", .addGraphOutput "v"]

example : G.run {} shuffleScript = .ok shuffled := rfl

theorem shuffled_reachable : Reachable shuffled := by
  refine Reachable.run (es := shuffleScript) .empty ?_ rfl
  exact ⟨by simp [Legal], fun _ _ => ⟨by simp [Legal], fun _ _ => ⟨by simp [Legal],
    fun _ _ => ⟨trivial, fun _ _ => trivial⟩⟩⟩⟩

example : ∃ g', shuffled.topologicalSort (fun _ => []) shuffled.nodes = .ok g' ∧ g'.nodes = [2, 1, 0] :=
  ⟨_, rfl, rfl⟩

end Verif.Graph
