import Verif.Spec.Semantics
import Mathlib.Data.List.Nodup
import Mathlib.Data.List.Perm.Basic
/-!
# Executing an executable order yields the unique valuation (used by C10, C11)
-/
namespace Verif.Graph
open Verif
variable {V : Type}

theorem argVals_congr {e e' : String → V} {n : Node} (h : ∀ i ∈ n.input, i ≠ "" → e i = e' i) :
    argVals e n = argVals e' n := by
  unfold argVals
  apply List.map_congr_left
  intro i hi
  unfold argVal
  split
  · rfl
  · rename_i hne; rw [h i hi hne]

theorem execNode_not_mem {I : Interp V} {env e : String → V} {n : Node} {x : String} (h : x ∉ n.output) :
    execNode I env e n x = e x := by
  unfold execNode
  split
  · rfl
  · have : n.output.findIdx? (· = x) = none := by
      rw [List.findIdx?_eq_none_iff]; intro y hy; simp; rintro rfl; exact h hy
    rw [this]

theorem execNode_empty {I : Interp V} {env e : String → V} {n : Node} : execNode I env e n "" = e "" := by
  simp [execNode]

theorem exec_cons {I : Interp V} {env : String → V} {e : String → V} {n : Node} {ns : List Node} :
    (n :: ns).foldl (execNode I env) e = ns.foldl (execNode I env) (execNode I env e n) := rfl

theorem foldl_exec_not_mem {I : Interp V} {env : String → V} (ns : List Node) (e : String → V) {x : String}
    (h : Unproduced ns x) : ns.foldl (execNode I env) e x = e x := by
  induction ns generalizing e with
  | nil => rfl
  | cons n ns ih =>
    rcases h with rfl | h
    · rw [exec_cons, ih _ (Or.inl rfl), execNode_empty]
    · rw [exec_cons, ih _ (Or.inr fun m hm => h m (by simp [hm])), execNode_not_mem (h n (by simp))]

theorem filter_getElem_inj {l : List String} (h : (l.filter (· ≠ "")).Nodup) {i j : Nat} {x : String} (hx : x ≠ "")
    (hi : l[i]? = some x) (hj : l[j]? = some x) : i = j := by
  induction l generalizing i j with
  | nil => simp at hi
  | cons a l ih =>
    have key : ∀ k : Nat, l[k]? = some x → a = x → False := by
      intro k hk e
      subst e
      have hm : a ∈ l := List.mem_of_getElem? hk
      simp only [List.filter_cons, ne_eq, hx, not_false_eq_true, decide_true, if_true, List.nodup_cons] at h
      exact h.1 (List.mem_filter.2 ⟨hm, by simpa using hx⟩)
    have h' : (l.filter (· ≠ "")).Nodup := by
      simp only [List.filter_cons] at h
      split at h
      · exact (List.nodup_cons.1 h).2
      · exact h
    cases i with
    | zero =>
      cases j with
      | zero => rfl
      | succ j =>
        simp only [List.getElem?_cons_zero, Option.some.injEq] at hi
        simp only [List.getElem?_cons_succ] at hj
        exact (key j hj hi).elim
    | succ i =>
      simp only [List.getElem?_cons_succ] at hi
      cases j with
      | zero =>
        simp only [List.getElem?_cons_zero, Option.some.injEq] at hj
        exact (key i hi hj).elim
      | succ j =>
        simp only [List.getElem?_cons_succ] at hj
        rw [ih h' hi hj]

theorem execNode_mem {I : Interp V} {env e : String → V} {n : Node} (hn : (n.output.filter (· ≠ "")).Nodup) {j : Nat}
    {x : String} (hj : n.output[j]? = some x) (hx : x ≠ "") :
    execNode I env e n x = if n.isGraphInput then env x else I n.op n.domain n.attr (argVals e n) j := by
  unfold execNode
  rw [if_neg hx]
  cases hf : n.output.findIdx? (· = x) with
  | none =>
    rw [List.findIdx?_eq_none_iff] at hf
    have := hf x (List.mem_of_getElem? hj)
    simp at this
  | some k =>
    have hk : n.output[k]? = some x := by
      rw [List.findIdx?_eq_some_iff_getElem] at hf
      obtain ⟨hlt, h1, _⟩ := hf
      rw [List.getElem?_eq_getElem hlt]; simpa using h1
    have := filter_getElem_inj hn hx hk hj
    subst this; rfl

theorem UniqueOutputs.head {n : Node} {ns : List Node} (h : UniqueOutputs (n :: ns)) :
    (n.output.filter (· ≠ "")).Nodup ∧ UniqueOutputs ns ∧
    ∀ x, x ≠ "" → x ∈ n.output → Unproduced ns x := by
  unfold UniqueOutputs at h
  rw [List.flatMap_cons, List.nodup_append] at h
  refine ⟨h.1, h.2.1, ?_⟩
  intro x hx hxn
  refine Or.inr ?_
  intro m hm hxm
  exact h.2.2 x (List.mem_filter.2 ⟨hxn, by simpa using hx⟩) x
    (List.mem_flatMap.2 ⟨m, hm, List.mem_filter.2 ⟨hxm, by simpa using hx⟩⟩) rfl

/-- Running an executable order satisfies every node's equations. -/
theorem foldl_exec_sat {I : Interp V} {env : String → V} (ns : List Node) (e : String → V) (hu : UniqueOutputs ns)
    (hx : Executable ns) : ∀ n ∈ ns, NodeSat I env (ns.foldl (execNode I env) e) n := by
  induction ns generalizing e with
  | nil => simp
  | cons n ns ih =>
    obtain ⟨h1, h2, h3⟩ := hu.head
    intro m hm
    rw [exec_cons]
    rcases List.mem_cons.1 hm with rfl | hm
    · intro j o hj ho
      have hmem := List.mem_of_getElem? hj
      rw [foldl_exec_not_mem _ _ (h3 o ho hmem), execNode_mem h1 hj ho]
      split
      · rfl
      · congr 1
        apply argVals_congr
        intro i hi hne
        have hnp := hx.1 i hi hne
        rw [foldl_exec_not_mem _ _ (Or.inr fun k hk => hnp k (by simp [hk])), execNode_not_mem (hnp m (by simp))]
    · exact ih _ h2 hx.2 m hm

/-- Two assignments that satisfy the nodes' equations and agree on what the nodes do not produce are equal. -/
theorem sat_unique_aux {I : Interp V} {env e e' : String → V} (ns : List Node) (hx : Executable ns)
    (hs : ∀ n ∈ ns, NodeSat I env e n) (hs' : ∀ n ∈ ns, NodeSat I env e' n)
    (hag : ∀ x, Unproduced ns x → e x = e' x) : ∀ x, e x = e' x := by
  induction ns with
  | nil => intro x; exact hag x (Or.inr (by intro m hm; simp at hm))
  | cons n ns ih =>
    refine ih hx.2 (fun m hm => hs m (by simp [hm])) (fun m hm => hs' m (by simp [hm])) ?_
    intro x hxx
    by_cases hx0 : x = ""
    · exact hag x (Or.inl hx0)
    · have hunp := hxx.resolve_left hx0
      by_cases hmem : x ∈ n.output
      · obtain ⟨j, hj⟩ := List.mem_iff_getElem?.1 hmem
        rw [hs n (by simp) j x hj hx0, hs' n (by simp) j x hj hx0]
        split
        · rfl
        · congr 1
          apply argVals_congr
          intro i hi hne
          exact hag i (Or.inr (hx.1 i hi hne))
      · exact hag x (Or.inr (by
          intro m hm
          rcases List.mem_cons.1 hm with rfl | hm
          · exact hmem
          · exact hunp m hm))

theorem Unproduced.perm {l l' : List Node} (h : l.Perm l') {x : String} : Unproduced l x ↔ Unproduced l' x :=
  ⟨Or.imp id (fun hu n hn => hu n (h.mem_iff.2 hn)), Or.imp id (fun hu n hn => hu n (h.mem_iff.1 hn))⟩

theorem Sat.perm {I : Interp V} {env e : String → V} {l l' : List Node} (h : l.Perm l') (hs : Sat I env e l) :
    Sat I env e l' :=
  ⟨fun n hn => hs.1 n (h.mem_iff.2 hn), fun x hx => hs.2 x ((Unproduced.perm h).2 hx)⟩

theorem UniqueOutputs.perm {l l' : List Node} (h : l.Perm l') (hu : UniqueOutputs l) : UniqueOutputs l' := by
  unfold UniqueOutputs at *
  exact (h.flatMap_right _).nodup_iff.1 hu

/-- Executing an executable order of a closed graph gives a valuation. -/
theorem exec_sat {I : Interp V} {env : String → V} {ns : List Node} (hu : UniqueOutputs ns) (hx : Executable ns) :
    Sat I env (exec I env ns) ns :=
  ⟨foldl_exec_sat ns env hu hx, fun _ h => foldl_exec_not_mem ns env h⟩

/-- An acyclic graph has at most one valuation. -/
theorem sat_unique {I : Interp V} {env e e' : String → V} {ns : List Node} (ha : Acyclic ns)
    (hs : Sat I env e ns) (hs' : Sat I env e' ns) : e = e' := by
  obtain ⟨l, hp, hex⟩ := ha
  have h1 : Sat I env e l := hs.perm hp.symm
  have h2 : Sat I env e' l := hs'.perm hp.symm
  funext x
  exact sat_unique_aux l hex h1.1 h2.1 (fun y hy => by rw [h1.2 y hy, h2.2 y hy]) x

/-- An acyclic graph has a valuation. -/
theorem sat_exists {I : Interp V} {env : String → V} {ns : List Node} (hu : UniqueOutputs ns) (ha : Acyclic ns) :
    ∃ e, Sat I env e ns := by
  obtain ⟨l, hp, hex⟩ := ha
  exact ⟨_, (exec_sat (hu.perm hp.symm) hex).perm hp⟩

/-- Whether a concrete list of nodes is in executable order is decidable (used for the examples). -/
def decExecutable : (l : List Node) → Decidable (Executable l)
  | [] => .isTrue trivial
  | n :: ns =>
    have := decExecutable ns
    inferInstanceAs (Decidable ((∀ i ∈ n.input, i ≠ "" → ∀ m ∈ n :: ns, i ∉ m.output) ∧ Executable ns))

instance (l : List Node) : Decidable (Executable l) := decExecutable l

end Verif.Graph
