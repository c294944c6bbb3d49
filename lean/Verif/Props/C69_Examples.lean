import Verif.Props.C69_Run
/-!
# C69: examples
-/
namespace Verif.Cond

/-- Where, in which branch and in which order each tensor of `exGraph` is. -/
def exTable : List (String × Path × Nat) :=
  [("x", [], 0), ("p", [], 0), ("q", [], 0),
   ("s0", [(["cond"], false)], 1), ("s1", [(["cond"], true)], 1), ("q0", [(["cond"], false)], 1), ("q1", [(["cond"], true)], 1),
   ("i0", [(["cond"], true), (["cond", "cond"], false)], 2), ("i1", [(["cond"], true), (["cond", "cond"], true)], 2),
   ("n", [(["cond"], true), (["cond", "cond"], true)], 3), ("m", [(["cond"], true)], 4), ("f", [(["cond"], false)], 2), ("o", [], 5), ("y", [], 6)]

def exPlan : Plan where
  label x := ((exTable.lookup x).getD ([], 0)).1
  rank x := ((exTable.lookup x).getD ([], 0)).2
  loc s := if s = ["cond", "cond"] then [(["cond"], true)] else []
  pred s := if s = ["cond", "cond"] then "q1" else "p"

/-- `y = 2 * cond(p, lambda: cond(q, lambda: -5, lambda: 5), lambda: 5 + 1)`, the constant and the predicates being fed. -/
def exGraph (p q : Bool) : List (Node Int) :=
  [.op "Placeholder" (fun _ => [5]) [] ["x"], .op "Placeholder" (fun _ => [if p then 1 else 0]) [] ["p"], .op "Placeholder" (fun _ => [if q then 1 else 0]) [] ["q"],
   .switch "x" "p" "s0" "s1", .switch "q" "p" "q0" "q1", .switch "s1" "q1" "i0" "i1",
   .op "Neg" (fun vs => vs.map (fun v => -v)) ["i1"] ["n"], .merge ["cond", "cond", "Merge"] "i0" "n" "m",
   .op "AddOne" (fun vs => vs.map (fun v => v + 1)) ["s0"] ["f"], .merge ["cond", "Merge"] "f" "m" "o", .op "Double" (fun vs => vs.map (fun v => 2 * v)) ["o"] ["y"]]

/-- The value is used as a truth value. -/
def exTruth (v : Int) : Bool := decide (v ≠ 0)

/-- The value of the conditional in Python. -/
def exValue (p q : Bool) : Int := if p then (if q then -5 else 5) else 5 + 1

/-- The run of TensorFlow. -/
def exRun (p q : Bool) (t : String) : Option Int :=
  (([("x", some 5), ("p", some (if p then 1 else 0)), ("q", some (if q then 1 else 0)), ("s0", if p then none else some 5), ("s1", if p then some 5 else none),
    ("q0", if p then none else some (if q then 1 else 0)), ("q1", if p then some (if q then 1 else 0) else none),
    ("i0", if p then (if q then none else some 5) else none), ("i1", if p then (if q then some 5 else none) else none),
    ("n", if p then (if q then some (-5) else none) else none), ("m", if p then some (if q then -5 else 5) else none), ("f", if p then none else some (5 + 1)),
    ("o", some (exValue p q)), ("y", some (2 * exValue p q))] : List (String × Option Int)).lookup t).getD none

theorem ex_made (p q : Bool) : TfMade exPlan (exGraph p q) := by
  refine ⟨by simp [exGraph, Node.outs], ?_, ?_, ?_⟩
  · intro n hn z hz
    simp only [exGraph, List.mem_cons, List.not_mem_nil, or_false] at hn
    rcases hn with rfl | rfl | rfl | rfl | rfl | rfl | rfl | rfl | rfl | rfl | rfl <;> simp [Node.ins] at hz <;> (try rcases hz with rfl | rfl) <;> (try subst hz) <;>
      simp [exGraph, Node.outs]
  · intro n hn
    simp only [exGraph, List.mem_cons, List.not_mem_nil, or_false] at hn
    rcases hn with rfl | rfl | rfl | rfl | rfl | rfl | rfl | rfl | rfl | rfl | rfl
    · exact ⟨⟨[], by simp, by decide⟩, by simp⟩
    · exact ⟨⟨[], by simp, by decide⟩, by simp⟩
    · exact ⟨⟨[], by simp, by decide⟩, by simp⟩
    · refine ⟨["cond"], by decide, by decide, by decide, by decide, by decide, by decide, ?_⟩
      intro name a b o hm hs
      simp [exGraph] at hm
      rcases hm with ⟨rfl, rfl, rfl, rfl⟩ | ⟨rfl, rfl, rfl, rfl⟩ <;> first | (exact absurd hs (by decide)) | decide
    · refine ⟨["cond"], by decide, by decide, by decide, by decide, by decide, by decide, ?_⟩
      intro name a b o hm hs
      simp [exGraph] at hm
      rcases hm with ⟨rfl, rfl, rfl, rfl⟩ | ⟨rfl, rfl, rfl, rfl⟩ <;> first | (exact absurd hs (by decide)) | decide
    · refine ⟨["cond", "cond"], by decide, by decide, by decide, by decide, by decide, by decide, ?_⟩
      intro name a b o hm hs
      simp [exGraph] at hm
      rcases hm with ⟨rfl, rfl, rfl, rfl⟩ | ⟨rfl, rfl, rfl, rfl⟩ <;> first | (exact absurd hs (by decide)) | decide
    · exact ⟨⟨[(["cond"], true), (["cond", "cond"], true)], by decide, by decide⟩, by decide⟩
    · exact ⟨by decide, by decide, by decide, by decide⟩
    · exact ⟨⟨[(["cond"], false)], by decide, by decide⟩, by decide⟩
    · exact ⟨by decide, by decide, by decide, by decide⟩
    · exact ⟨⟨[], by decide, by decide⟩, by decide⟩
  · intro s b h
    simp only [exPlan] at h
    split at h
    · subst_vars
      simp at h
    · simp at h

/-- A test for `Fires`. -/
def fires? (truth : Int → Bool) (ρ : String → Option Int) : Node Int → Bool
  | .op _ f ins outs => outs.zipIdx.all (fun o => decide (ρ o.1 = none) || decide ((ins.mapM ρ).bind (fun vs => (f vs)[o.2]?) = ρ o.1))
  | .switch d p o0 o1 => (decide (ρ o0 = none) || (decide (ρ d = ρ o0) && decide ((ρ p).map truth = some false))) &&
      (decide (ρ o1 = none) || (decide (ρ d = ρ o1) && decide ((ρ p).map truth = some true)))
  | .merge _ a b o => decide (ρ o = none) || decide (ρ a = ρ o) || decide (ρ b = ρ o)
  | .cond .. => false

theorem fires_of {truth : Int → Bool} {ρ : String → Option Int} {n : Node Int} (h : fires? truth ρ n = true) : Fires truth ρ n := by
  cases n with
  | op t f ins outs =>
    intro k o v hk hv
    simp only [fires?, List.all_eq_true, Bool.or_eq_true, decide_eq_true_eq] at h
    have := h (o, k) (List.mem_zipIdx_iff_getElem?.2 hk)
    rw [hv] at this
    rcases this with h' | h'
    · cases h'
    · exact Option.bind_eq_some_iff.1 h'
  | switch d p o0 o1 =>
    simp only [fires?, Bool.and_eq_true, Bool.or_eq_true, decide_eq_true_eq] at h
    constructor
    · intro v hv
      rw [hv] at h
      obtain ⟨h1, h2⟩ := h.1.resolve_left (by simp)
      exact ⟨h1, Option.map_eq_some_iff.1 h2⟩
    · intro v hv
      rw [hv] at h
      obtain ⟨h1, h2⟩ := h.2.resolve_left (by simp)
      exact ⟨h1, Option.map_eq_some_iff.1 h2⟩
  | merge name a b o =>
    intro v hv
    simp only [fires?, Bool.or_eq_true, decide_eq_true_eq] at h
    rw [hv] at h
    rcases h with (h | h) | h
    · cases h
    · exact Or.inl h
    · exact Or.inr h
  | cond => cases h

theorem ex_run (p q : Bool) : Run exTruth exPlan (exGraph p q) (exRun p q) := by
  constructor
  · intro n hn
    apply fires_of
    revert n
    have : (exGraph p q).all (fires? exTruth (exRun p q)) = true := by cases p <;> cases q <;> decide
    exact List.all_eq_true.1 this
  · intro t v hv s b hs
    have ht : t ∈ exTable.map (·.1) := by
      apply Classical.byContradiction
      intro hn
      have e : exTable.lookup t = none := by
        rw [List.lookup_eq_none_iff]
        intro a ha
        simp only [bne_iff_ne, ne_eq, beq_eq_false_iff_ne]
        exact fun h => hn (List.mem_map.2 ⟨a, ha, h.symm⟩)
      simp only [exPlan, e] at hs
      cases hs
    have all : (exTable.map (·.1)).all (fun t => decide (exRun p q t = none) || (exPlan.label t).all (fun c => decide ((exRun p q (exPlan.pred c.1)).map exTruth = some c.2))) = true := by
      cases p <;> cases q <;> decide
    have := List.all_eq_true.1 all t ht
    simp only [Bool.or_eq_true, decide_eq_true_eq, List.all_eq_true] at this
    exact Option.map_eq_some_iff.1 ((this.resolve_left (by rw [hv]; simp)) (s, b) hs)

/-- Two nested conditionals: the graph is made by `tf.cond`, the rewriter converts both, and the result is that of Python whatever the predicates are. -/
theorem cond_example (p q : Bool) : ∃ G', rewriteCond ⟨fun _ => some 1, fun _ => 0⟩ (exGraph p q) = .ok (G', []) ∧ Gives exTruth G' "y" (2 * exValue p q) := by
  have h : ∃ G', rewriteCond ⟨fun _ => some 1, fun _ => 0⟩ (exGraph p q) = .ok (G', []) := by cases p <;> cases q <;> exact ⟨_, rfl⟩
  obtain ⟨G', h⟩ := h
  refine ⟨G', h, cond_rewrite_partial exTruth exPlan _ _ G' (ex_made p q) ?_ h (exRun p q) (ex_run p q) "y" _ (by decide) ?_ ?_⟩
  · have : scopes (exGraph p q) = [["cond", "cond"], ["cond"]] := by cases p <;> cases q <;> decide
    rw [this]
    simp [exPlan]
  · exact ⟨.op "Double" (fun vs => vs.map (fun v => 2 * v)) ["o"] ["y"], by simp [exGraph], by simp [Node.outs]⟩
  · cases p <;> cases q <;> decide

/-- `cond(p, lambda: (x * x, cond(q, lambda: -x, lambda: x, name="Inner")), lambda: (relu(x), -x))` in the order `topological_sort` gives it (graph.py:1026-1086). -/
def orderGraph : List (Node Int) :=
  [.op "Placeholder" (fun _ => [5]) [] ["x"], .op "Placeholder" (fun _ => [1]) [] ["q"], .op "Placeholder" (fun _ => [1]) [] ["p"],
   .switch "q" "p" "q0" "q1", .switch "x" "p" "s0" "s1", .op "Square" (fun vs => vs.map (fun v => v * v)) ["s1"] ["t"],
   .op "Relu" (fun vs => vs.map (fun v => max v 0)) ["s0"] ["f"], .op "Neg" (fun vs => vs.map (fun v => -v)) ["s0"] ["g"], .merge ["cond", "Merge"] "f" "t" "o",
   .switch "s1" "q1" "i0" "i1", .op "Neg" (fun vs => vs.map (fun v => -v)) ["i1"] ["n"], .merge ["cond", "Inner", "Merge"] "i0" "n" "m", .merge ["cond", "Merge_1"] "g" "m" "o1"]

/-- The conditionals that are not converted. -/
def leftOver (info : Info) (G : List (Node Int)) : Except String (List (List String)) := (rewriteCond info G).map (fun r => r.2)

/-- **C69, violated**: the conditionals are taken in the order of their first `Merge`. If the first output of the outer one does not depend on the inner one, its `Merge` can come
first; then the outer conditional is traced into the inner one and left as it is. -/
theorem cond_order_violated : leftOver ⟨fun _ => some 1, fun _ => 0⟩ orderGraph = .ok [["cond"]] := rfl

/-- `cond(p, lambda: 1, lambda: 2)`. -/
def constGraph : List (Node Int) :=
  [.op "Placeholder" (fun _ => [1]) [] ["p"], .op "Const" (fun _ => [1]) [] ["t"], .op "Const" (fun _ => [2]) [] ["f"], .merge ["cond", "Merge"] "f" "t" "o"]

/-- **C69, violated**: a conditional both of whose branches are constants is left as it is; the `Merge` stays in the graph. -/
theorem cond_constant_branches_violated : leftOver ⟨fun _ => some 1, fun _ => 0⟩ constGraph = .ok [["cond"]] := rfl

/-- A `Merge` of two tensors of the same side of a conditional is not converted. -/
theorem cond_same_side_refused {V : Type} (G : List (Node V)) (a b d p a' d' p' b' : String) (ha : producer G a = some (.switch d p a' a)) (hb : producer G b = some (.switch d' p' b' b))
    (hna : a ≠ a') (hnb : b ≠ b') : ∃ e, traceOne G a b = .error e := by
  have ka : branchKeys G a = [] := by unfold branchKeys; rw [ha]; rfl
  have kb : branchKeys G b = [] := by unfold branchKeys; rw [hb]; rfl
  have ta : branchType G a [] = .ok .true := by simp [branchType, typeStep, ha, hna]
  have tb : branchType G b [] = .ok .true := by simp [branchType, typeStep, hb, hnb]
  refine ⟨"true graph and false graph are intersected", ?_⟩
  unfold traceOne
  rw [ka, kb]
  simp only [nodesOf, List.filterMap_nil, ta, tb]
  rfl

end Verif.Cond
