import Verif.Model.DepSort
import Mathlib.Logic.Relation
/-!
# C04: `utils.topological_sort` returns a topological order, and fails only if there is none
-/
namespace Verif.DepSort
variable {α : Type} [DecidableEq α]

/-! ## Specification -/

/-- `y` is listed among the dependencies of the key `x`. -/
def DependsOn (deps : List (α × List α)) (x y : α) : Prop := ∃ ds, deps.lookup x = some ds ∧ y ∈ ds

/-- A topological order of a dependency dictionary: every key exactly once, nothing else, and everything an item
depends on stands before it. -/
structure IsTopoOrder (deps : List (α × List α)) (out : List α) : Prop where
  nodup : out.Nodup
  mem : ∀ x, x ∈ out ↔ x ∈ deps.map (·.1)
  before : ∀ pre x post, out = pre ++ x :: post → ∀ y, DependsOn deps x y → y ∈ pre

/-! ## Invariant of the loop -/

structure Inv (deps : List (α × List α)) (stack visiting visited ordered : List α) : Prop where
  ordMem : ∀ x, x ∈ ordered ↔ x ∈ visited
  ordNodup : ordered.Nodup
  ordKeys : ∀ x ∈ ordered, x ∈ deps.map (·.1)
  ordBefore : ∀ pre x post, ordered = pre ++ x :: post → ∀ y, DependsOn deps x y → y ∈ pre
  disj : ∀ x ∈ visiting, x ∉ visited
  keys : ∀ x ∈ deps.map (·.1), x ∈ visited ∨ x ∈ stack
  src : ∀ x ∈ stack, x ∈ deps.map (·.1) ∨ ∃ k, DependsOn deps k x
  split : ∀ v ∈ visiting, ∃ pre post, stack = pre ++ v :: post ∧ v ∉ pre ∧ v ∈ deps.map (·.1) ∧
    (∀ d, DependsOn deps v d → d ∈ visited ∨ d ∈ pre) ∧
    (∀ z ∈ pre, Relation.TransGen (DependsOn deps) v z)

/-- What the loop may return. -/
def Good (deps : List (α × List α)) : Except (Err α) (List α) → Prop
  | .ok out => IsTopoOrder deps out
  | .error (.keyError x) => x ∉ deps.map (·.1) ∧ ∃ k, DependsOn deps k x
  | .error .cyclic => ∃ x, Relation.TransGen (DependsOn deps) x x

theorem lookup_none {deps : List (α × List α)} {x : α} (h : deps.lookup x = none) :
    x ∉ deps.map (·.1) := by
  induction deps with
  | nil => simp
  | cons p deps ih =>
    obtain ⟨k, v⟩ := p
    rw [List.lookup_cons] at h
    by_cases e : x = k
    · simp [e] at h
    · simp only [beq_eq_false_iff_ne.2 e] at h
      intro hx
      rcases List.mem_cons.1 hx with hx | hx
      · exact e hx
      · exact ih h hx

theorem loop_good (deps : List (α × List α)) (stack visiting visited ordered : List α)
    (h : Inv deps stack visiting visited ordered) : Good deps (loop deps stack visiting visited ordered) := by
  induction stack, visiting, visited, ordered using loop.induct deps with
  | case1 visiting visited ordered =>
    rw [loop]
    refine ⟨h.ordNodup, fun x => ⟨h.ordKeys x, fun hx => ?_⟩, h.ordBefore⟩
    rcases h.keys x hx with h' | h'
    · exact (h.ordMem x).2 h'
    · simp at h'
  | case2 visiting visited ordered x rest hvis ih =>
    rw [loop, if_pos hvis]
    apply ih
    have hvis : x ∈ visited := by simpa using hvis
    refine { h with keys := ?_, src := fun y hy => h.src y (by simp [hy]), split := ?_ }
    · intro y hy
      rcases h.keys y hy with h' | h'
      · exact Or.inl h'
      · rcases List.mem_cons.1 h' with rfl | h'
        · exact Or.inl hvis
        · exact Or.inr h'
    · intro v hv
      obtain ⟨pre, post, hs, hnp, hk, hd, hr⟩ := h.split v hv
      cases pre with
      | nil => simp at hs; exact absurd (hs.1 ▸ hvis) (h.disj v hv)
      | cons a pre =>
        simp at hs
        obtain ⟨rfl, rfl⟩ := hs
        refine ⟨pre, post, rfl, fun hh => hnp (by simp [hh]), hk, ?_, fun z hz => hr z (by simp [hz])⟩
        intro d hdd
        rcases hd d hdd with h' | h'
        · exact Or.inl h'
        · rcases List.mem_cons.1 h' with rfl | h'
          · exact Or.inl hvis
          · exact Or.inr h'
  | case3 visiting visited ordered x rest hnvis hvi ih =>
    rw [loop, if_neg hnvis, dif_pos hvi]
    apply ih
    have hnvis : x ∉ visited := by simpa using hnvis
    have hvi : x ∈ visiting := by simpa using hvi
    obtain ⟨pre, post, hs, hnp, hk, hd, hr⟩ := h.split x hvi
    have hpre : pre = [] := by
      cases pre with
      | nil => rfl
      | cons a pre => simp at hs; obtain ⟨rfl, _⟩ := hs; simp at hnp
    subst hpre
    have hdone : ∀ d, DependsOn deps x d → d ∈ visited := by
      intro d hdd
      rcases hd d hdd with h' | h'
      · exact h'
      · simp at h'
    have hno : x ∉ ordered := fun hx => hnvis ((h.ordMem x).1 hx)
    refine
      { ordMem := ?_, ordNodup := ?_, ordKeys := ?_, ordBefore := ?_, disj := ?_, keys := ?_,
        src := fun y hy => h.src y (by simp [hy]), split := ?_ }
    · intro y; simp [h.ordMem y, or_comm]
    · rw [List.nodup_append]
      refine ⟨h.ordNodup, by simp, ?_⟩
      intro a ha b hb hab
      simp at hb; subst hb; subst hab; exact hno ha
    · intro y hy
      rcases List.mem_append.1 hy with hy | hy
      · exact h.ordKeys y hy
      · simp at hy; subst hy; exact hk
    · intro pre y post hsplit d hdd
      rcases List.eq_nil_or_concat post with rfl | ⟨post', a, rfl⟩
      · have := List.append_inj' hsplit (by simp)
        obtain ⟨rfl, e⟩ := this
        simp at e; subst e
        exact (h.ordMem d).2 (hdone d hdd)
      · have e : ordered ++ [x] = (pre ++ y :: post') ++ [a] := by simpa using hsplit
        have := List.append_inj' e (by simp)
        exact h.ordBefore pre y post' this.1 d hdd
    · intro v hv
      simp [removeFrom] at hv
      simp [hv.2, h.disj v hv.1]
    · intro y hy
      rcases h.keys y hy with h' | h'
      · exact Or.inl (by simp [h'])
      · rcases List.mem_cons.1 h' with rfl | h'
        · exact Or.inl (by simp)
        · exact Or.inr h'
    · intro v hv
      simp [removeFrom] at hv
      obtain ⟨pre, post, hs, hnp, hk, hd, hr⟩ := h.split v hv.1
      cases pre with
      | nil => simp at hs; exact absurd hs.1.symm hv.2
      | cons a pre =>
        simp at hs
        obtain ⟨rfl, rfl⟩ := hs
        refine ⟨pre, post, rfl, fun hh => hnp (by simp [hh]), hk, ?_, fun z hz => hr z (by simp [hz])⟩
        intro d hdd
        rcases hd d hdd with h' | h'
        · exact Or.inl (by simp [h'])
        · rcases List.mem_cons.1 h' with rfl | h'
          · exact Or.inl (by simp)
          · exact Or.inr h'
  | case4 visiting visited ordered x rest hnvis hnvi hl =>
    rw [loop, if_neg hnvis, dif_neg hnvi]
    split
    · refine ⟨lookup_none hl, ?_⟩
      rcases h.src x (by simp) with h' | h'
      · exact absurd h' (lookup_none hl)
      · exact h'
    · rename_i heq; rw [hl] at heq; cases heq
  | case5 visiting visited ordered x rest hnvis hnvi ds hl hany =>
    rw [loop, if_neg hnvis, dif_neg hnvi]
    split
    · rename_i heq; rw [hl] at heq; cases heq
    · rename_i ds' heq
      rw [hl] at heq; cases heq
      rw [if_pos hany]
      simp only [List.any_eq_true] at hany
      obtain ⟨y, hy, hyv⟩ := hany
      have hstep : DependsOn deps x y := ⟨ds, hl, hy⟩
      simp at hyv
      rcases hyv with rfl | hyv
      · exact ⟨y, .single hstep⟩
      · have hne : y ≠ x := by rintro rfl; exact hnvi (by simpa using hyv)
        obtain ⟨pre, post, hs, hnp, hk, hd, hr⟩ := h.split y hyv
        cases pre with
        | nil => simp at hs; exact absurd hs.1.symm hne
        | cons a pre =>
          simp at hs
          obtain ⟨rfl, _⟩ := hs
          exact ⟨y, .tail (hr _ (by simp)) hstep⟩
  | case6 visiting visited ordered x rest hnvis hnvi ds hl hany ih =>
    rw [loop, if_neg hnvis, dif_neg hnvi]
    split
    · rename_i heq; rw [hl] at heq; cases heq
    · rename_i ds' heq
      rw [hl] at heq; cases heq
      rw [if_neg hany]
      apply ih
      have hnvis : x ∉ visited := by simpa using hnvis
      have hnvi : x ∉ visiting := by simpa using hnvi
      simp only [List.any_eq_true, not_exists, not_and] at hany
      have hfree : ∀ y ∈ ds, y ≠ x ∧ y ∉ visiting := by
        intro y hy
        have := hany y hy
        simp at this
        exact this
      have hpush : ∀ z, z ∈ (ds.filter (fun y => !visited.contains y)).reverse ↔ z ∈ ds ∧ z ∉ visited := by
        intro z; simp
      refine { h with disj := ?_, keys := ?_, src := ?_, split := ?_ }
      · intro v hv
        rcases List.mem_cons.1 hv with rfl | hv
        · exact hnvis
        · exact h.disj v hv
      · intro y hy
        rcases h.keys y hy with h' | h'
        · exact Or.inl h'
        · exact Or.inr (List.mem_append_right _ h')
      · intro y hy
        rcases List.mem_append.1 hy with hy | hy
        · exact Or.inr ⟨x, ds, hl, ((hpush y).1 hy).1⟩
        · exact h.src y hy
      · intro v hv
        rcases List.mem_cons.1 hv with rfl | hv
        · refine ⟨_, rest, rfl, ?_, lookup_mem hl, ?_, ?_⟩
          · intro hh; exact (hfree _ ((hpush _).1 hh).1).1 rfl
          · rintro d ⟨ds', hl', hd⟩
            rw [hl] at hl'; cases hl'
            by_cases hdv : d ∈ visited
            · exact Or.inl hdv
            · exact Or.inr ((hpush d).2 ⟨hd, hdv⟩)
          · intro z hz
            exact .single ⟨ds, hl, ((hpush z).1 hz).1⟩
        · obtain ⟨pre, post, hs, hnp, hk, hd, hr⟩ := h.split v hv
          cases pre with
          | nil => simp at hs; exact absurd (hs.1 ▸ hv) hnvi
          | cons a pre =>
            simp at hs
            obtain ⟨rfl, rfl⟩ := hs
            refine ⟨(ds.filter (fun y => !visited.contains y)).reverse ++ x :: pre, post, by simp, ?_, hk, ?_, ?_⟩
            · intro hh
              rcases List.mem_append.1 hh with hh | hh
              · exact (hfree _ ((hpush _).1 hh).1).2 hv
              · exact hnp hh
            · intro d hdd
              rcases hd d hdd with h' | h'
              · exact Or.inl h'
              · exact Or.inr (List.mem_append_right _ h')
            · intro z hz
              rcases List.mem_append.1 hz with hz | hz
              · exact .tail (hr x (by simp)) ⟨ds, hl, ((hpush z).1 hz).1⟩
              · exact hr z hz

theorem topologicalSort_good (deps : List (α × List α)) : Good deps (topologicalSort deps) := by
  apply loop_good
  exact
    { ordMem := by simp, ordNodup := by simp, ordKeys := by simp, ordBefore := by simp,
      disj := by simp, keys := by intro x hx; exact Or.inr (by simpa using hx),
      src := by intro x hx; exact Or.inl (by simpa using hx), split := by simp }

/-- In a topological order everything reachable from an item stands before it. -/
theorem transGen_before {deps : List (α × List α)} {out : List α} (h : IsTopoOrder deps out) {x y : α}
    (hxy : Relation.TransGen (DependsOn deps) x y) :
    ∀ pre post, out = pre ++ x :: post → y ∈ pre := by
  induction hxy with
  | single hs => intro pre post e; exact h.before pre x post e _ hs
  | tail _ hs ih =>
    intro pre post e
    obtain ⟨p1, p2, rfl⟩ := List.append_of_mem (ih pre post e)
    have := h.before p1 _ (p2 ++ x :: post) (by simp [e]) _ hs
    simp [this]

/-! ## Theorems -/

/-- C04 (soundness): a returned list is a topological order. -/
theorem topological_sort_sound (deps : List (α × List α)) (out : List α)
    (h : topologicalSort deps = .ok out) : IsTopoOrder deps out := by
  have := topologicalSort_good deps; rw [h] at this; exact this

/-- C04 (completeness): if the dictionary has any topological order, one is returned (no exception). -/
theorem topological_sort_complete (deps : List (α × List α)) (out : List α) (h : IsTopoOrder deps out) :
    ∃ out', topologicalSort deps = .ok out' := by
  have hg := topologicalSort_good deps
  match hr : topologicalSort deps with
  | .ok out' => exact ⟨out', rfl⟩
  | .error (.keyError x) =>
    rw [hr] at hg
    obtain ⟨hx, k, hk⟩ := hg
    obtain ⟨ds, hl, hd⟩ := hk
    obtain ⟨pre, post, e⟩ := List.append_of_mem ((h.mem k).2 (lookup_mem hl))
    have := h.before pre k post e x ⟨ds, hl, hd⟩
    exact absurd ((h.mem x).1 (by simp [e, this])) hx
  | .error .cyclic =>
    rw [hr] at hg
    obtain ⟨x, hx⟩ := hg
    have hk : x ∈ deps.map (·.1) := by
      have : ∃ z, DependsOn deps x z := by
        cases Relation.TransGen.head'_iff.1 hx with
        | intro z hz => exact ⟨z, hz.1⟩
      obtain ⟨z, ds, hl, _⟩ := this
      exact lookup_mem hl
    obtain ⟨pre, post, e⟩ := List.append_of_mem ((h.mem x).2 hk)
    have hp := transGen_before h hx pre post e
    have hn := h.nodup
    rw [e, List.nodup_append] at hn
    exact absurd rfl (hn.2.2 x hp x (by simp))

/-- C04: the `ValueError` is raised only for a genuine cycle. -/
theorem topological_sort_cyclic (deps : List (α × List α)) (h : topologicalSort deps = .error .cyclic) :
    ∃ x, Relation.TransGen (DependsOn deps) x x := by
  have := topologicalSort_good deps; rw [h] at this; exact this

/-- C04: the `KeyError` is raised only for a dependency that is not a key. -/
theorem topological_sort_keyError (deps : List (α × List α)) (x : α)
    (h : topologicalSort deps = .error (.keyError x)) :
    x ∉ deps.map (·.1) ∧ ∃ k, DependsOn deps k x := by
  have := topologicalSort_good deps; rw [h] at this; exact this

/-- A diamond, and a cycle that is only reached late. -/
example : topologicalSort [(1, [2, 3]), (2, [4]), (3, [4]), (4, [])] = .ok [4, 3, 2, 1] := by
  simp [topologicalSort, loop_cons, loop_nil, List.lookup, removeFrom]
example : topologicalSort [(1, [2]), (2, [3]), (3, [2])] = .error .cyclic := by
  simp [topologicalSort, loop_cons, loop_nil, List.lookup, removeFrom]
example : IsTopoOrder [(1, [2]), (2, [])] [2, 1] := topological_sort_sound _ _ (by simp [topologicalSort, loop_cons, loop_nil, List.lookup, removeFrom])

end Verif.DepSort
