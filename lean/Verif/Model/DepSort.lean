/-!
# Model of `utils.topological_sort`
-/
namespace Verif.DepSort
variable {α : Type} [DecidableEq α]

/-- The exceptions `utils.topological_sort` can raise: `KeyError` from `dependencies[x]`, or the `ValueError`. -/
inductive Err (α : Type) where
  | keyError (x : α)
  | cyclic
  deriving Repr, DecidableEq

/-- Number of keys that were neither finished nor started (termination measure only). -/
def fresh (deps : List (α × List α)) (visiting visited : List α) : Nat :=
  ((deps.map (·.1)).filter (fun k => k ∉ visiting ∧ k ∉ visited)).length

/-- `set.remove` -/
def removeFrom (s : List α) (x : α) : List α := s.filter (· ≠ x)

theorem lookup_mem {deps : List (α × List α)} {x : α} {ds : List α} (h : deps.lookup x = some ds) :
    x ∈ deps.map (·.1) := by
  induction deps with
  | nil => simp at h
  | cons p deps ih =>
    obtain ⟨k, v⟩ := p
    rw [List.lookup_cons] at h
    by_cases e : x = k
    · simp [e]
    · simp only [beq_eq_false_iff_ne.2 e] at h
      exact List.mem_cons_of_mem _ (ih h)

theorem fresh_lt {deps : List (α × List α)} {x : α} {ds : List α} {visiting visited : List α}
    (h : deps.lookup x = some ds) (h1 : x ∉ visiting) (h2 : x ∉ visited) :
    fresh deps (x :: visiting) visited < fresh deps visiting visited := by
  unfold fresh
  have e : (deps.map (·.1)).filter (fun k => k ∉ x :: visiting ∧ k ∉ visited)
      = ((deps.map (·.1)).filter (fun k => k ∉ visiting ∧ k ∉ visited)).filter (fun k => k ≠ x) := by
    rw [List.filter_filter]
    apply List.filter_congr
    intro k _
    simp [Bool.and_assoc]
  rw [e, List.length_filter_lt_length_iff_exists]
  exact ⟨x, by simpa [h1, h2] using lookup_mem h, by simp⟩

theorem fresh_finish {deps : List (α × List α)} {x : α} {visiting visited : List α} (h : x ∈ visiting) :
    fresh deps (removeFrom visiting x) (x :: visited) = fresh deps visiting visited := by
  unfold fresh removeFrom
  congr 1
  apply List.filter_congr
  intro k _
  by_cases hk : k = x
  · subst hk; simp [h]
  · simp [hk]

/-- The `while stack:` loop of `utils.topological_sort` (tf2onnx/utils.py:327-341). The head of `stack` is the end
of the Python list (the element `pop()` returns); `visiting`/`visited` are Python sets; `ordered` is built by
`append`. The inner `for y in dependencies[x]` (lines 337-341) raises if some `y` is in `visiting` (which already
holds `x`), and otherwise pushes the unvisited ones in order. -/
def loop (deps : List (α × List α)) (stack visiting visited ordered : List α) : Except (Err α) (List α) :=
  match stack with
  | [] => .ok ordered
  | x :: rest =>
    if visited.contains x then loop deps rest visiting visited ordered
    else if hv : visiting.contains x then
      loop deps rest (removeFrom visiting x) (x :: visited) (ordered ++ [x])
    else
      match hl : deps.lookup x with
      | none => .error (.keyError x)
      | some ds =>
        if ds.any (fun y => (x :: visiting).contains y) then .error .cyclic
        else loop deps ((ds.filter (fun y => !visited.contains y)).reverse ++ x :: rest) (x :: visiting) visited ordered
termination_by (fresh deps visiting visited, stack.length)
decreasing_by
  · apply Prod.Lex.right; simp
  · rw [fresh_finish (by simpa using hv)]; apply Prod.Lex.right; simp
  · apply Prod.Lex.left
    exact fresh_lt hl (by simpa using hv) (by simp_all)

theorem loop_nil (deps : List (α × List α)) (visiting visited ordered : List α) :
    loop deps [] visiting visited ordered = .ok ordered := by rw [loop]

/-- One iteration of the loop. -/
theorem loop_cons (deps : List (α × List α)) (x : α) (rest visiting visited ordered : List α) :
    loop deps (x :: rest) visiting visited ordered =
      if visited.contains x then loop deps rest visiting visited ordered
      else if visiting.contains x then
        loop deps rest (removeFrom visiting x) (x :: visited) (ordered ++ [x])
      else
        match deps.lookup x with
        | none => .error (.keyError x)
        | some ds =>
          if ds.any (fun y => (x :: visiting).contains y) then .error .cyclic
          else loop deps ((ds.filter (fun y => !visited.contains y)).reverse ++ x :: rest) (x :: visiting)
            visited ordered := by
  rw [loop]
  split
  · rfl
  · split
    · rfl
    · split <;> rename_i h <;> rw [h]

/-- `utils.topological_sort` (tf2onnx/utils.py:318-342): `stack = list(dependencies.keys())`, empty sets. A Python
dict is an association list with distinct keys. -/
def topologicalSort (deps : List (α × List α)) : Except (Err α) (List α) :=
  loop deps (deps.map (·.1)).reverse [] [] []

end Verif.DepSort
