/-!
# Python dictionaries as association lists

`get` is `d.get(k)`, `set` is `d[k] = v` (keeps the position of an existing key, appends a new one), `erase` is
`del d[k]` / `d.pop(k)`, `keys` is `d.keys()` in insertion order.
-/
namespace Verif

abbrev Dict (κ β : Type) := List (κ × β)

namespace Dict
variable {κ β : Type} [DecidableEq κ]

def get : Dict κ β → κ → Option β
  | [], _ => none
  | (k, v) :: d, x => if k = x then some v else get d x

def set : Dict κ β → κ → β → Dict κ β
  | [], x, b => [(x, b)]
  | (k, v) :: d, x, b => if k = x then (k, b) :: d else (k, v) :: set d x b

def erase (d : Dict κ β) (x : κ) : Dict κ β := d.filter (fun p => p.1 ≠ x)

def contains (d : Dict κ β) (x : κ) : Bool := (d.get x).isSome

omit [DecidableEq κ] in
def keys (d : Dict κ β) : List κ := d.map (·.1)

@[simp] theorem get_nil (x : κ) : get ([] : Dict κ β) x = none := rfl

@[simp] theorem get_set (d : Dict κ β) (x y : κ) (b : β) :
    (d.set x b).get y = if x = y then some b else d.get y := by
  induction d with
  | nil => simp [set, get]
  | cons p d ih =>
    obtain ⟨k, v⟩ := p
    simp only [set]
    by_cases hk : k = x
    · subst hk; by_cases hy : k = y <;> simp [get, hy]
    · simp only [hk, if_false, get, ih]
      by_cases hy : k = y
      · subst hy; simp [Ne.symm hk]
      · simp [hy]

@[simp] theorem get_erase (d : Dict κ β) (x y : κ) :
    (d.erase x).get y = if x = y then none else d.get y := by
  induction d with
  | nil => simp [erase]
  | cons p d ih =>
    obtain ⟨k, v⟩ := p
    simp only [erase] at ih
    simp only [erase, List.filter_cons]
    by_cases hk : k = x
    · subst hk
      simp only [ne_eq, not_true_eq_false, decide_false, Bool.false_eq_true, if_false, ih, get]
      by_cases hy : k = y <;> simp [hy]
    · simp only [ne_eq, hk, not_false_eq_true, decide_true, if_true, get, ih]
      by_cases hy : k = y
      · subst hy; simp [Ne.symm hk]
      · simp [hy]

theorem get_eq_some_mem {d : Dict κ β} {x : κ} {b : β} (h : d.get x = some b) : (x, b) ∈ d := by
  induction d with
  | nil => simp at h
  | cons p d ih =>
    obtain ⟨k, v⟩ := p
    simp only [get] at h
    split at h
    · cases h; rename_i e; subst e; simp
    · simp [ih h]

theorem get_isSome_iff {d : Dict κ β} {x : κ} : (d.get x).isSome ↔ x ∈ d.keys := by
  induction d with
  | nil => simp [keys]
  | cons p d ih =>
    obtain ⟨k, v⟩ := p
    simp only [get, keys, List.map_cons, List.mem_cons]
    by_cases hk : k = x
    · simp [hk]
    · simp only [hk, if_false, ih, keys]; simp [Ne.symm hk]

theorem get_eq_none_iff {d : Dict κ β} {x : κ} : d.get x = none ↔ x ∉ d.keys := by
  rw [← get_isSome_iff]; cases d.get x <;> simp

end Dict
end Verif
