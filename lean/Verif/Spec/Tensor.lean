import Mathlib.Data.List.Perm.Basic
import Mathlib.Data.List.Nodup
/-!
# What the tensor operators mean

A tensor is a shape and an element for every multi-index inside it (ONNX operator specification; also numpy's
semantics). Two tensors are the same if their shapes are equal and they agree on every multi-index inside the shape.
-/
namespace Verif.Tensor

/-- Tensor of elements `α`. -/
structure T (α : Type) where
  shape : List Nat
  get : List Nat → α

/-- Component `i` of a shape or index. -/
def nth (l : List Nat) (i : Nat) : Nat := l.getD i 0

/-- `idx` is a multi-index of a tensor of shape `s`. -/
def InB (s idx : List Nat) : Prop := idx.length = s.length ∧ ∀ i, i < s.length → nth idx i < nth s i

/-- Same tensor. -/
def Same {α : Type} (a b : T α) : Prop := a.shape = b.shape ∧ ∀ idx, InB a.shape idx → a.get idx = b.get idx

theorem Same.refl {α : Type} (a : T α) : Same a a := ⟨rfl, fun _ _ => rfl⟩
theorem Same.symm {α : Type} {a b : T α} (h : Same a b) : Same b a :=
  ⟨h.1.symm, fun i hi => (h.2 i (h.1 ▸ hi)).symm⟩
theorem Same.trans {α : Type} {a b c : T α} (h : Same a b) (h' : Same b c) : Same a c :=
  ⟨h.1.trans h'.1, fun i hi => (h.2 i hi).trans (h'.2 i (h.1 ▸ hi))⟩

/-- `perm` is a permutation of `0 .. n-1`. -/
def IsPerm (perm : List Nat) : Prop := perm.Perm (List.range perm.length)

/-- The index into the operand of a transpose that element `idx` of the result comes from: its component at axis
`perm[i]` is `idx[i]`. -/
def permIdx (perm idx : List Nat) : List Nat := (List.range perm.length).map (fun j => nth idx (perm.idxOf j))

/-- ONNX `Transpose` / `numpy.transpose`: axis `i` of the result is axis `perm[i]` of the operand. -/
def transpose {α : Type} (perm : List Nat) (t : T α) : T α :=
  { shape := perm.map (nth t.shape), get := fun idx => t.get (permIdx perm idx) }

/-! ## Facts about components and permutations -/

@[simp] theorem nth_map_range (f : Nat → Nat) (n i : Nat) : nth ((List.range n).map f) i = if i < n then f i else 0 := by
  unfold nth
  split
  · rename_i h; simp [List.getD, h]
  · rename_i h
    simp [List.getD, Nat.le_of_not_lt h]

theorem nth_map (f : Nat → Nat) (l : List Nat) (i : Nat) (h : i < l.length) : nth (l.map f) i = f (nth l i) := by
  simp [nth, List.getD, h]

theorem nth_eq (l : List Nat) (i : Nat) (h : i < l.length) : nth l i = l[i] := by simp [nth, h]

theorem nth_range {n i : Nat} (h : i < n) : nth (List.range n) i = i := by simp [nth, h]

theorem ext_nth {a b : List Nat} (hl : a.length = b.length) (h : ∀ i, i < a.length → nth a i = nth b i) : a = b := by
  apply List.ext_getElem hl
  intro i h1 h2
  have := h i h1
  rwa [nth_eq a i h1, nth_eq b i h2] at this

theorem IsPerm.nodup {perm : List Nat} (h : IsPerm perm) : perm.Nodup := h.nodup_iff.2 List.nodup_range

theorem IsPerm.mem {perm : List Nat} (h : IsPerm perm) {j : Nat} : j ∈ perm ↔ j < perm.length := by
  rw [List.Perm.mem_iff h, List.mem_range]

theorem IsPerm.nth_lt {perm : List Nat} (h : IsPerm perm) {i : Nat} (hi : i < perm.length) : nth perm i < perm.length := by
  rw [nth_eq _ _ hi]; exact h.mem.1 (List.getElem_mem hi)

theorem IsPerm.idxOf_lt {perm : List Nat} (h : IsPerm perm) {j : Nat} (hj : j < perm.length) :
    perm.idxOf j < perm.length := List.idxOf_lt_length_iff.2 (h.mem.2 hj)

theorem IsPerm.nth_idxOf {perm : List Nat} (h : IsPerm perm) {j : Nat} (hj : j < perm.length) :
    nth perm (perm.idxOf j) = j := by
  rw [nth_eq _ _ (h.idxOf_lt hj)]; exact List.getElem_idxOf _

theorem IsPerm.idxOf_nth {perm : List Nat} (h : IsPerm perm) {i : Nat} (hi : i < perm.length) :
    perm.idxOf (nth perm i) = i := by
  rw [nth_eq _ _ hi]; exact h.nodup.idxOf_getElem i hi

@[simp] theorem permIdx_length (perm idx : List Nat) : (permIdx perm idx).length = perm.length := by simp [permIdx]

theorem nth_permIdx {perm idx : List Nat} {j : Nat} (hj : j < perm.length) :
    nth (permIdx perm idx) j = nth idx (perm.idxOf j) := by simp [permIdx, hj]

/-- A list is a permutation if it has no repetition and its elements are in range. -/
theorem isPerm_of_nodup {l : List Nat} (hn : l.Nodup) (hl : ∀ x ∈ l, x < l.length) : IsPerm l := by
  have hsub : l ⊆ List.range l.length := fun x hx => List.mem_range.2 (hl x hx)
  have h1 : l.Subperm (List.range l.length) := List.subperm_of_subset hn hsub
  exact h1.perm_of_length_le (by simp)

theorem isPerm_range (n : Nat) : IsPerm (List.range n) := by simp [IsPerm]

/-- Indices of the result of a transpose come from indices of the operand. -/
theorem InB.permIdx {perm s idx : List Nat} (hp : IsPerm perm) (hl : s.length = perm.length)
    (h : InB (perm.map (nth s)) idx) : InB s (permIdx perm idx) := by
  refine ⟨by simp [hl], fun j hj => ?_⟩
  rw [hl] at hj
  rw [nth_permIdx hj]
  have := h.2 (perm.idxOf j) (by simpa using hp.idxOf_lt hj)
  rwa [nth_map _ _ _ (hp.idxOf_lt hj), hp.nth_idxOf hj] at this

/-- An index of the operand is the image of an index of the result. -/
theorem permIdx_of_nth {perm idx : List Nat} (hp : IsPerm perm) (hl : idx.length = perm.length) :
    permIdx perm (perm.map (nth idx)) = idx := by
  apply ext_nth (by simp [hl])
  intro j hj
  rw [permIdx_length] at hj
  rw [nth_permIdx hj, nth_map _ _ _ (hp.idxOf_lt hj), hp.nth_idxOf hj]

theorem nth_permIdx_nth {perm idx : List Nat} (hp : IsPerm perm) {i : Nat} (hi : i < perm.length) :
    nth (permIdx perm idx) (nth perm i) = nth idx i := by
  rw [nth_permIdx (hp.nth_lt hi), hp.idxOf_nth hi]

theorem InB.map_nth {perm s idx : List Nat} (hp : IsPerm perm) (hl : s.length = perm.length)
    (h : InB s idx) : InB (perm.map (nth s)) (perm.map (nth idx)) := by
  refine ⟨by simp, fun i hi => ?_⟩
  simp only [List.length_map] at hi
  rw [nth_map _ _ _ hi, nth_map _ _ _ hi]
  exact h.2 _ (hl ▸ hp.nth_lt hi)

/-- Transposing is compatible with `Same`. -/
theorem Same.transpose {α : Type} {perm : List Nat} (hp : IsPerm perm) {a b : T α} (h : Same a b)
    (hl : a.shape.length = perm.length) : Same (transpose perm a) (transpose perm b) := by
  refine ⟨by simp [Tensor.transpose, h.1], fun idx hi => ?_⟩
  exact h.2 _ (InB.permIdx hp hl hi)

end Verif.Tensor
