import Verif.Props.C64_Range
import Verif.Props.C64_Sparse
/-!
# C64: examples, and where the conversion gives no result
-/
namespace Verif.Ragged
open Verif.Tensor Verif.Emit Verif.Seg Verif.Vec Verif.Sparse

/-! ## Where it does not hold -/

/-- A level without rows has no longest row: the conversion of `RaggedTensorToSparse` and `RaggedTensorToTensor` computes nothing. -/
theorem splits_no_rows (before : Option (List (List Int)) × List Int) : splitsRound before (splits []) = none := rfl

/-- Likewise a level without elements, given by row ids, although it has rows. -/
theorem rowIds_no_elements (before : Option (List (List Int)) × List Int) : rowIdsRound before [] = none := by
  simp [rowIdsRound, rowIdsToColumns, uniqueCnt, uniqueVal, List.mergeSort, reduceMax1]

/-- A ragged tensor of two empty rows of rows: the inner level has no rows. -/
theorem raggedToSparse_empty : raggedToSparse ((lens 2 ([[], []] : List (Nest Int 2))).map splits) = none := rfl

/-! ## Examples -/

/-- `[[[1, 2], []], [], [[3]]]`. -/
def exT : List (Nest Int 2) := [[[1, 2], []], [], [[3]]]

example : lens 2 exT = [[2, 0, 1], [2, 0, 1]] := rfl
example : leaves 2 exT = [1, 2, 3] := rfl
example : paths 3 exT = [[0, 0, 0], [0, 0, 1], [2, 0, 0]] := rfl
example : box 2 exT = [3, 2, 2] := rfl
example : (lens 2 exT).map splits = [[0, 2, 2, 3], [0, 2, 2, 3]] := rfl
example : (lens 2 exT).map rowIds = [[0, 0, 2], [0, 0, 2]] := rfl

theorem exT_rows : ∀ r ∈ lens 2 exT, r ≠ [] := by
  intro r hr
  have : lens 2 exT = [[2, 0, 1], [2, 0, 1]] := rfl
  rw [this] at hr
  simp at hr
  subst hr
  simp

/-- `RaggedTensorToSparse` of the example. -/
example : raggedToSparse [[0, 2, 2, 3], [0, 2, 2, 3]] = some ([[0, 0, 0], [0, 0, 1], [2, 0, 0]], [3, 2, 2]) := raggedToSparse_ok exT exT_rows

/-- `[[1, 2], [], [3]]` with leaves that are numbers. -/
def exD : List (Nest (List Nat → Int) 1) := [[fun _ => 1, fun _ => 2], [], [fun _ => 3]]

/-- Its values. -/
def exV : T Int := ⟨[3], fun i => (nth i 0 : Int) + 1⟩

theorem exD_values : HoldsLeaves exV [] (leaves 1 exD) := by
  refine ⟨rfl, fun m hm j _ => ?_⟩
  have hm : m < 3 := hm
  match m, hm with
  | 0, _ => rfl
  | 1, _ => rfl
  | 2, _ => rfl

/-- Both encodings of the example. -/
theorem exD_splits : Encodes exD (.rowSplits [[0, 2, 2, 3]]) := Encodes.splits (t := exD) (by
  intro r hr
  have : lens 1 exD = [[2, 0, 1]] := rfl
  rw [this] at hr
  simp at hr
  subst hr
  simp)

theorem exD_rowIds : Encodes exD (.valueRowids 3 [[0, 0, 2]]) := Encodes.rowIds (t := exD) (by
  intro r hr
  have : lens 1 exD = [[2, 0, 1]] := rfl
  rw [this] at hr
  simp at hr
  subst hr
  simp)

/-- The natural shape, from row ids. -/
example : ∃ r, raggedToTensor (.valueRowids 3 [[0, 0, 2]]) false none exV 9 = some r ∧ r.shape = [3, 2] ∧ r.get [0, 1] = 2 ∧ r.get [1, 0] = 9 ∧ r.get [2, 0] = 3 := by
  obtain ⟨r, h1, h2, h3⟩ := raggedToTensor_natural exD_rowIds (uniform := false) (u := []) (fun _ => rfl) exD_values 9
  have hs : r.shape = [3, 2] := h2
  have hin : ∀ a b, a < 3 → b < 2 → InB r.shape [a, b] := by
    intro a b ha hb
    rw [hs, inB_iff_forall₂]
    exact .cons ha (.cons hb .nil)
  exact ⟨r, h1, hs, h3 [0, 1] (hin _ _ (by omega) (by omega)), h3 [1, 0] (hin _ _ (by omega) (by omega)), h3 [2, 0] (hin _ _ (by omega) (by omega))⟩

/-- Cut to one column, from row splits. -/
example : ∃ r, raggedToTensor (.rowSplits [[0, 2, 2, 3]]) false (some [-1, 1]) exV 9 = some r ∧ r.shape = [3, 1] ∧ r.get [0, 0] = 1 ∧ r.get [1, 0] = 9 := by
  obtain ⟨r, h1, h2, h3⟩ := raggedToTensor_shape exD_splits (uniform := false) (u := []) (fun _ => rfl) exD_values 9 (s := [-1, 1]) rfl rfl
  have hs : r.shape = [3, 1] := h2
  have hin : ∀ a b, a < 3 → b < 1 → InB r.shape [a, b] := by
    intro a b ha hb
    rw [hs, inB_iff_forall₂]
    exact .cons ha (.cons hb .nil)
  exact ⟨r, h1, hs, h3 [0, 0] (hin _ _ (by omega) (by omega)), h3 [1, 0] (hin _ _ (by omega) (by omega))⟩

/-- Two ranges, one upwards, one downwards. -/
example : raggedRange (.vec [0, 5]) (.vec [5, 0]) (.vec [2, -3]) = some ([0, 3, 5], [0, 2, 4, 5, 2]) := by
  refine (raggedRange_ok (n := 2) (s := .vec [0, 5]) (l := .vec [5, 0]) (d := .vec [2, -3]) (by omega) rfl rfl rfl (Or.inl trivial) (fun i hi => ?_) (fun i hi => ?_)).trans rfl
  · match i, hi with
    | 0, _ => decide
    | 1, _ => decide
  · match i, hi with
    | 0, _ => unfold ShortOpposite; decide
    | 1, _ => unfold ShortOpposite; decide

/-- `tf.ragged.range([0], [-1], 2)` is `[[]]`, but the converted model gives `[[0]]`. -/
example : raggedRange (.vec [0]) (.vec [-1]) (.vec [2]) = some ([0, 1], [0]) := (raggedRange_wrong (by unfold ShortOpposite; decide)).1

/-- Rows 2, 1, 0, 0 of `[[a, b], [], [c]]`. -/
example : raggedGather [0, 2, 2, 3] ['a', 'b', 'c'] [2, 1, 0, 0] = some ([0, 1, 1, 3, 5], ['c', 'a', 'b', 'a', 'b']) :=
  raggedGather_ok [['a', 'b'], [], ['c']] [2, 1, 0, 0] (by decide)

/-- Reshape of a sparse 2 × 6 tensor to `[3, -1]`. -/
example : sparseReshape [[0, 5], [1, 2]] [2, 6] [3, -1] = some ([[1, 1], [2, 0]], [3, 4]) := by decide

theorem exReshape : ReshapesTo true [2, 6] [3, -1] [3, 4] where
  rank := rfl
  copy := by simp
  zero := by intro i h; match i, h with
    | 0, h => simp at h
    | 1, h => simp at h
    | k + 2, h => simp at h
  pos := by
    intro i d h hd
    match i, h with
    | 0, h => simp at h; subst h; rfl
    | 1, h => simp at h; omega
    | k + 2, h => simp at h
  valid := by decide
  one := by
    intro i j hi hj
    match i, hi with
    | 0, h => simp at h
    | 1, _ =>
      match j, hj with
      | 0, h => simp at h
      | 1, _ => rfl
      | k + 2, h => simp at h
    | k + 2, h => simp at h
  total := rfl
  infer := by
    intro i h
    match i, h with
    | 0, h => simp at h
    | 1, _ => decide
    | k + 2, h => simp at h

/-- Row 1 of 3 is empty. -/
example : fillEmptyRows 2 [[0, 3], [2, 1]] [7, 8] [3, 5] 0 = some ([[0, 3], [2, 1], [1, 0]], [7, 8, 0], [false, true, false]) :=
  fillEmptyRows_ok (n := 3) (d := 2) (by omega) (P := [[0, 3], [2, 1]]) (by
    intro p hp
    simp at hp
    rcases hp with rfl | rfl
    · exact ⟨0, [3], rfl, by omega⟩
    · exact ⟨2, [1], rfl, by omega⟩) [7, 8] [5] 0

end Verif.Ragged
