import Verif.Props.C65_Stitch
import Verif.Props.C65_OneHot
import Verif.Props.C65_Diag
import Verif.Props.C65_SetOps
/-!
# C65: cases that meet the hypotheses, and cases that go wrong
-/
namespace Verif.Index
open Verif.Tensor Verif.Emit Verif.Seg Verif.Vec Verif.Ragged

/-- A matrix by its rows. -/
def mat (rows : List (List Int)) (m : Nat) : T Int := ⟨[rows.length, m], fun i => (rows.getD (nth i 0) []).getD (nth i 1) 0⟩

/-! ## Cases of the theorems -/

example : bincount1 false [3, 1, 3, 9, 0, -2] 5 = some [1, 1, 0, 2, 0] := (bincount1_ok [3, 1, 3, 9, 0, -2] 5).1.trans (by decide)

example : bincount1 true [3, 1, 3, 9, 0, -2] 5 = some [1, 1, 0, 1, 0] := (bincount1_ok [3, 1, 3, 9, 0, -2] 5).2.trans (by decide)

example : ∃ r, bincount2 false [[0, 2, 2], [1, 1, 7]] 3 = some r ∧ r.get [0, 2] = 2 ∧ r.get [1, 1] = 2 ∧ r.get [1, 2] = 0 := by
  obtain ⟨r, h1, _, h3⟩ := bincount2_ok [[0, 2, 2], [1, 1, 7]] 3 false
  refine ⟨r, h1, ?_, ?_, ?_⟩
  · exact Option.some.inj ((h3 0 (by decide) 2 (by decide)).trans (by decide))
  · exact Option.some.inj ((h3 1 (by decide) 1 (by decide)).trans (by decide))
  · exact Option.some.inj ((h3 1 (by decide) 2 (by decide)).trans (by decide))

example : ∃ a b, dynamicPartition (mat [[1, 2], [3, 4], [5, 6]] 2) [1, 0, 1] 2 = some [a, b] ∧ a.shape = [1, 2] ∧ b.shape = [2, 2] ∧ b.get [1, 0] = 5 :=
  ⟨_, _, rfl, rfl, rfl, rfl⟩

example : TfIndex.IsStitch [([2, 0], mat [[1, 2], [3, 4]] 2), ([1], mat [[5, 6]] 2)] 3 [2]
    ((dynamicStitch 0 [([2, 0], mat [[1, 2], [3, 4]] 2), ([1], mat [[5, 6]] 2)]).getD ⟨[], fun _ => 0⟩) := by
  obtain ⟨out, h1, h2⟩ := dynamicStitch_ok (0 : Int) [([2, 0], mat [[1, 2], [3, 4]] 2), ([1], mat [[5, 6]] 2)] (u := [2]) (n := 3) (by simp)
    (by intro p hp; simp at hp; rcases hp with rfl | rfl <;> rfl) (by decide)
  rw [h1]
  exact h2

example : ∃ y, oneHotNew (-1) 3 (5 : Int) 7 ⟨[2], fun i => if nth i 0 = 0 then 2 else 4⟩ = some y ∧
    (y.get [0, 0], y.get [0, 1], y.get [0, 2], y.get [1, 0], y.get [1, 1], y.get [1, 2]) = (7, 7, 5, 7, 7, 7) := ⟨_, rfl, by decide⟩

example : ∃ y, oneHotOld 0 3 (5 : Int) 7 ⟨[2], fun i => if nth i 0 = 0 then 2 else 1⟩ = some y ∧ y.shape = [3, 2] ∧
    (y.get [0, 0], y.get [1, 0], y.get [2, 0], y.get [0, 1], y.get [1, 1], y.get [2, 1]) = (7, 7, 5, 7, 5, 7) := ⟨_, rfl, rfl, by decide⟩

example : ∃ y, tensorScatter (· + ·) 1 (⟨[3], fun _ => 10⟩ : T Int) [[1], [1], [0]] ⟨[3], fun i => nth i 0 + 1⟩ = some y ∧
    (y.get [0], y.get [1], y.get [2]) = (13, 13, 10) := ⟨_, rfl, by decide⟩

example : ∃ y, matrixDiagPart 0 (⟨[2, 2, 3], fun i => (100 * nth i 0 + 10 * nth i 1 + nth i 2 : Int)⟩ : T Int) = some y ∧
    Same y ⟨[2, 2], fun i => (100 * nth i 0 + 11 * nth i 1 : Int)⟩ := by
  obtain ⟨y, h1, h2⟩ := matrixDiagPart_partial (0 : Int) ⟨[2, 2, 3], fun i => (100 * nth i 0 + 10 * nth i 1 + nth i 2 : Int)⟩ [2] 2 3 rfl (by simp) (by simp) (by simp)
  refine ⟨y, h1, h2.1.trans rfl, fun i hi => ?_⟩
  rw [h2.2 i hi]
  rw [h2.1] at hi
  obtain ⟨k, j, rfl, hk, hj⟩ := inB_cons' hi
  obtain ⟨l, j, rfl, hl, hj⟩ := inB_cons' hj
  rw [inB_nil.1 hj]
  simp only [TfIndex.diagPart, nth, List.length_singleton, List.cons_append, List.nil_append, List.getD_cons_zero, List.getD_cons_succ]
  omega

example : ∃ ix vals shape, setOperation .intersection (mat [[3, 1, 3], [5, 6, 7]] 3) (mat [[3, 9], [8, 8]] 2) = some (ix, vals, shape) ∧
    TfIndex.IsSetResult .intersection [2] (mat [[3, 1, 3], [5, 6, 7]] 3) (mat [[3, 9], [8, 8]] 2) ix vals shape :=
  setOperation_ok .intersection _ _ [2] 3 2 rfl rfl
    ⟨[0], 3, inB_cons.2 ⟨by simp, inB_nil.2 rfl⟩, ⟨0, by simp [mat], rfl⟩, ⟨0, by simp [mat], rfl⟩⟩

/-! ## Defects -/

/-- An index of -1 means no value in TensorFlow, the emitted operator counts it from the back. -/
theorem oneHot_negative_wrong : ∃ y, oneHotNew (-1) 3 (1 : Int) 0 ⟨[1], fun _ => -1⟩ = some y ∧ y.get [0, 2] = 1 ∧
    (TfIndex.oneHot 1 3 (0 : Int) 1 ⟨[1], fun _ => -1⟩).get [0, 2] = 0 := ⟨_, rfl, by decide, by decide⟩

/-- Swapped values: the table for 0 at the index and 1 elsewhere is all zeros. -/
theorem oneHot_swapped_wrong (depth : Nat) (i : List Nat) : (eyeTable depth (0 : Int) 1).get i = 0 := by
  unfold eyeTable
  by_cases h : nth i 0 = nth i 1 <;> simp [h]

/-- Indices with a gap: TensorFlow leaves the gap undefined, the emitted operators fail. -/
theorem stitch_gap_wrong : dynamicStitch (0 : Int) [([0, 2], mat [[1], [2]] 1)] = none := by decide

/-- An index that is in two parts: in TensorFlow the later part wins, the emitted operators write twice. -/
theorem stitch_twice_wrong : dynamicStitch (0 : Int) [([0, 1], mat [[1], [2]] 1), ([1], mat [[3]] 1)] = none := by decide

/-- A single matrix has no third axis to slice. -/
theorem diagPart_matrix_wrong (m n : Nat) (f : List Nat → Int) : matrixDiagPart 0 (⟨[m, n], f⟩ : T Int) = none := by
  have h : ∀ k : Nat, sliceSquare 0 k (⟨[m, n], f⟩ : T Int) = none := by
    intro k
    unfold sliceSquare
    rw [if_neg]
    rintro ⟨_, _, h, _⟩
    have := h 2 (by simp)
    simp at this
  simp [matrixDiagPart, minDim, h]

/-- With two leading dimensions the second one is cut to the length of the diagonal. -/
theorem diagPart_rank4_wrong : ∃ y, matrixDiagPart 0 (⟨[1, 3, 2, 2], fun _ => (0 : Int)⟩ : T Int) = some y ∧ y.shape = [1, 2, 2] ∧
    (TfIndex.diagPart [1, 3] 2 2 (⟨[1, 3, 2, 2], fun _ => (0 : Int)⟩ : T Int)).shape = [1, 3, 2] := ⟨_, rfl, rfl, rfl⟩

/-- `ScatterNd` adds up what is written to the same place in TensorFlow; the emitted operator leaves it undefined. -/
theorem scatterNd_twice_wrong : scatterNdOp (0 : Int) 1 [2] [[1], [1]] ⟨[2], fun _ => 1⟩ = none := by decide

/-- No set of the result has an element: `ReduceMax` of nothing. -/
theorem setOperation_empty_wrong : setOperation .intersection (mat [[1]] 1) (mat [[2]] 1) = none := by
  have h : setRows .intersection (mat [[1]] 1) (mat [[2]] 1) = some (setList [1] (fun _ => [])) := by
    refine setRows_ok .intersection (s := [1]) (da := 1) (db := 1) rfl rfl (fun _ => List.Pairwise.nil) (fun p hp v => ?_)
    obtain ⟨k, j, rfl, hk, hj⟩ := inB_cons' hp
    rw [inB_nil.1 hj]
    have hk : k = 0 := by omega
    subst hk
    simp only [List.not_mem_nil, false_iff, TfIndex.SetOp.Keeps, TfIndex.InSet]
    rintro ⟨⟨a, ha, e1⟩, ⟨b, hb, e2⟩⟩
    simp [mat] at ha hb
    subst ha hb
    simp [mat, nth] at e1 e2
    omega
  have e : setList [1] (fun _ => []) = [] := by simp [setList]
  unfold setOperation
  rw [h, e]
  have hl : lastIndex ([] : List (List Int)) = none := by
    simp [lastIndex, uniqueRowsCnt, uniqueRowsFirst, uniqueRows, fill, scatterVec, List.dedup]
  simp [hl]

end Verif.Index
