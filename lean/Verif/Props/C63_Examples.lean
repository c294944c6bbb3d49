import Verif.Props.C63_Mean
import Mathlib.Algebra.Order.Ring.Int
/-!
# C63: the hypotheses can be met
-/
namespace Verif.Seg
open Verif.Tensor Verif.Emit

/-- Integers as data: the maximum of nothing and the infinities are arbitrary. -/
def intNum : Num Int where
  sum := Multiset.sum
  prod := Multiset.prod
  max m := m.fold max (-100)
  min m := m.fold min 100
  zero := 0
  one := 1
  ninf := -100
  pinf := 100
  ofInt := id
  sqrt := id
  div := Int.tdiv
  max2 := max

/-- Five rows of two numbers. -/
def exData : T Int := ⟨[5, 2], fun i => 10 * (nth i 0 : Int) + nth i 1⟩

/-- Ids in no order, segment 1 is empty. -/
def exIn : SegIn Int := ⟨exData, [], [2, 0, 2, 3, 2], 4⟩

/-- `UnsortedSegmentSum`. -/
def exType : SegType := ⟨true, false, false, .sum⟩

theorem ex_valid : Valid exType exIn exData 4 where
  sparse h := by cases h
  dense _ := rfl
  rank := by simp [exData]
  count := rfl
  nonempty := by simp [exIn]
  range := by decide
  given _ := rfl
  counted h := by cases h

/-- The sums are 10 + .., nothing, 0 + 20 + 40 and 30 + .. -/
theorem ex_sum : ∃ p r, segment intNum exType .int (some 1) (some 2) none = .ok p ∧ p exIn = some r ∧ r.shape = [4, 2] ∧
    r.get [0, 1] = 11 ∧ r.get [1, 1] = 0 ∧ r.get [2, 1] = 63 ∧ r.get [3, 0] = 30 := by
  obtain ⟨p, r, h1, h2, h3⟩ := segment_sum (N := intNum) rfl rfl (t := exType) rfl (k := .int) (by simp) (rank := some 2) (c := none) ex_valid
  refine ⟨p, r, h1, h2, h3.1, ?_, ?_, ?_, ?_⟩
  all_goals rw [h3.2 _ (by rw [h3.1]; decide)]; decide

/-- `SparseSegmentMean` of row 3 and row 1, and of row 3; ids in increasing order. -/
def exIn2 : SegIn Int := ⟨exData, [3, 1, 3], [0, 0, 1], 0⟩

theorem ex_valid2 : Valid ⟨false, true, false, .mean⟩ exIn2 (tfRows exData [3, 1, 3]) 2 where
  sparse _ := ⟨[3, 1, 3], rfl, by simp [exIn2, exData], by decide, rfl⟩
  dense h := by cases h
  rank := by simp [tfRows]
  count := rfl
  nonempty := by simp [exIn2]
  range := by decide
  given h := by cases h
  counted _ := ⟨by decide, by decide⟩

theorem ex_noGap : NoGap exIn2.ids 2 := by unfold NoGap exIn2; decide

/-- Minus infinity as the neutral element of the maximum. -/
theorem ex_max (m : Multiset Int) (r : Nat) : intNum.max (m + Multiset.replicate r intNum.ninf) = m.fold max (-100) := by
  change (m + Multiset.replicate r (-100)).fold max (-100) = _
  induction r with
  | zero => simp
  | succ r ih =>
    rw [Multiset.replicate_succ, Multiset.add_cons, Multiset.fold_cons_left, ih]
    refine max_eq_right ?_
    clear ih
    induction m using Multiset.induction_on with
    | empty => simp
    | cons a m h => rw [Multiset.fold_cons_left]; exact le_max_of_le_right h

/-! ## Where the conversion fails or differs -/

/-- Maxima and minima of integers: the conversion raises an exception. -/
theorem int_max_raises {α : Type} (N : Num α) {t : SegType} (ht : t.base = .max ∨ t.base = .min) (rank : Option Nat) (c : Option Int) :
    segment N t .int (some 1) rank c = .error "AttributeError" := by
  unfold segment
  rw [if_neg (by simp), if_neg (by simp)]
  rcases ht with h | h <;> simp [h, reducer]

/-- Means of float64 with a given number of segments: `Max` gets operands of different types, no runtime accepts the model. -/
theorem double_mean_rejected {α : Type} (N : Num α) {t : SegType} (ht : t.base = .mean) (hn : t.hasNum = true) (rank : Option Nat) (c : Option Int)
    (i : SegIn α) : ∃ p, segment N t (.float false) (some 1) rank c = .ok p ∧ p i = none := by
  refine ⟨emitted N t (.float false) rank (if t.hasNum then c else none) N.sum N.zero, ?_, ?_⟩
  · unfold segment
    rw [if_neg (by simp), if_neg (by simp), ht]
    rfl
  · have hs : ∀ num, scaling N t (.float false) (if t.hasNum then c else none) num i = none := by
      intro num
      unfold scaling
      rw [ht]
      simp [atLeastOne, hn]
    simp [emitted, hs]

/-- A negative id, which TensorFlow drops, is put into the last segment. -/
def exNeg : SegIn Int := ⟨⟨[2], fun i => nth i 0 + 5⟩, [], [0, -1], 2⟩

theorem negative_id_wraps : (grid 2 exNeg).map (fun g => g.get [1, 0]) = some 1 := by
  have h1 : topkIdx [0, -1] = [1, 0] := by simp [topkIdx, List.mergeSort, List.MergeSort.Internal.splitInTwo, List.merge, List.range_succ]
  have h2 : topkVal [0, -1] = [-1, 0] := by rw [topkVal, h1]; rfl
  have h3 : uniqueVal [-1, 0] = [-1, 0] := by simp [uniqueVal, List.mergeSort, List.MergeSort.Internal.splitInTwo, List.merge]
  have h4 : uniqueCnt [-1, 0] = [1, 1] := by rw [uniqueCnt, h3]; rfl
  have h5 : uniqueInv [-1, 0] = [0, 1] := by rw [uniqueInv, h3]; rfl
  unfold grid
  simp only [exNeg, h1, h2, h4, h5]
  decide

end Verif.Seg
