import Verif.Props.C78_Stack
import Verif.Spec.Resize
import Mathlib.Data.List.Sort
/-!
# C78: the largest elements
-/
namespace Verif.Stack
open Verif.Tensor Verif.Emit Verif.Einsum

variable {K F : Type} [LinearOrder K] [LinearOrder F]

theorem before_asymm {l : Nat → K} {i j : Nat} (h : Before l i j) : ¬ Before l j i := by
  intro h'
  rcases h with h | ⟨h1, h2⟩ <;> rcases h' with h' | ⟨h3, h4⟩
  · exact lt_asymm h h'
  · rw [h3] at h; exact lt_irrefl _ h
  · rw [h1] at h'; exact lt_irrefl _ h'
  · omega

/-- ONNX's positions are those of the largest elements. -/
theorem topk_is {n k : Nat} (hk : k ≤ n) (l : Nat → K) : IsTopK n k l (topk n k l) := by
  have hperm : ((List.range n).mergeSort (fun i j => decide (l j < l i ∨ (l i = l j ∧ i ≤ j)))).Perm (List.range n) := List.mergeSort_perm _ _
  have hsort : ((List.range n).mergeSort (fun i j => decide (l j < l i ∨ (l i = l j ∧ i ≤ j)))).Pairwise (fun i j => decide (l j < l i ∨ (l i = l j ∧ i ≤ j)) = true) := by
    apply List.pairwise_mergeSort
    · intro a b c h1 h2
      rw [decide_eq_true_eq] at h1 h2 ⊢
      rcases h1 with h1 | ⟨h1, h1'⟩ <;> rcases h2 with h2 | ⟨h2, h2'⟩
      · exact .inl (lt_trans h2 h1)
      · exact .inl (h2 ▸ h1)
      · exact .inl (h1.symm ▸ h2)
      · exact .inr ⟨h1.trans h2, by omega⟩
    · intro a b
      rw [Bool.or_eq_true, decide_eq_true_eq, decide_eq_true_eq]
      rcases lt_trichotomy (l a) (l b) with h | h | h
      · exact .inr (.inl h)
      · rcases Nat.le_total a b with h' | h'
        · exact .inl (.inr ⟨h, h'⟩)
        · exact .inr (.inr ⟨h.symm, h'⟩)
      · exact .inl (.inl h)
  unfold topk
  generalize (List.range n).mergeSort (fun i j => decide (l j < l i ∨ (l i = l j ∧ i ≤ j))) = L at hperm hsort ⊢
  have hnd : L.Nodup := hperm.nodup_iff.2 List.nodup_range
  have hlen : L.length = n := by rw [hperm.length_eq, List.length_range]
  have hbef : L.Pairwise (Before l) := by
    refine (hsort.and hnd).imp ?_
    rintro i j ⟨h1, h2⟩
    rw [decide_eq_true_eq] at h1
    rcases h1 with h1 | ⟨h1, h3⟩
    · exact .inl h1
    · exact .inr ⟨h1, by omega⟩
  refine ⟨by rw [List.length_take]; omega, fun i hi => List.mem_range.1 (hperm.mem_iff.1 (List.mem_of_mem_take hi)), hbef.sublist (List.take_sublist k L), ?_⟩
  intro i hi j hj hjn
  have hjL : j ∈ L := hperm.mem_iff.2 (List.mem_range.2 hj)
  rw [← List.take_append_drop k L] at hbef hjL
  have hjd : j ∈ L.drop k := (List.mem_append.1 hjL).resolve_left hjn
  exact (List.pairwise_append.1 hbef).2.2 i hi j hjd

/-- There is only one such list of positions. -/
theorem topk_unique {n k : Nat} {l : Nat → K} {p p' : List Nat} (h : IsTopK n k l p) (h' : IsTopK n k l p') : p = p' := by
  have nd : ∀ {q : List Nat}, IsTopK n k l q → q.Nodup := by
    intro q hq
    refine hq.sorted.imp ?_
    rintro i j hij rfl
    exact before_asymm hij hij
  have sub : ∀ {q q' : List Nat}, IsTopK n k l q → IsTopK n k l q' → q ⊆ q' := by
    intro q q' hq hq' i hi
    by_contra hc
    have hsub : ¬ q' ⊆ q := by
      intro hs
      have hp : q'.Perm q := ((nd hq').subperm hs).perm_of_length_le (by rw [hq.length, hq'.length])
      exact hc (hp.mem_iff.2 hi)
    obtain ⟨j, hj, hjn⟩ : ∃ j, j ∈ q' ∧ j ∉ q := by
      by_contra hno
      exact hsub (fun j hj => by
        by_contra hjn
        exact hno ⟨j, hj, hjn⟩)
    exact before_asymm (hq.others i hi j (hq'.range j hj) hjn) (hq'.others j hj i (hq.range i hi) hc)
  have hp : p.Perm p' := ((nd h).subperm (sub h h')).perm_of_length_le (by rw [h.length, h'.length])
  exact hp.eq_of_pairwise (fun a b _ _ hab hba => absurd hba (before_asymm hab)) h.sorted h'.sorted

theorem before_cast {n : Nat} {l : Nat → K} {cast : K → F} (hm : ∀ i j, i < n → j < n → l i < l j → cast (l i) < cast (l j)) {i j : Nat} (hi : i < n) (hj : j < n) :
    Before (fun i => cast (l i)) i j ↔ Before l i j := by
  show (cast (l j) < cast (l i) ∨ (cast (l i) = cast (l j) ∧ i < j)) ↔ (l j < l i ∨ (l i = l j ∧ i < j))
  constructor
  · rintro (h | ⟨h1, h2⟩)
    · rcases lt_trichotomy (l i) (l j) with g | g | g
      · exact absurd h (lt_asymm (hm i j hi hj g))
      · rw [g] at h; exact absurd h (lt_irrefl _)
      · exact .inl g
    · rcases lt_trichotomy (l i) (l j) with g | g | g
      · have := hm i j hi hj g
        rw [h1] at this; exact absurd this (lt_irrefl _)
      · exact .inr ⟨g, h2⟩
      · exact .inl g
  · rintro (h | ⟨h1, h2⟩)
    · exact .inl (hm j i hj hi h)
    · exact .inr ⟨by rw [h1], h2⟩

/-- **C78.** The converted `TopKV2` is TensorFlow's on every line of every length, for every `k`, also with equal elements; where the elements are cast to single precision, if the cast
loses nothing of the line. -/
theorem topK_sound {isFloat : Bool} {cast : K → F} {back : F → K} {n k : Nat} {l : Nat → K} (hk : k ≤ n)
    (hc : isFloat = false → (∀ i j, i < n → j < n → l i < l j → cast (l i) < cast (l j)) ∧ ∀ i, i < n → back (cast (l i)) = l i) :
    ∃ p, topKV2 isFloat cast back n k l = some (p.map l, p) ∧ IsTopK n k l p := by
  unfold topKV2
  rw [if_neg (by omega)]
  cases isFloat
  · obtain ⟨h1, h2⟩ := hc rfl
    have ht := topk_is hk (fun i => cast (l i))
    rw [if_neg (by decide)]
    refine ⟨topk n k (fun i => cast (l i)), ?_, ht.length, ht.range, ?_, ?_⟩
    · rw [List.map_congr_left (fun i hi => h2 i (ht.range i hi))]
    · exact ht.sorted.imp_of_mem (fun hi hj h => (before_cast h1 (ht.range _ hi) (ht.range _ hj)).1 h)
    · intro i hi j hj hjn
      exact (before_cast h1 (ht.range i hi) hj).1 (ht.others i hi j hj hjn)
  · exact ⟨topk n k l, if_pos rfl, topk_is hk l⟩

/-- If the cast makes two elements equal, the smaller one in front is taken for the largest. -/
theorem topK_cast_violated {cast : K → F} {back : F → K} {l : Nat → K} (h : l 0 < l 1) (hc : cast (l 0) = cast (l 1)) :
    topKV2 false cast back 2 1 l = some ([back (cast (l 0))], [0]) ∧ IsTopK 2 1 l [1] ∧ ¬ IsTopK 2 1 l [0] := by
  have h1 : IsTopK 2 1 l [1] := by
    refine ⟨rfl, by simp, List.pairwise_singleton _ _, ?_⟩
    intro i hi j hj hjn
    rw [List.mem_singleton] at hi hjn
    subst hi
    have : j = 0 := by omega
    subst this
    exact .inl h
  have h0 : IsTopK 2 1 (fun i => cast (l i)) [0] := by
    refine ⟨rfl, by simp, List.pairwise_singleton _ _, ?_⟩
    intro i hi j hj hjn
    rw [List.mem_singleton] at hi hjn
    subst hi
    have : j = 1 := by omega
    subst this
    exact .inr ⟨hc, by omega⟩
  have e : topk 2 1 (fun i => cast (l i)) = [0] := topk_unique (topk_is (by omega) _) h0
  refine ⟨?_, h1, fun g => ?_⟩
  · unfold topKV2
    rw [if_neg (by omega), if_neg (by decide), e]
    rfl
  · have := topk_unique g h1
    exact absurd this (by decide)

/-! ## Examples -/

/-- An integer from `2 ^ 24` to `2 ^ 25`, in single precision. -/
def f32Int (z : Int) : ℚ := 2 * (Verif.Resize.roundEven ((z : ℚ) / 2) : ℚ)

/-- Two integers that single precision does not distinguish. -/
theorem topK_int_violated : topKV2 false f32Int (fun q => ⌊q⌋) 2 1 (fun i => 2 ^ 24 + (i : Int)) = some ([2 ^ 24], [0]) ∧ IsTopK 2 1 (fun i => (2 ^ 24 + (i : Int) : Int)) [1] := by
  have hc : f32Int (2 ^ 24 + ((0 : Nat) : Int)) = f32Int (2 ^ 24 + ((1 : Nat) : Int)) := by decide +kernel
  have hb : ⌊f32Int (2 ^ 24 + ((0 : Nat) : Int))⌋ = 2 ^ 24 := by decide +kernel
  obtain ⟨h1, h2, _⟩ := topK_cast_violated (cast := f32Int) (back := fun q => ⌊q⌋) (l := fun i => (2 ^ 24 + (i : Int) : Int)) (by decide) hc
  refine ⟨?_, h2⟩
  rw [h1]
  show some ([⌊f32Int (2 ^ 24 + ((0 : Nat) : Int))⌋], [0]) = _
  rw [hb]

/-- Positions of the two largest of four elements, two of them equal. -/
theorem ex_topK : IsTopK 4 2 (fun i => ([3, 7, 1, 7].getD i 0 : Int)) [1, 3] := by
  refine ⟨rfl, by decide, ?_, ?_⟩
  · exact List.pairwise_pair.2 (.inr ⟨by decide, by decide⟩)
  · intro i hi j hj hjn
    simp only [List.mem_cons, List.not_mem_nil, or_false, not_or] at hi hjn
    have : j = 0 ∨ j = 2 := by omega
    rcases hi with rfl | rfl <;> rcases this with rfl | rfl <;> exact .inl (by decide)

/-- Values and shapes. -/
def elements (z : T Int) : List Nat × List Int := (z.shape, (allIdx z.shape).map z.get)

/-- Three tensors of shape `[2]`. -/
def three : List (T Int) := [⟨[2], fun i => (nth i 0 : Int)⟩, ⟨[2], fun i => 10 + (nth i 0 : Int)⟩, ⟨[2], fun i => 20 + (nth i 0 : Int)⟩]

/-- Stacked along a new last axis and along a new first axis; unstacked again. -/
theorem ex_pack : (match pack 0 (some 1) (-1) three with | .ok (some z) => some (elements z) | _ => none) = some ([2, 3], [0, 10, 20, 1, 11, 21]) ∧
    (match pack 0 none 0 three with | .ok (some z) => some (elements z) | _ => none) = some ([3, 2], [0, 1, 10, 11, 20, 21]) ∧
    (match unpack (some 2) (-1) 3 (tfStack ⟨[], fun _ => 0⟩ [2] 1 three) with | .ok (some l) => some (l.map elements) | _ => none) =
      some [([2], [0, 1]), ([2], [10, 11]), ([2], [20, 21])] := by
  refine ⟨by decide +kernel, by decide +kernel, by decide +kernel⟩

end Verif.Stack
