import Verif.Props.C65_OneHot
import Verif.Props.EmitVec
/-!
# C65: MatrixDiagPart
-/
namespace Verif.Index
open Verif.Tensor Verif.Emit Verif.Seg Verif.Vec Verif.Ragged

variable {β : Type}

theorem ext_nth {a b : List Nat} (hl : a.length = b.length) (h : ∀ i, i < a.length → nth a i = nth b i) : a = b := by
  apply List.ext_getElem hl
  intro i h1 h2
  have := h i h1
  simpa [nth, List.getD, h1, h2] using this

theorem nth_map_range {n : Nat} (f : Nat → Nat) {i : Nat} (hi : i < n) : nth ((List.range n).map f) i = f i := by
  simp [nth, List.getD, hi]

theorem nth_append_left {a b : List Nat} {i : Nat} (h : i < a.length) : nth (a ++ b) i = nth a i := by
  simp [nth, List.getD, List.getElem?_append_left h]

theorem nth_append_right {a b : List Nat} {i : Nat} (h : a.length ≤ i) : nth (a ++ b) i = nth b (i - a.length) := by
  simp [nth, List.getD, List.getElem?_append_right h]

theorem nth_dropLast {l : List Nat} {i : Nat} (h : i + 1 < l.length) : nth l.dropLast i = nth l i := by
  have h1 : i < l.dropLast.length := by simp; omega
  simp [nth, List.getD, List.getElem?_eq_getElem h1, List.getElem?_eq_getElem (show i < l.length by omega)]

theorem slicePar_square (r : Nat) (k : Int) (i : Nat) :
    slicePar r [2, 1] (List.zipWith (fun s e => (⟨s, e, 1⟩ : SliceSpec)) [0, 0] [k, k]) i = if i = 1 ∨ i = 2 then some ⟨0, k, 1⟩ else none := by
  have h2 : Tensor.normAxis r 2 = 2 := by simp [Tensor.normAxis]
  have h1 : Tensor.normAxis r 1 = 1 := by simp [Tensor.normAxis]
  simp only [slicePar, List.zipWith_cons_cons, List.zipWith_nil_right, List.zip_cons_cons, List.zip_nil_right, List.find?_cons, h1, h2, List.find?_nil]
  by_cases e2 : i = 2
  · simp [e2]
  · by_cases e1 : i = 1
    · simp [e1]
    · simp [e1, e2, Ne.symm e1, Ne.symm e2]

theorem sliceSquare_ok (zero : β) (k : Nat) (x : T β) (hr : 3 ≤ x.shape.length) :
    ∃ y, sliceSquare zero k x = some y ∧ y.shape.length = x.shape.length ∧
      (∀ i, i < x.shape.length → nth y.shape i = if i = 1 ∨ i = 2 then min (nth x.shape i) k else nth x.shape i) ∧
      (∀ i, i.length = x.shape.length → y.get i = x.get i) := by
  have hok : SliceOk x.shape.length [0, 0] [(k : Int), k] [2, 1] := by
    refine ⟨rfl, rfl, fun a ha => ?_, ?_⟩
    · simp at ha
      rcases ha with rfl | rfl <;> omega
    · simp [Tensor.normAxis]
  have hc : ∀ d : Nat, SliceSpec.first ⟨0, k, 1⟩ d = 0 ∧ SliceSpec.count ⟨0, k, 1⟩ d = min d k := by
    intro d
    have := slice_count (s := 0) (e := k) (d := d) (by omega) (by omega)
    refine ⟨this.1, this.2.trans ?_⟩
    unfold clampPos
    rw [if_neg (by omega)]
    omega
  refine ⟨sliceOn [0, 0] [(k : Int), k] [2, 1] zero x, ?_, ?_, ?_, ?_⟩
  · unfold sliceSquare
    rw [if_pos hok]
  · simp only [sliceOn, slice_eq, List.length_map, List.length_range]
  · intro i hi
    simp only [sliceOn, slice_eq]
    rw [nth_map_range _ hi, slicePar_square]
    by_cases h : i = 1 ∨ i = 2
    · simp only [h, if_true]
      exact (hc _).2
    · simp only [h, if_false]
  · intro i hi
    simp only [sliceOn, slice_eq]
    congr 1
    refine ext_nth (by simp [hi]) (fun j hj => ?_)
    have hj : j < x.shape.length := by simpa using hj
    rw [nth_map_range _ hj, slicePar_square]
    by_cases h : j = 1 ∨ j = 2
    · simp only [h, if_true, (hc _).1]
      omega
    · simp only [h, if_false]

theorem expandRange_ok (k : Nat) (pre : List Nat) :
    ∃ ix, expandRange k (pre ++ [k] ++ [1]) = some ix ∧ ix.shape = pre ++ [k, 1] ∧ ∀ i, InB (pre ++ [k, 1]) i → ix.get i = (nth i pre.length : Int) := by
  have hn : max ([k, 1] : List Nat).length (pre ++ [k] ++ [1]).length = pre.length + 2 := by simp
  have hy : List.replicate (pre.length + 2 - (pre ++ [k] ++ [1]).length) 1 ++ (pre ++ [k] ++ [1]) = pre ++ [k, 1] := by simp
  have hx : ∀ i, i < pre.length + 2 → nth (List.replicate (pre.length + 2 - ([k, 1] : List Nat).length) 1 ++ [k, 1]) i = if i = pre.length then k else 1 := by
    intro i hi
    have hl : (List.replicate (pre.length + 2 - ([k, 1] : List Nat).length) 1).length = pre.length := by simp
    rcases Nat.lt_trichotomy i pre.length with h | h | h
    · rw [nth_append_left (by rw [hl]; exact h), if_neg (by omega)]
      simp [nth, List.getD, h]
    · rw [nth_append_right (by rw [hl]; omega), if_pos h, hl, h]
      simp [nth]
    · rw [nth_append_right (by rw [hl]; omega), if_neg (by omega), hl, show i - pre.length = 1 by omega]
      simp [nth]
  have hfit : Fits (List.replicate (pre.length + 2 - ([k, 1] : List Nat).length) 1 ++ [k, 1]) (pre ++ [k, 1]) := by
    intro i hi
    have hi : i < pre.length + 2 := by simpa using hi
    rw [hx i hi]
    by_cases h : i = pre.length
    · left
      rw [if_pos h, nth_append_right (by omega), h]
      simp [nth]
    · right; left
      rw [if_neg h]
  have hsh : (List.range (pre.length + 2)).map (fun i => if nth (List.replicate (pre.length + 2 - ([k, 1] : List Nat).length) 1 ++ [k, 1]) i = 1
      then nth (pre ++ [k, 1]) i else nth (List.replicate (pre.length + 2 - ([k, 1] : List Nat).length) 1 ++ [k, 1]) i) = pre ++ [k, 1] := by
    refine ext_nth (by simp) (fun i hi => ?_)
    have hi : i < pre.length + 2 := by simpa using hi
    rw [nth_map_range _ hi, hx i hi]
    by_cases h : i = pre.length
    · rw [if_pos h]
      have : nth (pre ++ [k, 1]) i = k := by rw [nth_append_right (by omega), h]; simp [nth]
      rw [this]
      simp
    · rw [if_neg h]
      simp
  unfold expandRange expandOn zipT
  simp only [expandRank, hn, hy]
  rw [if_pos hfit]
  refine ⟨_, rfl, hsh, fun i hi => ?_⟩
  simp only
  have hlen : i.length = pre.length + 2 := by rw [hi.1]; simp
  have hip : nth i pre.length < k := by
    have := hi.2 pre.length (by simp)
    rwa [show nth (pre ++ [k, 1]) pre.length = k by rw [nth_append_right (le_refl _)]; simp [nth]] at this
  have hb : nth ((bidx (List.replicate (pre.length + 2 - ([k, 1] : List Nat).length) 1 ++ [k, 1]) i).drop (pre.length + 2 - ([k, 1] : List Nat).length)) 0 = nth i pre.length := by
    have : nth ((bidx (List.replicate (pre.length + 2 - ([k, 1] : List Nat).length) 1 ++ [k, 1]) i).drop (pre.length + 2 - ([k, 1] : List Nat).length)) 0 =
        nth (bidx (List.replicate (pre.length + 2 - ([k, 1] : List Nat).length) 1 ++ [k, 1]) i) pre.length := by
      simp [nth, List.getD]
    rw [this]
    unfold bidx
    rw [nth_map_range _ (by simp), hx _ (by omega), if_pos rfl]
    split
    · omega
    · rfl
  exact congrArg Int.ofNat hb

/-- **MatrixDiagPart** of a batch of matrices, where the leading dimensions 1 and 2 are not longer than the diagonal and with more than two leading
dimensions there are not more rows than columns. With one leading dimension this is every case. -/
theorem matrixDiagPart_partial (zero : β) (x : T β) (pre : List Nat) (m n : Nat) (hs : x.shape = pre ++ [m, n]) (hp : pre ≠ [])
    (h12 : ∀ i, i = 1 ∨ i = 2 → i < pre.length → nth pre i ≤ min m n) (hm : 3 ≤ pre.length → m ≤ n) :
    ∃ y, matrixDiagPart zero x = some y ∧ Same y (TfIndex.diagPart pre m n x) := by
  have hp0 : 0 < pre.length := List.length_pos_iff.2 hp
  have hr : x.shape.length = pre.length + 2 := by simp [hs]
  have hlast : nth x.shape (pre.length + 1) = n := by rw [hs, nth_append_right (by omega)]; simp [nth]
  have hrow : nth x.shape pre.length = m := by rw [hs, nth_append_right (by omega)]; simp [nth]
  have hmin : minDim x.shape = some (min m n) := by
    unfold minDim
    rw [if_pos (by omega), hr]
    simp only [Nat.add_sub_cancel, show pre.length + 2 - 1 = pre.length + 1 by omega, hlast, hrow]
  obtain ⟨y, hy, yl, yd, yg⟩ := sliceSquare_ok zero (min m n) x (by omega)
  have hyd : y.shape.dropLast = pre ++ [min m n] := by
    refine ext_nth (by simp [yl, hr]) (fun i hi => ?_)
    have hi : i < pre.length + 1 := by simpa [yl, hr] using hi
    have e : nth y.shape.dropLast i = nth y.shape i := nth_dropLast (by omega)
    rw [e, yd i (by omega)]
    rcases Nat.lt_or_ge i pre.length with h | h
    · rw [nth_append_left h]
      have e2 : nth x.shape i = nth pre i := by rw [hs, nth_append_left h]
      rw [e2]
      split
      · next hc => have := h12 i hc h; omega
      · rfl
    · have : i = pre.length := by omega
      subst this
      rw [hrow, nth_append_right (le_refl _)]
      have e3 : nth [min m n] (pre.length - pre.length) = min m n := by simp [nth]
      rw [e3]
      split
      · omega
      · have := hm (by omega)
        omega
  have hyl : min m n ≤ nth y.shape (pre.length + 1) := by
    rw [yd _ (by omega), hlast]
    split <;> omega
  obtain ⟨ix, hx, xs, xg⟩ := expandRange_ok (min m n) pre
  have hg : gatherElemsLast y ix = some ⟨ix.shape, fun i => y.get (i.dropLast ++ [posOf (nth y.shape (y.shape.length - 1)) (ix.get i)])⟩ := by
    unfold gatherElemsLast
    rw [if_pos]
    refine ⟨by simp [xs, yl, hr], ?_, ?_, ?_⟩
    · intro h
      rw [h, hr] at yl
      simp at yl
    · intro a ha
      have ha : a < pre.length + 1 := by simpa [yl, hr] using ha
      have e : nth y.shape.dropLast a = nth y.shape a := nth_dropLast (by omega)
      rw [← e, hyd, xs, show pre ++ [min m n, 1] = (pre ++ [min m n]) ++ [1] by simp, nth_append_left (by simpa using ha)]
    · intro i hi
      have hi := mem_allIdx hi
      rw [xs] at hi
      have := hi.2 pre.length (by simp)
      rw [show nth (pre ++ [min m n, 1]) pre.length = min m n by rw [nth_append_right (le_refl _)]; simp [nth]] at this
      rw [xg i hi, show y.shape.length - 1 = pre.length + 1 by omega]
      omega
  unfold matrixDiagPart
  simp only [hmin, hy, Option.bind_eq_bind, Option.bind_some, hyd, hx, hg]
  rw [if_pos (by rw [xs]; rw [nth_append_right (by simp)]; simp [nth])]
  refine ⟨_, rfl, ?_, ?_⟩
  · simp only [xs, TfIndex.diagPart]
    rw [show pre ++ [min m n, 1] = (pre ++ [min m n]) ++ [1] by simp, List.dropLast_concat]
  · intro i hi
    have hi : InB (pre ++ [min m n]) i := by
      simp only [xs] at hi
      rwa [show pre ++ [min m n, 1] = (pre ++ [min m n]) ++ [1] by simp, List.dropLast_concat] at hi
    have hil : i.length = pre.length + 1 := by rw [hi.1]; simp
    have hi2 : InB (pre ++ [min m n, 1]) (i ++ [0]) := by
      rw [show pre ++ [min m n, 1] = (pre ++ [min m n]) ++ [1] by simp]
      refine ⟨by simp [hi.1], fun j hj => ?_⟩
      have hj : j < pre.length + 2 := by simpa using hj
      rcases Nat.lt_or_ge j (pre.length + 1) with h | h
      · rw [nth_append_left (by omega), nth_append_left (by simpa using h)]
        exact hi.2 j (by simpa using h)
      · rw [nth_append_right (by omega), nth_append_right (by simpa using h), hil, show j - (pre.length + 1) = 0 by omega, show j - (pre ++ [min m n]).length = 0 by simp; omega]
        simp [nth]
    simp only [List.dropLast_concat]
    rw [xg _ hi2, posOf_nat, nth_append_left (by omega), yg _ (by simp [hil, hr])]
    rfl

end Verif.Index
