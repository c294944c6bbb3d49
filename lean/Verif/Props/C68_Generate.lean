import Verif.Props.C68_Cumprod
import Verif.Props.C19_Push
import Mathlib.Algebra.Order.Floor.Ring
import Mathlib.Tactic.FieldSimp
import Mathlib.Tactic.Linarith
/-!
# C68: constants, random integers, shuffles and inverse permutations
-/
namespace Verif.Scan
open Verif.Tensor Verif.Emit

/-! ## `OnesLike`, `ZerosLike` -/

/-- **C68**: from opset 9 on `OnesLike` and `ZerosLike` give the shape of the operand filled with the constant. -/
theorem const_like {α β : Type} (value : β) (x : T α) : ∃ y, constLike9 value x = some y ∧ Same y (tfLike value x) := by
  refine ⟨⟨x.shape, fun _ => value⟩, ?_, ?_⟩
  · unfold constLike9 Seg.constOfShape
    rw [if_pos]
    · simp [Function.comp_def]
    · intro d hd
      rw [List.mem_map] at hd
      obtain ⟨n, -, rfl⟩ := hd
      exact Int.natCast_nonneg n
  · exact Same.refl _

/-- **C68**: below, `ZerosLike` gives zeros for every element type. -/
theorem zeros_like_old {α : Type} (toInt : α → Int) (ofInt : Int → α) (x : T α) : Same (constLike1 toInt ofInt 0 x) (tfLike (ofInt 0) x) := by
  refine ⟨rfl, fun i _ => ?_⟩
  simp [constLike1, mapT, tfLike]

/-- **Defect**: below, `OnesLike` gives the elements of its operand, rounded to integers, instead of ones. -/
theorem ones_like_old_violated : (constLike1 (fun z => z) (fun z => z) 1 (⟨[], fun _ => 5⟩ : T Int)).get [] = 5 ∧ (tfLike (1 : Int) (⟨[], fun _ => 5⟩ : T Int)).get [] = 1 :=
  ⟨rfl, rfl⟩

/-! ## `Fill` -/

/-- **C68**: `Fill` from opset 11 on, for a computed value and computed dimensions. -/
theorem fill_ok {α : Type} (dims : List Int) (v : α) {y : T α} (h : Patt.tfFill dims v = some y) : ∃ z, fill11 dims v = some z ∧ Same z y := by
  unfold Patt.tfFill at h
  split at h
  · rename_i hd
    cases h
    unfold fill11
    rw [if_pos hd]
    obtain ⟨z, hz⟩ := zipT_some (fun (a : α) (_ : Unit) => a) (x := (⟨[], fun _ => v⟩ : T α)) (y := (⟨dims.map Int.toNat, fun _ => ()⟩ : T Unit))
      (fun k => Or.inr (Or.inl (dimB_of_le (by simp))))
    obtain ⟨hl, hdm, -, hat⟩ := zipT_view hz
    refine ⟨z, hz, ?_⟩
    apply same_of_view
    · simpa using hl
    · intro k
      rw [hdm]
      simp [dimB_of_le]
    · intro p
      rw [hat]
      rfl
  · cases h

/-- **C68**: `Fill` at opsets 9 and 10, where the value is a constant; a computed one is not converted. -/
theorem fill_constant_partial {α : Type} (dims : List Int) (v : α) {y : T α} (h : Patt.tfFill dims v = some y) : fill9 dims (some v) = .ok (some y) := by
  unfold Patt.tfFill at h
  unfold fill9 Seg.constOfShape
  simp only
  rw [h]

/-- **C68**: `Fill` at opsets 7 and 8, with at least one dimension, of values that a 32-bit float can hold. -/
theorem fill_tiled_partial {α : Type} (zero : α) (isFloat : Bool) (opset : Nat) (viaFloat : α → α) (dims : List Int) (v : α) (hne : dims ≠ [])
    (hv : isFloat = false → opset < 9 → viaFloat v = v) {y : T α} (h : Patt.tfFill dims v = some y) :
    ∃ z, fill7 zero isFloat opset viaFloat (some dims.length) dims v = .ok z ∧ Same z y := by
  unfold Patt.tfFill at h
  split at h
  · rename_i hd
    cases h
    have hl : 0 < dims.length := List.length_pos_iff.2 hne
    have he : (if (!isFloat && decide (opset < 9)) = true then viaFloat v else v) = v := by
      split
      · rename_i hh
        simp at hh
        exact hv hh.1 hh.2
      · rfl
    unfold fill7
    simp only
    rw [if_pos (by omega), he, Int.toNat_natCast]
    refine ⟨_, rfl, ?_⟩
    refine ⟨?_, ?_⟩
    · apply ext_nth (by simp [tile, axisOp])
      intro i hi
      have hi' : i < dims.length := by simpa [tile, axisOp] using hi
      show nth ((List.range _).map _) i = _
      rw [nth_map_range, List.length_replicate, if_pos hi']
      simp [tileRule, nth, hi', List.getD_eq_getElem?_getD]
    · intro i _
      show (if _ then _ else _) = v
      rw [if_pos]
      intro j _
      rfl
  · cases h

/-- **Defect**: no dimensions at all (a scalar) cannot be filled at opsets 7 and 8; a computed value not at opsets 9 and 10. -/
theorem fill_violated (v : Int) : (∃ e, fill7 0 true 8 (fun z => z) (some 0) [] v = .error e) ∧ (∃ e, fill9 [2, 3] (none : Option Int) = .error e) ∧
    Patt.tfFill [] v ≠ none ∧ Patt.tfFill [2, 3] v ≠ none := ⟨⟨_, rfl⟩, ⟨_, rfl⟩, by simp [Patt.tfFill], by simp [Patt.tfFill]⟩

/-! ## Random integers -/

theorem uniformInt_get (minConst maxConst : Bool) (u : List Nat → ℚ) (lo hi : Int) (s i : List Nat) :
    (uniformInt minConst maxConst u lo hi s).get i = ⌊(lo : ℚ) + u i * ((hi : ℚ) - lo)⌋ := by
  unfold uniformInt
  simp only
  split
  · rfl
  · split
    · rename_i h
      simp only [Bool.and_eq_true, decide_eq_true_eq] at h
      rw [h.2]
      simp [mapT, uniform]
    · simp only [mapT, uniform]
      congr 1
      ring

/-- **C68**: every element of a random integer tensor is at least the lower bound and below the upper one, whatever is drawn and whichever bounds are constants. -/
theorem random_int_range (minConst maxConst : Bool) (u : List Nat → ℚ) (lo hi : Int) (s : List Nat) (hlt : lo < hi) (hu : ∀ i, 0 ≤ u i ∧ u i < 1) :
    (uniformInt minConst maxConst u lo hi s).shape = s ∧
      ∀ i, lo ≤ (uniformInt minConst maxConst u lo hi s).get i ∧ (uniformInt minConst maxConst u lo hi s).get i < hi := by
  constructor
  · unfold uniformInt
    simp only
    split
    · rfl
    · split <;> rfl
  · intro i
    rw [uniformInt_get]
    have h1 : (0 : ℚ) < (hi : ℚ) - lo := by
      have : (lo : ℚ) < hi := by exact_mod_cast hlt
      linarith
    constructor
    · rw [Int.le_floor]
      have := mul_nonneg (hu i).1 h1.le
      linarith
    · rw [Int.floor_lt]
      have := mul_lt_mul_of_pos_right (hu i).2 h1
      linarith

/-- **C68**: the integers are equally likely: of `(hi - lo) * m` numbers that divide the unit interval evenly, each of them gets `m`. -/
theorem random_int_share (minConst maxConst : Bool) (lo hi : Int) (hlt : lo < hi) (m : Nat) (hm : 0 < m) (v : Int) (hv : lo ≤ v ∧ v < hi) :
    ((Finset.range ((hi - lo).toNat * m)).filter (fun j : Nat =>
      (uniformInt minConst maxConst (fun _ => (j : ℚ) / (((hi - lo).toNat * m : Nat) : ℚ)) lo hi []).get [] = v)).card = m := by
  have hk : 0 < (hi - lo).toNat := by omega
  have hkq : (((hi - lo).toNat : Nat) : ℚ) = (hi : ℚ) - lo := by
    have : (((hi - lo).toNat : Nat) : Int) = hi - lo := by omega
    have h2 : ((((hi - lo).toNat : Nat) : Int) : ℚ) = ((hi - lo : Int) : ℚ) := by rw [this]
    push_cast at h2
    exact h2
  have hget : ∀ j : Nat, (uniformInt minConst maxConst (fun _ => (j : ℚ) / (((hi - lo).toNat * m : Nat) : ℚ)) lo hi []).get [] = lo + ((j / m : Nat) : Int) := by
    intro j
    rw [uniformInt_get]
    have hm' : (m : ℚ) ≠ 0 := by exact_mod_cast hm.ne'
    have hk' : (((hi - lo).toNat : Nat) : ℚ) ≠ 0 := by exact_mod_cast hk.ne'
    have e : (lo : ℚ) + (j : ℚ) / (((hi - lo).toNat * m : Nat) : ℚ) * ((hi : ℚ) - lo) = (lo : ℚ) + (j : ℚ) / (m : ℚ) := by
      rw [← hkq]
      push_cast
      field_simp
    rw [e, Int.floor_intCast_add]
    congr 1
    rw [Int.floor_eq_iff]
    have hmpos : (0 : ℚ) < m := by exact_mod_cast hm
    refine ⟨?_, ?_⟩
    · rw [le_div_iff₀ hmpos]
      have := Nat.div_mul_le_self j m
      exact_mod_cast this
    · rw [div_lt_iff₀ hmpos]
      have : j < (j / m + 1) * m := Nat.lt_mul_of_div_lt (Nat.lt_succ_self _) hm
      exact_mod_cast this
  simp only [hget]
  have : (Finset.range ((hi - lo).toNat * m)).filter (fun j : Nat => lo + ((j / m : Nat) : Int) = v) =
      (Finset.range m).image (fun r => (v - lo).toNat * m + r) := by
    ext j
    simp only [Finset.mem_filter, Finset.mem_range, Finset.mem_image]
    constructor
    · rintro ⟨h1, h2⟩
      refine ⟨j % m, Nat.mod_lt _ hm, ?_⟩
      have h3 : (v - lo).toNat = j / m := by omega
      rw [h3]
      rw [Nat.mul_comm]
      exact Nat.div_add_mod j m
    · rintro ⟨r, hr, rfl⟩
      have h3 : ((v - lo).toNat * m + r) / m = (v - lo).toNat := by
        rw [Nat.mul_comm, Nat.mul_add_div hm, Nat.div_eq_of_lt hr]
        rfl
      rw [h3]
      refine ⟨?_, by omega⟩
      have h4 : (v - lo).toNat + 1 ≤ (hi - lo).toNat := by omega
      have := Nat.mul_le_mul_right m h4
      rw [Nat.add_mul] at this
      omega
  rw [this, Finset.card_image_of_injective _ (fun a b h => Nat.add_left_cancel h), Finset.card_range]

/-! ## Shuffles and inverse permutations -/

theorem topkDesc_perm {K : Type} [LinearOrder K] (n : Nat) (l : Nat → K) : (topkDesc n l).Perm (List.range n) := List.mergeSort_perm _ _

theorem topkDesc_length {K : Type} [LinearOrder K] (n : Nat) (l : Nat → K) : (topkDesc n l).length = n := by
  simpa using (topkDesc_perm n l).length_eq

theorem topkDesc_isPerm {K : Type} [LinearOrder K] (n : Nat) (l : Nat → K) : IsPerm (topkDesc n l) := by
  unfold IsPerm
  rw [topkDesc_length]
  exact topkDesc_perm n l

theorem topkDesc_sorted {K : Type} [LinearOrder K] (n : Nat) (l : Nat → K) : (topkDesc n l).Pairwise (fun i j => l j ≤ l i) := by
  have h := List.pairwise_mergeSort (le := fun i j => decide (l j ≤ l i))
    (by intro a b c h1 h2; simp only [decide_eq_true_eq] at *; exact le_trans h2 h1)
    (by intro a b; simp only [Bool.or_eq_true, decide_eq_true_eq]; exact le_total _ _) (List.range n)
  exact h.imp (by intro a b h; simpa using h)

/-- The order of the rows. -/
theorem shuffle_order {α : Type} (u : List Nat → ℚ) (x : T α) (hx : x.shape ≠ []) :
    ∃ y, shuffle u x = some y ∧ Shuffled x y (topkDesc (nth x.shape 0) (fun k => u [k])) := by
  obtain ⟨d, s, hs⟩ : ∃ d s, x.shape = d :: s := by
    cases h : x.shape with
    | nil => exact absurd h hx
    | cons d s => exact ⟨d, s, rfl⟩
  have h0 : nth x.shape 0 = d := by rw [hs]; rfl
  have hu : (fun k => (uniform u 0 1 [nth x.shape 0]).get [k]) = fun k => u [k] := by
    funext k
    simp [uniform]
  have hsh : shuffle u x = Seg.gather0 x ⟨[(topkDesc (nth x.shape 0) (fun k => u [k])).length], fun i => (nth (topkDesc (nth x.shape 0) (fun k => u [k])) (nth i 0) : Int)⟩ := by
    unfold shuffle
    simp only [hu]
  have hP := topkDesc_isPerm (nth x.shape 0) (fun k => u [k])
  have hL := topkDesc_length (nth x.shape 0) (fun k => u [k])
  generalize topkDesc (nth x.shape 0) (fun k => u [k]) = τ at *
  refine ⟨gatherOn 0 ⟨[τ.length], fun i => (nth τ (nth i 0) : Int)⟩ x, ?_, ?_⟩
  · rw [hsh]
    unfold Seg.gather0
    rw [if_pos]
    refine ⟨hx, fun i hi => ?_⟩
    have hlt : nth τ (nth i 0) < nth x.shape 0 := by
      rw [← hL]
      apply hP.nth_lt
      have hi := (TransposeOpt.mem_allIdx _ _).1 hi
      exact hi.2 0 (by simp)
    simp only
    omega
  · refine ⟨?_, fun i hi => ?_⟩
    · simp [gatherOn, hL, hs]
      rfl
    · show x.get _ = x.get _
      congr 1
      obtain ⟨a, t, rfl⟩ : ∃ a t, i = a :: t := by
        cases i with
        | nil => rw [hs] at hi; exact absurd hi.1 (by simp)
        | cons a t => exact ⟨a, t, rfl⟩
      have e : posOf (nth x.shape 0) ((nth τ a : Nat) : Int) = nth τ a := by
        unfold posOf
        rw [if_neg (by omega)]
        simp
      show [posOf (nth x.shape 0) ((nth τ a : Nat) : Int)] ++ _ = _
      rw [e]
      rfl

/-- **C68**: whatever is drawn, a shuffled tensor has the rows of its operand, each exactly once. -/
theorem shuffle_permutes {α : Type} (u : List Nat → ℚ) (x : T α) (hx : x.shape ≠ []) :
    ∃ y σ, shuffle u x = some y ∧ IsPerm σ ∧ σ.length = nth x.shape 0 ∧ Shuffled x y σ := by
  obtain ⟨y, hy, hs⟩ := shuffle_order u x hx
  exact ⟨y, _, hy, topkDesc_isPerm _ _, topkDesc_length _ _, hs⟩

/-- **C68**: every order of the rows is drawn by some numbers from 0 to 1. -/
theorem shuffle_reaches {α : Type} (x : T α) (hx : x.shape ≠ []) (σ : List Nat) (hσ : IsPerm σ) (hl : σ.length = nth x.shape 0) :
    ∃ u : List Nat → ℚ, (∀ i, 0 ≤ u i ∧ u i < 1) ∧ ∃ y, shuffle u x = some y ∧ Shuffled x y σ := by
  have hpos : (0 : ℚ) < ((σ.length + 1 : Nat) : ℚ) := by exact_mod_cast Nat.succ_pos _
  refine ⟨fun i => ((σ.length - 1 - σ.idxOf (nth i 0) : Nat) : ℚ) / ((σ.length + 1 : Nat) : ℚ), fun i => ?_, ?_⟩
  · refine ⟨div_nonneg (Nat.cast_nonneg _) hpos.le, ?_⟩
    rw [div_lt_one hpos]
    have : σ.length - 1 - σ.idxOf (nth i 0) < σ.length + 1 := by omega
    exact_mod_cast this
  · obtain ⟨y, hy, hs⟩ := shuffle_order (fun i => ((σ.length - 1 - σ.idxOf (nth i 0) : Nat) : ℚ) / ((σ.length + 1 : Nat) : ℚ)) x hx
    refine ⟨y, hy, ?_⟩
    have hle : ∀ i j : Nat, ((σ.length - 1 - σ.idxOf (nth [j] 0) : Nat) : ℚ) / ((σ.length + 1 : Nat) : ℚ) ≤ ((σ.length - 1 - σ.idxOf (nth [i] 0) : Nat) : ℚ) / ((σ.length + 1 : Nat) : ℚ) ↔
        σ.length - 1 - σ.idxOf j ≤ σ.length - 1 - σ.idxOf i := by
      intro i j
      rw [div_le_div_iff_of_pos_right hpos]
      exact Nat.cast_le
    have heq : topkDesc (nth x.shape 0) (fun k => ((σ.length - 1 - σ.idxOf (nth [k] 0) : Nat) : ℚ) / ((σ.length + 1 : Nat) : ℚ)) = σ := by
      apply List.Perm.eq_of_pairwise (le := fun i j => ((σ.length - 1 - σ.idxOf (nth [j] 0) : Nat) : ℚ) / ((σ.length + 1 : Nat) : ℚ) ≤
        ((σ.length - 1 - σ.idxOf (nth [i] 0) : Nat) : ℚ) / ((σ.length + 1 : Nat) : ℚ))
      · intro a b ha hb h1 h2
        rw [hle] at h1 h2
        have ha' : a < σ.length := by
          rw [(topkDesc_perm _ _).mem_iff, List.mem_range, ← hl] at ha
          exact ha
        have e1 := hσ.idxOf_lt ha'
        have e2 := List.idxOf_lt_length_iff.2 hb
        have e3 : σ.idxOf a = σ.idxOf b := by omega
        rw [← List.getElem_idxOf e1, ← List.getElem_idxOf e2]
        congr 1
      · exact topkDesc_sorted _ _
      · rw [List.pairwise_iff_getElem]
        intro i j hi hj hij
        rw [hle, hσ.nodup.idxOf_getElem, hσ.nodup.idxOf_getElem]
        omega
      · refine (topkDesc_perm _ _).trans ?_
        rw [← hl]
        exact hσ.symm
    rw [heq] at hs
    exact hs

/-- **C68**: the positions of the negated elements in decreasing order are the inverse of a permutation. -/
theorem invert_permutation (t : IxType) (x : List Int) (hx : x.Perm ((List.range x.length).map (fun k : Nat => (k : Int)))) :
    IsInverse x (invertPermutation t x).2.2 := by
  have hP := topkDesc_perm x.length (fun k => -(x.getD k 0))
  have hS := topkDesc_sorted x.length (fun k => -(x.getD k 0))
  have hL := topkDesc_length x.length (fun k => -(x.getD k 0))
  have hI := topkDesc_isPerm x.length (fun k => -(x.getD k 0))
  unfold invertPermutation IsInverse
  simp only
  generalize topkDesc x.length (fun k => -(x.getD k 0)) = r at *
  have hxr : (List.range x.length).map (fun k => x.getD k 0) = x := by
    apply List.ext_getElem (by simp)
    intro i h1 h2
    simp [h2]
  have hval : r.map (fun k => x.getD k 0) = (List.range x.length).map (fun k : Nat => (k : Int)) := by
    apply List.Perm.eq_of_pairwise (le := fun a b : Int => a ≤ b)
    · intro a b _ _ h1 h2
      omega
    · rw [List.pairwise_map]
      exact hS.imp (by intro a b h; omega)
    · rw [List.pairwise_map]
      exact List.pairwise_lt_range.imp (by intro a b h; omega)
    · refine (hP.map _).trans ?_
      rw [hxr]
      exact hx
  have hnodup : x.Nodup := by
    rw [hx.nodup_iff]
    exact List.nodup_range.map (fun a b h => by simpa using h)
  have hat : ∀ j, (hj : j < x.length) → x[nth r j]? = some (j : Int) := by
    intro j hj
    have h1 : (r.map (fun k => x.getD k 0))[j]? = some (j : Int) := by
      rw [hval]
      simp [hj]
    have hjr : j < r.length := by omega
    rw [List.getElem?_map, List.getElem?_eq_getElem hjr, Option.map_some, ← nth_eq r j hjr] at h1
    have hlt : nth r j < x.length := by
      have := hI.nth_lt hjr
      omega
    rw [List.getD_eq_getElem?_getD, List.getElem?_eq_getElem hlt] at h1
    rw [List.getElem?_eq_getElem hlt]
    simpa using h1
  refine ⟨by simp [hL], fun i j => ?_⟩
  constructor
  · intro h
    have hi : i < x.length := (List.getElem?_eq_some_iff.1 h).1
    have hj : j < x.length := by
      have hm : (j : Int) ∈ x := List.mem_of_getElem? h
      rw [hx.mem_iff, List.mem_map] at hm
      obtain ⟨k, hk, he⟩ := hm
      rw [List.mem_range] at hk
      omega
    have h2 := hat j hj
    have hjr : j < r.length := by omega
    have hlt : nth r j < x.length := (List.getElem?_eq_some_iff.1 h2).1
    have : i = nth r j := by
      have e1 : x[i] = x[nth r j] := by
        have a1 := (List.getElem?_eq_some_iff.1 h).2
        have a2 := (List.getElem?_eq_some_iff.1 h2).2
        rw [a1, a2]
      exact (hnodup.getElem_inj_iff).1 e1
    rw [List.getElem?_map, List.getElem?_eq_getElem hjr, ← nth_eq r j hjr, ← this]
    rfl
  · intro h
    rw [List.getElem?_map, Option.map_eq_some_iff] at h
    obtain ⟨k, hk, he⟩ := h
    have hjr : j < r.length := (List.getElem?_eq_some_iff.1 hk).1
    have : nth r j = i := by
      rw [nth_eq r j hjr, (List.getElem?_eq_some_iff.1 hk).2]
      omega
    rw [← this]
    exact hat j (by omega)

/-- **Defect**: the values are 64-bit integers, but the type of the operand is recorded for them. -/
theorem invert_permutation_type_violated (x : List Int) : (invertPermutation .int32 x).1 ≠ (invertPermutation .int32 x).2.1 := by simp [invertPermutation]

example : ([2, 0, 1] : List Int).Perm ((List.range 3).map (fun k : Nat => (k : Int))) := by decide
example : ∃ y, shuffle (fun i => if i = [1] then 1 / 2 else 0) (⟨[3, 2], fun i => (10 * nth i 0 + nth i 1 : Nat)⟩ : T Nat) = some y :=
  (shuffle_order _ _ (by simp)).imp (fun _ h => h.1)

end Verif.Scan
