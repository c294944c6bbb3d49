import Verif.Model.SparseOps
import Verif.Props.C64_Dense
import Verif.Props.C18_Reshape
import Mathlib.Algebra.Order.Ring.Int
/-!
# C64: sparse tensors: `SparseReshape`, `SparseFillEmptyRows`
-/
namespace Verif.Sparse
open Verif.Tensor Verif.Emit Verif.Seg Verif.Vec Verif.Ragged Verif.ConstFold

/-! ## `SparseReshape` -/

/-- Natural numbers as integers. -/
def castL (s : List Nat) : List Int := s.map (fun a : Nat => (a : Int))

/-- Sizes of what is behind each axis. -/
def cumSz : List Nat → List Nat
  | [] => []
  | _ :: s => size s :: cumSz s

theorem cumSz_length (s : List Nat) : (cumSz s).length = s.length := by
  induction s with
  | nil => rfl
  | cons d s ih => simp [cumSz, ih]

theorem cumSz_eq (s : List Nat) : cumSz s = (List.range s.length).map (fun i => size (s.drop (i + 1))) := by
  induction s with
  | nil => rfl
  | cons d s ih =>
    rw [cumSz, ih, List.length_cons, List.range_succ_eq_map, List.map_cons, List.map_map]
    simp [Function.comp_def]

theorem reduceProd_cast (s : List Nat) : reduceProd (castL s) = (size s : Int) := by
  induction s with
  | nil => rfl
  | cons d s ih =>
    rw [size_cons]
    push_cast
    rw [← ih]
    rfl

theorem prod_masked (s : List Nat) (i : Nat) : reduceProd ((castL s).mapIdx (fun j a => if j ≤ i then 1 else a)) = (size (s.drop (i + 1)) : Int) := by
  induction s generalizing i with
  | nil => simp [castL, reduceProd, size]
  | cons d s ih =>
    have e : castL (d :: s) = (d : Int) :: castL s := rfl
    rw [e, List.mapIdx_cons, if_pos (Nat.zero_le i)]
    have e1 : ∀ l : List Int, reduceProd (1 :: l) = reduceProd l := fun l => Int.one_mul _
    rw [e1, List.drop_succ_cons]
    cases i with
    | zero =>
      have : (castL s).mapIdx (fun j a => if j + 1 ≤ 0 then 1 else a) = castL s := by
        apply List.ext_getElem (by simp)
        intro k h1 h2
        simp
      rw [this, reduceProd_cast]
      simp
    | succ i =>
      simp only [Nat.add_le_add_iff_right]
      exact ih i

theorem cumProd_cast (s : List Nat) : cumProd (castL s) = castL (cumSz s) := by
  unfold cumProd
  rw [cumSz_eq]
  simp only [castL, List.length_map, List.map_map]
  refine List.map_congr_left (fun i _ => ?_)
  exact prod_masked s i

theorem dot_lin {s p : List Nat} (h : p.length = s.length) : dot (castL p) (castL (cumSz s)) = some (lin s p : Int) := by
  unfold dot
  rw [if_pos (by simp [castL, cumSz_length, h])]
  congr 1
  induction s generalizing p with
  | nil =>
    have : p = [] := by simpa using h
    subst this
    rfl
  | cons d s ih =>
    cases p with
    | nil => simp at h
    | cons i p =>
      have := ih (p := p) (by simpa using h)
      have e : List.zipWith (· * ·) (castL (i :: p)) (castL (cumSz (d :: s))) = ((i : Int) * (size s : Int)) :: List.zipWith (· * ·) (castL p) (castL (cumSz s)) := rfl
      rw [e, List.sum_cons, this, lin]
      push_cast
      rfl

theorem delin_emitted (r : List Nat) (k : Nat) :
    List.zipWith Int.tdiv ((((size r : Int) :: castL (cumSz r)).dropLast).map (fun d => Int.fmod k d)) (castL (cumSz r)) = castL (delin r (k % size r)) := by
  induction r with
  | nil => rfl
  | cons d r ih =>
    have e : castL (cumSz (d :: r)) = (size r : Int) :: castL (cumSz r) := rfl
    rw [e, List.dropLast_cons_cons, List.map_cons, List.zipWith_cons_cons, ih]
    have e2 : castL (delin (d :: r) (k % size (d :: r))) =
        (((k % size (d :: r)) / size r : Nat) : Int) :: castL (delin r (k % size (d :: r) % size r)) := rfl
    rw [e2]
    congr 1
    · rw [Int.fmod_eq_emod_of_nonneg _ (by omega), ← Int.natCast_mod, Int.tdiv_eq_ediv_of_nonneg (by omega)]
      simp
    · congr 2
      rw [size_cons, Nat.mod_mul_left_mod]

theorem inB_sizes {s p : List Nat} (h : InB s p) : 0 < size s ∧ ∀ d ∈ cumSz s, 0 < d := by
  induction s generalizing p with
  | nil => exact ⟨by simp [size], by simp [cumSz]⟩
  | cons d s ih =>
    cases p with
    | nil => exact absurd h.1 (by simp)
    | cons i p =>
      have h' : InB s p := by
        rw [inB_iff_forall₂] at h ⊢
        exact (List.forall₂_cons.1 h).2
      have hi : i < d := by
        have := h.2 0 (by simp)
        simpa [nth] using this
      obtain ⟨h1, h2⟩ := ih h'
      refine ⟨by rw [size_cons]; exact Nat.mul_pos (by omega) h1, fun x hx => ?_⟩
      rcases List.mem_cons.1 hx with rfl | hx
      · exact h1
      · exact h2 x hx

theorem sizes_of_pos {r : List Nat} (h : 0 < size r) : ∀ d ∈ cumSz r, 0 < d := by
  have := lin_delin (s := r) (k := 0) h
  exact (inB_sizes this.2).2

/-- One index. -/
theorem reshapeIndex_ok {s r p : List Nat} (hp : InB s p) (hsz : size r = size s) :
    reshapeIndex (cumProd (castL s)) (cumProd (castL r)) (reduceProd (castL s)) (castL p) = some (castL (delin r (lin s p))) := by
  have hpos : 0 < size r := by rw [hsz]; exact (inB_sizes hp).1
  have hc := sizes_of_pos hpos
  have hk : lin s p < size r := by rw [hsz]; exact TransposeOpt.lin_lt hp
  unfold reshapeIndex
  rw [cumProd_cast, cumProd_cast, dot_lin hp.1, reduceProd_cast, ← hsz]
  simp only [Option.bind_eq_bind, Option.bind_some]
  have hz : ∀ d ∈ castL (cumSz r), d ≠ 0 := by
    intro d hd
    obtain ⟨a, ha, rfl⟩ := List.mem_map.1 hd
    have := hc a ha
    omega
  rw [if_pos, if_pos hz, delin_emitted, Nat.mod_eq_of_lt hk]
  intro d hd
  have := List.mem_of_mem_dropLast hd
  rcases List.mem_cons.1 this with rfl | h
  · omega
  · exact hz d h

theorem size_erase {r : List Nat} {i : Nat} (h : i < r.length) : size r = nth r i * size (r.eraseIdx i) := by
  induction r generalizing i with
  | nil => simp at h
  | cons d r ih =>
    cases i with
    | zero => simp [size, nth]
    | succ i =>
      have := ih (i := i) (by simpa using h)
      rw [List.eraseIdx_cons_succ, size_cons, size_cons, this]
      simp only [nth, List.getD_cons_succ]
      rw [Nat.mul_left_comm]

theorem reduceProd_neg (t : List Int) (i : Nat) (r : List Nat) (hl : t.length = r.length) (hi : i < r.length)
    (h : ∀ j (hj : j < t.length), t[j] = if j = i then -1 else (nth r j : Int)) : reduceProd t = -(size (r.eraseIdx i) : Int) := by
  induction r generalizing t i with
  | nil => simp at hi
  | cons d r ih =>
    cases t with
    | nil => simp at hl
    | cons a t =>
      cases i with
      | zero =>
        have ha := h 0 (by simp)
        simp at ha
        have ht : t = castL r := by
          apply List.ext_getElem (by simpa [castL] using hl)
          intro k h1 h2
          have := h (k + 1) (by simp; omega)
          have hk : k < r.length := by simpa [castL] using h2
          simp [nth, List.getD, hk] at this
          simp [castL, this]
        rw [ha, ht]
        show -1 * reduceProd (castL r) = _
        rw [reduceProd_cast]
        simp
      | succ i =>
        have ha := h 0 (by simp)
        simp [nth] at ha
        have := ih t i (by simpa using hl) (by simpa using hi) (fun j hj => by
          have := h (j + 1) (by simp; omega)
          simpa [nth] using this)
        rw [ha, List.eraseIdx_cons_succ, size_cons]
        show (d : Int) * reduceProd t = _
        rw [this]
        push_cast
        rw [Int.mul_neg]

/-- The new shape. -/
theorem newShape_ok {s r : List Nat} {t : List Int} (h : ReshapesTo true s t r) (hz : size s ≠ 0 ∨ -1 ∈ t) : newShape (castL s) t = some (castL r) := by
  have hval : ∀ j (hj : j < t.length), t[j] = -1 ∨ t[j] = (nth r j : Int) := by
    intro j hj
    have hget : t[j]? = some t[j] := List.getElem?_eq_getElem hj
    have h1 := h.valid t[j] (List.getElem_mem hj)
    rcases Int.lt_trichotomy t[j] 0 with h0 | h0 | h0
    · left; omega
    · right
      rw [h0] at hget
      have := h.zero j hget rfl
      rw [this, h0]; rfl
    · right; exact (h.pos j _ hget h0).symm
  by_cases hneg : (-1 : Int) ∈ t
  · obtain ⟨i, hi, hti⟩ := List.getElem_of_mem hneg
    have hgi : t[i]? = some (-1) := by rw [List.getElem?_eq_getElem hi, hti]
    have hother : ∀ j (hj : j < t.length), t[j] = if j = i then -1 else (nth r j : Int) := by
      intro j hj
      split
      · subst_vars; exact hti
      · rename_i hne
        rcases hval j hj with h1 | h1
        · exact absurd (h.one j i (by rw [List.getElem?_eq_getElem hj, h1]) hgi) hne
        · exact h1
    have hrl : i < r.length := by rw [h.rank]; exact hi
    have hp := reduceProd_neg t i r h.rank.symm hrl hother
    have hne := h.infer i hgi
    have hsz : size s = nth r i * size (r.eraseIdx i) := by rw [← h.total]; exact size_erase hrl
    unfold newShape
    rw [if_pos (by rw [hp]; omega)]
    congr 1
    apply List.ext_getElem (by simp [castL, h.rank])
    intro j h1 h2
    simp at h1
    have hj := hother j h1
    have hnr : (castL r)[j] = (nth r j : Int) := by
      have : j < r.length := by rw [h.rank]; exact h1
      simp [castL, nth, List.getD, this]
    rw [List.getElem_map, hnr, hj, hp, reduceProd_cast, hsz]
    split
    · subst_vars
      rw [if_pos (by omega), Int.tdiv_neg]
      push_cast
      rw [Int.mul_tdiv_cancel _ (by omega)]
      omega
    · rw [if_neg (by omega)]
  · have ht : t = castL r := by
      apply List.ext_getElem (by simp [castL, h.rank])
      intro j h1 h2
      rcases hval j h1 with e | e
      · exact absurd (e ▸ List.getElem_mem h1) hneg
      · have : j < r.length := by rw [h.rank]; exact h1
        rw [e]
        simp [castL, nth, List.getD, this]
    have hs0 : size s ≠ 0 := by
      rcases hz with h | h
      · exact h
      · exact absurd h hneg
    unfold newShape
    rw [ht, if_pos (by rw [reduceProd_cast, h.total]; omega)]
    congr 1
    conv => rhs; rw [← List.map_id (castL r)]
    refine List.map_congr_left (fun d hd => ?_)
    obtain ⟨a, _, rfl⟩ := List.mem_map.1 hd
    rw [if_neg (by omega)]
    rfl

/-- **SparseReshape**: every element keeps its row-major position. -/
theorem sparseReshape_ok {s r : List Nat} {t : List Int} (h : ReshapesTo true s t r) (hz : size s ≠ 0 ∨ -1 ∈ t) {P : List (List Nat)} (hP : ∀ p ∈ P, InB s p) :
    ∃ Q : List (List Nat), sparseReshape (P.map castL) (castL s) t = some (Q.map castL, castL r) ∧
      List.Forall₂ (fun p q => InB r q ∧ lin r q = lin s p) P Q := by
  refine ⟨P.map (fun p => delin r (lin s p)), ?_, ?_⟩
  · unfold sparseReshape
    rw [newShape_ok h hz]
    simp only [Option.bind_eq_bind, Option.bind_some]
    have : (P.map castL).mapM (reshapeIndex (cumProd (castL s)) (cumProd (castL r)) (reduceProd (castL s))) = some (P.map (fun p => castL (delin r (lin s p)))) := by
      clear hz
      induction P with
      | nil => rfl
      | cons p P ih =>
        rw [List.map_cons, List.mapM_cons, reshapeIndex_ok (hP p (by simp)) h.total, ih (fun q hq => hP q (by simp [hq]))]
        rfl
    rw [this, Option.bind_some, List.map_map]
    rfl
  · rw [List.forall₂_map_right_iff, List.forall₂_same]
    intro p hp
    have := lin_delin (s := r) (k := lin s p) (by rw [h.total]; exact TransposeOpt.lin_lt (hP p hp))
    exact ⟨this.2, this.1⟩

/-- With a dimension 0 in the new shape the emitted operators divide by zero. -/
theorem sparseReshape_zero {shape new : List Int} (ix : List (List Int)) (h : reduceProd new = 0) : sparseReshape ix shape new = none := by
  unfold sparseReshape newShape
  rw [if_neg (by simp [h])]
  rfl

/-! ## `SparseFillEmptyRows` -/

/-- The rows without an element. -/
def emptyRows (n : Nat) (P : List (List Nat)) : List Nat := (List.range n).filter (fun r => decide (∀ p ∈ P, p.head? ≠ some r))

theorem flags_ok {n : Nat} {P : List (List Nat)} (hP : ∀ p ∈ P, ∃ i q, p = i :: q ∧ i < n) :
    emptyRowFlags (P.map castL) n = some ((List.range n).map (fun r => decide (∀ p ∈ P, p.head? ≠ some r))) := by
  let first := uniqueVal ((P.map castL).flatMap (fun r => r.take 1))
  have hmem : ∀ a, a ∈ first ↔ ∃ i : Nat, a = (i : Int) ∧ i < n ∧ ∃ p ∈ P, p.head? = some i := by
    intro a
    show a ∈ uniqueVal _ ↔ _
    rw [mem_uniqueVal, List.mem_flatMap]
    constructor
    · rintro ⟨l, hl, ha⟩
      obtain ⟨p, hp, rfl⟩ := List.mem_map.1 hl
      obtain ⟨i, q, rfl, hi⟩ := hP p hp
      simp [castL] at ha
      exact ⟨i, ha, hi, _, hp, rfl⟩
    · rintro ⟨i, rfl, hi, p, hp, he⟩
      obtain ⟨j, q, rfl, hj⟩ := hP p hp
      simp at he
      subst he
      exact ⟨castL (j :: q), List.mem_map.2 ⟨_, hp, rfl⟩, by simp [castL]⟩
  have hnd : first.Nodup := uniqueVal_nodup _
  have hpos : first.map (posOf n) = first.map Int.toNat := List.map_congr_left (fun a ha => by
    obtain ⟨i, rfl, _⟩ := (hmem a).1 ha
    rw [posOf_nat]; rfl)
  unfold emptyRowFlags
  simp only [Option.bind_eq_bind]
  have e1 : fill true (n : Int) = some (List.replicate n true) := by
    unfold fill
    rw [if_pos (by omega)]; simp
  have e2 : fill false (first.length : Int) = some (List.replicate first.length false) := by
    unfold fill
    rw [if_pos (by omega)]; simp
  rw [e1, Option.bind_some]
  show (fill false (first.length : Int)).bind _ = _
  rw [e2, Option.bind_some]
  show scatter (List.replicate n true) first _ = _
  unfold scatter
  rw [List.length_replicate, List.length_replicate, hpos, if_pos]
  · congr 1
    apply List.ext_getElem (by simp)
    intro r h1 h2
    have hr : r < n := by simpa using h2
    simp only [List.getElem_mapIdx, List.getElem_replicate, List.getElem_map, List.getElem_range]
    by_cases hx : ∃ p ∈ P, p.head? = some r
    · have hm : (r : Int) ∈ first := (hmem _).2 ⟨r, rfl, hr, hx⟩
      have hm' : r ∈ first.map Int.toNat := List.mem_map.2 ⟨(r : Int), hm, by simp⟩
      have hlt := List.idxOf_lt_length_of_mem hm'
      rw [List.getElem?_replicate, if_pos (by simpa using hlt)]
      have : ¬ ∀ p ∈ P, p.head? ≠ some r := by
        intro hc
        obtain ⟨p, hp, e⟩ := hx
        exact hc p hp e
      simp only [this]
      rfl
    · have hm' : r ∉ first.map Int.toNat := by
        intro hc
        obtain ⟨a, ha, e⟩ := List.mem_map.1 hc
        obtain ⟨i, rfl, _, hp⟩ := (hmem a).1 ha
        simp at e
        subst e
        exact hx hp
      rw [List.idxOf_eq_length hm', List.getElem?_replicate, if_neg (by simp)]
      have : ∀ p ∈ P, p.head? ≠ some r := fun p hp e => hx ⟨p, hp, e⟩
      simp only [Option.getD_none]
      rw [decide_eq_true this]
  · refine ⟨rfl, fun a ha => ?_, ?_⟩
    · obtain ⟨i, rfl, hi, _⟩ := (hmem a).1 ha
      omega
    · rw [List.nodup_map_iff_inj_on hnd]
      intro a ha b hb e
      obtain ⟨i, rfl, _⟩ := (hmem a).1 ha
      obtain ⟨j, rfl, _⟩ := (hmem b).1 hb
      simp at e
      rw [e]

/-- **SparseFillEmptyRows**: behind the elements, one more at the start of every row without an element, with the default; the flags tell which rows. -/
theorem fillEmptyRows_ok {β : Type} {n d : Nat} (hd : d ≠ 0) {P : List (List Nat)} (hP : ∀ p ∈ P, ∃ i q, p = i :: q ∧ i < n) (vals : List β) (rest : List Int)
    (default : β) :
    fillEmptyRows d (P.map castL) vals ((n : Int) :: rest) default =
      some ((P ++ (emptyRows n P).map (fun r => r :: List.replicate (d - 1) 0)).map castL, vals ++ List.replicate (emptyRows n P).length default,
        (List.range n).map (fun r => decide (∀ p ∈ P, p.head? ≠ some r))) := by
  unfold fillEmptyRows
  simp only [List.getElem?_cons_zero, Option.bind_eq_bind, Option.bind_some]
  rw [flags_ok hP, Option.bind_some]
  have er : rangeVec (n : Int) = (List.range n).map (fun r : Nat => (r : Int)) := rfl
  rw [er, compress_map, Option.bind_some, if_neg hd]
  have ef : (List.range n).filter (fun r => decide (∀ p ∈ P, p.head? ≠ some r)) = emptyRows n P := rfl
  rw [ef, List.map_map, List.length_map, List.map_append, List.map_map]
  congr 4
  funext r
  simp [castL]

end Verif.Sparse
