import Verif.Model.SmallOpts
import Verif.Spec.QuantOps
import Verif.Props.C15_ConstFold
import Verif.Props.C19_Push2
import Mathlib.Algebra.Order.Ring.Int
/-!
# C61: dequantizing after moving elements; transposes out of loop bodies
-/
namespace Verif.Tensor
open Verif Verif.Graph Verif.TransposeOpt Verif.ConstFold

variable {α β : Type}

/-! ## One scale -/

theorem dequant_transpose (deq : α → β) (perm : List Nat) (x : T α) : transpose perm (dequant deq x) = dequant deq (transpose perm x) := rfl
theorem dequant_reshape (deq : α → β) (r : List Nat) (x : T α) : reshape r (dequant deq x) = dequant deq (reshape r x) := rfl
theorem dequant_unsqueeze (deq : α → β) (n : Nat) (ax : Nat → Bool) (x : T α) : unsqueeze n ax (dequant deq x) = dequant deq (unsqueeze n ax x) := rfl

/-! ## A scale for every channel -/

theorem dequantAxis_transpose (deq : Nat → α → β) {perm : List Nat} {a : Nat} (ha : a < perm.length) (x : T α) :
    Same (transpose perm (dequantAxis deq a x)) (dequantAxis deq (perm.idxOf a) (transpose perm x)) := by
  refine ⟨rfl, fun idx _ => ?_⟩
  simp only [transpose, dequantAxis]
  rw [nth_permIdx ha]

theorem nth_delin {s : List Nat} {k a : Nat} (hk : k < size s) (ha : a < s.length) :
    nth (delin s k) a = k / size (s.drop (a + 1)) % nth s a := by
  induction s generalizing k a with
  | nil => simp at ha
  | cons d s ih =>
    rw [size_cons] at hk
    have hpos : 0 < size s := by
      rcases Nat.eq_zero_or_pos (size s) with h | h
      · rw [h] at hk; simp at hk
      · exact h
    cases a with
    | zero =>
      simp only [delin, nth, List.getD_cons_zero, List.drop_succ_cons, List.drop_zero]
      rw [Nat.mod_eq_of_lt]
      rw [Nat.div_lt_iff_lt_mul hpos]
      exact hk
    | succ a =>
      have ha : a < s.length := by simpa using ha
      have e1 : nth (delin (d :: s) k) (a + 1) = nth (delin s (k % size s)) a := by simp [delin, nth]
      have e2 : nth (d :: s) (a + 1) = nth s a := by simp [nth]
      rw [e1, e2, ih (Nat.mod_lt _ hpos) ha, List.drop_succ_cons]
      have hs : size s = size (s.drop (a + 1)) * (nth s a * size (s.take a)) := by
        conv_lhs => rw [← List.take_append_drop a s, List.drop_eq_getElem_cons ha, size_append, size_cons]
        rw [nth_eq _ _ ha, Nat.mul_comm, Nat.mul_comm s[a], Nat.mul_assoc]
      conv_lhs => rw [hs, Nat.mod_mul_right_div_self]
      exact Nat.mod_mod_of_dvd _ (Nat.dvd_mul_right _ _)

theorem dequantAxis_reshape (deq : Nat → α → β) {r : List Nat} {a i : Nat} (x : T α) (ha : a < x.shape.length) (hi : i < r.length)
    (hsize : size r = size x.shape) (hd : nth r i = nth x.shape a) (hp : size (r.take (i + 1)) = size (x.shape.take (a + 1))) :
    Same (reshape r (dequantAxis deq a x)) (dequantAxis deq i (reshape r x)) := by
  refine ⟨rfl, fun idx hidx => ?_⟩
  simp only [reshape, dequantAxis] at hidx ⊢
  have hl := lin_lt hidx
  have h1 : size r = size (r.take (i + 1)) * size (r.drop (i + 1)) := by rw [← size_append, List.take_append_drop]
  have h2 : size x.shape = size (x.shape.take (a + 1)) * size (x.shape.drop (a + 1)) := by rw [← size_append, List.take_append_drop]
  have hpos : 0 < size (r.take (i + 1)) := by
    rcases Nat.eq_zero_or_pos (size (r.take (i + 1))) with h | h
    · rw [h1, h] at hl; simp at hl
    · exact h
  have h3 : size (r.drop (i + 1)) = size (x.shape.drop (a + 1)) := by
    apply Nat.eq_of_mul_eq_mul_left hpos
    rw [← h1, hp, ← h2, hsize]
  rw [nth_delin (by rw [← hsize]; exact hl) ha, ← h3, ← hd, ← nth_delin hl hi, delin_lin hidx]

/-- Product of integers. -/
def iprod (l : List Int) : Int := l.foldr (· * ·) 1

theorem reshapeAxis_spec {prod dim : Int} {t : List Int} {i j : Nat} {acc : Int} (h : reshapeAxis prod dim i acc t = some j) :
    ∃ pre post, t = pre ++ dim :: post ∧ j = i + pre.length ∧ acc * iprod (pre ++ [dim]) = prod := by
  induction t generalizing i acc with
  | nil => cases h
  | cons d t ih =>
    simp only [reshapeAxis] at h
    split at h
    · rename_i hp
      split at h
      · rename_i hd
        cases h
        exact ⟨[], t, by rw [hd]; rfl, by simp, by rw [← hp, hd]; simp [iprod]⟩
      · cases h
    · obtain ⟨pre, post, h1, h2, h3⟩ := ih h
      refine ⟨d :: pre, post, by rw [h1]; rfl, by simp [h2]; omega, ?_⟩
      rw [← h3]
      simp [iprod, mul_assoc]

theorem pos_of_mul_pos_right_int {a b : Int} (h : 0 < a * b) (ha : 0 < a) : 0 < b := by
  rcases lt_trichotomy b 0 with hb | hb | hb
  · have := mul_neg_of_pos_of_neg ha hb; omega
  · rw [hb] at h; simp at h
  · exact hb

theorem iprod_pos {l : List Int} (h1 : ∀ d ∈ l, -1 ≤ d) (h2 : l.Pairwise (fun x y => ¬ (x = -1 ∧ y = -1))) (h : 0 < iprod l) : ∀ d ∈ l, 0 < d := by
  have hall : ∀ l : List Int, (∀ d ∈ l, 0 < d) → 0 < iprod l := by
    intro l
    induction l with
    | nil => intro _; decide
    | cons d l ih => intro h; exact mul_pos (h d (by simp)) (ih fun x hx => h x (by simp [hx]))
  have hne : ∀ l : List Int, iprod l ≠ 0 → (0 : Int) ∉ l := by
    intro l
    induction l with
    | nil => intro _; simp
    | cons d l ih =>
      intro h
      have : d * iprod l ≠ 0 := h
      have := mul_ne_zero_iff.1 this
      simp only [List.mem_cons, not_or]
      exact ⟨fun e => this.1 e.symm, ih this.2⟩
  induction l with
  | nil => simp
  | cons d l ih =>
    have hm : 0 < d * iprod l := h
    have hd0 := h1 d (by simp)
    have h0 := mul_ne_zero_iff.1 (ne_of_gt hm)
    obtain ⟨p1, p2⟩ := List.pairwise_cons.1 h2
    by_cases hd : d = -1
    · have hl : ∀ x ∈ l, 0 < x := by
        intro x hx
        have a := h1 x (by simp [hx])
        have b : x ≠ -1 := fun e => p1 x hx ⟨hd, e⟩
        have c : x ≠ 0 := fun e => hne l h0.2 (e ▸ hx)
        omega
      have := hall l hl
      rw [hd] at hm
      omega
    · have hdp : 0 < d := by have := h0.1; omega
      have := ih (fun x hx => h1 x (by simp [hx])) p2 (pos_of_mul_pos_right_int hm hdp)
      intro x hx
      rcases List.mem_cons.1 hx with rfl | hx
      · exact hdp
      · exact this x hx

theorem size_iprod {r : List Nat} {l : List Int} (h : r.map (fun n : Nat => (n : Int)) = l) : (size r : Int) = iprod l := by
  subst h
  induction r with
  | nil => rfl
  | cons d r ih => rw [size_cons, Int.natCast_mul, ih]; rfl

/-- `Reshape`: the axis the code finds is right. -/
theorem newAxis_reshape (deq : Nat → α → β) {a : Int} {t : List Int} {r : List Nat} {i : Nat} {allowzero : Bool} (x : T α)
    (ha : ValidAxis x.shape.length a) (hr : ReshapesTo allowzero x.shape t r) (h : computeNewAxis (some a) x.shape (.reshape t) = .ok (some i)) :
    i < r.length ∧ (0 < size x.shape → nth r i = nth x.shape (normAxis x.shape.length a)) ∧
    Same (reshape r (dequantAxis deq (normAxis x.shape.length a) x)) (dequantAxis deq i (reshape r x)) := by
  have hlt := normAxis_lt ha
  set k := normAxis x.shape.length a with hk
  have hka : (if a < 0 then a + (x.shape.length : Int) else a) = (k : Int) := by
    rw [hk]; unfold normAxis; obtain ⟨h1, h2⟩ := ha; split <;> omega
  simp only [computeNewAxis, hka, Except.ok.injEq] at h
  obtain ⟨pre, post, ht, hi, hp⟩ := reshapeAxis_spec h
  have hk1 : ((k : Int) + 1).toNat = k + 1 := by omega
  have hk2 : ((x.shape.getD (k : Int).toNat 0 : Nat) : Int) = (nth x.shape k : Int) := by rw [Int.toNat_natCast]; rfl
  rw [hk1, one_mul, hk2] at hp
  rw [hk2] at ht
  have hi : i = pre.length := by omega
  have hir : i < r.length := by rw [hr.rank, ht, hi]; simp
  by_cases hz : size (x.shape.take (k + 1)) = 0
  · -- no elements
    have hs0 : size x.shape = 0 := by rw [← List.take_append_drop (k + 1) x.shape, size_append, hz, Nat.zero_mul]
    have hsame : Same (reshape r (dequantAxis deq k x)) (dequantAxis deq i (reshape r x)) := by
      refine ⟨rfl, fun idx hidx => ?_⟩
      have := lin_lt (s := r) hidx
      rw [hr.total, hs0] at this
      omega
    exact ⟨hir, fun h => by omega, hsame⟩
  · have hpos : 0 < iprod (pre ++ [(nth x.shape k : Int)]) := by rw [hp]; omega
    have htake : t.take (i + 1) = pre ++ [(nth x.shape k : Int)] := by
      rw [ht, hi, List.take_append, List.take_of_length_le (by omega)]; simp
    have hall := iprod_pos (l := t.take (i + 1)) (fun d hd => hr.valid d (List.mem_of_mem_take hd)) (by
      rw [List.pairwise_iff_getElem]
      rintro p q hp hq hpq ⟨h1, h2⟩
      simp only [List.length_take, Nat.lt_min] at hp hq
      rw [List.getElem_take] at h1 h2
      have := hr.one p q (by rw [List.getElem?_eq_getElem hp.2, h1]) (by rw [List.getElem?_eq_getElem hq.2, h2])
      omega) (by rw [htake]; exact hpos)
    have hrt : ∀ j, j < i + 1 → t[j]? = some (nth r j : Int) := by
      intro j hj
      have hjt : j < t.length := by rw [← hr.rank]; omega
      have := hall t[j] (List.mem_iff_getElem.2 ⟨j, by simp; omega, by simp⟩)
      rw [List.getElem?_eq_getElem hjt, hr.pos j _ (List.getElem?_eq_getElem hjt) this]
    have hdim : nth r i = nth x.shape k := by
      have a := hrt i (by omega)
      rw [ht, hi] at a
      simp at a
      rw [hi]; omega
    refine ⟨hir, fun _ => hdim, dequantAxis_reshape deq x hlt hir hr.total hdim ?_⟩
    have : (r.take (i + 1)).map (fun n : Nat => (n : Int)) = pre ++ [(nth x.shape k : Int)] := by
      rw [← htake]
      apply List.ext_getElem?
      intro j
      by_cases hj : j < i + 1
      · rw [List.getElem?_map, List.getElem?_take, if_pos hj, List.getElem?_take, if_pos hj, hrt j hj, List.getElem?_eq_getElem (by omega)]
        rw [nth_eq _ _ (by omega)]; rfl
      · rw [List.getElem?_map, List.getElem?_take, if_neg hj, List.getElem?_take, if_neg hj]; rfl
    have := size_iprod this
    rw [hp] at this
    exact_mod_cast this

/-- `Transpose`. -/
theorem newAxis_transpose (deq : Nat → α → β) {a : Int} {perm : List Nat} {i : Nat} (x : T α) (ha : ValidAxis x.shape.length a)
    (hl : x.shape.length = perm.length) (h : computeNewAxis (some a) x.shape (.transpose (some perm)) = .ok (some i)) :
    i < perm.length ∧ nth (transpose perm x).shape i = nth x.shape (normAxis x.shape.length a) ∧
    Same (transpose perm (dequantAxis deq (normAxis x.shape.length a) x)) (dequantAxis deq i (transpose perm x)) := by
  have hlt := normAxis_lt ha
  have hka : (if a < 0 then a + (x.shape.length : Int) else a) = (normAxis x.shape.length a : Int) := by
    unfold normAxis; obtain ⟨h1, h2⟩ := ha; split <;> omega
  simp only [computeNewAxis, hka, Int.toNat_natCast] at h
  split at h
  · rename_i hm
    cases h
    have hi := List.idxOf_lt_length_iff.2 hm.1
    refine ⟨hi, ?_, dequantAxis_transpose deq (by omega) x⟩
    simp only [transpose]
    rw [nth_map _ _ _ hi, nth_idxOf_of_mem hm.1]
  · cases h

/-- The code finds the axis of every transposed constant. -/
theorem newAxis_transpose_ok {a : Int} {perm : List Nat} {s : List Nat} (ha : ValidAxis s.length a) (hp : IsPerm perm)
    (hl : s.length = perm.length) : ∃ i, computeNewAxis (some a) s (.transpose (some perm)) = .ok (some i) := by
  have hlt := normAxis_lt ha
  refine ⟨perm.idxOf (normAxis s.length a), ?_⟩
  have hka : (if a < 0 then a + (s.length : Int) else a).toNat = normAxis s.length a := rfl
  simp only [computeNewAxis, hka]
  rw [if_pos]
  refine ⟨hp.mem_iff.2 (List.mem_range.2 (by omega)), ?_⟩
  obtain ⟨h1, h2⟩ := ha
  split <;> omega

theorem unsqueezeAxis_eq (axes : List Int) (is : List Nat) (old : Nat) :
    unsqueezeAxis axes is (old : Int) = (is.filter (fun i : Nat => decide ((i : Int) ∉ axes)))[old]? := by
  induction is generalizing old with
  | nil => rfl
  | cons i is ih =>
    simp only [unsqueezeAxis]
    by_cases h : (i : Int) ∈ axes
    · rw [if_pos h, ih, List.filter_cons_of_neg (by simpa using h)]
    · rw [if_neg h, List.filter_cons_of_pos (by simpa using h)]
      cases old with
      | zero => simp
      | succ old =>
        rw [if_neg (by omega)]
        have : ((old + 1 : Nat) : Int) - 1 = (old : Int) := by omega
        rw [this, ih]; simp

/-- `Unsqueeze`. -/
theorem newAxis_unsqueeze (deq : Nat → α → β) {a : Int} {axes : List Int} {i : Nat} (x : T α) (ha : ValidAxis x.shape.length a)
    (hax : ∀ z ∈ axes, ValidAxis (x.shape.length + axes.length) z)
    (h : computeNewAxis (some a) x.shape (.unsqueeze axes) = .ok (some i)) :
    i < x.shape.length + axes.length ∧
    Same (unsqueeze (x.shape.length + axes.length) (axisSet (x.shape.length + axes.length) axes) (dequantAxis deq (normAxis x.shape.length a) x))
      (dequantAxis deq i (unsqueeze (x.shape.length + axes.length) (axisSet (x.shape.length + axes.length) axes) x)) ∧
    nth (unsqueeze (x.shape.length + axes.length) (axisSet (x.shape.length + axes.length) axes) x).shape i =
      nth x.shape (normAxis x.shape.length a) := by
  have hlt := normAxis_lt ha
  set k := normAxis x.shape.length a with hk
  set n := x.shape.length + axes.length with hn
  have hka : (if a < 0 then a + (x.shape.length : Int) else a) = (k : Int) := by
    rw [hk]; unfold normAxis; obtain ⟨h1, h2⟩ := ha; split <;> omega
  simp only [computeNewAxis, hka, Except.ok.injEq, ← hn] at h
  rw [unsqueezeAxis_eq] at h
  have hkept : (List.range n).filter (fun i : Nat => decide ((i : Int) ∉ axes.map (fun z => if 0 ≤ z then z else z + (n : Int)))) =
      keptAxes n (axisSet n axes) := by
    unfold keptAxes
    apply List.filter_congr
    intro j hj
    rw [Bool.eq_iff_iff]
    simp only [decide_eq_true_eq, Bool.not_eq_true', Bool.eq_false_iff, ne_eq, axisSet_iff, List.mem_map]
    constructor
    · rintro h ⟨z, hz, hzj⟩
      refine h ⟨z, hz, ?_⟩
      obtain ⟨h1, h2⟩ := hax z hz
      unfold normAxis at hzj
      split <;> split at hzj <;> omega
    · rintro h ⟨z, hz, hzj⟩
      refine h ⟨z, hz, ?_⟩
      obtain ⟨h1, h2⟩ := hax z hz
      unfold normAxis
      split at hzj <;> split <;> omega
  rw [hkept] at h
  obtain ⟨hkl, hki⟩ := List.getElem?_eq_some_iff.1 h
  have him : i ∈ keptAxes n (axisSet n axes) := by rw [← hki]; exact List.getElem_mem _
  obtain ⟨hin, hina⟩ : i < n ∧ axisSet n axes i = false := by simpa [keptAxes] using him
  have hnd : (keptAxes n (axisSet n axes)).Nodup := List.Nodup.filter _ List.nodup_range
  refine ⟨hin, ⟨rfl, fun idx _ => ?_⟩, ?_⟩
  · simp only [unsqueeze, dequantAxis]
    rw [nth_map _ _ _ hkl, nth_eq _ _ hkl, hki]
  · simp only [unsqueeze]
    rw [nth_map_range, if_pos hin, if_neg (by rw [hina]; simp)]
    congr 1
    rw [← hki]
    exact hnd.idxOf_getElem _ hkl

/-! ## Stacking -/

theorem idxOf_map_succ (l : List Nat) (j : Nat) : (l.map (· + 1)).idxOf (j + 1) = l.idxOf j := by
  induction l with
  | nil => rfl
  | cons p l ih =>
    by_cases e : p = j
    · subst e; simp
    · rw [List.map_cons, List.idxOf_cons_ne _ (by omega), List.idxOf_cons_ne _ e, ih]

/-- **A transpose of every scan result is a transpose of the stacked results.** -/
theorem stacked_transpose {n : Nat} {s : List Nat} {xs : Nat → T α} {perm : List Nat} :
    Same (stacked n (perm.map (nth s)) (fun i => transpose perm (xs i))) (transpose (loopPerm perm) (stacked n s xs)) := by
  have h0 : ∀ j, (0 :: perm.map (· + 1)).idxOf (j + 1) = perm.idxOf j + 1 := by
    intro j
    rw [List.idxOf_cons_ne _ (by omega), idxOf_map_succ]
  refine ⟨?_, fun idx hidx => ?_⟩
  · simp [stacked, transpose, loopPerm, nth, Function.comp_def]
  · simp only [stacked, transpose, loopPerm]
    have hlen : idx.length = perm.length + 1 := by simpa [stacked] using hidx.1
    have e1 : permIdx (0 :: perm.map (· + 1)) idx = nth idx 0 :: permIdx perm (idx.drop 1) := by
      simp only [permIdx, List.length_cons, List.length_map, List.range_succ_eq_map, List.map_cons, List.map_map]
      congr 1
      apply List.map_congr_left
      · intro j _
        simp only [Function.comp_def, Nat.succ_eq_add_one, h0]
        simp [nth, List.getD_eq_getElem?_getD]
    rw [e1]
    simp [nth]

end Verif.Tensor
