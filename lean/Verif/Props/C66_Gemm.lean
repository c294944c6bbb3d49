import Verif.Props.C66_Broadcast
import Verif.Props.C57_Geom
import Verif.Model.PatternRewriters
import Mathlib.Algebra.Order.Ring.Int
/-!
# C66: matrix products with a sum become `Gemm`
-/
namespace Verif.Patt
open Verif.Tensor Verif.Emit Verif.Conv

variable {α : Type} [CommSemiring α]

/-! ## What TensorFlow computes -/

/-- A product with a constant, if the pattern has one. -/
def scaled (flip : Bool) (k : Option (T α)) (x : T α) : Option (T α) :=
  match k with
  | none => some x
  | some t => if flip then zipT (· * ·) x t else zipT (· * ·) t x

/-- The sum at the end. -/
def summed (bias flip : Bool) (x c : T α) : Option (T α) :=
  if bias then biasLast x c else if flip then zipT (· + ·) c x else zipT (· + ·) x c

/-- The value of the matched subgraph: `alpha * A * B + beta * C`. -/
def GemmMatch.value (dot : Dot α) (m : GemmMatch α) : Option (T α) := do
  let p ← matMul dot m.transA m.transB m.a m.b
  let p ← scaled m.flipAlpha m.alpha p
  let c ← scaled m.flipBeta m.beta m.c
  summed m.bias m.flipAdd p c

/-- What the graph has recorded is right. -/
structure GemmMatch.Right (m : GemmMatch α) : Prop where
  ab : ∀ r, m.abShape = some r → Rec r [nrows m.transA m.a, ncols m.transB m.b]
  c : ∀ r, m.cShape = some r → Rec r m.c.shape

/-- A constant is not a list of lists. -/
def Flat (k : Option (T α)) : Prop := ∀ t, k = some t → t.shape.length ≤ 1

/-! ## Proof -/

theorem dims_one {t : T α} {v : α} (h : constArg t = .number v) : (∀ k, dimB t.shape k = 1) ∧ (∀ p, at' t p = v) ∧ t.shape.length ≤ 1 := by
  unfold constArg at h
  split at h
  · rename_i hs
    cases h
    exact ⟨fun k => by rw [hs, dimB_of_le (by simp)], fun p => by simp [at', hs], by simp [hs]⟩
  · rename_i hs
    cases h
    refine ⟨fun k => ?_, fun p => by simp [at', hs, nth], by simp [hs]⟩
    rw [hs]
    by_cases hk : k < 1
    · obtain rfl : k = 0 := by omega
      rfl
    · exact dimB_of_le (by simp; omega)
  · cases h
  · cases h

/-- A scaled operand: as large as before where it matters, every element multiplied. -/
theorem scaled_view {flip : Bool} {k : Option (T α)} {x y : T α} {v : α} (ha : optArg k = .number v) (h : scaled flip k x = some y) :
    (y.shape.length = x.shape.length ∨ y.shape.length = max 1 x.shape.length) ∧ (∀ j, dimB y.shape j = dimB x.shape j) ∧ ∀ p, at' y p = v * at' x p := by
  cases k with
  | none =>
    cases ha
    cases h
    exact ⟨Or.inl rfl, fun _ => rfl, fun _ => (one_mul _).symm⟩
  | some t =>
    obtain ⟨h1, h2, h3⟩ := dims_one (show constArg t = .number v from ha)
    unfold scaled at h
    dsimp only at h
    split at h
    · obtain ⟨e1, e2, -, e3⟩ := zipT_view h
      refine ⟨?_, fun j => ?_, fun p => ?_⟩
      · rw [e1]
        rcases Nat.le_one_iff_eq_zero_or_eq_one.1 h3 with h0 | h0
        · left; omega
        · right; omega
      · rw [e2, h1]
        split
        · rename_i hh; exact hh.symm
        · rfl
      · rw [e3, h2, mul_comm]
    · obtain ⟨e1, e2, -, e3⟩ := zipT_view h
      refine ⟨?_, fun j => ?_, fun p => ?_⟩
      · rw [e1]
        rcases Nat.le_one_iff_eq_zero_or_eq_one.1 h3 with h0 | h0
        · left; omega
        · right; omega
      · rw [e2, h1]
        simp
      · rw [e3, h2]

theorem scaled_some {flip : Bool} {k : Option (T α)} (x : T α) {v : α} (ha : optArg k = .number v) : ∃ y, scaled flip k x = some y := by
  cases k with
  | none => exact ⟨x, rfl⟩
  | some t =>
    obtain ⟨h1, -, -⟩ := dims_one (show constArg t = .number v from ha)
    unfold scaled
    dsimp only
    split
    · exact zipT_some _ (fun k => Or.inr (Or.inr (h1 k)))
    · exact zipT_some _ (fun k => Or.inr (Or.inl (h1 k)))

/-- A vector as long as the last axis is read at the last coordinate, also by a broadcasting sum. -/
theorem biasLast_view {x b y : T α} (h : biasLast x b = some y) :
    y.shape.length = max x.shape.length b.shape.length ∧ (∀ k, dimB y.shape k = if dimB x.shape k = 1 then dimB b.shape k else dimB x.shape k) ∧
      ∀ p, at' y p = at' x p + at' b p := by
  unfold biasLast at h
  split at h
  · rename_i hc
    obtain ⟨h2, hb⟩ := hc
    simp only [Option.some.injEq] at h
    have hs : y.shape = x.shape := by rw [← h]
    have hb1 : b.shape.length = 1 := by rw [hb]; rfl
    have hb0 : dimB b.shape 0 = dimB x.shape 0 := by
      rw [dimB_of_lt (by omega), dimB_of_lt (by omega), hb]
      rfl
    refine ⟨by rw [hs, hb1]; omega, fun k => ?_, fun p => ?_⟩
    · rw [hs]
      split
      · rename_i hk
        rw [hk]
        by_cases h0 : k = 0
        · subst h0; rw [hb0, hk]
        · rw [dimB_of_le (by omega)]
      · rfl
    · rw [← h]
      unfold at'
      dsimp only
      congr 1
      congr 1
      rw [hb1]
      simp only [List.length_map, List.length_range, List.range_one, List.map_cons, List.map_nil]
      rw [nth_map_range, if_pos (by omega)]
      have e : nth b.shape 0 = nth x.shape (x.shape.length - 1) := by rw [hb]; rfl
      rw [e]
      have e2 : x.shape.length - 1 - (x.shape.length - 1) = 1 - 1 - 0 := by omega
      rw [e2]
  · cases h

theorem summed_view {bias flip : Bool} {x c y : T α} (h : summed bias flip x c = some y) :
    y.shape.length = max x.shape.length c.shape.length ∧ (∀ k, dimB y.shape k = 1 ∧ dimB x.shape k = 1 ∧ dimB c.shape k = 1 ∨
      (dimB x.shape k ≠ 1 ∧ dimB y.shape k = dimB x.shape k) ∨ (dimB x.shape k = 1 ∧ dimB y.shape k = dimB c.shape k)) ∧
      ∀ p, at' y p = at' x p + at' c p := by
  unfold summed at h
  split at h
  · obtain ⟨e1, e2, e3⟩ := biasLast_view h
    refine ⟨e1, fun k => ?_, e3⟩
    rw [e2]
    split <;> simp_all
  · split at h
    · obtain ⟨e1, e2, e4, e3⟩ := zipT_view h
      refine ⟨by rw [e1, Nat.max_comm], fun k => ?_, fun p => by rw [e3, add_comm]⟩
      rw [e2]
      rcases e4 k with h4 | h4 | h4
      · split <;> simp_all
      · simp_all
        tauto
      · split <;> simp_all
    · obtain ⟨e1, e2, e4, e3⟩ := zipT_view h
      refine ⟨e1, fun k => ?_, e3⟩
      rw [e2]
      split <;> simp_all

theorem rec_exact {r : List Int} {s : List Nat} (h : Rec r s) (hn : (-1 : Int) ∉ r) : r = s.map Int.ofNat := by
  apply map_ofNat_of h.1
  intro i hi
  refine (h.2 i hi).resolve_left (fun he => hn ?_)
  have hi' : i < r.length := h.1 ▸ hi
  rw [List.getD_eq_getElem?_getD, List.getElem?_eq_getElem hi'] at he
  rw [← he]
  exact List.getElem_mem _

theorem getD_ofNat (s : List Nat) {i : Nat} (h : i < s.length) : (s.map Int.ofNat).getD i 0 = (nth s i : Int) := by
  rw [List.getD_eq_getElem?_getD, List.getElem?_map, List.getElem?_eq_getElem h, nth_eq _ _ h]
  rfl

/-- The loop over the dimensions decides whether `C` broadcasts to the product. -/
theorem compatible_iff (c ab : List Nat) : compatible (c.map Int.ofNat) (ab.map Int.ofNat) = .ok true ↔ OneWay c ab := by
  unfold compatible OneWay
  simp only [List.length_map]
  by_cases hl : ab.length < c.length
  · rw [if_pos hl]
    constructor
    · intro h; cases h
    · intro h; omega
  · rw [if_neg hl]
    simp only [Except.ok.injEq, List.all_eq_true, List.mem_range, Bool.or_eq_true, decide_eq_true_eq]
    constructor
    · intro h
      refine ⟨by omega, fun i hi => ?_⟩
      have := h (c.length - 1 - i) (by omega)
      have e : c.length - 1 - (c.length - 1 - i) = i := by omega
      have e2 : ab.length - 1 - (c.length - 1 - i) = i + (ab.length - c.length) := by omega
      rw [e, e2, getD_ofNat c hi, getD_ofNat ab (by omega)] at this
      rcases this with h | h
      · left; exact_mod_cast h
      · right; exact_mod_cast h
    · rintro ⟨-, h⟩ i hi
      have := h (c.length - 1 - i) (by omega)
      have e : c.length - 1 - i + (ab.length - c.length) = ab.length - 1 - i := by omega
      rw [e] at this
      rw [getD_ofNat c (by omega), getD_ofNat ab (by omega)]
      rcases this with h | h
      · left; exact_mod_cast h
      · right; exact_mod_cast h

theorem oneWay_dim {c s : List Nat} (h : OneWay c s) (k : Nat) : dimB c k = 1 ∨ dimB c k = dimB s k := by
  by_cases hk : k < c.length
  · have := h.2 (c.length - 1 - k) (by omega)
    have e : c.length - 1 - k + (s.length - c.length) = s.length - 1 - k := by have := h.1; omega
    rw [e, ← dimB_of_lt hk, ← dimB_of_lt (by have := h.1; omega)] at this
    exact this
  · exact Or.inl (dimB_of_le (by omega))

omit [CommSemiring α] in
theorem oneWay_read {c : T α} {s : List Nat} (h : OneWay c.shape s) (p : Nat → Nat) :
    oneWayAt c s.length ((List.range s.length).map (fun i => if nth s i = 1 then 0 else p (s.length - 1 - i))) = at' c p := by
  unfold oneWayAt at'
  congr 1
  apply List.map_congr_left
  intro i hi
  have hi := List.mem_range.1 hi
  have h1 := h.1
  split
  · rfl
  · rename_i hne
    rw [nth_map_range, if_pos (by omega)]
    have := (h.2 i hi).resolve_left hne
    rw [← this, if_neg hne]
    congr 1
    omega

/-- The product and the `Gemm`, seen from the last axis. -/
theorem gemm_view {dot : Dot α} {al be : α} {ta tb : Bool} {a b c y : T α} (h : gemm dot al be ta tb a b c = some y) {p : T α}
    (hp : matMul dot ta tb a b = some p) : y.shape = p.shape ∧ ∀ q, at' y q = al * at' p q + be * at' c q := by
  unfold matMul at hp
  split at hp
  · cases hp
    unfold gemm at h
    split at h
    · rename_i hc
      cases h
      refine ⟨rfl, fun q => ?_⟩
      rw [← oneWay_read hc.2 q]
      rfl
    · cases h
  · cases hp

/-- **C66**: if the rewriter puts in a `Gemm`, its attributes are numbers unless a constant is a list of lists, and then it computes what the matched operators do. -/
theorem gemm_rewritten_partial (dot : Dot α) (m : GemmMatch α) (hr : m.Right) (ha : Flat m.alpha) (hb : Flat m.beta) {z : Option (T α)}
    (h : gemmRewrite dot m = .ok (some z)) {v : T α} (hv : m.value dot = some v) : ∃ y, z = some y ∧ Same y v := by
  unfold gemmRewrite at h
  split at h
  case isFalse => cases h
  have numeric : ∀ k : Option (T α), Flat k → optArg k = .giveUp ∨ ∃ x, optArg k = .number x := by
    intro k hk
    cases k with
    | none => exact Or.inr ⟨1, rfl⟩
    | some t =>
      have h1 := hk t rfl
      show constArg t = _ ∨ ∃ x, constArg t = _
      unfold constArg
      split
      · exact Or.inr ⟨_, rfl⟩
      · exact Or.inr ⟨_, rfl⟩
      · rename_i l hne hs
        rw [hs] at h1
        cases l with
        | nil => exact absurd rfl hne
        | cons _ _ => simp at h1
      · exact Or.inl rfl
  rcases numeric _ ha with hA | ⟨al, hA⟩
  · rw [hA] at h; cases h
  rcases numeric _ hb with hB | ⟨be, hB⟩
  · rw [hA, hB] at h; cases h
  rw [hA, hB] at h
  dsimp only at h
  -- the shapes
  obtain ⟨p, hp, hv⟩ : ∃ p, matMul dot m.transA m.transB m.a m.b = some p ∧
      (do let p ← scaled m.flipAlpha m.alpha p; let c ← scaled m.flipBeta m.beta m.c; summed m.bias m.flipAdd p c) = some v := by
    unfold GemmMatch.value at hv
    cases hq : matMul dot m.transA m.transB m.a m.b with
    | none => rw [hq] at hv; cases hv
    | some p => exact ⟨p, rfl, by rw [hq] at hv; exact hv⟩
  obtain ⟨p', hp', hv⟩ : ∃ p', scaled m.flipAlpha m.alpha p = some p' ∧
      (do let c ← scaled m.flipBeta m.beta m.c; summed m.bias m.flipAdd p' c) = some v := by
    cases hq : scaled m.flipAlpha m.alpha p with
    | none => rw [hq] at hv; cases hv
    | some p => exact ⟨p, rfl, by rw [hq] at hv; exact hv⟩
  obtain ⟨c', hc', hv⟩ : ∃ c', scaled m.flipBeta m.beta m.c = some c' ∧ summed m.bias m.flipAdd p' c' = some v := by
    cases hq : scaled m.flipBeta m.beta m.c with
    | none => rw [hq] at hv; cases hv
    | some p => exact ⟨p, rfl, by rw [hq] at hv; exact hv⟩
  have hps : p.shape = [nrows m.transA m.a, ncols m.transB m.b] ∧ Mult m.transA m.transB m.a m.b := by
    unfold matMul at hp
    split at hp
    · rename_i hm
      cases hp
      exact ⟨rfl, hm⟩
    · cases hp
  obtain ⟨hOne, hz⟩ : OneWay m.c.shape p.shape ∧ z = gemm dot al be m.transA m.transB m.a m.b m.c := by
    have hg : ∀ s, gemmShapes m = .ok s → s = true → OneWay m.c.shape p.shape := by
      intro s hs hst
      subst hst
      unfold gemmShapes at hs
      split at hs
      · rename_i c ab h1 h2
        split at hs
        · cases hs
        · rename_i hn
          split at hs
          · cases hs
          · rw [List.mem_append, not_or] at hn
            rw [rec_exact (hr.c _ h1) hn.1, rec_exact (hr.ab _ h2) hn.2, compatible_iff] at hs
            rw [hps.1]
            exact hs
      · cases hs
    cases hs : gemmShapes m with
    | error e => rw [hs] at h; cases h
    | ok s =>
      rw [hs] at h
      cases s with
      | false => cases h
      | true =>
        cases h
        exact ⟨hg _ hs rfl, rfl⟩
  obtain ⟨y, hy⟩ : ∃ y, gemm dot al be m.transA m.transB m.a m.b m.c = some y := by
    unfold gemm
    rw [if_pos ⟨hps.2, hps.1 ▸ hOne⟩]
    exact ⟨_, rfl⟩
  obtain ⟨g1, g2⟩ := gemm_view hy hp
  obtain ⟨a1, a2, a3⟩ := scaled_view hA hp'
  obtain ⟨b1, b2, b3⟩ := scaled_view hB hc'
  obtain ⟨s1, s2, s3⟩ := summed_view hv
  have hpl : p.shape.length = 2 := by rw [hps.1]; rfl
  have hcl : m.c.shape.length ≤ 2 := hpl ▸ hOne.1
  refine ⟨y, by rw [hz, hy], same_of_view ?_ (fun k => ?_) (fun q => ?_)⟩
  · rw [g1, s1]
    omega
  · rw [g1]
    have h1 := oneWay_dim hOne k
    rw [← b2] at h1
    have h2 := s2 k
    rw [a2] at h2
    rcases h2 with h2 | h2 | h2
    · omega
    · omega
    · rcases h1 with h1 | h1 <;> omega
  · rw [g2, s3, a3, b3]

/-! ## Examples -/

/-- `2 * A * B' + C` with a 2 x 3 matrix, a transposed 2 x 3 matrix and a vector, which is the left operand of the sum. -/
def gemmEx : GemmMatch Int :=
  ⟨⟨[2, 3], fun i => nth i 0 + nth i 1⟩, ⟨[2, 3], fun i => nth i 0 + 1⟩, ⟨[2], fun i => 10 * nth i 0⟩, some ⟨[1], fun _ => 2⟩, none, false, true, false, true, false, true, true,
    some [2, 2], some [2], some 2, some 2⟩

/-- A sum of products. -/
def sumDot : Dot Int := fun n f => ((List.range n).map (fun i => (f i).1 * (f i).2)).sum

theorem gemm_example : gemmEx.Right ∧ Flat gemmEx.alpha ∧ Flat gemmEx.beta ∧ ∃ y v, gemmRewrite sumDot gemmEx = .ok (some (some y)) ∧ gemmEx.value sumDot = some v ∧
    v.shape = [2, 2] ∧ [v.get [0, 0], v.get [0, 1], v.get [1, 0], v.get [1, 1]] = [6, 22, 12, 34] ∧ [y.get [0, 0], y.get [0, 1], y.get [1, 0], y.get [1, 1]] = [6, 22, 12, 34] :=
  ⟨⟨fun r h => (by cases h; exact ⟨rfl, by decide⟩), fun r h => (by cases h; exact ⟨rfl, by decide⟩)⟩, fun t h => (by cases h; decide), fun t h => (by cases h),
    _, _, rfl, rfl, rfl, by decide, by decide⟩

/-- **Defect**: a constant `[[2.0]]` passes the test for one element and stays a list; the attribute of the new node is not a number. -/
theorem gemm_nested_violated : ∃ m : GemmMatch Int, m.Right ∧ gemmRewrite sumDot m = .ok (some none) ∧ ∃ v, m.value sumDot = some v :=
  ⟨{ gemmEx with alpha := some ⟨[1, 1], fun _ => 2⟩ },
    ⟨fun r h => (by cases h; exact ⟨rfl, by decide⟩), fun r h => (by cases h; exact ⟨rfl, by decide⟩)⟩, rfl, _, rfl⟩

/-- **Defect**: a summand with more axes than the product makes the conversion fail. -/
theorem gemm_rank_violated : ∃ m : GemmMatch Int, m.Right ∧ (gemmRewrite sumDot m = .error "IndexError: list index out of range") ∧ ∃ v, m.value sumDot = some v :=
  ⟨{ gemmEx with c := ⟨[1, 1, 2], fun i => nth i 2⟩, cShape := some [1, 1, 2] },
    ⟨fun r h => (by cases h; exact ⟨rfl, by decide⟩), fun r h => (by cases h; exact ⟨rfl, by decide⟩)⟩, rfl, _, rfl⟩

end Verif.Patt
