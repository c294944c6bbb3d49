import Verif.Model.Bits
import Mathlib.Tactic.Ring
import Mathlib.Tactic.Linarith
import Mathlib.Tactic.NormNum
/-!
# C73: shifts
-/
namespace Verif.Bits

theorem pow_pos' (n : Nat) : (0 : Int) < 2 ^ n := by positivity

/-- A value of the type stays what it is. -/
theorem wrap_id {t : IType} {n : Int} (h : t.Has n) : t.wrap n = n := by
  unfold IType.wrap
  rw [Int.emod_eq_of_lt (by have := h.1; omega) (by have := h.2; omega)]
  omega

/-- A cast gives a value of the type. -/
theorem wrap_has (t : IType) (n : Int) : t.Has (t.wrap n) := by
  have h1 := Int.emod_nonneg (n - t.lo) (pow_pos' t.bits).ne'
  have h2 := Int.emod_lt_of_pos (n - t.lo) (pow_pos' t.bits)
  unfold IType.Has IType.wrap
  omega

/-- Numbers that differ by a multiple of `2 ^ bits` become the same. -/
theorem wrap_add (t : IType) (n k : Int) : t.wrap (n + k * 2 ^ t.bits) = t.wrap n := by
  unfold IType.wrap
  have : n + k * 2 ^ t.bits - t.lo = n - t.lo + k * 2 ^ t.bits := by ring
  rw [this, Int.add_mul_emod_self_right]

theorem wrap_emod (t : IType) (n : Int) {W : Nat} (hW : t.bits ≤ W) : t.wrap (n % 2 ^ W) = t.wrap n := by
  have h := Int.emod_add_mul_ediv n (2 ^ W)
  obtain ⟨d, rfl⟩ := Nat.exists_eq_add_of_le hW
  have e : n = n % 2 ^ (t.bits + d) + (2 ^ d * (n / 2 ^ (t.bits + d))) * 2 ^ t.bits := by
    conv_lhs => rw [← h]
    rw [pow_add]
    ring
  conv_rhs => rw [e]
  rw [wrap_add]

theorem unsigned_wrap (bits : Nat) (n : Int) : IType.wrap ⟨false, bits⟩ n = n % 2 ^ bits := by
  simp [IType.wrap, IType.lo]

/-- What the way through an unsigned type of at least the same width does to a left shift. -/
theorem left_cast {t : IType} {W : Nat} (hW : t.bits ≤ W) {x : Int} {y : Nat} : t.wrap ((x % 2 ^ W * 2 ^ y) % 2 ^ W) = tfLeft t x y := by
  rw [wrap_emod t _ hW]
  obtain ⟨d, rfl⟩ := Nat.exists_eq_add_of_le hW
  have h := Int.emod_add_mul_ediv x (2 ^ (t.bits + d))
  have e : x * 2 ^ y = x % 2 ^ (t.bits + d) * 2 ^ y + (2 ^ d * (x / 2 ^ (t.bits + d)) * 2 ^ y) * 2 ^ t.bits := by
    conv_lhs => rw [← h]
    rw [pow_add]
    ring
  unfold tfLeft
  rw [e, wrap_add]

theorem has_div {t : IType} {x : Int} (h : t.Has x) (hb : 0 < t.bits) (y : Nat) : t.Has (x / 2 ^ y) := by
  have hp := pow_pos' y
  have hp1 : (1 : Int) ≤ 2 ^ y := hp
  obtain ⟨h1, h2⟩ := h
  have hlo : t.lo ≤ 0 := by
    unfold IType.lo
    split
    · have := pow_pos' (t.bits - 1)
      omega
    · omega
  have hhi : 0 ≤ t.lo + 2 ^ t.bits - 1 := by
    have := pow_pos' t.bits
    have hb' : (2 : Int) ^ t.bits = 2 * 2 ^ (t.bits - 1) := by
      conv_lhs => rw [show t.bits = (t.bits - 1) + 1 by omega, pow_succ]
      ring
    unfold IType.lo
    split
    · have := pow_pos' (t.bits - 1)
      omega
    · omega
  constructor
  · rw [Int.le_ediv_iff_mul_le hp]
    nlinarith
  · rw [Int.ediv_lt_iff_lt_mul hp]
    nlinarith

/-- A right shift through an unsigned type of at least twice the width. -/
theorem right_cast {t : IType} {W : Nat} (hb : 0 < t.bits) (hW : 2 * t.bits ≤ W) {x : Int} (hx : t.Has x) {y : Nat} (hy : y < t.bits) :
    t.wrap (x % 2 ^ W / 2 ^ y) = tfRight x y := by
  have hlt : (2 : Int) ^ t.bits ≤ 2 ^ W := pow_le_pow_right₀ (by norm_num) (by omega)
  have hbnd : -(2 ^ t.bits : Int) ≤ x ∧ x < 2 ^ t.bits := by
    obtain ⟨h1, h2⟩ := hx
    have hp : (2 : Int) ^ (t.bits - 1) ≤ 2 ^ t.bits := pow_le_pow_right₀ (by norm_num) (by omega)
    have := pow_pos' (t.bits - 1)
    by_cases hs : t.signed = true
    · have hlo : t.lo = -2 ^ (t.bits - 1) := if_pos hs
      rw [hlo] at h1 h2
      omega
    · have hlo : t.lo = 0 := if_neg hs
      rw [hlo] at h1 h2
      omega
  unfold tfRight
  rcases lt_or_ge x 0 with h0 | h0
  · have e1 : x % 2 ^ W = x + 2 ^ W := by
      rw [← Int.add_emod_right, Int.emod_eq_of_lt (by omega) (by omega)]
    have e2 : (2 : Int) ^ W = 2 ^ (W - y - t.bits) * 2 ^ t.bits * 2 ^ y := by
      rw [← pow_add, ← pow_add]
      congr 1
      omega
    rw [e1, e2, Int.add_mul_ediv_right _ _ (pow_pos' y).ne', wrap_add]
    exact wrap_id (has_div hx hb y)
  · rw [Int.emod_eq_of_lt h0 (by omega)]
    exact wrap_id (has_div hx hb y)

/-- The types that are cast: to which type. -/
theorem maybeCast_signed (t : IType) (h : t = ⟨true, 8⟩ ∨ t = ⟨true, 16⟩ ∨ t = ⟨true, 32⟩) :
    ∃ W, maybeCast t = .ok (some ⟨false, W⟩) ∧ t.bits ≤ W ∧ (t ≠ ⟨true, 8⟩ → 2 * t.bits ≤ W) := by
  rcases h with rfl | rfl | rfl
  · exact ⟨8, rfl, Nat.le_refl _, fun h => absurd rfl h⟩
  · exact ⟨32, rfl, by decide, fun _ => by decide⟩
  · exact ⟨64, rfl, by decide, fun _ => by decide⟩

/-- The amount is not changed by the cast. -/
theorem amount {W : Nat} {y : Nat} {b : Nat} (hy : y < b) (hb : b ≤ W) : IType.wrap ⟨false, W⟩ (y : Int) = y := by
  rw [unsigned_wrap]
  apply Int.emod_eq_of_lt (by omega)
  have : y < 2 ^ W := lt_of_lt_of_le hy (le_trans hb (Nat.lt_two_pow_self).le)
  exact_mod_cast this

/-- **C73.** The converted `LeftShift` is TensorFlow's, for all values of all types other than int64, and all amounts below the width. -/
theorem leftShift_sound {t : IType} (ht : t.Known) (h64 : t ≠ ⟨true, 64⟩) {x : Int} {y : Nat} (_hx : t.Has x) (hy : y < t.bits) :
    shift true t x y = .ok (some (tfLeft t x y)) := by
  obtain ⟨s, b⟩ := t
  cases s with
  | false =>
    have hs : maybeCast ⟨false, b⟩ = .ok none := by
      unfold maybeCast
      rw [if_pos]
      rcases ht with h | h | h | h <;> simp only at h <;> subst h <;> decide
    unfold shift
    rw [hs]
    dsimp only
    unfold bitShift
    rw [if_pos ⟨by omega, by exact_mod_cast hy⟩]
    unfold tfLeft
    rw [unsigned_wrap]
    simp
  | true =>
    have hs : (⟨true, b⟩ : IType) = ⟨true, 8⟩ ∨ (⟨true, b⟩ : IType) = ⟨true, 16⟩ ∨ (⟨true, b⟩ : IType) = ⟨true, 32⟩ := by
      rcases ht with h | h | h | h <;> simp only at h <;> subst h <;> simp at h64 ⊢
    obtain ⟨W, e, hW, -⟩ := maybeCast_signed _ hs
    unfold shift
    rw [e]
    dsimp only
    rw [amount hy hW, unsigned_wrap]
    unfold bitShift
    have hc : (0 : Int) ≤ y ∧ (y : Int) < W := ⟨by omega, by have : b ≤ W := hW; have : y < b := hy; omega⟩
    rw [if_pos hc, Option.map_some, if_pos rfl, Int.toNat_natCast, left_cast hW]

/-- **C73.** The converted `RightShift` is TensorFlow's, for all values of all types other than int64 and int8, and all amounts below the width. -/
theorem rightShift_sound {t : IType} (ht : t.Known) (h64 : t ≠ ⟨true, 64⟩) (h8 : t ≠ ⟨true, 8⟩) {x : Int} {y : Nat} (hx : t.Has x) (hy : y < t.bits) :
    shift false t x y = .ok (some (tfRight x y)) := by
  obtain ⟨s, b⟩ := t
  cases s with
  | false =>
    have hs : maybeCast ⟨false, b⟩ = .ok none := by
      unfold maybeCast
      rw [if_pos]
      rcases ht with h | h | h | h <;> simp only at h <;> subst h <;> decide
    unfold shift
    rw [hs]
    dsimp only
    unfold bitShift
    rw [if_pos ⟨by omega, by exact_mod_cast hy⟩]
    simp [tfRight]
  | true =>
    have hs : (⟨true, b⟩ : IType) = ⟨true, 8⟩ ∨ (⟨true, b⟩ : IType) = ⟨true, 16⟩ ∨ (⟨true, b⟩ : IType) = ⟨true, 32⟩ := by
      rcases ht with h | h | h | h <;> simp only at h <;> subst h <;> simp at h64 ⊢
    obtain ⟨W, e, hW, h2⟩ := maybeCast_signed _ hs
    unfold shift
    rw [e]
    dsimp only
    rw [amount hy hW, unsigned_wrap]
    unfold bitShift
    have hc : (0 : Int) ≤ y ∧ (y : Int) < W := ⟨by omega, by have : b ≤ W := hW; have : y < b := hy; omega⟩
    rw [if_pos hc, Option.map_some, if_neg (by decide), Int.toNat_natCast, right_cast (Nat.lt_of_le_of_lt (Nat.zero_le y) hy) (h2 h8) hx hy]

/-- **C73.** int8, numbers that are not negative. -/
theorem rightShift_int8_sound {x : Int} (hx : IType.Has ⟨true, 8⟩ x) (h0 : 0 ≤ x) {y : Nat} (hy : y < 8) : shift false ⟨true, 8⟩ x y = .ok (some (tfRight x y)) := by
  have e : maybeCast ⟨true, 8⟩ = .ok (some ⟨false, 8⟩) := rfl
  unfold shift
  rw [e]
  dsimp only
  rw [amount hy (Nat.le_refl _), unsigned_wrap]
  unfold bitShift
  have hc : (0 : Int) ≤ y ∧ (y : Int) < (8 : Nat) := by omega
  have hlt : x < 2 ^ 8 := by
    have h := hx.2
    have e : IType.lo ⟨true, 8⟩ = -128 := rfl
    rw [e] at h
    have : ((2 : Int) ^ (8 : Nat)) = 256 := by norm_num
    simp only [this] at h ⊢
    omega
  rw [if_pos hc, Option.map_some, if_neg (by decide), Int.toNat_natCast, Int.emod_eq_of_lt h0 hlt, wrap_id (has_div hx (by decide) y)]
  rfl

/-- **C73, a defect.** int8 is cast to uint8, which is not wider, so the sign is lost: the converted `RightShift` of every negative int8 number, by every amount from 1 to 7, is not negative,
while TensorFlow's is. -/
theorem rightShift_int8_violated {x : Int} (hx : IType.Has ⟨true, 8⟩ x) (h0 : x < 0) {y : Nat} (h1 : 1 ≤ y) (hy : y < 8) :
    ∃ r, shift false ⟨true, 8⟩ x y = .ok (some r) ∧ 0 ≤ r ∧ tfRight x y < 0 := by
  have e : maybeCast ⟨true, 8⟩ = .ok (some ⟨false, 8⟩) := rfl
  have hlo : IType.lo ⟨true, 8⟩ = -128 := rfl
  have h256 : ((2 : Int) ^ (8 : Nat)) = 256 := by norm_num
  have hbx : -128 ≤ x := by
    have h := hx.1
    rwa [hlo] at h
  have hmod : x % 2 ^ 8 = x + 256 := by
    rw [h256, ← Int.add_emod_right, Int.emod_eq_of_lt (by omega) (by omega)]
  have hp := pow_pos' y
  have hp2 : (2 : Int) ≤ 2 ^ y := by
    calc (2 : Int) = 2 ^ 1 := by norm_num
      _ ≤ 2 ^ y := pow_le_pow_right₀ (by norm_num) h1
  have hq0 : 0 ≤ (x + 256) / 2 ^ y := Int.ediv_nonneg (by omega) hp.le
  have hq1 : (x + 256) / 2 ^ y < 128 := by
    rw [Int.ediv_lt_iff_lt_mul hp]
    nlinarith
  refine ⟨(x + 256) / 2 ^ y, ?_, hq0, ?_⟩
  · unfold shift
    rw [e]
    dsimp only
    rw [amount hy (Nat.le_refl _), unsigned_wrap]
    unfold bitShift
    have hc : (0 : Int) ≤ y ∧ (y : Int) < (8 : Nat) := by omega
    rw [if_pos hc, Option.map_some, if_neg (by decide), Int.toNat_natCast, hmod, wrap_id]
    constructor
    · rw [hlo]
      omega
    · rw [hlo]
      show _ < -128 + (2 : Int) ^ (8 : Nat)
      rw [h256]
      omega
  · unfold tfRight
    rw [Int.ediv_lt_iff_lt_mul hp]
    omega

/-- **C73, a limit of the code.** int64 is refused; every other integer type of TensorFlow is taken. -/
theorem shift_int64_refused (left : Bool) {t : IType} (ht : t.Known) (x y : Int) : (∃ e, shift left t x y = .error e) ↔ t = ⟨true, 64⟩ := by
  obtain ⟨s, b⟩ := t
  have hb : b = 8 ∨ b = 16 ∨ b = 32 ∨ b = 64 := ht
  rcases hb with rfl | rfl | rfl | rfl <;> cases s <;> simp [shift, maybeCast, supported, typeMap]

/-- -37 as int16, moved by 3 places. -/
theorem ex_shift : shift false ⟨true, 16⟩ (-37) 3 = .ok (some (-5)) ∧ shift true ⟨true, 16⟩ 12345 3 = .ok (some (-32312)) ∧ shift false ⟨true, 8⟩ (-37) 3 = .ok (some 27) ∧
    IType.Has ⟨true, 16⟩ (-37) := by
  refine ⟨by decide, by decide, by decide, ?_⟩
  unfold IType.Has
  decide

end Verif.Bits
