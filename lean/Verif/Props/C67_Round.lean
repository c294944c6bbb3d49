import Verif.Model.QuantRewriter
import Mathlib.Tactic.Linarith
import Mathlib.Tactic.FieldSimp
import Mathlib.Tactic.Ring
import Mathlib.Tactic.Positivity
/-!
# C67: rounding and ranges
-/
namespace Verif.Quant
open Verif.Tensor

/-! ## Rounding -/

theorem halfEven_int (n : Int) : halfEven n = n := by
  simp [halfEven]

theorem halfEven_ge (q : Rat) : ⌊q⌋ ≤ halfEven q := by
  unfold halfEven
  split_ifs <;> omega

theorem halfEven_le (q : Rat) : halfEven q ≤ ⌊q⌋ + 1 := by
  unfold halfEven
  split_ifs <;> omega

theorem halfEven_mono {p q : Rat} (h : p ≤ q) : halfEven p ≤ halfEven q := by
  have hf : ⌊p⌋ ≤ ⌊q⌋ := Int.floor_le_floor h
  rcases Int.lt_or_eq_of_le hf with h1 | h1
  · have := halfEven_le p
    have := halfEven_ge q
    omega
  · unfold halfEven
    rw [h1]
    split_ifs <;> first | omega | (exfalso; linarith)

theorem halfUp_eq {q : Rat} (h : ¬ Tie q) : halfUp q = halfEven q := by
  unfold halfUp halfEven
  have h1 := Int.floor_le q
  have h2 := Int.lt_floor_add_one q
  unfold Tie at h
  split_ifs with a b
  · rw [Int.floor_eq_iff]
    constructor <;> linarith
  · rw [Int.floor_eq_iff]
    push_cast
    constructor <;> linarith
  · exact absurd (le_antisymm (not_lt.1 b) (not_lt.1 a)) h
  · exact absurd (le_antisymm (not_lt.1 b) (not_lt.1 a)) h

theorem halfUp_add_int (q : Rat) (n : Int) : halfUp (q + n) = halfUp q + n := by
  unfold halfUp
  rw [show q + n + 1 / 2 = q + 1 / 2 + n by ring, Int.floor_add_intCast]

theorem halfUp_int (n : Int) : halfUp n = n := by
  unfold halfUp
  rw [Int.floor_eq_iff]
  constructor <;> linarith

theorem halfUp_mono {p q : Rat} (h : p ≤ q) : halfUp p ≤ halfUp q := Int.floor_le_floor (by linarith)

/-- Rounding commutes with moving into a range of integers. -/
theorem round_clamp {f : Rat → Int} (hm : ∀ p q, p ≤ q → f p ≤ f q) (hi : ∀ n : Int, f n = n) {a b : Int} (q : Rat) :
    f (clamp (a : Rat) (b : Rat) q) = clamp a b (f q) := by
  have mono : Monotone f := fun p q h => hm p q h
  unfold clamp
  rw [mono.map_max, mono.map_min, hi, hi]

/-- Dividing by a positive number commutes with moving into a range. -/
theorem clamp_div {a b x s : Rat} (hs : 0 < s) : clamp (a * s) (b * s) x / s = clamp a b (x / s) := by
  have mono : Monotone (fun q : Rat => q / s) := fun p q h => div_le_div_of_nonneg_right h hs.le
  unfold clamp
  have h1 : max (a * s) (min (b * s) x) / s = max (a * s / s) (min (b * s) x / s) := mono.map_max
  have h2 : min (b * s) x / s = min (b * s / s) (x / s) := mono.map_min
  rw [h1, h2, mul_div_cancel_right₀ _ hs.ne', mul_div_cancel_right₀ _ hs.ne']

theorem clamp_self {α : Type} [LinearOrder α] {a b x : α} (h1 : a ≤ x) (h2 : x ≤ b) : clamp a b x = x := by
  unfold clamp
  rw [min_eq_right h2, max_eq_right h1]

/-! ## Scales -/

/-- What TensorFlow's scale is: positive, the inverse of the other one, the larger one of the two sides, and wide enough for the range. -/
theorem scale_facts {qlo qhi : Int} (h1 : qlo ≤ 0) (h2 : 0 < qhi) {lo hi s inv : Rat} (h : tfScale qlo qhi lo hi = some (s, inv)) :
    0 < inv ∧ s = 1 / inv ∧ givenScale (qlo, qhi) lo hi = inv ∧ (qlo < 0 → max (lo / qlo) (hi / qhi) = inv) ∧ (qlo = 0 → hi / qhi = inv) ∧
      (qlo < 0 → qlo * inv ≤ lo) ∧ hi ≤ qhi * inv := by
  have q2 : (0 : Rat) < qhi := by exact_mod_cast h2
  have q1 : (qlo : Rat) ≤ 0 := by exact_mod_cast h1
  have hi0 : 0 < (qhi : Rat) * hi ↔ 0 < hi := by
    constructor
    · intro hh; by_contra hc; nlinarith [not_lt.1 hc]
    · intro hh; positivity
  have hneg : qlo < 0 → (qlo : Rat) < 0 := fun hh => by exact_mod_cast hh
  -- the side of the maximum
  have bside : ∀ inv', hi / qhi = inv' → hi = qhi * inv' := fun inv' he => by rw [← he]; field_simp
  have aside : qlo < 0 → ∀ inv', lo / qlo = inv' → lo = qlo * inv' := fun hn inv' he => by
    have := (hneg hn).ne
    rw [← he]; field_simp
  -- side by side
  have lo0 : 0 < (qlo : Rat) * lo ↔ qlo < 0 ∧ lo < 0 := by
    constructor
    · intro hh
      refine ⟨lt_of_le_of_ne h1 (fun hc => ?_), ?_⟩
      · rw [hc] at hh; simp at hh
      · by_contra hc; nlinarith [not_lt.1 hc]
    · rintro ⟨a, b⟩
      nlinarith [hneg a]
  unfold tfScale at h
  dsimp only at h
  by_cases ha : 0 < (qlo : Rat) * lo
  · obtain ⟨n1, n2⟩ := lo0.1 ha
    have n3 := hneg n1
    have e1 : 0 < lo / qlo := div_pos_of_neg_of_neg n2 n3
    have e2 : (qlo : Rat) / lo = 1 / (lo / qlo) := by field_simp
    by_cases hb : 0 < (qhi : Rat) * hi
    · have n4 := hi0.1 hb
      have e3 : 0 < hi / qhi := div_pos n4 q2
      have e4 : (qhi : Rat) / hi = 1 / (hi / qhi) := by field_simp
      rw [if_pos ha, if_pos hb] at h
      dsimp only at h
      have hlt : (qlo : Rat) / lo < qhi / hi ↔ hi / qhi < lo / qlo := by
        rw [e2, e4]
        exact one_div_lt_one_div e1 e3
      by_cases hc : (qlo : Rat) / lo < qhi / hi
      · rw [if_pos hc] at h
        cases h
        have hd := hlt.1 hc
        refine ⟨e1, e2, ?_, fun _ => max_eq_left hd.le, fun h0 => absurd h0 n1.ne, fun _ => (aside n1 _ rfl).ge, ?_⟩
        · unfold givenScale
          dsimp only
          rw [if_pos n1, if_pos h2, if_pos hd]
        · rw [bside _ rfl]
          exact mul_le_mul_of_nonneg_left hd.le q2.le
      · rw [if_neg hc] at h
        cases h
        have hd : lo / qlo ≤ hi / qhi := not_lt.1 (fun hh => hc (hlt.2 hh))
        refine ⟨e3, e4, ?_, fun _ => max_eq_right hd, fun _ => rfl, fun _ => ?_, (bside _ rfl).le⟩
        · unfold givenScale
          dsimp only
          rw [if_pos n1, if_pos h2, if_neg (not_lt.2 hd)]
        · conv_rhs => rw [aside n1 _ rfl]
          exact mul_le_mul_of_nonpos_left hd n3.le
    · rw [if_pos ha, if_neg hb] at h
      cases h
      have hle : hi ≤ 0 := not_lt.1 (fun hh => hb (hi0.2 hh))
      have hd : hi / qhi < lo / qlo := lt_of_le_of_lt (div_nonpos_of_nonpos_of_nonneg hle q2.le) e1
      refine ⟨e1, e2, ?_, fun _ => max_eq_left hd.le, fun h0 => absurd h0 n1.ne, fun _ => (aside n1 _ rfl).ge, ?_⟩
      · unfold givenScale
        dsimp only
        rw [if_pos n1, if_pos h2, if_pos hd]
      · exact hle.trans (mul_nonneg q2.le e1.le)
  · by_cases hb : 0 < (qhi : Rat) * hi
    · have n4 := hi0.1 hb
      have e3 : 0 < hi / qhi := div_pos n4 q2
      have e4 : (qhi : Rat) / hi = 1 / (hi / qhi) := by field_simp
      rw [if_neg ha, if_pos hb] at h
      cases h
      have hd : qlo < 0 → lo / qlo ≤ 0 := fun hn => by
        have : 0 ≤ lo := not_lt.1 (fun hh => ha (lo0.2 ⟨hn, hh⟩))
        exact div_nonpos_of_nonneg_of_nonpos this q1
      refine ⟨e3, e4, ?_, fun hn => max_eq_right ((hd hn).trans e3.le), fun _ => rfl, fun hn => ?_, (bside _ rfl).le⟩
      · unfold givenScale
        dsimp only
        rw [if_pos h2]
        split_ifs with hq hr hr
        · exact absurd hr (not_lt.2 ((hd hq).trans e3.le))
        · rfl
        · exact absurd hr (not_lt.2 e3.le)
        · rfl
      · have : 0 ≤ lo := not_lt.1 (fun hh => ha (lo0.2 ⟨hn, hh⟩))
        exact (mul_nonpos_of_nonpos_of_nonneg q1 e3.le).trans this
    · rw [if_neg ha, if_neg hb] at h
      cases h

end Verif.Quant
