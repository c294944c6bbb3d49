import Verif.Model.Resize
import Mathlib.Tactic.Linarith
import Mathlib.Tactic.Ring
import Mathlib.Tactic.FieldSimp
import Mathlib.Tactic.NormNum
import Mathlib.Tactic.Positivity
/-!
# C76: one axis of a resized image
-/
namespace Verif.Resize
open Verif.Tensor

/-- The coordinate transformation that the handler writes for a grid. -/
def coordFor (kind : Kind) : Grid → Coord
  | .legacy => .asymmetric
  | .corners => .alignCorners
  | .halfPixel => if kind = .nearest then .tfHalfPixelForNn else .halfPixel

theorem inside_of {n : Nat} {z : Int} (h0 : 0 ≤ z) (h1 : z < n) : inside n z = z.toNat := by
  unfold inside; omega

theorem inside_nat {n i : Nat} (h : i < n) : inside n (i : Int) = i := by unfold inside; omega

/-! ## Coordinates -/

theorem coord_legacy {n m i : Nat} : coordOf .asymmetric n m ((m : ℚ) / n) i = tfCoord .legacy n m i := by
  show (i : ℚ) / ((m : ℚ) / n) = i * ((n : ℚ) / m)
  rw [div_div_eq_mul_div, mul_div_assoc]

theorem coord_half {n m i : Nat} : coordOf .halfPixel n m ((m : ℚ) / n) i = tfCoord .halfPixel n m i := by
  show ((i : ℚ) + 1 / 2) / ((m : ℚ) / n) - 1 / 2 = ((i : ℚ) + 1 / 2) * ((n : ℚ) / m) - 1 / 2
  rw [div_div_eq_mul_div, mul_div_assoc]

theorem coord_nn {n m i : Nat} : coordOf .tfHalfPixelForNn n m ((m : ℚ) / n) i = ((i : ℚ) + 1 / 2) * tfScale .halfPixel n m := by
  show ((i : ℚ) + 1 / 2) / ((m : ℚ) / n) = ((i : ℚ) + 1 / 2) * ((n : ℚ) / m)
  rw [div_div_eq_mul_div, mul_div_assoc]

theorem coord_corners {n m i : Nat} {s : ℚ} (hi : i < m) : coordOf .alignCorners n m s i = tfCoord .corners n m i := by
  show (if m = 1 then 0 else (i : ℚ) * ((n : ℚ) - 1) / ((m : ℚ) - 1)) = i * (if Grid.corners = .corners ∧ 1 < m then ((n : ℚ) - 1) / ((m : ℚ) - 1) else (n : ℚ) / m)
  by_cases h : m = 1
  · rw [if_pos h]
    have : i = 0 := by omega
    simp [this]
  · rw [if_neg h, if_pos ⟨rfl, by omega⟩, mul_div_assoc]

/-- Where an element lies: less than one before the operand's first element, and before its end. -/
theorem coord_bounds {g : Grid} {n m i : Nat} (hn : 0 < n) (hi : i < m) : -1 < tfCoord g n m i ∧ tfCoord g n m i < n ∧ (g ≠ .halfPixel → 0 ≤ tfCoord g n m i) := by
  have hnq : (0 : ℚ) < n := by exact_mod_cast hn
  have hmq : (0 : ℚ) < m := by exact_mod_cast (by omega : 0 < m)
  have hi0 : (0 : ℚ) ≤ i := by positivity
  have him : (i : ℚ) + 1 ≤ m := by exact_mod_cast hi
  have hs : (0 : ℚ) < (n : ℚ) / m := by positivity
  have hms : (m : ℚ) * ((n : ℚ) / m) = n := by field_simp
  cases g
  · have e : tfCoord .legacy n m i = i * ((n : ℚ) / m) := (rfl)
    rw [e]
    refine ⟨by nlinarith, by nlinarith, fun _ => by positivity⟩
  · by_cases h1 : 1 < m
    · have e : tfCoord .corners n m i = i * (((n : ℚ) - 1) / ((m : ℚ) - 1)) := by
        show (i : ℚ) * tfScale .corners n m = _
        rw [tfScale, if_pos ⟨rfl, h1⟩]
      have hm1 : (0 : ℚ) < (m : ℚ) - 1 := by
        have : (1 : ℚ) < m := by exact_mod_cast h1
        linarith
      have hn1 : (0 : ℚ) ≤ (n : ℚ) - 1 := by
        have : (1 : ℚ) ≤ n := by exact_mod_cast hn
        linarith
      have hq : (0 : ℚ) ≤ ((n : ℚ) - 1) / ((m : ℚ) - 1) := div_nonneg hn1 hm1.le
      have hp : ((m : ℚ) - 1) * (((n : ℚ) - 1) / ((m : ℚ) - 1)) = n - 1 := by field_simp
      have h0 : 0 ≤ (i : ℚ) * (((n : ℚ) - 1) / ((m : ℚ) - 1)) := mul_nonneg hi0 hq
      rw [e]
      refine ⟨by linarith, ?_, fun _ => h0⟩
      have : (i : ℚ) * (((n : ℚ) - 1) / ((m : ℚ) - 1)) ≤ ((m : ℚ) - 1) * (((n : ℚ) - 1) / ((m : ℚ) - 1)) := mul_le_mul_of_nonneg_right (by linarith) hq
      linarith
    · have : i = 0 := by omega
      have e : tfCoord .corners n m i = 0 := by
        show (i : ℚ) * tfScale .corners n m = 0
        rw [this]; simp
      rw [e]
      exact ⟨by norm_num, hnq, fun _ => le_refl _⟩
  · have e : tfCoord .halfPixel n m i = ((i : ℚ) + 1 / 2) * ((n : ℚ) / m) - 1 / 2 := (rfl)
    rw [e]
    have : 0 < ((i : ℚ) + 1 / 2) * ((n : ℚ) / m) := by positivity
    refine ⟨by linarith, ?_, fun h => absurd rfl h⟩
    have : ((i : ℚ) + 1 / 2) * ((n : ℚ) / m) ≤ m * ((n : ℚ) / m) := mul_le_mul_of_nonneg_right (by linarith) hs.le
    linarith

/-! ## The interpolations -/

theorem linear_eq {n : Nat} {x : ℚ} (f : Nat → ℚ) (hn : 0 < n) (h1 : -1 < x) (h2 : x < n) :
    tapSum [(1 - (x - ⌊x⌋), inside n ⌊x⌋), (x - ⌊x⌋, inside n (⌊x⌋ + 1))] f = tapSum [(1 - (x - ⌊x⌋), (max ⌊x⌋ 0).toNat), (x - ⌊x⌋, (min ⌈x⌉ ((n : Int) - 1)).toNat)] f := by
  have hlt : ⌊x⌋ < (n : Int) := by
    rw [Int.floor_lt]; exact_mod_cast h2
  have e1 : inside n ⌊x⌋ = (max ⌊x⌋ 0).toNat := by unfold inside; omega
  have hge : -1 ≤ ⌊x⌋ := by
    rw [Int.le_floor]; push_cast; linarith
  simp only [tapSum, List.map_cons, List.map_nil, List.sum_cons, List.sum_nil, e1]
  by_cases hz : x = ⌊x⌋
  · have : x - ⌊x⌋ = 0 := by linarith
    rw [this]; ring
  · have hc : ⌈x⌉ = ⌊x⌋ + 1 := by
      rw [Int.ceil_eq_iff]
      have := Int.floor_le x
      have := Int.lt_floor_add_one x
      have h : (⌊x⌋ : ℚ) < x := lt_of_le_of_ne (Int.floor_le x) (Ne.symm hz)
      push_cast
      exact ⟨by linarith, by linarith⟩
    have e2 : inside n (⌊x⌋ + 1) = (min ⌈x⌉ ((n : Int) - 1)).toNat := by rw [hc]; unfold inside; omega
    rw [e2]

/-- One axis of `ResizeBilinear`. -/
theorem axis_bilinear {g : Grid} {n m i : Nat} {ne : Nearest} {ca : ℚ} {eo : Bool} (f : Nat → ℚ) (hn : 0 < n) (hi : i < m) :
    tapSum (onnxTaps ⟨.linear, coordFor .bilinear g, ne, ca, eo⟩ n m ((m : ℚ) / n) i) f = tapSum (tfTaps .bilinear g n m i) f := by
  have hb := coord_bounds (g := g) hn hi
  have hx : coordOf (coordFor .bilinear g) n m ((m : ℚ) / n) i = tfCoord g n m i := by
    cases g
    · exact coord_legacy
    · exact coord_corners hi
    · exact coord_half
  show tapSum [(1 - (coordOf (coordFor .bilinear g) n m ((m : ℚ) / n) i - ⌊coordOf (coordFor .bilinear g) n m ((m : ℚ) / n) i⌋), inside n ⌊coordOf (coordFor .bilinear g) n m ((m : ℚ) / n) i⌋),
    (coordOf (coordFor .bilinear g) n m ((m : ℚ) / n) i - ⌊coordOf (coordFor .bilinear g) n m ((m : ℚ) / n) i⌋, inside n (⌊coordOf (coordFor .bilinear g) n m ((m : ℚ) / n) i⌋ + 1))] f = _
  rw [hx]
  exact linear_eq f hn hb.1 hb.2.1

/-- One axis of `ResizeNearestNeighbor`. -/
theorem axis_nearest {g : Grid} {n m i : Nat} {ca : ℚ} {eo : Bool} (f : Nat → ℚ) (hn : 0 < n) (hi : i < m) :
    tapSum (onnxTaps ⟨.nearest, coordFor .nearest g, if g = .corners then .roundPreferCeil else .floor, ca, eo⟩ n m ((m : ℚ) / n) i) f = tapSum (tfTaps .nearest g n m i) f := by
  have hb := coord_bounds (g := g) hn hi
  cases g
  · show tapSum [(1, inside n ⌊coordOf .asymmetric n m ((m : ℚ) / n) i⌋)] f = tapSum [(1, (min ⌊tfCoord .legacy n m i⌋ ((n : Int) - 1)).toNat)] f
    rw [coord_legacy]
    have h0 : 0 ≤ ⌊tfCoord .legacy n m i⌋ := Int.floor_nonneg.2 (hb.2.2 (by decide))
    have : inside n ⌊tfCoord .legacy n m i⌋ = (min ⌊tfCoord .legacy n m i⌋ ((n : Int) - 1)).toNat := by unfold inside; omega
    rw [this]
  · show tapSum [(1, inside n ⌊coordOf .alignCorners n m ((m : ℚ) / n) i + 1 / 2⌋)] f = tapSum [(1, (min (roundAway (tfCoord .corners n m i)) ((n : Int) - 1)).toNat)] f
    rw [coord_corners hi]
    have h := hb.2.2 (by decide)
    rw [roundAway, if_pos h]
    have h0 : 0 ≤ ⌊tfCoord .corners n m i + 1 / 2⌋ := Int.floor_nonneg.2 (by linarith)
    have : inside n ⌊tfCoord .corners n m i + 1 / 2⌋ = (min ⌊tfCoord .corners n m i + 1 / 2⌋ ((n : Int) - 1)).toNat := by unfold inside; omega
    rw [this]
  · show tapSum [(1, inside n ⌊coordOf .tfHalfPixelForNn n m ((m : ℚ) / n) i⌋)] f = tapSum [(1, (max 0 (min ⌊((i : ℚ) + 1 / 2) * tfScale .halfPixel n m⌋ ((n : Int) - 1))).toNat)] f
    rw [coord_nn]
    rfl

/-- One axis of `ResizeBicubic` with `half_pixel_centers`. -/
theorem axis_bicubic {n m i : Nat} {ne : Nearest} (f : Nat → ℚ) :
    tapSum (onnxTaps ⟨.cubic, .halfPixel, ne, -1 / 2, true⟩ n m ((m : ℚ) / n) i) f = tapSum (tfTaps .bicubic .halfPixel n m i) f := by
  show tapSum (normalised n (cubicTaps (-1 / 2) (coordOf .halfPixel n m ((m : ℚ) / n) i))) f = tapSum (normalised n (cubicTaps (-1 / 2) (tfCoord .halfPixel n m i))) f
  rw [coord_half]

/-! ## Axes that keep their size -/

theorem floor_int_half (z : Int) : ⌊(z : ℚ) + 1 / 2⌋ = z := by
  rw [Int.floor_eq_iff]; constructor <;> linarith

theorem floor_nat_half (z : Nat) : ⌊(z : ℚ) + 1 / 2⌋ = z := by
  have := floor_int_half z
  exact_mod_cast this

/-- The coordinates of an axis that keeps its size. -/
theorem coord_same {c : Coord} {n i : Nat} (hi : i < n) (hc : c ≠ .tfHalfPixelForNn) : coordOf c n n 1 i = i := by
  cases c
  · show (i : ℚ) / 1 = i
    simp
  · show (if n = 1 then 0 else (i : ℚ) * ((n : ℚ) - 1) / ((n : ℚ) - 1)) = i
    by_cases h : n = 1
    · rw [if_pos h]
      have : i = 0 := by omega
      simp [this]
    · rw [if_neg h]
      have : (n : ℚ) - 1 ≠ 0 := by
        intro e
        have : (n : ℚ) = 1 := by linarith
        exact h (by exact_mod_cast this)
      field_simp
  · show ((i : ℚ) + 1 / 2) / 1 - 1 / 2 = i
    rw [div_one]; ring
  · exact absurd rfl hc

/-- Such an axis is not changed. -/
theorem axis_same {a : Attrs} {n i : Nat} (f : Nat → ℚ) (hi : i < n) (hc : a.coord = .tfHalfPixelForNn → a.mode = .nearest ∧ a.nearest = .floor) :
    tapSum (onnxTaps a n n 1 i) f = f i := by
  obtain ⟨mode, coord, ne, ca, eo⟩ := a
  have hz : ⌊(i : ℚ)⌋ = i := Int.floor_natCast i
  by_cases h : coord = .tfHalfPixelForNn
  · obtain ⟨hm, hn⟩ := hc h
    dsimp only at h hm hn
    subst h hm hn
    show tapSum [(1, inside n ⌊((i : ℚ) + 1 / 2) / 1⌋)] f = f i
    rw [div_one, floor_nat_half, inside_nat hi]
    simp [tapSum]
  · have hx := coord_same (c := coord) hi h
    cases mode
    · cases ne
      · show tapSum [(1, inside n ⌊coordOf coord n n 1 i⌋)] f = f i
        rw [hx, hz, inside_nat hi]
        simp [tapSum]
      · show tapSum [(1, inside n ⌊coordOf coord n n 1 i + 1 / 2⌋)] f = f i
        rw [hx, floor_nat_half, inside_nat hi]
        simp [tapSum]
    · show tapSum [(1 - (coordOf coord n n 1 i - ⌊coordOf coord n n 1 i⌋), inside n ⌊coordOf coord n n 1 i⌋),
        (coordOf coord n n 1 i - ⌊coordOf coord n n 1 i⌋, inside n (⌊coordOf coord n n 1 i⌋ + 1))] f = f i
      rw [hx, hz, inside_nat hi]
      simp [tapSum]
    · have ht : cubicTaps ca (i : ℚ) = [(0, (i : Int) - 1), (1, (i : Int)), (0, (i : Int) + 1), (0, (i : Int) + 2)] := by
        unfold cubicTaps
        dsimp only
        rw [hz]
        have e : (i : ℚ) - ((i : Int) : ℚ) = 0 := by push_cast; ring
        rw [e]
        have e1 : cubicFar ca (0 + 1) = 0 := by unfold cubicFar; ring
        have e2 : cubicNear ca 0 = 1 := by unfold cubicNear; ring
        have e3 : cubicNear ca (1 - 0) = 0 := by unfold cubicNear; ring
        have e4 : cubicFar ca (2 - 0) = 0 := by unfold cubicFar; ring
        rw [e1, e2, e3, e4]
      show tapSum (if eo then normalised n (cubicTaps ca (coordOf coord n n 1 i)) else (cubicTaps ca (coordOf coord n n 1 i)).map (fun p => (p.1, inside n p.2))) f = f i
      rw [hx, ht]
      cases eo
      · simp [tapSum, inside_nat hi]
      · have h0 : (0 : Int) ≤ i ∧ (i : Int) < n := ⟨by omega, by omega⟩
        simp only [normalised, tapSum, List.map_cons, List.map_nil, List.sum_cons, List.sum_nil, if_true, ite_self, if_pos h0, inside_nat hi]
        norm_num

end Verif.Resize
