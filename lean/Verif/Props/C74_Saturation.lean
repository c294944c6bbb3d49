import Verif.Model.Colour
import Mathlib.Tactic.Linarith
import Mathlib.Tactic.FieldSimp
import Mathlib.Tactic.Ring
import Mathlib.Tactic.NormNum
/-!
# C74: saturation
-/
namespace Verif.Colour

/-! ## Order of the channels -/

/-- `TopK` gives a permutation that sorts the channels from the greatest to the smallest, with equal ones in the order of the channels. -/
theorem topK_sorts (p : Px) : [(topK p).i0, (topK p).i1, (topK p).i2].Perm [0, 1, 2] ∧ p.get (topK p).i1 ≤ p.get (topK p).i0 ∧ p.get (topK p).i2 ≤ p.get (topK p).i1 ∧
    (p.get (topK p).i0 = p.get (topK p).i1 → (topK p).i0 < (topK p).i1) ∧ (p.get (topK p).i1 = p.get (topK p).i2 → (topK p).i1 < (topK p).i2) := by
  obtain ⟨a, b, c⟩ := p
  unfold topK
  dsimp only
  split_ifs <;> refine ⟨by decide, ?_, ?_, fun h => ?_, fun h => ?_⟩ <;> simp only [Px.get] at * <;> first | linarith | decide | (exfalso; linarith)

theorem max3 {a b c m : ℚ} (ha : a ≤ m) (hb : b ≤ m) (hc : c ≤ m) (h : m = a ∨ m = b ∨ m = c) : m = Px.max ⟨a, b, c⟩ := by
  unfold Px.max
  apply le_antisymm
  · rcases h with rfl | rfl | rfl
    · exact le_max_left _ _
    · exact le_trans (le_max_left _ _) (le_max_right _ _)
    · exact le_trans (le_max_right _ _) (le_max_right _ _)
  · exact max_le ha (max_le hb hc)

theorem min3 {a b c m : ℚ} (ha : m ≤ a) (hb : m ≤ b) (hc : m ≤ c) (h : m = a ∨ m = b ∨ m = c) : m = Px.min ⟨a, b, c⟩ := by
  unfold Px.min
  apply le_antisymm
  · exact le_min ha (le_min hb hc)
  · rcases h with rfl | rfl | rfl
    · exact min_le_left _ _
    · exact le_trans (min_le_right _ _) (min_le_left _ _)
    · exact le_trans (min_le_right _ _) (min_le_right _ _)

theorem max_min (p : Px) : (gatherElements p (topK p)).x0 = p.max ∧ (gatherElements p (topK p)).x2 = p.min := by
  obtain ⟨a, b, c⟩ := p
  unfold topK gatherElements
  dsimp only
  split_ifs <;> simp only [Px.get] <;> exact ⟨max3 (by linarith) (by linarith) (by linarith) (by simp), min3 (by linarith) (by linarith) (by linarith) (by simp)⟩

/-! ## From hue to channels -/

theorem floor_at {k : Int} {x : ℚ} (h1 : (k : ℚ) ≤ x) (h2 : x < k + 1) : ⌊x⌋ = k := Int.floor_eq_iff.2 ⟨h1, h2⟩

theorem rgb0 {d s v : ℚ} (h1 : 0 ≤ d) (h2 : d ≤ 1) : rgb (d / 6) s v = ⟨v, v - s * v + s * v * d, v - s * v⟩ := by
  have e : d / 6 * 6 = d := by ring
  unfold rgb
  rw [e]
  have f2 : ⌊d / 2⌋ = 0 := floor_at (by push_cast; linarith) (by push_cast; linarith)
  rcases h2.lt_or_eq with h | rfl
  · have f1 : ⌊d⌋ = 0 := floor_at (by push_cast; linarith) (by push_cast; linarith)
    dsimp only
    rw [f1, f2]
    have a : |d - 2 * ((0 : Int) : ℚ) - 1| = 1 - d := by
      rw [abs_of_nonpos (by push_cast; linarith)]
      push_cast
      ring
    simp only [a, Px.mk.injEq]
    exact ⟨by ring, by ring, by ring⟩
  · have f1 : ⌊(1 : ℚ)⌋ = 1 := floor_at (by norm_num) (by norm_num)
    dsimp only
    rw [f1, f2]
    simp

theorem rgb1 {d s v : ℚ} (h1 : 1 ≤ d) (h2 : d ≤ 2) : rgb (d / 6) s v = ⟨v - s * v + s * v * (2 - d), v, v - s * v⟩ := by
  have e : d / 6 * 6 = d := by ring
  unfold rgb
  rw [e]
  rcases h2.lt_or_eq with h | rfl
  · have f1 : ⌊d⌋ = 1 := floor_at (by push_cast; linarith) (by push_cast; linarith)
    have f2 : ⌊d / 2⌋ = 0 := floor_at (by push_cast; linarith) (by push_cast; linarith)
    dsimp only
    rw [f1, f2]
    have a : |d - 2 * ((0 : Int) : ℚ) - 1| = d - 1 := by
      rw [abs_of_nonneg (by push_cast; linarith)]
      push_cast
      ring
    simp only [a, Px.mk.injEq]
    exact ⟨by ring, by ring, by ring⟩
  · have f1 : ⌊(2 : ℚ)⌋ = 2 := floor_at (by norm_num) (by norm_num)
    have f2 : ⌊(2 : ℚ) / 2⌋ = 1 := floor_at (by norm_num) (by norm_num)
    dsimp only
    rw [f1, f2]
    norm_num

theorem rgb2 {d s v : ℚ} (h1 : 2 ≤ d) (h2 : d ≤ 3) : rgb (d / 6) s v = ⟨v - s * v, v, v - s * v + s * v * (d - 2)⟩ := by
  have e : d / 6 * 6 = d := by ring
  unfold rgb
  rw [e]
  have f2 : ⌊d / 2⌋ = 1 := floor_at (by push_cast; linarith) (by push_cast; linarith)
  rcases h2.lt_or_eq with h | rfl
  · have f1 : ⌊d⌋ = 2 := floor_at (by push_cast; linarith) (by push_cast; linarith)
    dsimp only
    rw [f1, f2]
    have a : |d - 2 * ((1 : Int) : ℚ) - 1| = 3 - d := by
      rw [abs_of_nonpos (by push_cast; linarith)]
      push_cast
      ring
    simp only [a, Px.mk.injEq]
    exact ⟨by ring, by ring, by ring⟩
  · have f1 : ⌊(3 : ℚ)⌋ = 3 := floor_at (by norm_num) (by norm_num)
    dsimp only
    rw [f1, f2]
    norm_num

theorem rgb3 {d s v : ℚ} (h1 : 3 ≤ d) (h2 : d ≤ 4) : rgb (d / 6) s v = ⟨v - s * v, v - s * v + s * v * (4 - d), v⟩ := by
  have e : d / 6 * 6 = d := by ring
  unfold rgb
  rw [e]
  rcases h2.lt_or_eq with h | rfl
  · have f1 : ⌊d⌋ = 3 := floor_at (by push_cast; linarith) (by push_cast; linarith)
    have f2 : ⌊d / 2⌋ = 1 := floor_at (by push_cast; linarith) (by push_cast; linarith)
    dsimp only
    rw [f1, f2]
    have a : |d - 2 * ((1 : Int) : ℚ) - 1| = d - 3 := by
      rw [abs_of_nonneg (by push_cast; linarith)]
      push_cast
      ring
    simp only [a, Px.mk.injEq]
    exact ⟨by ring, by ring, by ring⟩
  · have f1 : ⌊(4 : ℚ)⌋ = 4 := floor_at (by norm_num) (by norm_num)
    have f2 : ⌊(4 : ℚ) / 2⌋ = 2 := floor_at (by norm_num) (by norm_num)
    dsimp only
    rw [f1, f2]
    norm_num

theorem rgb4 {d s v : ℚ} (h1 : 4 ≤ d) (h2 : d ≤ 5) : rgb (d / 6) s v = ⟨v - s * v + s * v * (d - 4), v - s * v, v⟩ := by
  have e : d / 6 * 6 = d := by ring
  unfold rgb
  rw [e]
  have f2 : ⌊d / 2⌋ = 2 := floor_at (by push_cast; linarith) (by push_cast; linarith)
  rcases h2.lt_or_eq with h | rfl
  · have f1 : ⌊d⌋ = 4 := floor_at (by push_cast; linarith) (by push_cast; linarith)
    dsimp only
    rw [f1, f2]
    have a : |d - 2 * ((2 : Int) : ℚ) - 1| = 5 - d := by
      rw [abs_of_nonpos (by push_cast; linarith)]
      push_cast
      ring
    simp only [a, Px.mk.injEq]
    exact ⟨by ring, by ring, by ring⟩
  · have f1 : ⌊(5 : ℚ)⌋ = 5 := floor_at (by norm_num) (by norm_num)
    dsimp only
    rw [f1, f2]
    norm_num

theorem rgb5 {d s v : ℚ} (h1 : 5 ≤ d) (h2 : d < 6) : rgb (d / 6) s v = ⟨v, v - s * v, v - s * v + s * v * (6 - d)⟩ := by
  have e : d / 6 * 6 = d := by ring
  unfold rgb
  rw [e]
  have f1 : ⌊d⌋ = 5 := floor_at (by push_cast; linarith) (by push_cast; linarith)
  have f2 : ⌊d / 2⌋ = 2 := floor_at (by push_cast; linarith) (by push_cast; linarith)
  dsimp only
  rw [f1, f2]
  have a : |d - 2 * ((2 : Int) : ℚ) - 1| = d - 5 := by
    rw [abs_of_nonneg (by push_cast; linarith)]
    push_cast
    ring
  simp only [a, Px.mk.injEq]
  exact ⟨by ring, by ring, by ring⟩

/-- A channel at a distance from the greatest one that is scaled to the range `c`. -/
def scaled (p : Px) (c : ℚ) : Px :=
  ⟨p.max - (p.max - p.x0) * (c / (p.max - p.min)), p.max - (p.max - p.x1) * (c / (p.max - p.min)), p.max - (p.max - p.x2) * (c / (p.max - p.min))⟩

/-- Turning a pixel into hue, saturation and value and back with another saturation scales the distances from the greatest channel. -/
theorem rgb_hsv {p : Px} (hr : p.min < p.max) (s : ℚ) : rgb (hsv p).x0 s p.max = scaled p (s * p.max) := by
  obtain ⟨a, b, c⟩ := p
  have hle : a ≤ Px.max ⟨a, b, c⟩ ∧ b ≤ Px.max ⟨a, b, c⟩ ∧ c ≤ Px.max ⟨a, b, c⟩ :=
    ⟨le_max_left _ _, le_trans (le_max_left _ _) (le_max_right _ _), le_trans (le_max_right _ _) (le_max_right _ _)⟩
  have hge : Px.min ⟨a, b, c⟩ ≤ a ∧ Px.min ⟨a, b, c⟩ ≤ b ∧ Px.min ⟨a, b, c⟩ ≤ c :=
    ⟨min_le_left _ _, le_trans (min_le_right _ _) (min_le_left _ _), le_trans (min_le_right _ _) (min_le_right _ _)⟩
  have hmax : Px.max ⟨a, b, c⟩ = a ∨ Px.max ⟨a, b, c⟩ = b ∨ Px.max ⟨a, b, c⟩ = c := by
    unfold Px.max
    rcases max_choice a (Max.max b c) with h | h
    · exact Or.inl h
    · rcases max_choice b c with h' | h'
      · exact Or.inr (Or.inl (h.trans h'))
      · exact Or.inr (Or.inr (h.trans h'))
  have hmin : Px.min ⟨a, b, c⟩ = a ∨ Px.min ⟨a, b, c⟩ = b ∨ Px.min ⟨a, b, c⟩ = c := by
    unfold Px.min
    rcases min_choice a (Min.min b c) with h | h
    · exact Or.inl h
    · rcases min_choice b c with h' | h'
      · exact Or.inr (Or.inl (h.trans h'))
      · exact Or.inr (Or.inr (h.trans h'))
  unfold hsv scaled
  dsimp only
  generalize Px.max ⟨a, b, c⟩ = v at *
  generalize Px.min ⟨a, b, c⟩ = m at *
  have hr' : ¬ v - m ≤ 0 := by linarith
  have hpos : 0 < v - m := by linarith
  have hne : v - m ≠ 0 := hpos.ne'
  rw [if_neg hr']
  have key : ∀ x y : ℚ, (x - y) / (6 * (v - m)) = (x - y) / (v - m) / 6 := by
    intro x y
    rw [mul_comm, div_div]
  by_cases h0 : a = v
  · rw [if_pos h0]
    subst h0
    rw [key]
    by_cases h1 : b < c
    · have hm : m = b := by rcases hmin with h | h | h <;> linarith
      subst hm
      have ht : (m - c) / (a - m) < 0 := div_neg_of_neg_of_pos (by linarith) hpos
      have ht2 : -1 ≤ (m - c) / (a - m) := by rw [le_div_iff₀ hpos]; linarith
      rw [if_pos (by linarith)]
      have e : (m - c) / (a - m) / 6 + 1 = ((m - c) / (a - m) + 6) / 6 := by ring
      rw [e, rgb5 (by linarith) (by linarith), Px.mk.injEq]
      refine ⟨by ring, ?_, ?_⟩ <;> field_simp <;> ring
    · have hm : m = c := by rcases hmin with h | h | h <;> linarith
      subst hm
      have ht : 0 ≤ (b - m) / (a - m) := div_nonneg (by linarith) hpos.le
      have ht2 : (b - m) / (a - m) ≤ 1 := by rw [div_le_iff₀ hpos]; linarith
      rw [if_neg (by linarith), rgb0 ht ht2, Px.mk.injEq]
      refine ⟨by ring, ?_, ?_⟩ <;> field_simp <;> ring
  · rw [if_neg h0]
    by_cases h1 : b = v
    · rw [if_pos h1]
      subst h1
      rw [key]
      by_cases h2 : a < c
      · have hm : m = a := by rcases hmin with h | h | h <;> linarith
        subst hm
        have ht : 0 ≤ (c - m) / (b - m) := div_nonneg (by linarith) hpos.le
        have ht2 : (c - m) / (b - m) ≤ 1 := by rw [div_le_iff₀ hpos]; linarith
        have e : (c - m) / (b - m) / 6 + 2 / 6 = ((c - m) / (b - m) + 2) / 6 := by ring
        rw [if_neg (by linarith), e, rgb2 (by linarith) (by linarith), Px.mk.injEq]
        refine ⟨?_, by ring, ?_⟩ <;> field_simp <;> ring
      · have hm : m = c := by rcases hmin with h | h | h <;> linarith
        subst hm
        have ht : (m - a) / (b - m) ≤ 0 := div_nonpos_of_nonpos_of_nonneg (by linarith) hpos.le
        have ht2 : -1 ≤ (m - a) / (b - m) := by rw [le_div_iff₀ hpos]; linarith
        have e : (m - a) / (b - m) / 6 + 2 / 6 = ((m - a) / (b - m) + 2) / 6 := by ring
        rw [if_neg (by linarith), e, rgb1 (by linarith) (by linarith), Px.mk.injEq]
        refine ⟨?_, by ring, ?_⟩ <;> field_simp <;> ring
    · rw [if_neg h1]
      have h2 : v = c := by
        rcases hmax with h | h | h
        · exact absurd h.symm h0
        · exact absurd h.symm h1
        · exact h
      subst h2
      rw [key]
      by_cases h2 : b < a
      · have hm : m = b := by rcases hmin with h | h | h <;> linarith
        subst hm
        have ht : 0 ≤ (a - m) / (v - m) := div_nonneg (by linarith) hpos.le
        have ht2 : (a - m) / (v - m) ≤ 1 := by rw [div_le_iff₀ hpos]; linarith
        have e : (a - m) / (v - m) / 6 + 4 / 6 = ((a - m) / (v - m) + 4) / 6 := by ring
        rw [if_neg (by linarith), e, rgb4 (by linarith) (by linarith), Px.mk.injEq]
        refine ⟨?_, ?_, by ring⟩ <;> field_simp <;> ring
      · have hm : m = a := by rcases hmin with h | h | h <;> linarith
        subst hm
        have ht : (m - b) / (v - m) ≤ 0 := div_nonpos_of_nonpos_of_nonneg (by linarith) hpos.le
        have ht2 : -1 ≤ (m - b) / (v - m) := by rw [le_div_iff₀ hpos]; linarith
        have e : (m - b) / (v - m) / 6 + 4 / 6 = ((m - b) / (v - m) + 4) / 6 := by ring
        rw [if_neg (by linarith), e, rgb3 (by linarith) (by linarith), Px.mk.injEq]
        refine ⟨?_, ?_, by ring⟩ <;> field_simp <;> ring

end Verif.Colour
