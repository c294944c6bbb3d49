import Verif.Props.C74_Saturation
/-!
# C74: the converted `AdjustSaturation`
-/
namespace Verif.Colour

theorem bounds (p : Px) : (p.x0 ≤ p.max ∧ p.x1 ≤ p.max ∧ p.x2 ≤ p.max) ∧ p.min ≤ p.x0 ∧ p.min ≤ p.x1 ∧ p.min ≤ p.x2 :=
  ⟨⟨le_max_left _ _, le_trans (le_max_left _ _) (le_max_right _ _), le_trans (le_max_right _ _) (le_max_right _ _)⟩,
    min_le_left _ _, le_trans (min_le_right _ _) (min_le_left _ _), le_trans (min_le_right _ _) (min_le_right _ _)⟩

/-- TensorFlow's result, without hue and saturation. -/
theorem tf_closed {factor : ℚ} {p : Px} (hf : 0 ≤ factor) (hv : 0 ≤ p.max) (hr : p.min < p.max) :
    tfSaturation factor p = scaled p (Min.min ((p.max - p.min) * factor) p.max) := by
  unfold tfSaturation
  have h2 : (hsv p).x2 = p.max := rfl
  rw [h2, rgb_hsv hr]
  congr 1
  have h1 : (hsv p).x1 = if 0 < p.max then (p.max - p.min) / p.max else 0 := rfl
  rw [h1]
  rcases hv.lt_or_eq with h | h
  · rw [if_pos h]
    have hs : 0 ≤ (p.max - p.min) / p.max * factor := mul_nonneg (div_nonneg (by linarith) h.le) hf
    rw [max_eq_right hs, min_mul_of_nonneg _ _ h.le, one_mul, min_comm]
    congr 1
    field_simp
  · rw [← h, mul_zero, min_eq_right]
    have : 0 ≤ (0 - p.min) := by linarith
    exact mul_nonneg this hf

theorem tf_grey {factor : ℚ} {p : Px} (hr : p.min = p.max) : tfSaturation factor p = ⟨p.max, p.max, p.max⟩ := by
  have h0 : (hsv p).x0 = 0 := by
    unfold hsv
    dsimp only
    rw [hr, sub_self, if_pos (le_refl _), if_neg (lt_irrefl _)]
  have h1 : (hsv p).x1 = 0 := by
    show (if 0 < p.max then (p.max - p.min) / p.max else 0) = 0
    rw [hr, sub_self, zero_div]
    split <;> rfl
  unfold tfSaturation
  have h2 : (hsv p).x2 = p.max := rfl
  rw [h0, h1, h2]
  have e : (0 : ℚ) = 0 / 6 := by norm_num
  rw [zero_mul, max_self, min_eq_right (by norm_num)]
  conv_lhs => rw [show rgb 0 0 p.max = rgb (0 / 6) 0 p.max by rw [← e], rgb0 (le_refl _) (by norm_num)]
  simp

/-- The orders of the channels that are not their own inverse: red below blue, blue not above green; or green not above red, red below blue. -/
def Cyclic (p : Px) : Prop := p.x0 < p.x2 ∧ (p.x2 ≤ p.x1 ∨ p.x1 ≤ p.x0)

/-- The new range. -/
def newRange (factor : ℚ) (p : Px) : ℚ := Min.min ((p.max - p.min) * factor) p.max

/-- The channels in the order from the greatest to the smallest, after the change. -/
theorem emitted_closed {factor : ℚ} {p : Px} (hr : p.min < p.max) :
    saturation factor p = gatherElements (gatherElements (scaled p (newRange factor p)) (topK p)) (topK p) := by
  obtain ⟨hmax, hmin⟩ := max_min p
  have hne : p.max - p.min ≠ 0 := by linarith
  unfold saturation
  dsimp only
  rw [hmax, hmin, if_neg hne, add_zero]
  congr 1
  have hs : ∀ i, (scaled p (newRange factor p)).get i = p.max - (p.max - p.get i) * (newRange factor p / (p.max - p.min)) := by
    intro i
    match i with
    | 0 => rfl
    | 1 => rfl
    | _ + 2 => rfl
  have e0 : p.get (topK p).i0 = p.max := hmax
  have e2 : p.get (topK p).i2 = p.min := hmin
  have e1 : (gatherElements p (topK p)).x1 = p.get (topK p).i1 := rfl
  unfold gatherElements at e1 ⊢
  rw [hs, hs, hs, e0, e2, Px.mk.injEq]
  refine ⟨by ring, ?_, ?_⟩
  · unfold newRange
    field_simp
    ring
  · unfold newRange
    field_simp

theorem emitted_grey {factor : ℚ} {p : Px} (hr : p.min = p.max) (hv : 0 ≤ p.max) : saturation factor p = ⟨p.max, p.max, p.max⟩ := by
  obtain ⟨⟨a1, a2, a3⟩, b1, b2, b3⟩ := bounds p
  have h0 : p.x0 = p.max := by linarith
  have h1 : p.x1 = p.max := by linarith
  have h2 : p.x2 = p.max := by linarith
  have ht : topK p = ⟨0, 1, 2⟩ := by
    unfold topK
    rw [if_pos (by linarith), if_pos (by linarith)]
  unfold saturation
  rw [ht]
  simp only [gatherElements, Px.get, h0, h1, h2, sub_self, zero_mul, if_true, min_eq_left hv]
  norm_num

/-- Gathering twice with the positions of `TopK` gives the channels back, unless the order is cyclic. -/
theorem twice {p q : Px} (h : ¬ Cyclic p) : gatherElements (gatherElements q (topK p)) (topK p) = q := by
  obtain ⟨a, b, c⟩ := p
  obtain ⟨x, y, z⟩ := q
  unfold Cyclic at h
  dsimp only at h
  unfold topK
  dsimp only
  split_ifs with h1 h2 h3 h4 h5
  · rfl
  · rfl
  · exact absurd ⟨by linarith, Or.inr h1⟩ h
  · rfl
  · exact absurd ⟨by linarith, Or.inl h5⟩ h
  · rfl

/-- **C74.** The converted `AdjustSaturation` is TensorFlow's for factors that are not negative and pixels with a channel that is not negative, if the order of the channels is not cyclic. -/
theorem saturation_sound {factor : ℚ} {p : Px} (hf : 0 ≤ factor) (hv : 0 ≤ p.max) (h : ¬ Cyclic p) : saturation factor p = tfSaturation factor p := by
  obtain ⟨⟨a1, _, _⟩, b1, _, _⟩ := bounds p
  rcases (le_trans b1 a1).lt_or_eq with hr | hr
  · rw [emitted_closed hr, twice h, tf_closed hf hv hr]
    rfl
  · rw [emitted_grey hr hv, tf_grey hr]

/-- **C74, a defect.** For the two cyclic orders of the channels the converted `AdjustSaturation` puts the channels back into wrong places (`GatherElements` with the positions of `TopK`, where their
inverse is needed): the result is wrong for every factor above 0 and every such pixel with a positive channel. -/
theorem saturation_violated {factor : ℚ} {p : Px} (hf : 0 < factor) (hv : 0 < p.max) (h : Cyclic p) : saturation factor p ≠ tfSaturation factor p := by
  obtain ⟨⟨a1, a2, a3⟩, b1, b2, b3⟩ := bounds p
  have hr : p.min < p.max := by
    have := h.1
    linarith
  have hn : 0 < newRange factor p := lt_min (mul_pos (by linarith) hf) hv
  have hq : 0 < newRange factor p / (p.max - p.min) := div_pos hn (by linarith)
  rw [emitted_closed hr, tf_closed hf.le hv.le hr]
  show _ ≠ scaled p (newRange factor p)
  obtain ⟨h0, h1 | h1⟩ := h
  · have ht : topK p = ⟨1, 2, 0⟩ := by
      unfold topK
      rw [if_neg (by linarith), if_neg (by linarith), if_pos h1]
    rw [ht]
    intro e
    have e0 : (scaled p (newRange factor p)).x2 = (scaled p (newRange factor p)).x0 := congrArg Px.x0 e
    unfold scaled at e0
    dsimp only at e0
    nlinarith
  · have ht : topK p = ⟨2, 0, 1⟩ := by
      unfold topK
      rw [if_pos h1, if_neg (by linarith), if_neg (by linarith)]
    rw [ht]
    intro e
    have e0 : (scaled p (newRange factor p)).x0 = (scaled p (newRange factor p)).x2 := congrArg Px.x2 e
    unfold scaled at e0
    dsimp only at e0
    nlinarith

/-- The pixel (1, 3, 2) with factor 1: TensorFlow leaves it as it is, the converted graph gives (2, 1, 3). -/
theorem ex_saturation : tfSaturation 1 ⟨1, 3, 2⟩ = ⟨1, 3, 2⟩ ∧ saturation 1 ⟨1, 3, 2⟩ = ⟨2, 1, 3⟩ ∧ Cyclic ⟨1, 3, 2⟩ ∧ ¬ Cyclic ⟨1, 2, 3⟩ ∧ saturation (1 / 2) ⟨1, 2, 3⟩ = ⟨2, 5 / 2, 3⟩ := by
  refine ⟨?_, by decide +kernel, ?_, ?_, by decide +kernel⟩
  · rw [tf_closed (by norm_num) (by decide +kernel) (by decide +kernel)]
    decide +kernel
  · exact ⟨by norm_num, Or.inl (by norm_num)⟩
  · rintro ⟨_, h | h⟩ <;> norm_num at h

/-- **C74, a defect.** A negative factor: TensorFlow takes it as 0, the converted graph turns the colours around. -/
theorem saturation_negative_violated : saturation (-1) ⟨3, 2, 1⟩ = ⟨3, 4, 5⟩ ∧ tfSaturation (-1) ⟨3, 2, 1⟩ = ⟨3, 3, 3⟩ := by
  constructor <;> decide +kernel

end Verif.Colour
