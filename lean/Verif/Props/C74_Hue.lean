import Verif.Props.C74_Main
/-!
# C74: the converted `AdjustHue`
-/
namespace Verif.Colour

theorem angle_at {p : Px} (hr : p.min < p.max) {ix : Ix} (ht : topK p = ix) : initialAngle p = (p.get ix.i1 - p.min) / (p.max - p.min) * parityLookup ix + sectorLookup ix := by
  obtain ⟨hmax, hmin⟩ := max_min p
  have hne : p.max - p.min ≠ 0 := by linarith
  subst ht
  unfold initialAngle
  dsimp only
  rw [hmax, hmin, if_neg hne, add_zero]
  rfl

theorem hue_at {p : Px} (hr : p.min < p.max) {k : Nat} {mid : ℚ} (hs : sector p = (k, mid)) :
    hue p = (k : ℚ) + (if k % 2 = 0 then (mid - p.min) / (p.max - p.min) else 1 - (mid - p.min) / (p.max - p.min)) := by
  unfold hue
  rw [if_neg (by linarith), hs]

theorem middle {p : Px} (hr : p.min < p.max) {x : ℚ} (h1 : p.min ≤ x) (h2 : x ≤ p.max) : 0 ≤ (x - p.min) / (p.max - p.min) ∧ (x - p.min) / (p.max - p.min) ≤ 1 :=
  ⟨div_nonneg (by linarith) (by linarith), by rw [div_le_iff₀ (by linarith)]; linarith⟩

/-- The hue of the converted graph, in turns, is that of TensorFlow, up to a whole turn. -/
theorem angle_hue {p : Px} (hr : p.min < p.max) : 0 ≤ initialAngle p ∧ ∃ n : Int, hue p = 6 * (initialAngle p + n) := by
  obtain ⟨⟨a1, a2, a3⟩, b1, b2, b3⟩ := bounds p
  obtain ⟨hmax, hmin⟩ := max_min p
  obtain ⟨m0, n0⟩ := middle hr b1 a1
  obtain ⟨m1, n1⟩ := middle hr b2 a2
  obtain ⟨m2, n2⟩ := middle hr b3 a3
  by_cases h1 : p.x1 ≤ p.x0
  · by_cases h2 : p.x2 ≤ p.x1
    · have ht : topK p = ⟨0, 1, 2⟩ := by unfold topK; rw [if_pos h1, if_pos h2]
      have hi : initialAngle p = (p.x1 - p.min) / (p.max - p.min) * (1 / 6) + 0 := angle_at hr ht
      refine ⟨by rw [hi]; linarith, ?_⟩
      by_cases h3 : p.x2 < p.x1
      · have hs : sector p = (0, p.x1) := by unfold sector; rw [if_neg (by linarith), if_pos h3]
        refine ⟨0, ?_⟩
        rw [hue_at hr hs, hi, if_pos rfl]
        push_cast
        ring
      · have hs : sector p = (5, p.x2) := by unfold sector; rw [if_neg (by linarith), if_neg h3, if_neg (by linarith)]
        refine ⟨1, ?_⟩
        rw [ht] at hmin
        have e2 : p.x2 = p.min := hmin
        have e1 : p.x1 = p.min := by linarith
        rw [hue_at hr hs, hi, e1, e2, if_neg (by decide), sub_self, zero_div]
        push_cast
        ring
    · by_cases h3 : p.x2 ≤ p.x0
      · have ht : topK p = ⟨0, 2, 1⟩ := by unfold topK; rw [if_pos h1, if_neg h2, if_pos h3]
        have hi : initialAngle p = (p.x2 - p.min) / (p.max - p.min) * (-1 / 6) + 1 := angle_at hr ht
        have hs : sector p = (5, p.x2) := by unfold sector; rw [if_neg (by linarith), if_neg (by linarith), if_neg (by linarith)]
        refine ⟨by rw [hi]; linarith, 0, ?_⟩
        rw [hue_at hr hs, hi, if_neg (by decide)]
        push_cast
        ring
      · have ht : topK p = ⟨2, 0, 1⟩ := by unfold topK; rw [if_pos h1, if_neg h2, if_neg h3]
        have hi : initialAngle p = (p.x0 - p.min) / (p.max - p.min) * (1 / 6) + 4 / 6 := angle_at hr ht
        have hs : sector p = (4, p.x0) := by unfold sector; rw [if_neg (by linarith), if_neg (by linarith), if_pos (by linarith)]
        refine ⟨by rw [hi]; linarith, 0, ?_⟩
        rw [hue_at hr hs, hi, if_pos (by decide)]
        push_cast
        ring
  · by_cases h2 : p.x2 ≤ p.x0
    · have ht : topK p = ⟨1, 0, 2⟩ := by unfold topK; rw [if_neg h1, if_pos h2]
      have hi : initialAngle p = (p.x0 - p.min) / (p.max - p.min) * (-1 / 6) + 2 / 6 := angle_at hr ht
      refine ⟨by rw [hi]; linarith, 0, ?_⟩
      by_cases h3 : p.x2 < p.x0
      · have hs : sector p = (1, p.x0) := by unfold sector; rw [if_pos (by linarith), if_pos h3]
        rw [hue_at hr hs, hi, if_neg (by decide)]
        push_cast
        ring
      · have hs : sector p = (2, p.x2) := by unfold sector; rw [if_pos (by linarith), if_neg h3, if_neg (by linarith)]
        rw [ht] at hmin
        have e2 : p.x2 = p.min := hmin
        have e1 : p.x0 = p.min := by linarith
        rw [hue_at hr hs, hi, e1, e2, if_pos (by decide), sub_self, zero_div]
        push_cast
        ring
    · by_cases h3 : p.x2 ≤ p.x1
      · have ht : topK p = ⟨1, 2, 0⟩ := by unfold topK; rw [if_neg h1, if_neg h2, if_pos h3]
        have hi : initialAngle p = (p.x2 - p.min) / (p.max - p.min) * (1 / 6) + 2 / 6 := angle_at hr ht
        have hs : sector p = (2, p.x2) := by unfold sector; rw [if_pos (by linarith), if_neg (by linarith), if_neg (by linarith)]
        refine ⟨by rw [hi]; linarith, 0, ?_⟩
        rw [hue_at hr hs, hi, if_pos (by decide)]
        push_cast
        ring
      · have ht : topK p = ⟨2, 1, 0⟩ := by unfold topK; rw [if_neg h1, if_neg h2, if_neg h3]
        have hi : initialAngle p = (p.x1 - p.min) / (p.max - p.min) * (-1 / 6) + 4 / 6 := angle_at hr ht
        have hs : sector p = (3, p.x1) := by unfold sector; rw [if_pos (by linarith), if_neg (by linarith), if_pos (by linarith)]
        refine ⟨by rw [hi]; linarith, 0, ?_⟩
        rw [hue_at hr hs, hi, if_neg (by decide)]
        push_cast
        ring

theorem fmod_one {a : ℚ} (h : 0 ≤ a) : fmod a 1 = a - ⌊a⌋ := by
  unfold fmod
  rw [div_one, if_pos h, one_mul]

/-- A channel, from the part of a turn that the angle is. -/
theorem channel_at {a o d m u : ℚ} (ha : 0 ≤ a) (ho : 0 ≤ o) {n : Int} (hn : a + o = u + n) (h0 : 0 ≤ u) (h1 : u < 1) : channel a o d m = clip (|u - 1 / 2| * 6 - 1) 0 1 * d + m := by
  unfold channel
  have hf : ⌊a + o⌋ = n := floor_at (by rw [hn]; linarith) (by rw [hn]; linarith)
  rw [fmod_one (by linarith), hf, hn, add_sub_cancel_right]

theorem clip_high {x : ℚ} (h : 1 ≤ x) : clip x 0 1 = 1 := by
  unfold clip
  rw [max_eq_left (by linarith), min_eq_right h]

theorem clip_low {x : ℚ} (h : x ≤ 0) : clip x 0 1 = 0 := by
  unfold clip
  rw [max_eq_right h, min_eq_left (by norm_num)]

theorem clip_mid {x : ℚ} (h0 : 0 ≤ x) (h1 : x ≤ 1) : clip x 0 1 = x := by
  unfold clip
  rw [max_eq_left h0, min_eq_left h1]

/-- The three channels from the part `u` of a turn, and TensorFlow's. -/
theorem channels_hue {a u d m : ℚ} (ha : 0 ≤ a) {n : Int} (hn : a = u + n) (h0 : 0 ≤ u) (h1 : u < 1) :
    (⟨channel a 0 d m, channel a (4 / 6) d m, channel a (2 / 6) d m⟩ : Px) = ofHue (6 * u) m (m + d) := by
  have q0 : channel a 0 d m = clip (|u - 1 / 2| * 6 - 1) 0 1 * d + m := channel_at ha (le_refl _) (n := n) (by rw [hn]; ring) h0 h1
  have q1 : channel a (4 / 6) d m = clip (|(if u < 1 / 3 then u + 2 / 3 else u - 1 / 3) - 1 / 2| * 6 - 1) 0 1 * d + m := by
    by_cases h : u < 1 / 3
    · rw [if_pos h]
      exact channel_at ha (by norm_num) (n := n) (by rw [hn]; ring) (by linarith) (by linarith)
    · rw [if_neg h]
      exact channel_at ha (by norm_num) (n := n + 1) (by rw [hn]; push_cast; ring) (by linarith) (by linarith)
  have q2 : channel a (2 / 6) d m = clip (|(if u < 2 / 3 then u + 1 / 3 else u - 2 / 3) - 1 / 2| * 6 - 1) 0 1 * d + m := by
    by_cases h : u < 2 / 3
    · rw [if_pos h]
      exact channel_at ha (by norm_num) (n := n) (by rw [hn]; ring) (by linarith) (by linarith)
    · rw [if_neg h]
      exact channel_at ha (by norm_num) (n := n + 1) (by rw [hn]; push_cast; ring) (by linarith) (by linarith)
  rw [q0, q1, q2]
  unfold ofHue
  dsimp only
  by_cases c1 : u < 1 / 6
  · have f : ⌊6 * u⌋ = 0 := floor_at (by push_cast; linarith) (by push_cast; linarith)
    rw [f, if_pos (by linarith), if_pos (by linarith), abs_of_nonpos (by linarith), abs_of_nonneg (by linarith), abs_of_nonpos (by linarith), clip_high (by linarith),
      clip_mid (by linarith) (by linarith), clip_low (by linarith), if_pos (by decide)]
    simp only [Px.mk.injEq]
    push_cast
    exact ⟨by ring, by ring, by ring⟩
  by_cases c2 : u < 2 / 6
  · have f : ⌊6 * u⌋ = 1 := floor_at (by push_cast; linarith) (by push_cast; linarith)
    rw [f, if_pos (by linarith), if_pos (by linarith), abs_of_nonpos (by linarith), abs_of_nonneg (by linarith), clip_mid (by linarith) (by linarith), clip_high (by linarith),
      clip_low (by rw [sub_nonpos, ← le_div_iff₀ (by norm_num), abs_le]; constructor <;> linarith), if_neg (by decide)]
    simp only [Px.mk.injEq]
    push_cast
    exact ⟨by ring, by ring, by ring⟩
  by_cases c3 : u < 3 / 6
  · have f : ⌊6 * u⌋ = 2 := floor_at (by push_cast; linarith) (by push_cast; linarith)
    rw [f, if_neg (by linarith), if_pos (by linarith), abs_of_nonpos (by linarith), abs_of_nonpos (by linarith), abs_of_nonneg (by linarith), clip_low (by linarith), clip_high (by linarith),
      clip_mid (by linarith) (by linarith), if_pos (by decide)]
    simp only [Px.mk.injEq]
    push_cast
    exact ⟨by ring, by ring, by ring⟩
  by_cases c4 : u < 4 / 6
  · have f : ⌊6 * u⌋ = 3 := floor_at (by push_cast; linarith) (by push_cast; linarith)
    rw [f, if_neg (by linarith), if_pos (by linarith), abs_of_nonneg (by linarith), abs_of_nonpos (by linarith), abs_of_nonneg (by linarith), clip_low (by linarith),
      clip_mid (by linarith) (by linarith), clip_high (by linarith), if_neg (by decide)]
    simp only [Px.mk.injEq]
    push_cast
    exact ⟨by ring, by ring, by ring⟩
  by_cases c5 : u < 5 / 6
  · have f : ⌊6 * u⌋ = 4 := floor_at (by push_cast; linarith) (by push_cast; linarith)
    rw [f, if_neg (by linarith), if_neg (by linarith), abs_of_nonneg (by linarith), clip_mid (by linarith) (by linarith),
      clip_low (by rw [sub_nonpos, ← le_div_iff₀ (by norm_num), abs_le]; constructor <;> linarith), abs_of_nonpos (by linarith), clip_high (by linarith), if_pos (by decide)]
    simp only [Px.mk.injEq]
    push_cast
    exact ⟨by ring, by ring, by ring⟩
  · have f : ⌊6 * u⌋ = 5 := floor_at (by push_cast; linarith) (by push_cast; linarith)
    rw [f, if_neg (by linarith), if_neg (by linarith), abs_of_nonneg (by linarith), abs_of_nonneg (by linarith), abs_of_nonpos (by linarith), clip_high (by linarith),
      clip_low (by linarith), clip_mid (by linarith) (by linarith), if_neg (by decide)]
    simp only [Px.mk.injEq]
    push_cast
    exact ⟨by ring, by ring, by ring⟩

/-- **C74.** The converted `AdjustHue` is TensorFlow's for all pixels and all angles from -1 (a turn back) on, which is all that `tf.image.adjust_hue` takes. -/
theorem hue_sound {delta : ℚ} (hd : -1 ≤ delta) (p : Px) : turnHue delta p = tfHue delta p := by
  obtain ⟨hmax, hmin⟩ := max_min p
  obtain ⟨⟨a1, a2, a3⟩, b1, b2, b3⟩ := bounds p
  unfold turnHue
  dsimp only
  rw [hmax, hmin]
  rcases (le_trans b1 a1).lt_or_eq with hr | hr
  · obtain ⟨h0, n, hn⟩ := angle_hue hr
    have hz : (hue p + delta * 6) / 6 = initialAngle p + delta + n := by
      rw [hn]
      ring
    have hfl : ⌊initialAngle p + delta + n⌋ = ⌊initialAngle p + delta⌋ + n := Int.floor_add_intCast _ _
    have hu0 := Int.floor_le (initialAngle p + delta)
    have hu1 := Int.lt_floor_add_one (initialAngle p + delta)
    rw [channels_hue (u := initialAngle p + delta - ⌊initialAngle p + delta⌋) (n := ⌊initialAngle p + delta⌋ + 1) (by linarith) (by push_cast; ring) (by linarith) (by linarith)]
    unfold tfHue
    rw [hz, hfl]
    congr 1
    · rw [hn]
      push_cast
      ring
    · ring
  · unfold tfHue
    rw [hr, sub_self]
    have hg : ∀ h, ofHue h p.max p.max = ⟨p.max, p.max, p.max⟩ := by
      intro h
      unfold ofHue
      dsimp only
      rw [sub_self, mul_zero, add_zero]
      split <;> rfl
    rw [hg]
    simp [channel]

/-- **C74, a limit of the code.** Less than -1: `Mod` keeps the sign, and the colours are wrong. The operator `AdjustHue` itself takes such angles. -/
theorem hue_below_violated : turnHue (-7 / 4) ⟨3, 2, 1⟩ ≠ tfHue (-7 / 4) ⟨3, 2, 1⟩ := by decide +kernel

theorem ex_hue : turnHue (1 / 3) ⟨3, 2, 1⟩ = ⟨1, 3, 2⟩ ∧ tfHue (1 / 3) ⟨3, 2, 1⟩ = ⟨1, 3, 2⟩ := by decide +kernel

end Verif.Colour
