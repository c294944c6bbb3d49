import Verif.Model.Distort
import Mathlib.Algebra.Order.Field.Basic
import Mathlib.Tactic.Ring
import Mathlib.Tactic.FieldSimp
import Mathlib.Tactic.Linarith
import Mathlib.Tactic.NormNum
/-!
# C84: random boxes of images
-/
namespace Verif.Distort
open Verif.Nms

variable {K : Type} [Field K] [LinearOrder K] [IsStrictOrderedRing K]

/-- What is drawn lies between 0 and 1. -/
structure Unit01 (d : Draw K) : Prop where
  r1 : 0 ≤ d.r1 ∧ d.r1 ≤ 1
  r2 : 0 ≤ d.r2 ∧ d.r2 ≤ 1
  r3 : 0 ≤ d.r3 ∧ d.r3 ≤ 1
  r4 : 0 ≤ d.r4 ∧ d.r4 ≤ 1

/-- A number drawn between two. -/
theorem between {r a b : K} (hr : 0 ≤ r ∧ r ≤ 1) (h : a ≤ b) : a ≤ r * (b - a) + a ∧ r * (b - a) + a ≤ b := by
  have h0 := mul_nonneg hr.1 (sub_nonneg.2 h)
  have h1 := mul_le_of_le_one_left (sub_nonneg.2 h) hr.2
  constructor <;> linarith

/-- The sides of a random box: neither is larger than the image, and they have the drawn ratio. -/
theorem sides_ok {sqrt : K → K} {l : Limits K} {H W : K} {d : Draw K} (hs : ∀ x, 0 ≤ sqrt x) (hH : 0 < H) (hW : 0 < W) (hr : 0 < l.minRatio) (hrr : l.minRatio ≤ l.maxRatio) (hd : Unit01 d) :
    0 ≤ (sides sqrt l H W d).1 ∧ (sides sqrt l H W d).1 ≤ 1 ∧ 0 ≤ (sides sqrt l H W d).2 ∧ (sides sqrt l H W d).2 ≤ 1 ∧
      ∃ a, l.minRatio ≤ a ∧ a ≤ l.maxRatio ∧ (sides sqrt l H W d).2 * W = a * ((sides sqrt l H W d).1 * H) := by
  have ha := between hd.r1 hrr
  unfold sides
  dsimp only
  generalize d.r1 * (l.maxRatio - l.minRatio) + l.minRatio = a at ha ⊢
  have ha0 : 0 < a := lt_of_lt_of_le hr ha.1
  have himg : 0 < W / H := div_pos hW hH
  have hadj : 0 < a / (W / H) := div_pos ha0 himg
  have hall : (0 : K) ≤ min (W / H / a) 1 := le_min (le_of_lt (div_pos himg ha0)) zero_le_one
  have hmax : (0 : K) ≤ min (sqrt (l.maxArea / (a / (W / H)))) (min (W / H / a) 1) := le_min (hs _) hall
  generalize hm2 : min (sqrt (l.maxArea / (a / (W / H)))) (min (W / H / a) 1) = m2 at hmax ⊢
  have hm2a : m2 ≤ W / H / a := hm2 ▸ (min_le_right _ _).trans (min_le_left _ _)
  have hm2b : m2 ≤ 1 := hm2 ▸ (min_le_right _ _).trans (min_le_right _ _)
  have hmin : (0 : K) ≤ min (sqrt (l.minArea / (a / (W / H)))) m2 := le_min (hs _) hmax
  have hmm : min (sqrt (l.minArea / (a / (W / H)))) m2 ≤ m2 := min_le_right _ _
  generalize min (sqrt (l.minArea / (a / (W / H)))) m2 = m1 at hmin hmm ⊢
  have hh := between hd.r2 hmm
  generalize d.r2 * (m2 - m1) + m1 = h at hh ⊢
  have h0 : 0 ≤ h := hmin.trans hh.1
  refine ⟨h0, hh.2.trans hm2b, mul_nonneg h0 (le_of_lt hadj), ?_, a, ha.1, ha.2, ?_⟩
  · have h1 : h * (a / (W / H)) ≤ W / H / a * (a / (W / H)) := mul_le_mul_of_nonneg_right (hh.2.trans hm2a) (le_of_lt hadj)
    have h2 : W / H / a * (a / (W / H)) = 1 := by
      have := ne_of_gt hH
      have := ne_of_gt hW
      have := ne_of_gt ha0
      field_simp
    rwa [h2] at h1
  · have := ne_of_gt hH
    have := ne_of_gt hW
    field_simp

/-- Every random box fits. -/
theorem sample_fits {sqrt : K → K} {l : Limits K} {H W : K} {d : Draw K} (hs : ∀ x, 0 ≤ sqrt x) (hH : 0 < H) (hW : 0 < W) (hr : 0 < l.minRatio) (hrr : l.minRatio ≤ l.maxRatio) (hd : Unit01 d) :
    Fits l H W (sample sqrt l H W d) := by
  obtain ⟨h0, h1, w0, w1, a, ha, ha', hra⟩ := sides_ok (sqrt := sqrt) hs hH hW hr hrr hd
  unfold sample
  generalize sides sqrt l H W d = s at h0 h1 w0 w1 hra ⊢
  obtain ⟨h, w⟩ := s
  dsimp only at h0 h1 w0 w1 hra ⊢
  have hy := mul_nonneg hd.r4.1 (sub_nonneg.2 h1)
  have hy' := mul_le_of_le_one_left (sub_nonneg.2 h1) hd.r4.2
  have hx := mul_nonneg hd.r3.1 (sub_nonneg.2 w1)
  have hx' := mul_le_of_le_one_left (sub_nonneg.2 w1) hd.r3.2
  refine ⟨hy, ?_, ?_, hx, ?_, ?_, a, ha, ha', ?_⟩
  · show d.r4 * (1 - h) ≤ d.r4 * (1 - h) + h
    linarith
  · show d.r4 * (1 - h) + h ≤ 1
    linarith
  · show d.r3 * (1 - w) ≤ d.r3 * (1 - w) + w
    linarith
  · show d.r3 * (1 - w) + w ≤ 1
    linarith
  · show (d.r3 * (1 - w) + w - d.r3 * (1 - w)) * W = a * ((d.r4 * (1 - h) + h - d.r4 * (1 - h)) * H)
    rw [add_sub_cancel_left, add_sub_cancel_left, hra]

/-- With the square root of the reals no random box is larger than allowed: only boxes that are too small, or have no object, are drawn in vain. -/
theorem sample_area_le {sqrt : K → K} {l : Limits K} {H W : K} {d : Draw K} (hs : ∀ x, 0 ≤ sqrt x) (hsq : ∀ x, 0 ≤ x → sqrt x * sqrt x = x) (hH : 0 < H) (hW : 0 < W) (hr : 0 < l.minRatio)
    (hrr : l.minRatio ≤ l.maxRatio) (hA : 0 ≤ l.maxArea) (hd : Unit01 d) :
    ((sample sqrt l H W d).y2 - (sample sqrt l H W d).y1) * ((sample sqrt l H W d).x2 - (sample sqrt l H W d).x1) ≤ l.maxArea := by
  have ha := between hd.r1 hrr
  have harea : ((sample sqrt l H W d).y2 - (sample sqrt l H W d).y1) * ((sample sqrt l H W d).x2 - (sample sqrt l H W d).x1) = (sides sqrt l H W d).1 * (sides sqrt l H W d).2 := by
    unfold sample
    dsimp only
    rw [add_sub_cancel_left, add_sub_cancel_left]
  rw [harea]
  have hnn := (sides_ok (sqrt := sqrt) hs hH hW hr hrr hd).1
  unfold sides at hnn ⊢
  dsimp only at hnn ⊢
  generalize d.r1 * (l.maxRatio - l.minRatio) + l.minRatio = a at ha hnn ⊢
  have ha0 : 0 < a := lt_of_lt_of_le hr ha.1
  have hadj : 0 < a / (W / H) := div_pos ha0 (div_pos hW hH)
  generalize a / (W / H) = adj at hadj hnn ⊢
  have hm2 : min (sqrt (l.maxArea / adj)) (min (W / H / a) 1) ≤ sqrt (l.maxArea / adj) := min_le_left _ _
  generalize min (sqrt (l.maxArea / adj)) (min (W / H / a) 1) = m2 at hm2 hnn ⊢
  have hmm : min (sqrt (l.minArea / adj)) m2 ≤ m2 := min_le_right _ _
  generalize min (sqrt (l.minArea / adj)) m2 = m1 at hmm hnn ⊢
  have hh := (between hd.r2 hmm).2.trans hm2
  generalize d.r2 * (m2 - m1) + m1 = h at hh hnn ⊢
  have h1 : h * h ≤ l.maxArea / adj := (mul_le_mul hh hh hnn (hs _)).trans (le_of_eq (hsq _ (div_nonneg hA (le_of_lt hadj))))
  have h2 := mul_le_mul_of_nonneg_right h1 (le_of_lt hadj)
  rw [div_mul_cancel₀ _ (ne_of_gt hadj)] at h2
  linarith

omit [IsStrictOrderedRing K] in
theorem objectOk_iff {l : Limits K} {objects : List (Box K)} {b : Box K} : objectOk l objects b = true ↔ ∃ o ∈ objects, l.cover ≤ common b o / ((o.y2 - o.y1) * (o.x2 - o.x1)) := by
  unfold objectOk common
  rw [decide_eq_true_eq]
  dsimp only
  induction objects with
  | nil => simp
  | cons o os ih =>
    rw [List.map_cons, List.sum_cons]
    by_cases h : max (min b.y2 o.y2 - max b.y1 o.y1) 0 * max (min b.x2 o.x2 - max b.x1 o.x1) 0 / ((o.y2 - o.y1) * (o.x2 - o.x1)) < l.cover
    · rw [decide_eq_true h, if_neg (by decide), Nat.zero_add, ih]
      constructor
      · rintro ⟨o', ho', h'⟩
        exact ⟨o', List.mem_cons_of_mem _ ho', h'⟩
      · rintro ⟨o', ho', h'⟩
        rcases List.mem_cons.1 ho' with rfl | ho'
        · exact absurd h (not_lt.2 h')
        · exact ⟨o', ho', h'⟩
    · rw [decide_eq_false h, if_pos (by decide)]
      exact ⟨fun _ => ⟨o, List.mem_cons_self .., not_lt.1 h⟩, fun _ => by omega⟩

/-- The checks accept exactly the boxes that are allowed. -/
theorem accepted_iff {sqrt : K → K} {l : Limits K} {H W : K} {objects : List (Box K)} {d : Draw K} (hs : ∀ x, 0 ≤ sqrt x) (hH : 0 < H) (hW : 0 < W) (hr : 0 < l.minRatio) (hrr : l.minRatio ≤ l.maxRatio)
    (hd : Unit01 d) : (areaOk sqrt l H W d && objectOk l objects (sample sqrt l H W d)) = true ↔ Allowed l H W objects (sample sqrt l H W d) := by
  have harea : ((sample sqrt l H W d).y2 - (sample sqrt l H W d).y1) * ((sample sqrt l H W d).x2 - (sample sqrt l H W d).x1) = (sides sqrt l H W d).1 * (sides sqrt l H W d).2 := by
    unfold sample
    dsimp only
    rw [add_sub_cancel_left, add_sub_cancel_left]
  rw [Bool.and_eq_true, objectOk_iff]
  unfold areaOk
  dsimp only
  rw [Bool.not_eq_true', Bool.or_eq_false_iff, decide_eq_false_iff_not, decide_eq_false_iff_not, not_lt, not_lt, ← harea]
  constructor
  · rintro ⟨⟨h1, h2⟩, h3⟩
    exact ⟨sample_fits hs hH hW hr hrr hd, ⟨h2, h1⟩, h3⟩
  · rintro ⟨_, ⟨h1, h2⟩, h3⟩
    exact ⟨⟨h2, h1⟩, h3⟩

/-- The converted node gives the first allowed box of those drawn, and the whole image only if none of them is allowed. In pixels the box lies within the image, for any rounding that is monotone and
keeps the borders. -/
theorem distort_allowed {sqrt : K → K} {round : K → Int} {useImage knownEmpty : Bool} {l : Limits K} {H W : Nat} {objects : List (Box K)} {draws : List (Draw K)} (hs : ∀ x, 0 ≤ sqrt x) (hH : 0 < H) (hW : 0 < W)
    (hr : 0 < l.minRatio) (hrr : l.minRatio ≤ l.maxRatio) (hd : ∀ d ∈ draws, Unit01 d) (hmono : ∀ x y, x ≤ y → round x ≤ round y) (hint : ∀ m : Nat, round (m : K) = m)
    (hk : (knownEmpty && useImage) = false) :
    ∃ (b : Box K) (y x h w : Int), distort sqrt round knownEmpty useImage l (H : K) (W : K) objects draws = .ok (b, (y, x), (h, w)) ∧
      ((∃ before d after, draws = before ++ d :: after ∧ b = sample sqrt l H W d ∧ Allowed l (H : K) W objects b ∧ ∀ d' ∈ before, ¬ Allowed l (H : K) W objects (sample sqrt l H W d')) ∨
        (b = whole ∧ ∀ d ∈ draws, ¬ Allowed l (H : K) W objects (sample sqrt l H W d))) ∧
      y = round (b.y1 * H) ∧ x = round (b.x1 * W) ∧ y + h = round (b.y2 * H) ∧ x + w = round (b.x2 * W) ∧ 0 ≤ y ∧ 0 ≤ x ∧ 0 ≤ h ∧ 0 ≤ w ∧ y + h ≤ H ∧ x + w ≤ W := by
  have hHK : (0 : K) < H := Nat.cast_pos.2 hH
  have hWK : (0 : K) < W := Nat.cast_pos.2 hW
  have key : ∀ ds : List (Draw K), (∀ d ∈ ds, Unit01 d) → ∀ b, b = ((ds.filter (fun d => areaOk sqrt l (H : K) W d && objectOk l objects (sample sqrt l (H : K) W d))).map (sample sqrt l (H : K) W) ++ [whole]).headD whole →
      ((∃ before d after, ds = before ++ d :: after ∧ b = sample sqrt l H W d ∧ Allowed l (H : K) W objects b ∧ ∀ d' ∈ before, ¬ Allowed l (H : K) W objects (sample sqrt l H W d')) ∨
        (b = whole ∧ ∀ d ∈ ds, ¬ Allowed l (H : K) W objects (sample sqrt l H W d))) := by
    intro ds
    induction ds with
    | nil =>
      intro _ b hb
      exact .inr ⟨hb, fun d hd => absurd hd List.not_mem_nil⟩
    | cons d ds ih =>
      intro hds b hb
      have hiff := accepted_iff (objects := objects) hs hHK hWK hr hrr (hds d (List.mem_cons_self ..))
      by_cases ha : (areaOk sqrt l (H : K) W d && objectOk l objects (sample sqrt l (H : K) W d)) = true
      · rw [List.filter_cons_of_pos (p := fun d => areaOk sqrt l (H : K) W d && objectOk l objects (sample sqrt l (H : K) W d)) ha] at hb
        have hb : b = sample sqrt l H W d := hb
        exact .inl ⟨[], d, ds, rfl, hb, hb ▸ hiff.1 ha, fun d' hd' => absurd hd' List.not_mem_nil⟩
      · rw [List.filter_cons_of_neg (p := fun d => areaOk sqrt l (H : K) W d && objectOk l objects (sample sqrt l (H : K) W d)) ha] at hb
        rcases ih (fun d' hd' => hds d' (List.mem_cons_of_mem _ hd')) b hb with ⟨bf, d', af, h1, h2, h3, h4⟩ | ⟨h1, h2⟩
        · refine .inl ⟨d :: bf, d', af, by rw [h1]; rfl, h2, h3, ?_⟩
          intro d'' hd''
          rcases List.mem_cons.1 hd'' with rfl | hd''
          · exact fun h => ha (hiff.2 h)
          · exact h4 d'' hd''
        · refine .inr ⟨h1, ?_⟩
          intro d'' hd''
          rcases List.mem_cons.1 hd'' with rfl | hd''
          · exact fun h => ha (hiff.2 h)
          · exact h2 d'' hd''
  unfold distort
  dsimp only
  rw [hk, if_neg (by decide)]
  have hb := key draws hd _ rfl
  generalize ((draws.filter (fun d => areaOk sqrt l (H : K) W d && objectOk l objects (sample sqrt l (H : K) W d))).map (sample sqrt l (H : K) W) ++ [whole]).headD whole = b at hb ⊢
  have hin : 0 ≤ b.y1 ∧ b.y1 ≤ b.y2 ∧ b.y2 ≤ 1 ∧ 0 ≤ b.x1 ∧ b.x1 ≤ b.x2 ∧ b.x2 ≤ 1 := by
    rcases hb with ⟨_, _, _, _, _, h, _⟩ | ⟨h, _⟩
    · exact ⟨h.fits.top, h.fits.vertical, h.fits.bottom, h.fits.left, h.fits.horizontal, h.fits.right⟩
    · rw [h]
      exact ⟨le_refl _, zero_le_one, le_refl _, le_refl _, zero_le_one, le_refl _⟩
  have pix : ∀ (S : Nat), (0 : K) < S → ∀ p q : K, 0 ≤ p → p ≤ q → q ≤ 1 → 0 ≤ round (p * S) ∧ round (p * S) ≤ round (q * S) ∧ round (q * S) ≤ S := by
    intro S hS p q h1 h2 h3
    refine ⟨?_, hmono _ _ (mul_le_mul_of_nonneg_right h2 (le_of_lt hS)), ?_⟩
    · have := hmono 0 (p * S) (mul_nonneg h1 (le_of_lt hS))
      have h0 := hint 0
      rw [Nat.cast_zero] at h0
      rw [h0] at this
      exact this
    · have := hmono (q * S) S (mul_le_of_le_one_left (le_of_lt hS) h3)
      rwa [hint S] at this
  obtain ⟨p1, p2, p3⟩ := pix H hHK b.y1 b.y2 hin.1 hin.2.1 hin.2.2.1
  obtain ⟨q1, q2, q3⟩ := pix W hWK b.x1 b.x2 hin.2.2.2.1 hin.2.2.2.2.1 hin.2.2.2.2.2
  exact ⟨b, _, _, _, _, rfl, hb, rfl, rfl, by omega, by omega, p1, q1, by omega, by omega, by omega, by omega⟩

omit [IsStrictOrderedRing K] in
/-- Objects known to be none, with the image to be used in their place: TensorFlow draws a box of the image, the handler raises. -/
theorem no_objects_violated {sqrt : K → K} {round : K → Int} {l : Limits K} {H W : K} {draws : List (Draw K)} : distort sqrt round true true l H W [] draws = .error "name 'min_area_const' is not defined" := rfl

end Verif.Distort
