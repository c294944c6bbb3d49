import Verif.Props.C82_Nms
/-!
# C82: examples
-/
namespace Verif.Nms.Ex
open Verif.Nms Verif.Stack

/-- Three boxes: two that nearly agree, and one beside them. -/
def box (i : Nat) : Box ℚ := if i = 0 then ⟨0, 0, 10, 10⟩ else if i = 1 then ⟨10, 10, 0, 1⟩ else ⟨0, 20, 10, 30⟩

/-- Their scores. -/
def score (i : Nat) : ℚ := if i = 0 then 6 / 10 else if i = 1 then 9 / 10 else 5 / 10

theorem iou01 : tfIou (box 1) (box 0) = 9 / 10 := by
  have m1 : max (10 : ℚ) 0 = 10 := max_eq_left (by norm_num)
  have m2 : max (0 : ℚ) 10 = 10 := max_eq_right (by norm_num)
  have m3 : min (10 : ℚ) 0 = 0 := min_eq_right (by norm_num)
  have m4 : min (0 : ℚ) 10 = 0 := min_eq_left (by norm_num)
  have m5 : max (10 : ℚ) 1 = 10 := max_eq_left (by norm_num)
  have m6 : min (10 : ℚ) 1 = 1 := min_eq_right (by norm_num)
  have m7 : max (1 : ℚ) 0 = 1 := max_eq_left (by norm_num)
  have m8 : max (9 : ℚ) 0 = 9 := max_eq_left (by norm_num)
  norm_num [tfIou, area, inter, box, m1, m2, m3, m4, m5, m6, m7, m8]

theorem iou12 : tfIou (box 1) (box 2) = 0 := by
  have m1 : max (10 : ℚ) 0 = 10 := max_eq_left (by norm_num)
  have m2 : max (0 : ℚ) 10 = 10 := max_eq_right (by norm_num)
  have m3 : min (10 : ℚ) 0 = 0 := min_eq_right (by norm_num)
  have m4 : min (0 : ℚ) 10 = 0 := min_eq_left (by norm_num)
  have m5 : max (10 : ℚ) 1 = 10 := max_eq_left (by norm_num)
  have m6 : min (10 : ℚ) 1 = 1 := min_eq_right (by norm_num)
  have m7 : max (20 : ℚ) 30 = 30 := max_eq_right (by norm_num)
  have m8 : min (20 : ℚ) 30 = 20 := min_eq_left (by norm_num)
  have m9 : min (10 : ℚ) 30 = 10 := min_eq_left (by norm_num)
  have m10 : max (1 : ℚ) 20 = 20 := max_eq_right (by norm_num)
  have m11 : max (-10 : ℚ) 0 = 0 := max_eq_right (by norm_num)
  norm_num [tfIou, area, inter, box, m1, m2, m3, m4, m5, m6, m7, m8, m9, m10, m11]

/-- The box with the best score is selected, the one that nearly agrees with it is not, the one beside it is. -/
theorem ex_selected : TfNms 3 4 box score (1 / 2) (some (1 / 10)) [1, 2] := by
  refine ⟨by decide, ?_, ?_, ?_, ?_⟩
  · intro i hi
    have : i = 1 ∨ i = 2 := by simpa using hi
    rcases this with rfl | rfl
    · exact ⟨by omega, fun t ht => by rw [← Option.some.inj ht]; norm_num [score]⟩
    · exact ⟨by omega, fun t ht => by rw [← Option.some.inj ht]; norm_num [score]⟩
  · have h : Before score 1 2 := .inl (by norm_num [score])
    simpa using h
  · have h : ¬ (1 / 2 : ℚ) < tfIou (box 1) (box 2) := by rw [iou12]; norm_num
    simpa using h
  · intro i hi _ hn
    have h0 : i = 0 := by
      have : i ≠ 1 ∧ i ≠ 2 := by simpa using hn
      omega
    subst h0
    refine .inl ⟨1, by decide, .inl (by norm_num [score]), ?_⟩
    show (1 / 2 : ℚ) < tfIou (box 1) (box 0)
    rw [iou01]; norm_num

/-- Version 5, padded to four. -/
theorem ex_padded : nonMaxSuppression id ⟨11, 5, true, some (some 0), true⟩ 3 4 box score (1 / 2) (some (1 / 10)) = .ok (some ⟨[1, 2, 0, 0], some [9 / 10, 5 / 10, 0, 0], some 2⟩) := by
  obtain ⟨s, hs, he⟩ := nms_converts (viaFloat := id) (nd := ⟨11, 5, true, some (some 0), true⟩) (n := 3) (k := 4) (box := box) (score := score) (iou := 1 / 2) (least := some (1 / 10)) (by norm_num) rfl
    (fun _ _ _ _ => rfl) (.inr rfl) (fun _ => by decide) (fun _ _ => by decide)
  rw [he, selected_unique hs ex_selected]
  simp [tfPad, score]

/-- Padded scores with operator set 10: the handler raises. -/
theorem padded_scores_refused (k : Nat) (least : Option ℚ) : nonMaxSuppression id ⟨10, 5, true, none, true⟩ 3 k box score (1 / 2) least = .error "make_tensor: the type is a list" := rfl

end Verif.Nms.Ex
