import Verif.Props.C84_Distort
import Mathlib.Analysis.Real.Sqrt
/-!
# C84: examples
-/
namespace Verif.Distort.Ex
open Verif.Distort Verif.Nms

/-- Squares with at least a quarter of the area of the image, and at least half of an object. -/
noncomputable def l : Limits ℝ := ⟨1, 1, 1 / 4, 1, 1 / 2⟩

/-- The smallest square, in the corner. -/
noncomputable def d : Draw ℝ := ⟨0, 0, 0, 0⟩

theorem sqrt_quarter : Real.sqrt (1 / 4) = 1 / 2 := by
  rw [show (1 / 4 : ℝ) = (1 / 2) ^ 2 by norm_num]
  exact Real.sqrt_sq (by norm_num)

theorem sides_corner : sides Real.sqrt l 100 100 d = (1 / 2, 1 / 2) := by
  have m : min (1 / 2 : ℝ) 1 = 1 / 2 := min_eq_left (by norm_num)
  have h : (1 : ℝ) / 4 / 1 = 1 / 4 := by norm_num
  unfold sides l d
  dsimp only
  rw [show (0 : ℝ) * (1 - 1) + 1 = 1 by norm_num, show (100 : ℝ) / 100 = 1 by norm_num, show (1 : ℝ) / 1 = 1 by norm_num, h, sqrt_quarter, div_one, Real.sqrt_one, min_self, min_self, m]
  norm_num

theorem sample_corner : sample Real.sqrt l 100 100 d = ⟨0, 0, 1 / 2, 1 / 2⟩ := by
  unfold sample
  rw [sides_corner]
  unfold d
  dsimp only
  norm_num

/-- The smallest square of these, and every other, has no more than the area of the image. -/
example : ((sample Real.sqrt l 100 100 d).y2 - (sample Real.sqrt l 100 100 d).y1) * ((sample Real.sqrt l 100 100 d).x2 - (sample Real.sqrt l 100 100 d).x1) ≤ 1 :=
  sample_area_le (sqrt := Real.sqrt) (l := l) (H := 100) (W := 100) (d := d) Real.sqrt_nonneg (fun _ h => Real.mul_self_sqrt h) (by norm_num) (by norm_num) (by unfold l; norm_num) (le_refl _)
    (by unfold l; norm_num) (by refine ⟨?_, ?_, ?_, ?_⟩ <;> exact ⟨le_refl _, zero_le_one⟩)

/-- Half of the object in the corner is in the square: it is given, 50 by 50 pixels. -/
theorem ex_corner : ∃ b, distort Real.sqrt (fun x => ⌊x⌋) false false l ((100 : ℕ) : ℝ) ((100 : ℕ) : ℝ) [⟨0, 0, 1 / 2, 1⟩] [d] = .ok (b, (0, 0), (50, 50)) ∧ b = ⟨0, 0, 1 / 2, 1 / 2⟩ := by
  have hd : ∀ d' ∈ [d], Unit01 d' := by
    intro d' hd'
    rw [List.mem_singleton.1 hd']
    refine ⟨?_, ?_, ?_, ?_⟩ <;> exact ⟨le_refl _, zero_le_one⟩
  obtain ⟨b, y, x, h, w, he, hb, h1, h2, h3, h4, _⟩ := distort_allowed (sqrt := Real.sqrt) (round := fun x : ℝ => ⌊x⌋) (useImage := false) (knownEmpty := false) (l := l) (H := 100) (W := 100)
    (objects := [⟨0, 0, 1 / 2, 1⟩]) (draws := [d]) Real.sqrt_nonneg (by omega) (by omega) (by unfold l; norm_num) (le_refl _) hd (fun _ _ => Int.floor_le_floor) (fun m => Int.floor_natCast m) rfl
  have hc : ((100 : ℕ) : ℝ) = 100 := by norm_num
  rw [hc] at hb h1 h2 h3 h4
  have hfit := sample_fits (sqrt := Real.sqrt) (l := l) (H := 100) (W := 100) (d := d) Real.sqrt_nonneg (by norm_num) (by norm_num) (by unfold l; norm_num) (le_refl _) (hd d (List.mem_singleton.2 rfl))
  have hall : Allowed l (100 : ℝ) 100 [⟨0, 0, 1 / 2, 1⟩] (sample Real.sqrt l 100 100 d) := by
    refine ⟨hfit, ?_, ⟨0, 0, 1 / 2, 1⟩, List.mem_singleton.2 rfl, ?_⟩
    · rw [sample_corner]
      unfold l
      norm_num
    · rw [sample_corner]
      unfold l common
      have m : min (1 / 2 : ℝ) 1 = 1 / 2 := min_eq_left (by norm_num)
      dsimp only
      rw [min_self, max_self, m, show (1 / 2 : ℝ) - 0 = 1 / 2 by norm_num, max_eq_left (by norm_num : (0 : ℝ) ≤ 1 / 2)]
      norm_num
  have hbe : b = ⟨0, 0, 1 / 2, 1 / 2⟩ := by
    rcases hb with ⟨bf, d', af, hl, hb, _, _⟩ | ⟨_, hn⟩
    · have : d' ∈ [d] := hl ▸ List.mem_append_right _ (List.mem_cons_self ..)
      rw [hb, List.mem_singleton.1 this, sample_corner]
    · exact absurd hall (hn d (List.mem_singleton.2 rfl))
  subst hbe
  dsimp only at h1 h2 h3 h4
  rw [zero_mul, Int.floor_zero] at h1 h2
  rw [show (1 / 2 : ℝ) * 100 = ((50 : ℤ) : ℝ) by norm_num, Int.floor_intCast] at h3 h4
  subst h1; subst h2
  refine ⟨_, ?_, rfl⟩
  rw [he, show h = 50 by omega, show w = 50 by omega]

end Verif.Distort.Ex
