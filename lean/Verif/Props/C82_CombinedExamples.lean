import Verif.Props.C82_Combined
import Verif.Props.C82_Examples
/-!
# C82: examples with several classes
-/
namespace Verif.Nms.Ex
open Verif.Nms Verif.Stack

/-- The three boxes of the other examples, in one class, two to be given: both selected ones count. -/
theorem ex_combined : ∃ f, combinedNms true true false 1 1 3 4 2 (fun _ => box) (fun _ i _ => score i) (1 / 2) (some (1 / 10)) = .ok (some f) ∧ (f 0).valid = 2 := by
  obtain ⟨f, hf, h⟩ := combined_converts (B := 1) (C := 1) (n := 3) (k := 4) (total := 2) (clipBoxes := true) (perClass := false) (box := fun _ => box) (score := fun _ i _ => score i) (iou := 1 / 2)
    (least := some (1 / 10)) (by norm_num) (fun b _ i _ c _ ht => lt_trans (by norm_num) (ht _ rfl))
  refine ⟨f, hf, ?_⟩
  obtain ⟨sel, p, hsel, E, hE, hp, t, _, hr⟩ := h 0 (by omega)
  have hs : sel 0 = [1, 2] := selected_unique (hsel 0 (by omega)) ex_selected
  have hl : E.length = 2 := by
    rw [hE, show List.range 1 = [0] from rfl, List.flatMap_cons, List.flatMap_nil, List.append_nil, List.length_map, hs]; rfl
  have := hp.length
  rw [hl] at this
  rw [hr]
  exact this

/-- One box with a negative score, no threshold: TensorFlow gives it. -/
theorem negative_tf (r : Combined ℚ) (h : TfCombined 1 1 2 1 false false (fun _ => ⟨0, 0, 1, 1⟩) (fun _ _ => -1) (1 / 2) none r) : r.valid = 1 := by
  obtain ⟨sel, p, hsel, E, hE, hp, t, _, hr⟩ := h
  have h0 := hsel 0 (by omega)
  have hs : sel 0 = [0] := by
    refine selected_unique h0 ⟨by decide, ?_, List.pairwise_singleton _ _, List.pairwise_singleton _ _, ?_⟩
    · intro i hi
      rw [List.mem_singleton.1 hi]
      exact ⟨by omega, fun t ht => by cases ht⟩
    · intro i hi _ hn
      exact absurd (List.mem_singleton.2 (by omega)) hn
  have hl : E.length = 1 := by
    rw [hE, show List.range 1 = [0] from rfl, List.flatMap_cons, List.flatMap_nil, List.append_nil, List.length_map, hs]; rfl
  have := hp.length
  rw [hl] at this
  rw [hr]
  exact this

/-- The converted node gives none: the zeros that fill the grid are larger. -/
theorem negative_violated : ∃ f, combinedNms true false false 1 1 1 2 1 (fun _ _ => (⟨0, 0, 1, 1⟩ : Box ℚ)) (fun _ _ _ => -1) (1 / 2) none = .ok (some f) ∧ (f 0).valid = 0 := by
  have ht : topk 1 1 (fun _ : Nat => (-1 : ℚ)) = [0] :=
    Verif.Greedy.topk_best ⟨by omega, fun _ _ => le_refl _, fun _ hj => absurd hj (Nat.not_lt_zero _)⟩
  have hr : onnxNms 1 1 1 2 (fun _ _ => (⟨0, 0, 1, 1⟩ : Box ℚ)) (fun _ _ _ => -1) (1 / 2) none = [[0, 0, 0]] := by
    unfold onnxNms
    dsimp only
    rw [ht]; rfl
  have hg : gridScore [[0, 0, 0]] (fun _ _ _ => (-1 : ℚ)) 0 = fun j => if j = 0 then -1 else 0 := by
    funext j
    by_cases h : j = 0
    · subst h; rfl
    · have hc : cell [[0, 0, 0]] 0 j = none := by
        rw [cell_eq]
        exact List.getElem?_eq_none (by show 1 ≤ j; omega)
      unfold gridScore
      rw [hc, if_neg h]
  have ht2 : topk 2 1 (gridScore [[0, 0, 0]] (fun _ _ _ => (-1 : ℚ)) 0) = [1] := by
    rw [hg]
    refine Verif.Greedy.topk_best ⟨by omega, ?_, ?_⟩
    · intro j _
      rw [if_neg (by omega : ¬ (1 : Nat) = 0)]
      split
      · norm_num
      · exact le_refl _
    · intro j hj
      rw [if_pos (by omega : j = 0), if_neg (by omega : ¬ (1 : Nat) = 0)]
      norm_num
  unfold combinedNms
  dsimp only
  rw [if_neg (by decide), hr, if_pos (by decide)]
  refine ⟨_, rfl, ?_⟩
  unfold combinedImage
  dsimp only
  rw [show min 1 (2 * 1) = 1 from rfl, show 2 * 1 = 2 from rfl, ht2]
  rfl

end Verif.Nms.Ex
