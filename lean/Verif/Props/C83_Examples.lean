import Verif.Props.C83_Detection
import Mathlib.Algebra.Order.Ring.Rat
/-!
# C83: examples
-/
namespace Verif.Detection.Ex
open Verif.Detection Verif.Nms Verif.Stack

/-- One class, two detections, at most one per class. -/
def nd (least : ℚ) : DetNode ℚ := ⟨12, 1, 2, ⟨10, 10, 5, 5⟩, 1 / 2, least, true, some 1⟩

/-- An anchor, and no displacement. -/
def anchor (_ : Nat) : Centred ℚ := ⟨1 / 2, 1 / 2, 1, 1⟩
def code (_ : Nat) : Centred ℚ := ⟨0, 0, 0, 0⟩

/-- A column that is no class, and one that is. -/
def score (_ c : Nat) : ℚ := if c = 0 then 1 else 9 / 10

/-- What is selected from one box whose score is enough. -/
theorem one_selected {least : ℚ} {supp : Nat → Nat → Prop} {s : List Nat} (hl : least ≤ 9 / 10) (h : IsSelected 1 1 (fun i => score i (2 - 1 + 0)) (fun i => least ≤ score i (2 - 1 + 0)) supp s) :
    s = [0] := by
  refine selected_unique h ⟨by decide, ?_, List.pairwise_singleton _ _, List.pairwise_singleton _ _, ?_⟩
  · intro i hi
    rw [List.mem_singleton.1 hi]
    exact ⟨by omega, hl⟩
  · intro i hi _ hn
    exact absurd (List.mem_singleton.2 (by omega)) hn

theorem one_detected {least : ℚ} {r : Detections ℚ} (hl : least ≤ 9 / 10) (h : TflDetect (fun _ => 1) (nd least).scale 1 2 1 1 2 code anchor score (1 / 2) least r) :
    r.scores = [9 / 10, 0] ∧ r.classes = [0, 0] ∧ r.count = 1 := by
  obtain ⟨sel, p, hsel, E, hE, hp, hr⟩ := h
  have hs : sel 0 = [0] := one_selected hl (hsel 0 (by omega))
  have hE' : E = [(0, 0)] := by
    rw [hE, show List.range 1 = [0] from rfl, List.flatMap_cons, List.flatMap_nil, List.append_nil, hs]; rfl
  subst hE'
  have hpl : p.length = 1 := hp.length
  obtain ⟨a, rfl⟩ := List.length_eq_one_iff.1 hpl
  have ha : a = 0 := by
    have h1 : a < 1 := hp.range a (List.mem_singleton.2 rfl)
    omega
  subst ha
  rw [hr]
  exact ⟨rfl, rfl, rfl⟩

/-- A box with a score above the threshold: it is given, and one row of zeros. -/
theorem ex_detect : (detect (fun _ => 1) id (nd (1 / 2)) 1 2 code anchor score).scores = [9 / 10, 0] ∧ (detect (fun _ => 1) id (nd (1 / 2)) 1 2 code anchor score).classes = [0, 0] ∧
    (detect (fun _ => 1) id (nd (1 / 2)) 1 2 code anchor score).count = 1 := by
  refine one_detected (least := 1 / 2) (by norm_num) (detect_converts (nd := nd (1 / 2)) (k := 1) (all := 2) (n := 1) ?_ rfl rfl (by decide) ?_ (fun h => absurd h (by decide)))
  · show (0 : ℚ) ≤ 1 / 2
    norm_num
  · intro i _ c _
    show score i (2 - 1 + c) ≠ 1 / 2
    unfold score
    rw [if_neg (by omega)]
    norm_num

/-- A box whose score is the threshold: TensorFlow Lite gives it (`one_detected`), the converted node does not. -/
theorem threshold_violated : (detect (fun _ => 1) id (nd (9 / 10)) 1 2 code anchor score).count = 0 := by
  have hr : onnxNms 1 1 1 1 (fun _ i => adjusted (fun _ => 1) (nd (9 / 10)).scale (code i) (anchor i)) (fun _ c i => score i (2 - 1 + c)) (1 / 2) (some (9 / 10)) = [] := by
    have hf : ∀ l : List Nat, l.filter (fun i => (some (9 / 10 : ℚ)).all (fun t => decide (t < score i (2 - 1 + 0)))) = [] := by
      intro l
      rw [List.filter_eq_nil_iff]
      intro i _
      rw [Option.all_some, decide_eq_true_eq, show score i (2 - 1 + 0) = 9 / 10 from rfl]
      exact lt_irrefl _
    unfold onnxNms
    rw [show List.range 1 = [0] from rfl, List.flatMap_cons, List.flatMap_nil, List.flatMap_cons, List.flatMap_nil, hf]
    rfl
  show min 2 (onnxNms 1 1 1 1 (fun _ i => adjusted (fun _ => 1) (nd (9 / 10)).scale (code i) (anchor i)) (fun _ c i => score i (2 - 1 + c)) (1 / 2) (some (9 / 10))).length = 0
  rw [hr]; rfl

end Verif.Detection.Ex
