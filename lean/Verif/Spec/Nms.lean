import Verif.Spec.Stack
import Mathlib.Algebra.Field.Defs
import Mathlib.Data.List.Pairwise
/-!
# Selection of boxes (non-maximum suppression): what TensorFlow and ONNX compute
-/
namespace Verif.Nms
open Verif.Stack

/-- A box: two opposite corners. -/
structure Box (K : Type) where
  y1 : K
  x1 : K
  y2 : K
  x2 : K

variable {K : Type} [Field K] [LinearOrder K]

/-- The area of a box. -/
def area (b : Box K) : K := (max b.y1 b.y2 - min b.y1 b.y2) * (max b.x1 b.x2 - min b.x1 b.x2)

/-- The area that two boxes have in common. -/
def inter (a b : Box K) : K :=
  max (min (max a.y1 a.y2) (max b.y1 b.y2) - max (min a.y1 a.y2) (min b.y1 b.y2)) 0 * max (min (max a.x1 a.x2) (max b.x1 b.x2) - max (min a.x1 a.x2) (min b.x1 b.x2)) 0

/-! ## TensorFlow -/

/-- The overlap of two boxes: the common area divided by the area of both together, nothing if one of them is empty. -/
def tfIou (a b : Box K) : K := if area a ≤ 0 ∨ area b ≤ 0 then 0 else inter a b / (area a + area b - inter a b)

/-- The boxes selected from `n` boxes, at most `k` of them, the best score first, of equal ones the one in front: candidates, none of them suppressed by one with a better score; any other candidate is
suppressed by a selected box with a better score, or comes after `k` selected ones. -/
structure IsSelected (n k : Nat) (score : Nat → K) (cand : Nat → Prop) (supp : Nat → Nat → Prop) (s : List Nat) : Prop where
  short : s.length ≤ k
  cands : ∀ i ∈ s, i < n ∧ cand i
  sorted : s.Pairwise (Before score)
  apart : s.Pairwise (fun j i => ¬ supp j i)
  complete : ∀ i, i < n → cand i → i ∉ s → (∃ j ∈ s, Before score j i ∧ supp j i) ∨ (s.length = k ∧ ∀ j ∈ s, Before score j i)

/-- `tf.image.non_max_suppression` of `n` boxes: `s` are the selected ones. Without a threshold for the scores every box is a candidate. -/
def TfNms (n k : Nat) (box : Nat → Box K) (score : Nat → K) (iou : K) (least : Option K) (s : List Nat) : Prop :=
  IsSelected n k score (fun i => ∀ t, least = some t → t < score i) (fun j i => iou < tfIou (box j) (box i)) s

/-- Padding with zeros to `k` elements, if asked for. -/
def tfPad {β : Type} (pad : Bool) (k : Nat) (z : β) (s : List β) : List β := if pad then s ++ List.replicate (k - s.length) z else s

/-- Which of `e` entries with scores `score` are taken, at most `total`: the best ones, the best first; among equal ones any. -/
structure TakesBest (e total : Nat) (score : Nat → K) (p : List Nat) : Prop where
  length : p.length = min total e
  range : ∀ i ∈ p, i < e
  nodup : p.Nodup
  sorted : p.Pairwise (fun i j => score j ≤ score i)
  others : ∀ i ∈ p, ∀ j, j < e → j ∉ p → score j ≤ score i

/-- A box cut to the unit square. -/
def clip (b : Box K) : Box K := ⟨min (max b.y1 0) 1, min (max b.x1 0) 1, min (max b.y2 0) 1, min (max b.x2 0) 1⟩

/-- What is given for one image: boxes, scores, classes and how many of them count. -/
structure Combined (K : Type) where
  boxes : List (Box K)
  scores : List K
  classes : List Nat
  valid : Nat

/-- `tf.image.combined_non_max_suppression` of one image with `n` boxes for all of its `C` classes: selection class by class, the best of all classes together, padding with zeros. -/
def TfCombined (C n k total : Nat) (clipBoxes perClass : Bool) (box : Nat → Box K) (score : Nat → Nat → K) (iou : K) (least : Option K) (r : Combined K) : Prop :=
  ∃ (sel : Nat → List Nat) (p : List Nat), (∀ c, c < C → TfNms n k box (fun i => score i c) iou least (sel c)) ∧
    ∃ entries : List (Nat × Nat), entries = (List.range C).flatMap (fun c => (sel c).map (fun i => (c, i))) ∧
      TakesBest entries.length total (fun j => score (entries.getD j (0, 0)).2 (entries.getD j (0, 0)).1) p ∧
      ∃ target : Nat, target = (if perClass then min total (k * C) else total) ∧
        r = { boxes := p.map (fun j => (if clipBoxes then clip else id) (box (entries.getD j (0, 0)).2)) ++ List.replicate (target - p.length) ⟨0, 0, 0, 0⟩
              scores := p.map (fun j => score (entries.getD j (0, 0)).2 (entries.getD j (0, 0)).1) ++ List.replicate (target - p.length) 0
              classes := p.map (fun j => (entries.getD j (0, 0)).1) ++ List.replicate (target - p.length) 0
              valid := p.length }

/-! ## ONNX -/

/-- Does the selected box `a` suppress the box `b`, as in onnxruntime: nothing empty counts. -/
def onnxSupp (iou : K) (a b : Box K) : Bool :=
  !decide (inter a b ≤ 0) && !decide (area a ≤ 0 ∨ area b ≤ 0 ∨ area a + area b - inter a b ≤ 0) && decide (iou < inter a b / (area a + area b - inter a b))

/-- Boxes are taken one after the other unless suppressed. -/
def greedy (supp : Nat → Nat → Bool) (k : Nat) : List Nat → List Nat → List Nat
  | [], s => s
  | i :: is, s => if k ≤ s.length then s else if s.any (fun j => supp j i) then greedy supp k is s else greedy supp k is (s ++ [i])

/-- `NonMaxSuppression` of `B` images, `C` classes and `n` boxes: rows with the numbers of the image, the class and the box. -/
def onnxNms (B C n k : Nat) (box : Nat → Nat → Box K) (score : Nat → Nat → Nat → K) (iou : K) (least : Option K) : List (List Nat) :=
  (List.range B).flatMap (fun b => (List.range C).flatMap (fun c =>
    (greedy (fun j i => onnxSupp iou (box b j) (box b i)) k ((topk n n (score b c)).filter (fun i => least.all (fun t => decide (t < score b c i)))) []).map (fun i => [b, c, i])))

end Verif.Nms
