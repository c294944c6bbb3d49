import Verif.Spec.Nms
/-!
# Post-processing of detections: what TensorFlow Lite computes
-/
namespace Verif.Detection
open Verif.Nms

variable {K : Type} [Field K] [LinearOrder K]

/-- Centre and size. -/
structure Centred (K : Type) where
  y : K
  x : K
  h : K
  w : K

/-- The box encoded by `e` relative to the anchor `a`, as TensorFlow Lite's `DecodeCenterSizeBoxes` decodes it. -/
def decodeBox (exp : K → K) (scale e a : Centred K) : Box K :=
  ⟨e.y / scale.y * a.h + a.y - 1 / 2 * exp (e.h / scale.h) * a.h, e.x / scale.x * a.w + a.x - 1 / 2 * exp (e.w / scale.w) * a.w,
   e.y / scale.y * a.h + a.y + 1 / 2 * exp (e.h / scale.h) * a.h, e.x / scale.x * a.w + a.x + 1 / 2 * exp (e.w / scale.w) * a.w⟩

/-- The results: boxes, classes, scores, padded with zeros, and how many of them count. -/
structure Detections (K : Type) where
  boxes : List (Box K)
  classes : List Nat
  scores : List K
  count : Nat

/-- `TFLite_Detection_PostProcess` with regular suppression of `n` boxes, `C` classes out of `all` columns (those in front are not classes): class by class at most `perClass` boxes with scores from
`least` on are selected, and the best `total` of all classes together are given. -/
def TflDetect (exp : K → K) (scale : Centred K) (n all C perClass total : Nat) (code anchor : Nat → Centred K) (score : Nat → Nat → K) (iou least : K) (r : Detections K) : Prop :=
  ∃ (sel : Nat → List Nat) (p : List Nat),
    (∀ c, c < C → IsSelected n perClass (fun i => score i (all - C + c)) (fun i => least ≤ score i (all - C + c))
      (fun j i => iou < tfIou (decodeBox exp scale (code j) (anchor j)) (decodeBox exp scale (code i) (anchor i))) (sel c)) ∧
    ∃ entries : List (Nat × Nat), entries = (List.range C).flatMap (fun c => (sel c).map (fun i => (c, i))) ∧
      TakesBest entries.length total (fun j => score (entries.getD j (0, 0)).2 (all - C + (entries.getD j (0, 0)).1)) p ∧
      r = { boxes := p.map (fun j => decodeBox exp scale (code (entries.getD j (0, 0)).2) (anchor (entries.getD j (0, 0)).2)) ++ List.replicate (total - p.length) ⟨0, 0, 0, 0⟩
            classes := p.map (fun j => (entries.getD j (0, 0)).1) ++ List.replicate (total - p.length) 0
            scores := p.map (fun j => score (entries.getD j (0, 0)).2 (all - C + (entries.getD j (0, 0)).1)) ++ List.replicate (total - p.length) 0
            count := p.length }

end Verif.Detection
