import Verif.Spec.Detection
/-!
# Model: `TFL_TFLite_Detection_PostProcess` (tf2onnx/tflite_handlers/tfl_postprocess.py:22-150)

Simplified as in `Model/Nms`: tensors are functions of their indices, vectors are lists, numbers are elements of an ordered field with a function `exp`. One image (the handler squeezes the axis of the
images, tfl_postprocess.py:101-103).
-/
namespace Verif.Detection
open Verif.Nms

variable {K : Type} [Field K] [LinearOrder K]

/-- What the handler reads: `num_classes`, `max_detections`, the scales, the thresholds, `use_regular_nms`, `detections_per_class`. -/
structure DetNode (K : Type) where
  opset : Nat
  numClasses : Nat
  maxDetections : Nat
  scale : Centred K
  iou : K
  least : K
  regular : Bool
  perClass : Option Nat

/-- The boxes (tfl_postprocess.py:47-65): quotients, products, `Exp`, halves, differences and sums. -/
def adjusted (exp : K → K) (scale e a : Centred K) : Box K :=
  let cy := e.y / scale.y * a.h + a.y
  let cx := e.x / scale.x * a.w + a.x
  let hh := exp (e.h / scale.h) * a.h * (1 / 2)
  let hw := exp (e.w / scale.w) * a.w * (1 / 2)
  ⟨cy - hh, cx - hw, cy + hh, cx + hw⟩

/-- How many boxes are selected per class (tfl_postprocess.py:73-79). -/
def boxesPerClass (nd : DetNode K) : Nat := if nd.regular then nd.perClass.getD 100 else nd.maxDetections

/-- How many are given (tfl_postprocess.py:106-115): below operator set 12 the minimum is one of floats. -/
def minK (viaFloat : Nat → Nat) (nd : DetNode K) (m : Nat) : Nat := if 12 ≤ nd.opset then min nd.maxDetections m else min (viaFloat nd.maxDetections) (viaFloat m)

/-- `TflDetectionPostProcess.version_11` (tfl_postprocess.py:24-150) of `n` boxes with scores in `all` columns. -/
def detect (exp : K → K) (viaFloat : Nat → Nat) (nd : DetNode K) (n all : Nat) (code anchor : Nat → Centred K) (score : Nat → Nat → K) : Detections K :=
  let pred := fun i c => score i (all - nd.numClasses + c)
  let box := fun i => adjusted exp nd.scale (code i) (anchor i)
  let rows := onnxNms 1 (min nd.numClasses all) n (boxesPerClass nd) (fun _ => box) (fun _ c i => pred i c) nd.iou (some nd.least)
  let boxes := rows.map (fun r => box (r.getD 2 0))
  let classes := rows.map (fun r => r.getD 1 0)
  let scores := rows.map (fun r => pred (r.getD 2 0) (r.getD 1 0))
  let k := minK viaFloat nd rows.length
  let t := Stack.topk rows.length k (fun j => scores.getD j 0)
  { boxes := t.map (fun j => boxes.getD j ⟨0, 0, 0, 0⟩) ++ List.replicate (nd.maxDetections - k) ⟨0, 0, 0, 0⟩
    classes := t.map (fun j => classes.getD j 0) ++ List.replicate (nd.maxDetections - k) 0
    scores := t.map (fun j => scores.getD j 0) ++ List.replicate (nd.maxDetections - k) 0
    count := k }

end Verif.Detection
