import Verif.Spec.Conv
import Verif.Spec.Einsum
import Mathlib.Analysis.SpecialFunctions.Pow.Real
/-!
# Layers that work on the channels of images: what TensorFlow and ONNX compute

`mk last n sp c`: an index (or a shape) with the channels last or first (`Spec/Conv`). Elements of the arithmetic layers are real numbers.
-/
namespace Verif.Channels
open Verif.Tensor Verif.Conv Verif.Einsum

/-! ## TensorFlow -/

/-- `tf.nn.space_to_depth`: every block of `b × b` pixels becomes one pixel; the channels of the pixels follow one another, row by row. -/
def tfSpaceToDepth {α : Type} (last : Bool) (b : Nat) (x : T α) : T α :=
  let C := chOf last 2 x.shape
  ⟨mk last (nth x.shape 0) [spOf last x.shape 0 / b, spOf last x.shape 1 / b] (b * b * C), fun i =>
    let p := chOf last 2 i / C
    x.get (mk last (nth i 0) [spOf last i 0 * b + p / b, spOf last i 1 * b + p % b] (chOf last 2 i % C))⟩

/-- `tf.nn.depth_to_space`: every pixel becomes a block of `b × b` pixels. -/
def tfDepthToSpace {α : Type} (last : Bool) (b : Nat) (x : T α) : T α :=
  let C := chOf last 2 x.shape / (b * b)
  ⟨mk last (nth x.shape 0) [spOf last x.shape 0 * b, spOf last x.shape 1 * b] C, fun i =>
    x.get (mk last (nth i 0) [spOf last i 0 / b, spOf last i 1 / b] ((spOf last i 0 % b * b + spOf last i 1 % b) * C + chOf last 2 i))⟩

/-- `tf.nn.local_response_normalization`, `x` of shape `[n, h, w, c]`: the channels at most `r` away. -/
noncomputable def tfLrn (r : Nat) (bias alpha beta : ℝ) (x : T ℝ) : T ℝ :=
  ⟨x.shape, fun i => x.get i / (bias + alpha * ((List.range (nth x.shape 3)).map (fun k =>
    if nth i 3 ≤ k + r ∧ k ≤ nth i 3 + r then x.get [nth i 0, nth i 1, nth i 2, k] ^ 2 else 0)).sum) ^ beta⟩

/-- All values of a channel. -/
def channelValues (last : Bool) (m : Nat) (x : T ℝ) (c : Nat) : Multiset ℝ := Multiset.map x.get (((allIdx x.shape).filter (fun i => chOf last m i = c) : List (List Nat)) : Multiset (List Nat))

/-- The mean of some numbers. -/
noncomputable def mean (s : Multiset ℝ) : ℝ := s.sum / (Multiset.card s : ℝ)

/-- Their variance, which is the mean of the squared distances from the mean. -/
noncomputable def variance (s : Multiset ℝ) : ℝ := mean (s.map (fun v => (v - mean s) ^ 2))

/-- `FusedBatchNorm`, the first output, with `m` spatial axes: `μ` and `σ2` are mean and variance of every channel. -/
noncomputable def normalise (last : Bool) (m : Nat) (eps : ℝ) (scale offset μ σ2 : Nat → ℝ) (x : T ℝ) : T ℝ :=
  ⟨x.shape, fun i => (x.get i - μ (chOf last m i)) * (scale (chOf last m i) / Real.sqrt (σ2 (chOf last m i) + eps)) + offset (chOf last m i)⟩

/-- Not training: with the mean and the variance that are given. -/
noncomputable def tfBatchNorm (last : Bool) (m : Nat) (eps : ℝ) (scale offset μ σ2 : Nat → ℝ) (x : T ℝ) : T ℝ := normalise last m eps scale offset μ σ2 x

/-- Training: with mean and variance of the batch. -/
noncomputable def tfBatchNormTraining (last : Bool) (m : Nat) (eps : ℝ) (scale offset : Nat → ℝ) (x : T ℝ) : T ℝ :=
  normalise last m eps scale offset (fun c => mean (channelValues last m x c)) (fun c => variance (channelValues last m x c)) x

/-- `AdjustContrastv2`, for images of shape `[…, h, w, c]`: the distance from the mean of the channel in the image is multiplied. -/
noncomputable def tfContrast (factor : ℝ) (x : T ℝ) : T ℝ :=
  let a := x.shape.length - 3
  let h := nth x.shape a
  let w := nth x.shape (a + 1)
  let μ := fun i => ((List.range h).map (fun y => ((List.range w).map (fun z => x.get (setAt (setAt i a y) (a + 1) z))).sum)).sum / (h * w : ℝ);
  ⟨x.shape, fun i => (x.get i - μ i) * factor + μ i⟩

/-! ## ONNX -/

/-- ONNX `Reshape` without inference. -/
def reshapeN {α : Type} (r : List Nat) (x : T α) : Option (T α) := if size r = size x.shape then some (Tensor.reshape r x) else none

/-- ONNX `DepthToSpace`, mode `DCR`, as its document defines it with `reshape` and `transpose`. -/
def onnxDepthToSpace {α : Type} (b : Nat) (x : T α) : Option (T α) :=
  match x.shape with
  | [n, c, h, w] => (reshapeN [n, b, b, c / (b * b), h, w] x).bind (fun t => (transposeT [0, 3, 4, 1, 5, 2] t).bind (fun t => reshapeN [n, c / (b * b), h * b, w * b] t))
  | _ => none

/-- ONNX `SpaceToDepth`, as its reference implementation defines it. -/
def onnxSpaceToDepth {α : Type} (b : Nat) (x : T α) : Option (T α) :=
  match x.shape with
  | [n, c, h, w] => (reshapeN [n, c, h / b, b, w / b, b] x).bind (fun t => (transposeT [0, 3, 5, 1, 2, 4] t).bind (fun t => reshapeN [n, c * b * b, h / b, w / b] t))
  | _ => none

/-- ONNX `LRN`: the channels from `c - floor((size - 1) / 2)` to `c + ceil((size - 1) / 2)`. -/
noncomputable def onnxLrn (sz : Nat) (bias alpha beta : ℝ) (x : T ℝ) : T ℝ :=
  ⟨x.shape, fun i => x.get i / (bias + alpha / sz * ((List.range (nth x.shape 1)).map (fun k =>
    if nth i 1 ≤ k + (sz - 1) / 2 ∧ k ≤ nth i 1 + sz / 2 then x.get ([nth i 0, k] ++ i.drop 2) ^ 2 else 0)).sum) ^ beta⟩

/-- ONNX `BatchNormalization`, not training. -/
noncomputable def onnxBatchNorm (eps : ℝ) (x scale b μ σ2 : T ℝ) : Option (T ℝ) :=
  if 2 ≤ x.shape.length ∧ scale.shape = [nth x.shape 1] ∧ b.shape = [nth x.shape 1] ∧ μ.shape = [nth x.shape 1] ∧ σ2.shape = [nth x.shape 1] then
    some ⟨x.shape, fun i => (x.get i - μ.get [nth i 1]) / Real.sqrt (σ2.get [nth i 1] + eps) * scale.get [nth i 1] + b.get [nth i 1]⟩
  else none

end Verif.Channels
