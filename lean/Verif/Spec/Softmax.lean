import Verif.Spec.Einsum
import Verif.Spec.SegmentOps
import Verif.Spec.ScanOps
import Mathlib.Analysis.SpecialFunctions.Log.Basic
/-!
# Softmax and cross-entropy: what TensorFlow and ONNX compute

Elements are real numbers.
-/
namespace Verif.Softmax
open Verif.Tensor Verif.Emit Verif.Einsum

/-! ## TensorFlow -/

/-- The length of the last axis. -/
def lastDim (s : List Nat) : Nat := nth s (s.length - 1)

/-- The sum of the exponentials of the line along the last axis that goes through `i`. -/
noncomputable def lineSum (x : T ℝ) (i : List Nat) : ℝ := ((List.range (lastDim x.shape)).map (fun k => Real.exp (x.get (setAt i (x.shape.length - 1) k)))).sum

/-- `tf.nn.softmax` along the last axis. -/
noncomputable def tfSoftmax (x : T ℝ) : T ℝ := ⟨x.shape, fun i => Real.exp (x.get i) / lineSum x i⟩

/-- `tf.nn.log_softmax` along the last axis. -/
noncomputable def tfLogSoftmax (x : T ℝ) : T ℝ := ⟨x.shape, fun i => x.get i - Real.log (lineSum x i)⟩

/-- The common size of two dimensions that broadcast. -/
def common (a b : Nat) : Nat := if a = 1 then b else a

/-- Where to read in a dimension of size `d` that broadcasts. -/
def src (d i : Nat) : Nat := if d = 1 then 0 else i

/-- `SoftmaxCrossEntropyWithLogits`, the loss, for labels of shape `[n, c]` and logits of shape `[m, d]`: both are broadcast to a common shape `[N, C]` first. -/
noncomputable def tfCrossEntropy (labels logits : Nat → Nat → ℝ) (n c m d : Nat) (row : Nat) : ℝ :=
  let C := common c d
  let x := fun k => logits (src m row) (src d k);
  -((List.range C).map (fun k => labels (src n row) (src c k) * (x k - Real.log ((List.range C).map (fun l => Real.exp (x l))).sum))).sum

/-- `SparseSoftmaxCrossEntropyWithLogits`, the loss, for a label in `0 … C - 1`. -/
noncomputable def tfSparse (logits : Nat → ℝ) (C label : Nat) : ℝ := - (logits label - Real.log ((List.range C).map (fun k => Real.exp (logits k))).sum)

/-! ## ONNX -/

/-- Axes in operator set `v`. Before operator set 11 the documents know no negative axes; `neg` is true for a runtime that takes them all the same. -/
def AxisFits (v : Nat) (neg : Bool) (r : Nat) (a : Int) : Prop := -(r : Int) ≤ a ∧ a < r ∧ (v < 11 → neg = false → 0 ≤ a)

instance (v : Nat) (neg : Bool) (r : Nat) (a : Int) : Decidable (AxisFits v neg r a) := inferInstanceAs (Decidable (_ ∧ _ ∧ (_ → _ → _)))

/-- The axes over which ONNX `Softmax` and `LogSoftmax` sum: all from `axis` on before operator set 13 (the operand is taken as a matrix), `axis` itself from then on. -/
def softmaxAxes (v : Nat) (neg : Bool) (axis : Option Int) (r : Nat) : Option (Nat → Bool) :=
  let a := axis.getD (if v < 13 then 1 else -1)
  if AxisFits v neg r a then some (fun i => if v < 13 then decide (normAxis r a ≤ i) else decide (i = normAxis r a)) else none

/-- ONNX `Softmax`. -/
noncomputable def onnxSoftmax (v : Nat) (neg : Bool) (axis : Option Int) (x : T ℝ) : Option (T ℝ) :=
  (softmaxAxes v neg axis x.shape.length).map (fun ax => groupMap (fun m y => Real.exp y / (m.map Real.exp).sum) ax x)

/-- ONNX `LogSoftmax`. -/
noncomputable def onnxLogSoftmax (v : Nat) (neg : Bool) (axis : Option Int) (x : T ℝ) : Option (T ℝ) :=
  (softmaxAxes v neg axis x.shape.length).map (fun ax => groupMap (fun m y => y - Real.log (m.map Real.exp).sum) ax x)

/-- ONNX `Reduce…` over one axis. -/
def reduceOne (v : Nat) (neg : Bool) (f : Multiset ℝ → ℝ) (keep : Bool) (axis : Int) (x : T ℝ) : Option (T ℝ) :=
  if AxisFits v neg x.shape.length axis then
    some (if keep then reduceKeep f (fun i => decide (i = normAxis x.shape.length axis)) x else reduceDrop f (fun i => decide (i = normAxis x.shape.length axis)) x)
  else none

/-- The greatest element. -/
noncomputable def greatest (m : Multiset ℝ) : ℝ := sSup {y | y ∈ m}

end Verif.Softmax
