import Verif.Spec.Einsum
import Verif.Spec.SegmentOps
import Verif.Spec.ScanOps
import Mathlib.Analysis.SpecialFunctions.Complex.Circle
import Mathlib.Analysis.SpecialFunctions.Pow.Real
/-!
# Fourier transforms, and the operators they are made of

Over the real and the complex numbers: rounding is not modelled.
-/
namespace Verif.Fourier
open Verif.Tensor Verif.Emit

/-! ## TensorFlow -/

open Classical in
/-- The operand, continued with zeros outside of its shape (`tf.signal.rfft` pads and crops to the length of the transform). -/
noncomputable def padded (x : T ℝ) (i : List Nat) : ℝ := if InB x.shape i then x.get i else 0

/-- `tf.signal.rfft(x, [N])`: the first `N / 2 + 1` coefficients of the discrete Fourier transform along the last axis,
`∑ n < N, x[…, n] · e^(-2πi·k·n/N)`. -/
noncomputable def tfRfft (N : Nat) (x : T ℝ) : T ℂ :=
  { shape := x.shape.dropLast ++ [N / 2 + 1]
    get := fun i => ∑ n ∈ Finset.range N, (padded x (i.dropLast ++ [n]) : ℂ) * Complex.exp (-(2 * Real.pi * ((i.getLastD 0 : ℂ) * n / N)) * Complex.I) }

/-- `tf.signal.rfft2d(x, [N, M])`: `∑ n < N, ∑ m < M, x[…, n, m] · e^(-2πi·(k·n/N + l·m/M))` for `k < N` and `l < M / 2 + 1`. -/
noncomputable def tfRfft2d (N M : Nat) (x : T ℝ) : T ℂ :=
  { shape := x.shape.take (x.shape.length - 2) ++ [N, M / 2 + 1]
    get := fun i => ∑ n ∈ Finset.range N, ∑ m ∈ Finset.range M, (padded x (i.take (x.shape.length - 2) ++ [n, m]) : ℂ) *
      Complex.exp (-(2 * Real.pi * ((nth i (x.shape.length - 2) : ℂ) * n / N + (nth i (x.shape.length - 1) : ℂ) * m / M)) * Complex.I) }

/-- `tf.abs` of a complex tensor. -/
noncomputable def tfAbs (c : T ℂ) : T ℝ := ⟨c.shape, fun i => ‖c.get i‖⟩

/-- How a converted graph stores a complex tensor: a new first axis for the real and the imaginary parts. -/
structure Parts (z : T ℝ) (c : T ℂ) : Prop where
  shape : z.shape = 2 :: c.shape
  re : ∀ i, InB c.shape i → z.get (0 :: i) = (c.get i).re
  im : ∀ i, InB c.shape i → z.get (1 :: i) = (c.get i).im

/-- What is recorded about a shape is true: the number of dimensions, and those that are not -1. -/
def Told (recorded : List Int) (s : List Nat) : Prop :=
  recorded.length = s.length ∧ ∀ i, i < s.length → recorded.getD i 0 = -1 ∨ recorded.getD i 0 = (nth s i : Int)

/-! ## ONNX -/

/-- `MatMul` of tensors of rank 2 and more: the matrices of the last two axes are multiplied, the axes before them are broadcast. -/
noncomputable def matmul (x y : T ℝ) : Option (T ℝ) :=
  let rx := x.shape.length
  let ry := y.shape.length
  if 2 ≤ rx ∧ 2 ≤ ry ∧ nth x.shape (rx - 1) = nth y.shape (ry - 2) then
    (zipT (fun (f g : Nat → Nat → ℝ) i j => ∑ r ∈ Finset.range (nth x.shape (rx - 1)), f i r * g r j)
      ⟨x.shape.take (rx - 2), fun b i j => x.get (b ++ [i, j])⟩ ⟨y.shape.take (ry - 2), fun b i j => y.get (b ++ [i, j])⟩).map
      (fun z => ⟨z.shape ++ [nth x.shape (rx - 2), nth y.shape (ry - 1)],
        fun idx => z.get (idx.take z.shape.length) (nth idx z.shape.length) (nth idx (z.shape.length + 1))⟩)
  else none

/-- `Slice` with step 1. -/
def sliceT {α : Type} [Zero α] (starts ends axes : List Int) (x : T α) : Option (T α) :=
  if SliceOk x.shape.length starts ends axes then some (sliceOn starts ends axes 0 x) else none

/-- `Slice` of a vector. -/
def sliceVec (l : List Int) (s e : Int) : List Int :=
  (l.take (clampPos l.length 0 l.length e).toNat).drop (clampPos l.length 0 l.length s).toNat

/-- `Reshape`. -/
def reshapeT {α : Type} (t : List Int) (x : T α) : Option (T α) := (reshapeDims x.shape t).map (fun r => Tensor.reshape r x)

end Verif.Fourier
