import Verif.Spec.Fourier
import Verif.Spec.VecOps
/-!
# Model: Fourier transforms (tf2onnx/onnx_opset/signal.py)

What the handlers emit, as functions of the operands. `Except.error`: the handler raises. `none`: the emitted operators do not accept their operands. `Slice`, `Squeeze` and
`Unsqueeze` have their lists as attributes or operands, depending on the operator set, with the same meaning. Element types are not modelled; the elements are real numbers,
and the constant -6.2831854820251465 (signal.py:496) is taken as -2π.
-/
namespace Verif.Fourier
open Verif.Tensor Verif.Emit Verif.Einsum

/-! ## One dimension -/

/-- `make_dft_constant` (signal.py:23-32). -/
noncomputable def dftConstant (length fftLength : Nat) : T ℝ :=
  let n := max length (fftLength / 2 + 1)
  let mat : Nat → Nat → ℂ := fun k j => Complex.exp (-2 * Complex.I * Real.pi * k * j / fftLength)
  ⟨[2, n, n], fun i => if nth i 0 = 0 then (mat (nth i 1) (nth i 2)).re else (mat (nth i 1) (nth i 2)).im⟩

/-- What lines 126-168 prepare: the recorded length of the last axis, the operand as a matrix, the final shape. -/
structure Flat where
  n : Option Int
  data : Option (T ℝ)
  final : Option (List Int)

/-- The part of signal.py:129-153 for a shape that is read at run time. -/
def flatDynamic (n : Option Int) (x : T ℝ) : Flat :=
  let shape := x.shape.map Int.ofNat
  { n := n
    data := (Vec.gather shape [-1]).bind (fun last => reshapeT ([-1] ++ last) x)
    final := some ([2] ++ sliceVec shape 0 (-1) ++ [-1]) }

/-- signal.py:126-168: `recorded` is the recorded shape of the operand, with -1 for an unknown dimension. -/
def flatten (recorded : Option (List Int)) (x : T ℝ) : Except String Flat :=
  match recorded with
  | none => .ok (flatDynamic none x)
  | some s =>
    if 2 < s.length then
      if s.any (fun d => decide (d ≤ 0)) then .ok (flatDynamic (if 0 < s.getLastD 0 then some (s.getLastD 0) else none) x)
      else .ok ⟨some (s.getLastD 0), reshapeT [-1, s.getLastD 0] x, some ([2] ++ s.dropLast ++ [-1])⟩
    else if s = [] then .error "IndexError" else .ok ⟨some (s.getLastD 0), some x, none⟩

/-- signal.py:195-221 and the checks of `make_dft_constant` (signal.py:24-25): the length of the last axis and the length of the transform. -/
def lengths (n : Option Int) (fftLength : Option (T Int)) : Except String (Nat × Nat) :=
  match fftLength with
  | none => .error "fft_length should be a constant, the other case is not implemented yet."
  | some l =>
    if l.shape = [1] then
      match n with
      | none => if 0 < l.get [0] then .error "TypeError: max(None, int)" else .error "fft_length must be strictly positive"
      | some d =>
        if l.get [0] ≤ d then
          if 0 < l.get [0] then .ok (d.toNat, (l.get [0]).toNat) else .error "fft_length must be strictly positive"
        else .error "Case fft_length > shape[1] is not implemented."
    else .error "Unexpected shape for fft_length"

/-- The operand, cut to the length of the transform (signal.py:223-237). -/
def cutInput (d N : Nat) (x : T ℝ) : Option (T ℝ) := if N < d then sliceT [0] [(N : Int)] [-1] x else some x

/-- The constant matrices (signal.py:224, 238-240). -/
noncomputable def matrices (d N : Nat) : Option (T ℝ) :=
  if N < d then sliceT [0] [(N : Int)] [2] (dftConstant d N) else sliceT [0, 0] [((N / 2 + 1 : Nat) : Int), (N : Int)] [1, 2] (dftConstant d N)

/-- The coefficients that are kept (signal.py:307-322). -/
def cutRows (d N : Nat) (x : T ℝ) : Option (T ℝ) := if N < d then sliceT [0] [((N / 2 + 1 : Nat) : Int)] [-2] x else some x

/-- The last reshape (signal.py:332-337). -/
def finish (final : Option (List Int)) (x : T ℝ) : Option (T ℝ) :=
  match final with
  | none => some x
  | some t => reshapeT t x

/-- The emitted operators (signal.py:223-337). -/
noncomputable def emitted (d N : Nat) (data : Option (T ℝ)) (final : Option (List Int)) : Option (T ℝ) :=
  data.bind (fun x => (cutInput d N x).bind (fun x => (transposeT [1, 0] x).bind (fun x => (matrices d N).bind (fun c =>
    (matmul c x).bind (fun m => (cutRows d N m).bind (fun m => (transposeT [0, 2, 1] m).bind (finish final)))))))

/-- `CommonFFTOp.any_version` (signal.py:45-340) without an axis, for real operands. `constLength` is true for `RFFT` and false for `FFT`, whose length is `None` when line 308
divides it. `consumers` are the types of the consumers. -/
noncomputable def anyVersion (constLength : Bool) (consumers : List String) (recorded : Option (List Int)) (fftLength : Option (T Int)) (x : T ℝ) : Except String (Option (T ℝ)) :=
  if consumers ≠ [] ∧ ∀ c ∈ consumers, c = "ComplexAbs" then
    match flatten recorded x with
    | .error e => .error e
    | .ok f =>
      if constLength then
        match lengths f.n fftLength with
        | .error e => .error e
        | .ok p => .ok (emitted p.1 p.2 f.data f.final)
      else .error "TypeError: None // 2"
  else .error "Current implementation of RFFT or FFT only allows ComplexAbs as consumer"

/-! ## Absolute value -/

/-- A power with the constant of shape `[1]` (signal.py:942, 951-957). -/
noncomputable def squared (x : T ℝ) : Option (T ℝ) := zipT (fun a b : ℝ => a ^ b) x ⟨[1], fun _ => 2⟩

/-- The emitted operators (signal.py:940-973). -/
noncomputable def absEmitted (x : T ℝ) : Option (T ℝ) :=
  (Seg.gather0 x ⟨[1], fun _ => 0⟩).bind (fun re => (Seg.gather0 x ⟨[1], fun _ => 1⟩).bind (fun im =>
    (squared re).bind (fun re2 => (squared im).bind (fun im2 => (zipT (· + ·) re2 im2).bind (fun s =>
      (squeezeT [0] s).map (fun s => Scan.mapT Real.sqrt s))))))

/-- `ComplexAbsOp.any_version` (signal.py:922-973). -/
noncomputable def complexAbs (recorded : Option (List Int)) (x : T ℝ) : Except String (Option (T ℝ)) :=
  match recorded with
  | none => .ok (absEmitted x)
  | some [] => .error "IndexError"
  | some (d :: _) => if d = 2 then .ok (absEmitted x) else .error "ComplexAbs expected the first dimension to be 2"

/-! ## Two dimensions -/

/-- The matrices of a length known at run time: `Ga_output0` to `Un_expanded0` (signal.py:527-609), `Ga_output03` to `Un_expanded06` (signal.py:611-693). -/
noncomputable def dynMatrices (L : Int) : Option (T ℝ) :=
  (Vec.fill 1 L).bind (fun ones =>
    let n : T ℝ := ⟨[ones.length], fun i => (((Vec.cumsum ones).map (· + -1)).getD (nth i 0) 0 : Int)⟩
    (reshapeT [L, 1] n).bind (fun k => (zipT (· * ·) k n).bind (fun kn => (zipT (· / ·) kn ⟨[], fun _ => (L : ℝ)⟩).bind (fun q =>
      (zipT (· * ·) q ⟨[1], fun _ => -(2 * Real.pi)⟩).bind (fun a =>
        (Seg.concat0 0 (Seg.unsqueeze0 (Scan.mapT Real.cos a)) (Seg.unsqueeze0 (Scan.mapT Real.sin a))).bind (fun c =>
          (sliceT [0] [L] [2] c).map Seg.unsqueeze0))))))

/-- The operand as a batch of matrices (signal.py:695-717). -/
def toMatrices (x : T ℝ) : Option (T ℝ) :=
  let shape := x.shape.map Int.ofNat
  reshapeT ([-1] ++ sliceVec shape (-2) x.shape.length) x

/-- The transform along the last axis, with the real and the imaginary parts in front (signal.py:719-770). `size` cuts the axis of the parts (signal.py:763). -/
noncomputable def firstFft (L2 L1 : Int) (c1 x : T ℝ) : Option (T ℝ) :=
  (sliceT [0, 0] [L2, L1] [1, 2] x).bind (fun x => (transposeT [0, 2, 1] x).bind (fun x => (sliceT [0] [L1] [1] x).bind (fun x =>
    (unsqueezeT [1] x).bind (fun x => (matmul c1 x).bind (fun m => (sliceT [0] [Int.tdiv L1 2 + 1] [1] m).bind (transposeT [1, 0, 3, 2]))))))

/-- The transform along the other axis, of the real or of the imaginary parts (signal.py:772-810). -/
noncomputable def secondFft (part L0 : Int) (c0 x : T ℝ) : Option (T ℝ) :=
  (Seg.gather0 x ⟨[], fun _ => part⟩).bind (fun x => (sliceT [0] [L0] [1] x).bind (fun x => (unsqueezeT [1] x).bind (fun x =>
    (matmul c0 x).bind (transposeT [1, 0, 2, 3]))))

/-- Times `i` (signal.py:812-826). -/
def timesI (x : T ℝ) : Option (T ℝ) :=
  (sliceT [1] [2] [0] x).bind (fun im => (sliceT [0] [1] [0] x).bind (fun re => Seg.concat0 0 (Scan.mapT (fun a => -a) im) re))

/-- The last cut and the last reshape (signal.py:832-881). -/
def finish2d (shape : List Nat) (L2 L1 : Int) (x : T ℝ) : Option (T ℝ) :=
  (sliceT [0, 0] [L2, Int.tdiv L1 2 + 1] [2, 3] x).bind (fun y =>
    reshapeT ([2] ++ sliceVec (shape.map Int.ofNat) 0 (-2) ++ sliceVec (y.shape.map Int.ofNat) (-2) y.shape.length) y)

/-- The emitted operators (signal.py:527-881), the lengths being read. -/
noncomputable def emitted2d (L0 Lm1 Lm2 L1 : Int) (x : T ℝ) : Option (T ℝ) :=
  (dynMatrices L0).bind (fun c0 => (dynMatrices Lm1).bind (fun c1 => (toMatrices x).bind (fun m => (firstFft Lm2 Lm1 c1 m).bind (fun f =>
    (secondFft 0 L0 c0 f).bind (fun re => (secondFft 1 L0 c0 f).bind (fun im => (timesI im).bind (fun im =>
      (zipT (· + ·) re im).bind (finish2d x.shape Lm2 L1))))))))

/-- `CommonFFT2DOp.any_version_2d` (signal.py:379-888). The lengths are read with `Gather` at 0, -1, -2 and 1. -/
noncomputable def rfft2d (consumers : List String) (fftLength : List Int) (x : T ℝ) : Except String (Option (T ℝ)) :=
  if consumers ≠ [] ∧ ∀ c ∈ consumers, c = "ComplexAbs" then
    .ok (match Vec.gather fftLength [0], Vec.gather fftLength [-1], Vec.gather fftLength [-2], Vec.gather fftLength [1] with
      | some [a], some [b], some [c], some [d] => emitted2d a b c d x
      | _, _, _, _ => none)
  else .error "Current implementation of RFFT2D only allows ComplexAbs as consumer"

end Verif.Fourier
