import Verif.Props.C60_Dynamic
import Verif.Props.C57_Examples
/-!
# C60: when the total padding is not negative, examples, and what goes wrong
-/
namespace Verif.Conv
open Verif.Tensor Verif.Nn Verif.Emit

variable {α : Type}
variable {n : Node} {m : Nat} {p : TfPad} {strides dilations : List Nat} {N : Nat} {L K O : List Nat} {cin cout : Nat} {w y : T α}

/-- `SAME`: nothing sticks into the image if every window reaches to the next one. -/
theorem same_total (h : TransArgs n m .same strides dilations N L K O cin cout w y) {i : Nat} (hi : i < m)
    (hs : spOf n.last strides i ≤ span (nth K i) (spOf n.last dilations i)) : 0 ≤ total n.last strides dilations L K O i := by
  have hw := h.windows i hi
  have hsp : spOf n.last (mk n.last N L cin) i = nth L i := spOf_mk _ _ _ _ (by rw [h.rankL]; exact hi)
  have hS : 1 ≤ spOf n.last strides i := by
    rw [← nth_spatialPart _ _ hi]
    exact nth_pos (spatialPart_pos _ h.attrs.stridesLen h.attrs.stridesPos) (by rw [spatialPart_length]; exact hi)
  have hK : i < K.length := by rw [h.rankK]; exact hi
  unfold Geom.outDim at hw
  simp only [tfGeom, TfPad.at, nth_map_range, if_pos hK, nth_spatialPart _ _ hi, hsp] at hw
  rw [sameOut _ _ _ hS (by unfold span; omega)] at hw
  have hc := ceil_mul (nth L i) (spOf n.last strides i) hS
  rw [← hw] at hc
  have hlt := Nat.mod_lt (nth L i) (show spOf n.last strides i > 0 by omega)
  have hle := Nat.mod_le (nth L i) (spOf n.last strides i)
  unfold total
  have hexp : (spOf n.last strides i : Int) * ((nth O i : Int) - 1) = ((nth O i * spOf n.last strides i : Nat) : Int) - spOf n.last strides i := by
    rw [Int.mul_sub, Int.mul_one]; push_cast; rw [Int.mul_comm]
  rw [hexp, hc]
  generalize nth L i % spOf n.last strides i = r at *
  split <;> omega

/-- `VALID`: what is left over behind the last window. -/
theorem valid_total (h : TransArgs n m .valid strides dilations N L K O cin cout w y) {i : Nat} (hi : i < m) :
    total n.last strides dilations L K O i = -(((nth L i - span (nth K i) (spOf n.last dilations i)) % spOf n.last strides i : Nat) : Int) := by
  have hO : 1 ≤ nth O i := nth_pos h.nonempty (by rw [h.rankO]; exact hi)
  have hw := h.windows i hi
  have hS : 1 ≤ spOf n.last strides i := by
    rw [← nth_spatialPart _ _ hi]
    exact nth_pos (spatialPart_pos _ h.attrs.stridesLen h.attrs.stridesPos) (by rw [spatialPart_length]; exact hi)
  have hK : i < K.length := by rw [h.rankK]; exact hi
  unfold Geom.outDim at hw
  simp only [tfGeom, TfPad.at, nth_map_range, if_pos hK, nth_spatialPart _ _ hi, Nat.add_zero] at hw
  unfold total
  generalize span (nth K i) (spOf n.last dilations i) = f at *
  generalize spOf n.last strides i = s at *
  generalize nth L i = l at *
  generalize nth O i = o at *
  have hge : s ≤ l + s - f := by
    apply Classical.byContradiction
    intro hh
    rw [Nat.div_eq_of_lt (by omega)] at hw
    omega
  have hfl : f ≤ l := by omega
  have e : l + s - f = (l - f) + s := by omega
  rw [e, Nat.add_div_right _ (by omega)] at hw
  have hdm := Nat.div_add_mod (l - f) s
  rw [hw]
  have : ((((l - f) / s).succ : Nat) : Int) - 1 = (((l - f) / s : Nat) : Int) := by push_cast; omega
  rw [this, ← Int.natCast_mul]
  omega

/-- **`SAME`, windows that reach to the next one, known sizes**: right, and valid under the letter of the specification of ONNX. -/
theorem same_converts (acc : Acc α) (zero : α) (strict : Bool) (opset : Nat) (h : TransArgs n m .same strides dilations N L K O cin cout w y)
    (hknown : ∀ r, n.inShape = some r → ∀ i, i < m → r.getD (if n.last then i + 1 else i + 2) 0 ≠ -1)
    (hs : ∀ i, i < m → spOf n.last strides i ≤ span (nth K i) (spOf n.last dilations i)) :
    ∃ z, convertedTranspose acc zero strict opset n m ((mk n.last N L cin).map Int.ofNat) w y = .ok (some z) ∧
      Same z (tfConvBackprop acc zero n.last .same strides dilations (mk n.last N L cin) w y) :=
  transpose_converts acc zero strict opset h (Or.inl rfl) hknown (fun i hi => by
    have := same_total h hi (hs i hi)
    split <;> omega)

/-- **`VALID`, known sizes**: right if at most one element is left over behind the last window, for example if no stride is larger than 2. -/
theorem valid_converts (acc : Acc α) (zero : α) (opset : Nat) (h : TransArgs n m .valid strides dilations N L K O cin cout w y)
    (hknown : ∀ r, n.inShape = some r → ∀ i, i < m → r.getD (if n.last then i + 1 else i + 2) 0 ≠ -1)
    (hs : ∀ i, i < m → (nth L i - span (nth K i) (spOf n.last dilations i)) % spOf n.last strides i ≤ 1) :
    ∃ z, convertedTranspose acc zero false opset n m ((mk n.last N L cin).map Int.ofNat) w y = .ok (some z) ∧
      Same z (tfConvBackprop acc zero n.last .valid strides dilations (mk n.last N L cin) w y) :=
  transpose_converts acc zero false opset h (Or.inr rfl) hknown (fun i hi => by
    have := valid_total h hi
    have := hs i hi
    rw [if_neg (by simp)]
    omega)

namespace Ex

/-- The sum of products with zero is zero. -/
theorem sumAcc_zero : ZeroSum sumAcc 0 := by
  intro K C g hg
  have h1 : ∀ (l : List Nat) (k : List Nat), (l.map (fun c => (g k c).1 * (g k c).2)).foldl (· + ·) (0 : Int) = 0 := by
    intro l k
    induction l with
    | nil => rfl
    | cons c l ih =>
      rw [List.map_cons, List.foldl_cons, hg k c, Int.zero_mul, Int.add_zero]
      exact ih
  show ((allIdx K).map (fun k => ((List.range C).map (fun c => (g k c).1 * (g k c).2)).foldl (· + ·) 0)).foldl (· + ·) (0 : Int) = 0
  generalize allIdx K = l
  induction l with
  | nil => rfl
  | cons k l ih =>
    rw [List.map_cons, List.foldl_cons, h1]
    exact ih

/-! ## The specification on small tensors (values of `tf.nn.conv2d_transpose`) -/

/-- One row: `y = [1, 2]`, kernel `[1, 10, 100]`, stride 2, `VALID`: `[1, 10, 102, 20, 200]`. -/
example : elems (tfConvBackprop sumAcc 0 true .valid [1, 1, 2, 1] [1, 1, 1, 1] [1, 1, 5, 1] ⟨[1, 3, 1, 1], fun i => 10 ^ nth i 1⟩ ⟨[1, 1, 2, 1], fun i => nth i 2 + 1⟩) =
    [1, 10, 102, 20, 200] := by decide
/-- `SAME`: one element is cut off in front and none behind. -/
example : elems (tfConvBackprop sumAcc 0 true .same [1, 1, 2, 1] [1, 1, 1, 1] [1, 1, 3, 1] ⟨[1, 3, 1, 1], fun i => 10 ^ nth i 1⟩ ⟨[1, 1, 2, 1], fun i => nth i 2 + 1⟩) =
    [10, 102, 20] := by decide
/-- Two channels of the image, one of the windows. -/
example : elems (tfConvBackprop sumAcc 0 true .valid [1, 1, 1, 1] [1, 1, 1, 1] [1, 1, 2, 2] ⟨[1, 1, 2, 1], fun i => 10 ^ nth i 2⟩ ⟨[1, 1, 2, 1], fun i => nth i 2 + 1⟩) =
    [1, 10, 2, 20] := by decide

/-! ## Cases of the theorems -/

/-- Channels last, `SAME`, stride 2, kernel 3 x 4, image 7 x 6 with two channels, `y` 4 x 3 with three channels. -/
def tnode1 : Node := ⟨"NHWC", [1, 2, 2, 1], some [1, 1, 1, 1], "SAME", [], some [-1, 4, 3, 3], some [-1, 7, 6, 2], some [3, 4, 2, 3]⟩

theorem tnode1_args : TransArgs tnode1 2 .same [1, 2, 2, 1] [1, 1, 1, 1] 5 [7, 6] [3, 4] [4, 3] 2 3 (count [3, 4, 2, 3]) (count [5, 4, 3, 3]) :=
  ⟨⟨rfl, rfl, fun l h => by simp at h, rfl, rfl, by decide, Or.inl rfl, rfl, by decide⟩, rfl, rfl, rfl, rfl, rfl, by decide, by decide, by decide,
    ⟨_, rfl, by decide⟩, ⟨_, rfl, by decide, by decide⟩, by decide⟩

example : ∃ z, convertedTranspose sumAcc 0 true 9 tnode1 2 [5, 7, 6, 2] (count [3, 4, 2, 3]) (count [5, 4, 3, 3]) = .ok (some z) ∧
    Same z (tfConvBackprop sumAcc 0 true .same [1, 2, 2, 1] [1, 1, 1, 1] [5, 7, 6, 2] (count [3, 4, 2, 3]) (count [5, 4, 3, 3])) :=
  same_converts sumAcc 0 true 9 tnode1_args (fun r hr => by injection hr with hr; subst hr; decide) (by decide)

/-- What the converter writes. -/
example : transposeAttrs tnode1 2 [5, 7, 6, 2] = .ok ⟨some [3, 4], some [2, 2], some [1, 1], some [1, 1, 1, 1], none⟩ := by rfl

/-- Channels first, `VALID`, stride 2, dilation 2, one element left over. -/
def tnode2 : Node := ⟨"NCHW", [1, 1, 2, 2], some [1, 1, 1, 2], "VALID", [], some [1, 3, 2, 3], some [1, 2, 4, 8], some [2, 2, 2, 3]⟩

theorem tnode2_args : TransArgs tnode2 2 .valid [1, 1, 2, 2] [1, 1, 1, 2] 1 [4, 8] [2, 2] [2, 3] 2 3 (count [2, 2, 2, 3]) (count [1, 3, 2, 3]) :=
  ⟨⟨rfl, rfl, fun l h => by simp at h, rfl, rfl, by decide, Or.inl rfl, rfl, by decide⟩, rfl, rfl, rfl, rfl, rfl, by decide, by decide, by decide,
    ⟨_, rfl, by decide⟩, ⟨_, rfl, by decide, by decide⟩, by decide⟩

example := valid_converts sumAcc 0 13 tnode2_args (fun r hr => by injection hr with hr; subst hr; decide) (by decide)

/-- Pads that are negative: one element is added behind. -/
example : transposeAttrs tnode2 2 [1, 2, 4, 8] = .ok ⟨some [2, 2], some [2, 2], some [1, 2], some [0, 0, 0, -1], none⟩ := by rfl

/-- The size of the image is not known, even total padding. -/
def tnode3 : Node := ⟨"NHWC", [1, 2, 1, 1], none, "SAME", [], some [-1, -1, 3, 3], some [-1, 7, 3, 2], some [3, 3, 2, 3]⟩

theorem tnode3_args : TransArgs tnode3 2 .same [1, 2, 1, 1] [1, 1, 1, 1] 1 [7, 3] [3, 3] [4, 3] 2 3 (count [3, 3, 2, 3]) (count [1, 4, 3, 3]) :=
  ⟨⟨rfl, rfl, fun l h => by simp at h, rfl, rfl, by decide, Or.inr ⟨rfl, rfl⟩, rfl, by decide⟩, rfl, rfl, rfl, rfl, rfl, by decide, by decide, by decide,
    ⟨_, rfl, by decide⟩, ⟨_, rfl, by decide, by decide⟩, by decide⟩

example := transpose_output_shape sumAcc 0 true 13 tnode3_args (Or.inl rfl) ⟨_, 0, rfl, by decide, by decide⟩ (by decide)

example : transposeAttrs tnode3 2 [1, 7, 3, 2] = .ok ⟨some [3, 3], some [2, 1], none, none, some [7, 3]⟩ := by rfl

/-- A computed shape: `VALID`, stride 3, two elements left over along the second axis. -/
def tnode4 : Node := ⟨"NHWC", [1, 2, 3, 1], some [1, 1, 1, 1], "VALID", [], some [-1, -1, -1, 1], some [-1, -1, -1, 1], some [1, 2, 1, 1]⟩

theorem tnode4_args : TransArgs tnode4 2 .valid [1, 2, 3, 1] [1, 1, 1, 1] 1 [3, 7] [1, 2] [2, 2] 1 1 (count [1, 2, 1, 1]) (count [1, 2, 2, 1]) :=
  ⟨⟨rfl, rfl, fun l h => by simp at h, rfl, rfl, by decide, Or.inl rfl, rfl, by decide⟩, rfl, rfl, rfl, rfl, rfl, by decide, by decide, by decide,
    ⟨_, rfl, by decide⟩, ⟨_, rfl, by decide, by decide⟩, by decide⟩

example := dynamic_converts sumAcc 0 true 12 tnode4_args (Or.inr rfl) rfl (by decide) sumAcc_zero (Or.inl ⟨by decide, 1, by decide, by decide⟩)

/-- The elements of a result. -/
def result (e : Except String (Option (T Int))) : Option (List Nat × List Int) :=
  match e with
  | .ok (some z) => some (z.shape, elems z)
  | _ => none

/-! ## What goes wrong -/

/-- **Two elements left over**: kernel 1, stride 3, image of 6 elements, `SAME` (or `VALID`: it is the same here). TensorFlow puts the elements of `y` at positions 0 and
3. The pads are -1 and -1: a runtime that takes them puts the elements at 1 and 4, and the letter of the specification does not allow them. -/
theorem left_over_violated :
    let n : Node := ⟨"NHWC", [1, 1, 3, 1], some [1, 1, 1, 1], "SAME", [], some [1, 1, 2, 1], some [1, 1, 6, 1], some [1, 1, 1, 1]⟩
    let w : T Int := ⟨[1, 1, 1, 1], fun _ => 1⟩
    let y : T Int := ⟨[1, 1, 2, 1], fun i => nth i 2 + 1⟩
    TransArgs n 2 .same [1, 1, 3, 1] [1, 1, 1, 1] 1 [1, 6] [1, 1] [1, 2] 1 1 w y ∧
    transposeAttrs n 2 [1, 1, 6, 1] = .ok ⟨some [1, 1], some [1, 3], some [1, 1], some [0, -1, 0, -1], none⟩ ∧
    elems (tfConvBackprop sumAcc 0 true .same [1, 1, 3, 1] [1, 1, 1, 1] [1, 1, 6, 1] w y) = [1, 0, 0, 2, 0, 0] ∧
    result (convertedTranspose sumAcc 0 false 13 n 2 [1, 1, 6, 1] w y) = some ([1, 1, 6, 1], [0, 1, 0, 0, 2, 0]) ∧
    result (convertedTranspose sumAcc 0 true 13 n 2 [1, 1, 6, 1] w y) = none := by
  refine ⟨⟨⟨rfl, rfl, fun l h => by simp at h, rfl, rfl, by decide, Or.inl rfl, rfl, by decide⟩, rfl, rfl, rfl, rfl, rfl, by decide, by decide, by decide,
    ⟨_, rfl, by decide⟩, ⟨_, rfl, by decide, by decide⟩, by decide⟩, rfl, by decide, by decide, by decide⟩

/-- **Unknown size, odd padding**, from version 11 on: kernel 2, stride 1, `SAME`. TensorFlow cuts off the last element, ONNX with `output_shape` the first. -/
theorem output_shape_odd_violated :
    let n : Node := ⟨"NHWC", [1, 1, 1, 1], some [1, 1, 1, 1], "SAME", [], some [1, 1, -1, 1], some [1, 1, 2, 1], some [1, 2, 1, 1]⟩
    let w : T Int := ⟨[1, 2, 1, 1], fun i => 10 ^ nth i 1⟩
    let y : T Int := ⟨[1, 1, 2, 1], fun i => nth i 2 + 1⟩
    TransArgs n 2 .same [1, 1, 1, 1] [1, 1, 1, 1] 1 [1, 2] [1, 2] [1, 2] 1 1 w y ∧
    elems (tfConvBackprop sumAcc 0 true .same [1, 1, 1, 1] [1, 1, 1, 1] [1, 1, 2, 1] w y) = [1, 12] ∧
    result (convertedTranspose sumAcc 0 true 10 n 2 [1, 1, 2, 1] w y) = some ([1, 1, 2, 1], [1, 12]) ∧
    result (convertedTranspose sumAcc 0 true 11 n 2 [1, 1, 2, 1] w y) = some ([1, 1, 2, 1], [12, 20]) := by
  refine ⟨⟨⟨rfl, rfl, fun l h => by simp at h, rfl, rfl, by decide, Or.inl rfl, rfl, by decide⟩, rfl, rfl, rfl, rfl, rfl, by decide, by decide, by decide,
    ⟨_, rfl, by decide⟩, ⟨_, rfl, by decide, by decide⟩, by decide⟩, by decide, by decide, by decide⟩

/-- **Explicit padding is not read**: kernel 2, stride 1, one element added in front of the image. TensorFlow cuts off the first element of the result, the converted
model the last. -/
theorem explicit_violated :
    let n : Node := ⟨"NHWC", [1, 1, 1, 1], some [1, 1, 1, 1], "EXPLICIT", [0, 0, 0, 0, 1, 0, 0, 0], some [1, 1, 2, 1], some [1, 1, 2, 1], some [1, 2, 1, 1]⟩
    let p : TfPad := .explicit [(0, 0), (0, 0), (1, 0), (0, 0)]
    let w : T Int := ⟨[1, 2, 1, 1], fun i => 10 ^ nth i 1⟩
    let y : T Int := ⟨[1, 1, 2, 1], fun i => nth i 2 + 1⟩
    TransArgs n 2 p [1, 1, 1, 1] [1, 1, 1, 1] 1 [1, 2] [1, 2] [1, 2] 1 1 w y ∧
    elems (tfConvBackprop sumAcc 0 true p [1, 1, 1, 1] [1, 1, 1, 1] [1, 1, 2, 1] w y) = [12, 20] ∧
    result (convertedTranspose sumAcc 0 true 13 n 2 [1, 1, 2, 1] w y) = some ([1, 1, 2, 1], [1, 12]) := by
  refine ⟨⟨⟨rfl, rfl, fun l h => by injection h with h; subst h; decide, rfl, rfl, by decide, Or.inl rfl, rfl, by decide⟩, rfl, rfl, rfl, rfl, rfl, by decide, by decide,
    by decide, ⟨_, rfl, by decide⟩, ⟨_, rfl, by decide, by decide⟩, by decide⟩, by decide, by decide⟩

/-- **Computed shape, channels first**: axes 1 and 2 (channels and height) are sliced instead of 2 and 3. Here the width keeps the element that had to be cut off. -/
theorem dynamic_channels_first_violated :
    let n : Node := ⟨"NCHW", [1, 1, 1, 1], some [1, 1, 1, 1], "SAME", [], some [1, 1, 1, 2], some [1, 1, 1, 2], some [1, 2, 1, 1]⟩
    let w : T Int := ⟨[1, 2, 1, 1], fun i => 10 ^ nth i 1⟩
    let y : T Int := ⟨[1, 1, 1, 2], fun i => nth i 3 + 1⟩
    TransArgs n 2 .same [1, 1, 1, 1] [1, 1, 1, 1] 1 [1, 2] [1, 2] [1, 2] 1 1 w y ∧
    elems (tfConvBackprop sumAcc 0 false .same [1, 1, 1, 1] [1, 1, 1, 1] [1, 1, 1, 2] w y) = [1, 12] ∧
    result (convertedDynamic sumAcc 0 true 13 n 2 [1, 1, 1, 2] w y) = some ([1, 1, 1, 3], [1, 12, 20]) := by
  refine ⟨⟨⟨rfl, rfl, fun l h => by simp at h, rfl, rfl, by decide, Or.inl rfl, rfl, by decide⟩, rfl, rfl, rfl, rfl, rfl, by decide, by decide, by decide,
    ⟨_, rfl, by decide⟩, ⟨_, rfl, by decide, by decide⟩, by decide⟩, by decide, by decide⟩

/-- **Computed shape, opset 10 and 11**: kernel 1, stride 2, image of 4 elements. The result is too short (the converter logs a warning). -/
theorem dynamic_old_opset_violated :
    let n : Node := ⟨"NHWC", [1, 1, 2, 1], some [1, 1, 1, 1], "VALID", [], some [1, 1, 2, 1], some [1, 1, 4, 1], some [1, 1, 1, 1]⟩
    let w : T Int := ⟨[1, 1, 1, 1], fun _ => 1⟩
    let y : T Int := ⟨[1, 1, 2, 1], fun i => nth i 2 + 1⟩
    TransArgs n 2 .valid [1, 1, 2, 1] [1, 1, 1, 1] 1 [1, 4] [1, 1] [1, 2] 1 1 w y ∧
    elems (tfConvBackprop sumAcc 0 true .valid [1, 1, 2, 1] [1, 1, 1, 1] [1, 1, 4, 1] w y) = [1, 0, 2, 0] ∧
    result (convertedDynamic sumAcc 0 true 11 n 2 [1, 1, 4, 1] w y) = some ([1, 1, 3, 1], [1, 0, 2]) ∧
    result (convertedDynamic sumAcc 0 true 12 n 2 [1, 1, 4, 1] w y) = some ([1, 1, 4, 1], [1, 0, 2, 0]) := by
  refine ⟨⟨⟨rfl, rfl, fun l h => by simp at h, rfl, rfl, by decide, Or.inl rfl, rfl, by decide⟩, rfl, rfl, rfl, rfl, rfl, by decide, by decide, by decide,
    ⟨_, rfl, by decide⟩, ⟨_, rfl, by decide, by decide⟩, by decide⟩, by decide, by decide, by decide⟩

end Ex
end Verif.Conv
