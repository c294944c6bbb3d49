import Verif.Spec.Conv
import Verif.Spec.TfIndex
import Mathlib.Algebra.Ring.Defs
/-!
# Operators that occur in the subgraphs recognized by rewriters

From the TensorFlow API documentation and the ONNX operator specification. An operator that is not defined on its operands has no value.
-/
namespace Verif.Patt
open Verif.Tensor Verif.Emit Verif.Conv

/-! ## Products of matrices -/

/-- How the products of a row and a column are added up; not fixed. -/
abbrev Dot (α : Type) := (n : Nat) → (Nat → α × α) → α

/-- Entry of a matrix, or of its transpose. -/
def entry {α : Type} (tr : Bool) (x : T α) (i j : Nat) : α := if tr then x.get [j, i] else x.get [i, j]

/-- Number of rows, number of columns. -/
def nrows {α : Type} (tr : Bool) (x : T α) : Nat := if tr then nth x.shape 1 else nth x.shape 0
def ncols {α : Type} (tr : Bool) (x : T α) : Nat := if tr then nth x.shape 0 else nth x.shape 1

/-- Entries of a product. -/
def prodAt {α : Type} (dot : Dot α) (ta tb : Bool) (x y : T α) (i j : Nat) : α :=
  dot (ncols ta x) (fun r => (entry ta x i r, entry tb y r j))

/-- Matrices whose product exists. -/
def Mult {α : Type} (ta tb : Bool) (x y : T α) : Prop := x.shape.length = 2 ∧ y.shape.length = 2 ∧ ncols ta x = nrows tb y

instance {α : Type} (ta tb : Bool) (x y : T α) : Decidable (Mult ta tb x y) := inferInstanceAs (Decidable (_ ∧ _))

/-- `tf.linalg.matmul` (operator `MatMul`) of matrices. -/
def matMul {α : Type} (dot : Dot α) (ta tb : Bool) (x y : T α) : Option (T α) :=
  if Mult ta tb x y then some ⟨[nrows ta x, ncols tb y], fun i => prodAt dot ta tb x y (nth i 0) (nth i 1)⟩ else none

/-- `C` of `Gemm` broadcasts to the product: "unidirectional broadcastable to tensor (M, N)". -/
def OneWay (c s : List Nat) : Prop := c.length ≤ s.length ∧ ∀ i, i < c.length → nth c i = 1 ∨ nth c i = nth s (i + (s.length - c.length))

instance (c s : List Nat) : Decidable (OneWay c s) := inferInstanceAs (Decidable (_ ∧ _))

/-- Element of `C` that belongs to element `idx` of a result of rank `n`. -/
def oneWayAt {α : Type} (c : T α) (n : Nat) (idx : List Nat) : α :=
  c.get ((List.range c.shape.length).map (fun i => if nth c.shape i = 1 then 0 else nth idx (i + (n - c.shape.length))))

/-- ONNX `Gemm`: `alpha * A' * B' + beta * C`. -/
def gemm {α : Type} [CommSemiring α] (dot : Dot α) (alpha beta : α) (ta tb : Bool) (a b c : T α) : Option (T α) :=
  if Mult ta tb a b ∧ OneWay c.shape [nrows ta a, ncols tb b] then
    some ⟨[nrows ta a, ncols tb b], fun i => alpha * prodAt dot ta tb a b (nth i 0) (nth i 1) + beta * oneWayAt c 2 i⟩ else none

/-- `tf.nn.bias_add` with channels last: the bias is a vector, as long as the last axis. -/
def biasLast {α : Type} [Add α] (x b : T α) : Option (T α) :=
  if 2 ≤ x.shape.length ∧ b.shape = [nth x.shape (x.shape.length - 1)] then
    some ⟨x.shape, fun i => x.get i + b.get [nth i (i.length - 1)]⟩ else none

/-- `tf.nn.bias_add` with channels first: axis 1. -/
def biasFirst {α : Type} [Add α] (x b : T α) : Option (T α) :=
  if 2 ≤ x.shape.length ∧ b.shape = [nth x.shape 1] then some ⟨x.shape, fun i => x.get i + b.get [nth i 1]⟩ else none

/-! ## Shapes -/

/-- `tf.reshape`: one entry may be -1, and then the other ones must not be 0. -/
def tfReshapeDims (s : List Nat) (t : List Int) : Option (List Nat) :=
  let k := Tensor.size ((t.filter (· ≠ -1)).map Int.toNat)
  let r := t.map (fun z => if z = -1 then Tensor.size s / k else z.toNat)
  if (∀ z ∈ t, -1 ≤ z) ∧ t.count (-1) ≤ 1 ∧ ((-1) ∈ t → k ≠ 0) ∧ Tensor.size r = Tensor.size s then some r else none

/-- `tf.reshape`. -/
def tfReshape {α : Type} (x : T α) (t : List Int) : Option (T α) := (tfReshapeDims x.shape t).map (fun r => reshape r x)

/-- ONNX `Flatten` with its default axis 1: two axes, the first one and all other ones. -/
def flatten {α : Type} (x : T α) : Option (T α) :=
  if 1 ≤ x.shape.length then some (reshape [nth x.shape 0, Tensor.size x.shape.tail] x) else none

/-- `tf.pad` with a constant: `l` has (before, after) for every axis. -/
def tfPad {α : Type} (zero : α) (l : List (Nat × Nat)) (x : T α) : Option (T α) :=
  if l.length = x.shape.length then
    some ⟨(List.range x.shape.length).map (fun i => (l.getD i (0, 0)).1 + nth x.shape i + (l.getD i (0, 0)).2), fun idx =>
      if ∀ i, i < x.shape.length → (l.getD i (0, 0)).1 ≤ nth idx i ∧ nth idx i - (l.getD i (0, 0)).1 < nth x.shape i then
        x.get ((List.range x.shape.length).map (fun i => nth idx i - (l.getD i (0, 0)).1)) else zero⟩
  else none

/-- ONNX `Conv` with a bias: a vector with an element for every output channel, added to the convolution. -/
def onnxConvBias {α : Type} [Add α] (acc : Acc α) (zero : α) (a : Attrs) (x w b : T α) : Option (T α) :=
  (onnxConv acc zero a x w).bind (fun y => if b.shape = [nth w.shape 0] then some ⟨y.shape, fun i => y.get i + b.get [nth i 1]⟩ else none)

/-! ## Diagonals -/

/-- `tf.linalg.diag`: the last axis becomes the diagonal of square matrices. -/
def matrixDiag {α : Type} (zero : α) (x : T α) : Option (T α) :=
  if 1 ≤ x.shape.length then
    some ⟨x.shape ++ [nth x.shape (x.shape.length - 1)], fun i =>
      if nth i (i.length - 1) = nth i (i.length - 2) then x.get i.dropLast else zero⟩ else none

/-- `tf.linalg.set_diag`: the diagonals of the matrices `x` become `d`. -/
def matrixSetDiag {α : Type} (x d : T α) : Option (T α) :=
  if 2 ≤ x.shape.length ∧ d.shape = x.shape.dropLast.dropLast ++ [min (nth x.shape (x.shape.length - 2)) (nth x.shape (x.shape.length - 1))] then
    some ⟨x.shape, fun i => if nth i (i.length - 1) = nth i (i.length - 2) then d.get i.dropLast else x.get i⟩ else none

/-- ONNX `EyeLike` with its default `k = 0`. -/
def eyeLike {α β : Type} (zero one : β) (x : T α) : Option (T β) :=
  if x.shape.length = 2 then some ⟨x.shape, fun i => if nth i 0 = nth i 1 then one else zero⟩ else none

/-- `tf.fill`. -/
def tfFill {α : Type} (dims : List Int) (v : α) : Option (T α) :=
  if ∀ z ∈ dims, 0 ≤ z then some ⟨dims.map Int.toNat, fun _ => v⟩ else none

/-- `tf.range` of integers. -/
def tfRange (start limit delta : Int) : Option (List Int) :=
  if 0 < delta then some ((List.range ((limit - start + delta - 1) / delta).toNat).map (fun k : Nat => start + k * delta))
  else if delta < 0 then some ((List.range ((start - limit - delta - 1) / -delta).toNat).map (fun k : Nat => start + k * delta)) else none

/-! ## Normalization -/

/-- The same function on every element. -/
def mapT {α β : Type} (f : α → β) (x : T α) : T β := ⟨x.shape, fun i => f (x.get i)⟩

/-- `tf.reduce_mean` over axes. `mean` is the mean of the elements that are reduced to one. -/
def tfMean {α : Type} (mean : List α → α) (axes : List Int) (keep : Bool) (x : T α) : Option (T α) :=
  let r := x.shape.length
  let red := fun i : Nat => axes.any (fun a => decide (Tensor.normAxis r a = i))
  let part := (List.range r).map (fun i => if red i then nth x.shape i else 1)
  let y : T α := ⟨(List.range r).map (fun i => if red i then 1 else nth x.shape i), fun idx =>
    mean ((allIdx part).map (fun k => x.get ((List.range r).map (fun i => if red i then nth k i else nth idx i))))⟩
  if ∀ a ∈ axes, -(r : Int) ≤ a ∧ a < r then
    some (if keep then y else reshape (((List.range r).filter (fun i => !red i)).map (nth x.shape)) y) else none

/-- ONNX `InstanceNormalization`: `y = scale * (x - mean) / sqrt(variance + epsilon) + B`, with the mean and the variance over the axes behind the first two. -/
def instanceNorm {α : Type} [CommRing α] (mean : List α → α) (div : α → α → α) (sqrt : α → α) (eps : α) (x scale b : T α) : Option (T α) :=
  let row := fun idx : List Nat => (allIdx (x.shape.drop 2)).map (fun s => x.get (idx.take 2 ++ s))
  let mu := fun idx => mean (row idx)
  let var := fun idx => mean ((row idx).map (fun v => (v - mu idx) * (v - mu idx)))
  if 3 ≤ x.shape.length ∧ scale.shape = [nth x.shape 1] ∧ b.shape = [nth x.shape 1] then
    some ⟨x.shape, fun idx => scale.get [nth idx 1] * div (x.get idx - mu idx) (sqrt (var idx + eps)) + b.get [nth idx 1]⟩ else none

/-! ## Random numbers -/

/-- ONNX `RandomUniform`: the draw `u`, from [0, 1), of each element, moved to [low, high). -/
def onnxUniform {α : Type} [CommRing α] (u : List Nat → α) (low high : α) (s : List Nat) : T α := ⟨s, fun i => low + u i * (high - low)⟩

/-- ONNX `RandomNormal`: the draw of the standard distribution, scaled and moved. -/
def onnxNormal {α : Type} [CommRing α] (u : List Nat → α) (mean scale : α) (s : List Nat) : T α := ⟨s, fun i => mean + u i * scale⟩

/-- ONNX `Dropout` without training: nothing happens. -/
def onnxDropout {α : Type} (x : α) : α := x

end Verif.Patt
