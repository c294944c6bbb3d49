import Verif.Spec.OnnxEval
import Mathlib.Data.List.Dedup
import Mathlib.Algebra.BigOperators.Group.Multiset.Defs
import Mathlib.Algebra.Ring.Defs
/-!
# What `Einsum` computes, and the operators it is decomposed into

`einsum ins out xs` for an equation with the terms `ins` (one per operand) and the output term `out`: element `idx` of the result is the sum, over all
values of the letters that are not in the output, of the product of the elements of the operands that the letters select. Elements are those of a
commutative semiring: the sums of the model are exact.
-/
namespace Verif.Einsum
open Verif.Tensor

section spec
variable {α ι : Type} [DecidableEq ι]

/-- The value of letter `c` when the letters `keys` have the values `vals`. -/
def valueOf (keys : List ι) (vals : List Nat) (c : ι) : Nat := nth vals (keys.idxOf c)

/-- The length of the axis that letter `c` stands for: read off the first operand that has it. -/
def dimOf : List (List ι) → List (T α) → ι → Nat
  | t :: ts, x :: xs, c => if c ∈ t then nth x.shape (t.idxOf c) else dimOf ts xs c
  | _, _, _ => 0

/-- The letters that are summed over. -/
def summed (ins : List (List ι)) (out : List ι) : List ι := (ins.flatten.filter (fun c => decide (c ∉ out))).dedup

/-- The product of the elements of the operands that the values `σ` of the letters select. -/
def product [CommSemiring α] (ins : List (List ι)) (xs : List (T α)) (σ : ι → Nat) : α :=
  (List.zipWith (fun t x => x.get (t.map σ)) ins xs).prod

/-- ONNX `Einsum` / `numpy.einsum` with an explicit output. -/
def einsum [CommSemiring α] (ins : List (List ι)) (out : List ι) (xs : List (T α)) : T α :=
  { shape := out.map (dimOf ins xs)
    get := fun idx => ((allIdx ((summed ins out).map (dimOf ins xs))).map
      (fun j => product ins xs (valueOf (out ++ summed ins out) (idx ++ j)))).sum }

/-- An equation that ONNX `Einsum` and TensorFlow's `einsum` accept, without ellipsis and without letters that occur twice in a term. -/
structure Proper (ins : List (List ι)) (out : List ι) : Prop where
  noRepeat : ∀ t ∈ ins, t.Nodup
  outNoRepeat : out.Nodup
  known : ∀ c ∈ out, ∃ t ∈ ins, c ∈ t

/-- The operands fit the equation: `dim c` is the length of every axis that letter `c` stands for. -/
def Operands (dim : ι → Nat) (ins : List (List ι)) (xs : List (T α)) : Prop := List.Forall₂ (fun t x => x.shape = t.map dim) ins xs

end spec

/-! ## The text of an equation -/

/-- Terms separated by commas. -/
def commas : List (List Char) → List Char
  | [] => []
  | [t] => t
  | t :: ts => t ++ ',' :: commas ts

/-- The text of an equation with the terms `ins` and the output `out`: `"ab,bc->ac"`. -/
def text (ins : List (List Char)) (out : List Char) : List Char := commas ins ++ '-' :: '>' :: out

section ops
variable {α : Type} [CommSemiring α]

/-- ONNX `MatMul` of tensors of rank 3: a matrix product for every batch, batches are broadcast. -/
def matmul3 (x y : T α) : Option (T α) :=
  match x.shape, y.shape with
  | [b, m, k], [b', k', n] =>
    if k = k' ∧ (b = b' ∨ b = 1 ∨ b' = 1) then
      some { shape := [if b = 1 then b' else b, m, n]
             get := fun i => ((List.range k).map (fun r =>
               x.get [if b = 1 then 0 else nth i 0, nth i 1, r] * y.get [if b' = 1 then 0 else nth i 0, r, nth i 2])).sum }
    else none
  | _, _ => none

/-- ONNX `MatMul` whose second operand is a matrix: `x` is `[…, i, k]` and `y` is `[k, j]`. -/
def matmulM (x y : T α) : Option (T α) :=
  match y.shape with
  | [k, j] =>
    if 2 ≤ x.shape.length ∧ x.shape.getLast? = some k then
      some { shape := x.shape.dropLast ++ [j]
             get := fun i => ((List.range k).map (fun r => x.get (i.dropLast ++ [r]) * y.get [r, i.getLastD 0])).sum }
    else none
  | _ => none

/-- ONNX `Gemm` with `transA = 0`, `transB = 1`, `alpha = 1`, `beta = 0`. -/
def gemmT (x y : T α) : Option (T α) :=
  match x.shape, y.shape with
  | [m, k], [n, k'] =>
    if k = k' then
      some { shape := [m, n]
             get := fun i => ((List.range k).map (fun r => x.get [nth i 0, r] * y.get [nth i 1, r])).sum }
    else none
  | _, _ => none

/-- ONNX `ReduceSum` with `keepdims = 1` and the axes as an operand, which exists from operator set 13 on. No axes: all axes. -/
def reduceSum (v : Nat) (axes : List Nat) (x : T α) : Option (T α) :=
  if 13 ≤ v ∧ ∀ a ∈ axes, a < x.shape.length then
    some (reduceKeep Multiset.sum (fun i => axes = [] || axes.contains i) x) else none

/-- ONNX `Mul`. -/
def mulT (x y : T α) : Option (T α) := Emit.zipT (· * ·) x y

/-- ONNX `Reshape` to the shape operand `t`. -/
def reshapeTo (t : List Int) (x : T α) : Option (T α) := (Emit.reshapeDims x.shape t).map (fun r => Tensor.reshape r x)

/-- ONNX `Transpose`. -/
def transposeT (perm : List Nat) (x : T α) : Option (T α) :=
  if IsPerm perm ∧ perm.length = x.shape.length then some (transpose perm x) else none

/-- ONNX `Unsqueeze`; the axes are an attribute before operator set 13 and an operand from then on, which `tf2onnx` respects. -/
def unsqueezeT (axes : List Nat) (x : T α) : Option (T α) :=
  if axes.Nodup ∧ ∀ a ∈ axes, a < x.shape.length + axes.length then
    some (unsqueeze (x.shape.length + axes.length) (fun i => axes.contains i) x) else none

/-- ONNX `Squeeze`, likewise. -/
def squeezeT (axes : List Nat) (x : T α) : Option (T α) :=
  if axes.Nodup ∧ ∀ a ∈ axes, a < x.shape.length ∧ nth x.shape a = 1 then some (squeeze (fun i => axes.contains i) x) else none

end ops
end Verif.Einsum
