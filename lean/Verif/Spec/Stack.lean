import Verif.Spec.TensorOps
import Verif.Spec.OnnxEval
/-!
# Stacking, unstacking, largest elements: what TensorFlow and ONNX compute
-/
namespace Verif.Stack
open Verif.Tensor Verif.Emit

/-! ## TensorFlow -/

/-- An index with `v` at place `a`. -/
def put (l : List Nat) (a v : Nat) : List Nat := l.take a ++ v :: l.drop a

/-- `tf.stack` along the new axis `a`, of tensors of shape `s`: element `idx` is an element of the operand that component `a` of `idx` selects. -/
def tfStack {α : Type} (fill : T α) (s : List Nat) (a : Nat) (xs : List (T α)) : T α :=
  ⟨put s a xs.length, fun idx => (xs.getD (nth idx a) fill).get (idx.eraseIdx a)⟩

/-- Output `j` of `tf.unstack` along axis `a`. -/
def tfUnstack {α : Type} (a j : Nat) (x : T α) : T α := ⟨x.shape.eraseIdx a, fun idx => x.get (put idx a j)⟩

/-- Position `i` comes before position `j` among the largest elements of the line `l`: its element is larger, or equal and further in front. -/
def Before {K : Type} [LinearOrder K] (l : Nat → K) (i j : Nat) : Prop := l j < l i ∨ (l i = l j ∧ i < j)

/-- `tf.math.top_k` of a line of length `n`: the positions of the `k` largest elements, the largest first, of equal ones the one in front first. -/
structure IsTopK {K : Type} [LinearOrder K] (n k : Nat) (l : Nat → K) (p : List Nat) : Prop where
  length : p.length = k
  range : ∀ i ∈ p, i < n
  sorted : p.Pairwise (Before l)
  others : ∀ i ∈ p, ∀ j, j < n → j ∉ p → Before l i j

/-! ## ONNX -/

/-- `Concat`. -/
def concatT {α : Type} (fill : α) (a : Nat) (xs : List (T α)) : Option (T α) := if ConcatOk a xs then some (concat fill a xs) else none

/-- `Split` along axis `a` into `n` equal parts. -/
def splitT {α : Type} (a n : Nat) (x : T α) : Option (List (T α)) :=
  if a < x.shape.length ∧ 0 < n ∧ nth x.shape a % n = 0 then some ((List.range n).map (fun j => splitChunk a (List.replicate n (nth x.shape a / n)) j x)) else none

/-- `TopK` of a line with `largest = 1` and `sorted = 1`: sorted, and cut off. "Given two equivalent values, this operator uses the indices along the axis as a tiebreaker". -/
def topk {K : Type} [LinearOrder K] (n k : Nat) (l : Nat → K) : List Nat := ((List.range n).mergeSort (fun i j => decide (l j < l i ∨ (l i = l j ∧ i ≤ j)))).take k

end Verif.Stack
