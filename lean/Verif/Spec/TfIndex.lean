import Verif.Spec.TensorOps
/-!
# TensorFlow operators that choose or place elements by computed indices

After the documentation of TensorFlow.
-/
namespace Verif.TfIndex
open Verif.Tensor

/-- `tf.math.bincount`: how often each number below `size` occurs. -/
def bincount (size : Nat) (l : List Int) : List Int := (List.range size).map (fun v : Nat => (l.count (v : Int) : Int))

/-- `tf.math.bincount` with `binary_output`: whether each number below `size` occurs. -/
def bincountBinary (size : Nat) (l : List Int) : List Int := (List.range size).map (fun v : Nat => if (v : Int) ∈ l then 1 else 0)

/-- The different elements in the order in which they occur first. -/
def firstSeen {β : Type} [DecidableEq β] (l : List β) : List β := l.foldl (fun seen a => if a ∈ seen then seen else seen ++ [a]) []

/-- `tf.unique_with_counts`: the different elements in the order in which they occur first, the place of each element among them, and their counts. -/
def uniqueWithCounts {β : Type} [DecidableEq β] (l : List β) : List β × List Int × List Int :=
  (firstSeen l, l.map (fun a => ((firstSeen l).idxOf a : Int)), (firstSeen l).map (fun a => (l.count a : Int)))

/-- `out` is output `i` of `tf.dynamic_partition(data, part)`: slice `j` of the data, if its partition is `i`, comes behind the slices in front of it with
partition `i`. -/
def IsPartition {β : Type} (data : T β) (part : List Int) (i : Int) (out : T β) : Prop :=
  out.shape = part.count i :: data.shape.tail ∧
    ∀ j, part[j]? = some i → ∀ r, InB data.shape.tail r → out.get ((part.take j).count i :: r) = data.get (j :: r)

/-- `out` is `tf.dynamic_stitch(indices, data)` for indices that are the numbers below `n`, each once: slice `k` of part `m` comes to index `k` of part
`m`. -/
def IsStitch {β : Type} (parts : List (List Int × T β)) (n : Nat) (u : List Nat) (out : T β) : Prop :=
  out.shape = n :: u ∧ ∀ p ∈ parts, ∀ k (v : Nat), p.1[k]? = some (v : Int) → ∀ r, InB u r → out.get (v :: r) = p.2.get (k :: r)

/-- `tf.one_hot` along an axis from 0 to the rank of the indices. -/
def oneHot {β : Type} (axis depth : Nat) (off on : β) (ix : T Int) : T β :=
  ⟨ix.shape.insertIdx axis depth, fun i => if ix.get (i.eraseIdx axis) = (nth i axis : Int) then on else off⟩

/-- `tf.linalg.diag_part` of a batch of matrices: batch dimensions `pre`, `m` rows, `n` columns. -/
def diagPart {β : Type} (pre : List Nat) (m n : Nat) (x : T β) : T β :=
  ⟨pre ++ [min m n], fun i => x.get (i ++ [nth i pre.length])⟩

/-- Set operations. -/
inductive SetOp | union | intersection | aMinusB | bMinusA

/-- Whether the operation keeps a value that is or is not in the first set, is or is not in the second set. -/
def SetOp.Keeps : SetOp → Prop → Prop → Prop
  | .union, a, b => a ∨ b
  | .intersection, a, b => a ∧ b
  | .aMinusB, a, b => a ∧ ¬ b
  | .bMinusA, a, b => b ∧ ¬ a

/-- A value is in the set that the last dimension of the tensor lists at index `p`. -/
def InSet (x : T Int) (p : List Nat) (v : Int) : Prop := ∃ k, k < x.shape.getLastD 0 ∧ x.get (p ++ [k]) = v

/-- The sparse tensor (indices, values, shape) is the result of a set operation on the last dimension of `a` and `b` with leading dimensions `s`: the set
`S p` at index `p` in increasing order, the indices in row-major order, the last dimension the size of the largest set. -/
def IsSetResult (op : SetOp) (s : List Nat) (a b : T Int) (ix : List (List Int)) (vals shape : List Int) : Prop :=
  ∃ S : List Nat → List Int, (∀ p, (S p).Pairwise (· < ·)) ∧ (∀ p, InB s p → ∀ v, v ∈ S p ↔ op.Keeps (InSet a p v) (InSet b p v)) ∧
    ix = (allIdx s).flatMap (fun p => (List.range (S p).length).map (fun k => (p ++ [k]).map Int.ofNat)) ∧
    vals = (allIdx s).flatMap S ∧
    shape = s.map Int.ofNat ++ [Int.ofNat (((allIdx s).map (fun p => (S p).length)).foldr max 0)]

/-- `tf.scatter_nd` and `tf.tensor_scatter_nd_*`: combine the slices of `x` at the rows of `ix` with the slices of `upd`, in the order of the rows. -/
def scatterNd {β : Type} (f : β → β → β) (d : Nat) (x : T β) (ix : List (List Nat)) (upd : T β) : T β :=
  ⟨x.shape, fun i => ((ix.zipIdx.filter (fun p => decide (p.1 = i.take d))).map Prod.snd).foldl (fun a k => f a (upd.get (k :: i.drop d))) (x.get i)⟩

end Verif.TfIndex
