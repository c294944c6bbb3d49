import Verif.Spec.Tensor
import Mathlib.Data.Multiset.Range
import Mathlib.Data.Multiset.Filter
/-!
# TensorFlow's segment reductions

After the documentation of `tf.math.segment_sum` and its relatives: row `s` of the result is the reduction of the rows `i` of the data with `ids[i] = s`.
-/
namespace Verif.Seg
open Verif.Tensor

/-- The elements at `j` of the rows of the data that belong to segment `s`. -/
def members {α : Type} (data : T α) (ids : List Int) (s : Nat) (j : List Nat) : Multiset α :=
  Multiset.map (fun i => data.get (i :: j)) ((Multiset.range ids.length).filter (fun i => ids[i]? = some (s : Int)))

/-- A segment reduction of data with rows of the dimensions `data.shape.tail` to `n` segments; `f` reduces one segment. -/
def tfSegment {α : Type} (f : Multiset α → α) (n : Nat) (data : T α) (ids : List Int) : T α :=
  { shape := n :: data.shape.tail, get := fun i => f (members data ids (nth i 0) i.tail) }

/-- The sparse variants reduce the rows `indices[i]` of the data. -/
def tfRows {α : Type} (data : T α) (indices : List Nat) : T α :=
  { shape := indices.length :: data.shape.tail, get := fun i => data.get (nth indices (nth i 0) :: i.tail) }

/-- The number of rows of the result if it is not given: the ids are in increasing order, it is the last one plus 1. -/
def lastPlusOne (ids : List Int) : Nat := (ids.getLastD (-1) + 1).toNat

end Verif.Seg
