import Verif.Spec.OnnxEval
import Mathlib.Data.Multiset.Range
/-!
# ONNX operators that the conversion of segment reductions uses

Vectors of integers are lists. Written after the ONNX operator specification; none where it gives no result (an index out of range, no elements, the same
place written twice).
-/
namespace Verif.Seg
open Verif.Tensor Verif.Emit

/-- `TopK` of a vector with `k` = its length, `largest = 0`, `sorted = 1`: the positions, smallest element first, of equal elements the one in front first. -/
def topkIdx (l : List Int) : List Nat := (List.range l.length).mergeSort (fun i j => decide (l.getD i 0 ≤ l.getD j 0))

/-- `TopK`: first output. -/
def topkVal (l : List Int) : List Int := (topkIdx l).map (fun i => l.getD i 0)

/-- `Unique` with `sorted = 1` of a vector: first output, the different elements in increasing order. -/
def uniqueVal (l : List Int) : List Int := l.dedup.mergeSort (fun a b => decide (a ≤ b))

/-- `Unique`: third output, where each element is among the different ones. -/
def uniqueInv (l : List Int) : List Int := l.map (fun a => ((uniqueVal l).idxOf a : Int))

/-- `Unique`: fourth output, how often each of the different ones occurs. -/
def uniqueCnt (l : List Int) : List Int := (uniqueVal l).map (fun a => (l.count a : Int))

/-- `ReduceMax` of a vector. -/
def reduceMax1 (l : List Int) : Option Int := l.max?

/-- `Gather` of a vector by a vector. -/
def gatherVec (l ix : List Int) : Option (List Int) :=
  if ∀ i ∈ ix, -(l.length : Int) ≤ i ∧ i < l.length then some (ix.map (fun i => l.getD (posOf l.length i) 0)) else none

/-- Element-wise `Mod` of two vectors of the same length (`fmod = 0`); division by zero is undefined. -/
def modVec (a b : List Int) : Option (List Int) :=
  if a.length = b.length ∧ ∀ d ∈ b, d ≠ 0 then some (List.zipWith Int.fmod a b) else none

/-- `Range(0, n, 1)`. -/
def rangeVec (n : Int) : List Int := (List.range n.toNat).map Int.ofNat

/-- `ConstantOfShape`. -/
def constOfShape {β : Type} (c : β) (s : List Int) : Option (T β) := if ∀ d ∈ s, 0 ≤ d then some ⟨s.map Int.toNat, fun _ => c⟩ else none

/-- The place an index tuple of `ScatterND` means; negative indices count from the back. -/
def placeOf (s : List Nat) (ix : List Int) : Option (List Nat) :=
  if ix.length = s.length ∧ ∀ p ∈ ix.zip s, -(p.2 : Int) ≤ p.1 ∧ p.1 < p.2 then some (List.zipWith posOf s ix) else none

/-- `ScatterND` where the index tuples, the rows of the matrix `ix`, address single elements. They have to be in range and different. -/
def scatterND {β : Type} (x : T β) (ix : List (List Int)) (upd : List β) : Option (T β) :=
  match ix.mapM (placeOf x.shape) with
  | none => none
  | some ps =>
    if ps.length = upd.length ∧ ps.Nodup then some ⟨x.shape, fun i => (upd[ps.idxOf i]?).getD (x.get i)⟩ else none

/-- `ScatterElements` of a vector along axis 0. -/
def scatterVec (x ix upd : List Int) : Option (List Int) :=
  if ix.length = upd.length ∧ (∀ i ∈ ix, -(x.length : Int) ≤ i ∧ i < x.length) ∧ (ix.map (posOf x.length)).Nodup then
    some ((List.range x.length).map (fun i => (upd[(ix.map (posOf x.length)).idxOf i]?).getD (x.getD i 0))) else none

/-- `Gather` along axis 0. -/
def gather0 {β : Type} (x : T β) (ix : T Int) : Option (T β) :=
  if x.shape ≠ [] ∧ IndicesOk (nth x.shape 0) ix then some (gatherOn 0 ix x) else none

/-- `Concat` of two tensors along axis 0. -/
def concat0 {β : Type} (fill : β) (x y : T β) : Option (T β) := if ConcatOk 0 [x, y] then some (concat fill 0 [x, y]) else none

/-- `Unsqueeze` with axis 0. -/
def unsqueeze0 {β : Type} (x : T β) : T β := ⟨1 :: x.shape, fun i => x.get i.tail⟩

/-- `Reduce*` over axis 1 with `keepdims = 0`: element `i :: j` is made of the elements `i :: c :: j`. -/
def reduceAxis1 {β : Type} (f : Multiset β → β) (x : T β) : Option (T β) :=
  if 2 ≤ x.shape.length then
    some ⟨nth x.shape 0 :: x.shape.drop 2, fun i => f (Multiset.map (fun c => x.get (nth i 0 :: c :: i.drop 1)) (Multiset.range (nth x.shape 1)))⟩
  else none

end Verif.Seg
