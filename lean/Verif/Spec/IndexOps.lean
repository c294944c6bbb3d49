import Verif.Spec.VecOps
/-!
# ONNX operators that choose or place elements by computed indices

After the ONNX operator specification; none where it gives no result.
-/
namespace Verif.Index
open Verif.Tensor Verif.Emit Verif.Seg Verif.Vec

/-- `Unique` with `sorted = 1`, `axis = 0` of a matrix: first output, the different rows in lexicographic order. -/
def uniqueRows (l : List (List Int)) : List (List Int) := l.dedup.mergeSort (fun a b => decide (a ≤ b))

/-- `Unique` with `axis = 0`: second output, where each of the different rows is first. -/
def uniqueRowsFirst (l : List (List Int)) : List Int := (uniqueRows l).map (fun a => (l.idxOf a : Int))

/-- `Unique` with `axis = 0`: fourth output, how often each of the different rows occurs. -/
def uniqueRowsCnt (l : List (List Int)) : List Int := (uniqueRows l).map (fun a => (l.count a : Int))

/-- `Unique` with `sorted = 0` of a vector: first, third and fourth output. The different elements are in the order of their first occurrence: an element is kept
if it is not among those in front of it. -/
def uniqueUnsorted {β : Type} [DecidableEq β] (l : List β) : List β × List Int × List Int :=
  let u := (l.zipIdx.filter (fun p => decide (p.1 ∉ l.take p.2))).map Prod.fst
  (u, l.map (fun a => (u.idxOf a : Int)), u.map (fun a => (l.count a : Int)))

/-- `OneHot` along an axis from 0 to the rank of the indices. Negative indices count from the back; indices out of range give `off` everywhere. -/
def oneHot {β : Type} (axis depth : Nat) (off on : β) (ix : T Int) : T β :=
  ⟨ix.shape.insertIdx axis depth, fun i =>
    let v := ix.get (i.eraseIdx axis)
    if -(depth : Int) ≤ v ∧ v < depth ∧ posOf depth v = nth i axis then on else off⟩

/-- The axis of `OneHot` for indices of rank `r`. -/
def oneHotAxis (r : Nat) (axis : Int) : Option Nat :=
  if -(r : Int) - 1 ≤ axis ∧ axis ≤ r then some (if axis < 0 then axis + r + 1 else axis).toNat else none

/-- `ScatterElements` along axis 0, where the other dimensions of the indices are those of the data: indices in range, no place written twice. -/
def scatterElems0 {β : Type} (x : T β) (ix : T Int) (upd : T β) : Option (T β) :=
  if ix.shape = upd.shape ∧ x.shape ≠ [] ∧ ix.shape ≠ [] ∧ ix.shape.tail = x.shape.tail ∧ IndicesOk (nth x.shape 0) ix ∧
      (∀ i ∈ allIdx ix.shape, ∀ j ∈ allIdx ix.shape, i.tail = j.tail → posOf (nth x.shape 0) (ix.get i) = posOf (nth x.shape 0) (ix.get j) → i = j) then
    some ⟨x.shape, fun i => match (List.range (nth ix.shape 0)).find? (fun k => decide (posOf (nth x.shape 0) (ix.get (k :: i.tail)) = nth i 0)) with
      | some k => upd.get (k :: i.tail)
      | none => x.get i⟩
  else none

/-- `GatherElements` along the last axis. -/
def gatherElemsLast {β : Type} (x : T β) (ix : T Int) : Option (T β) :=
  if ix.shape.length = x.shape.length ∧ x.shape ≠ [] ∧ (∀ a ∈ List.range (x.shape.length - 1), nth ix.shape a ≤ nth x.shape a) ∧
      IndicesOk (nth x.shape (x.shape.length - 1)) ix then
    some ⟨ix.shape, fun i => x.get (i.dropLast ++ [posOf (nth x.shape (x.shape.length - 1)) (ix.get i)])⟩
  else none

/-- `ScatterND` with `reduction`: the slices that the rows of `ix` address are combined, in the order of the rows, with the slices of `upd`. -/
def scatterReduce {β : Type} (f : β → β → β) (d : Nat) (x : T β) (ix : List (List Int)) (upd : T β) : Option (T β) :=
  match ix.mapM (placeOf (x.shape.take d)) with
  | none => none
  | some ps =>
    if d ≤ x.shape.length ∧ upd.shape = ps.length :: x.shape.drop d then
      some ⟨x.shape, fun i => ((List.range ps.length).filter (fun k => decide (ps[k]? = some (i.take d)))).foldl (fun a k => f a (upd.get (k :: i.drop d))) (x.get i)⟩
    else none

end Verif.Index
