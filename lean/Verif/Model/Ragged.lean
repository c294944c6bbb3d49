import Verif.Spec.VecOps
import Verif.Spec.Ragged
/-!
# Ragged and sparse tensors (`tf2onnx/onnx_opset/tensor.py:2500-2985`)

Handlers are modelled by the function that the emitted ONNX operators compute; every `let` is one emitted operator or a few. `Cast` between integer types
is the identity, since integers are unbounded.
-/
namespace Verif.Ragged
open Verif.Tensor Verif.Emit Verif.Seg Verif.Vec

/-- `ragged_lengths_to_sparse_indices` (tensor.py:2505-2527): number of rows, of columns, row and column of every element. -/
def lengthsToIndices (lens : List Int) : Option (Int × Int × List Int × List Int) := do
  let numCols ← reduceMax1 lens
  let numRows : Int := lens.length
  let ones ← fill (1 : Int) (numCols * numRows)
  let range := cumsumExcl ones
  let cols ← modBy range numCols
  let rows ← divBy range numCols
  let rowLens ← gather lens rows
  let keep ← zip2 (fun a b => decide (a < b)) cols rowLens
  let c ← compress cols keep
  let r ← compress rows keep
  some (numRows, numCols, r, c)

/-- `ragged_row_ids_to_sparse_indices` (tensor.py:2530-2546): number of columns, column of every element. -/
def rowIdsToColumns (ids : List Int) : Option (Int × List Int) := do
  let indices := uniqueFirst ids
  let counts := uniqueCnt ids
  let numCols ← reduceMax1 counts
  let shifted := (0 :: counts.map (fun c => 1 - c)).dropLast
  let ones ← fill (1 : Int) ids.length
  let deltas ← scatterVec ones indices shifted
  some (numCols, cumsum deltas)

/-- The index matrix of the next level (tensor.py:2564-2569, 2586-2590): the rows of the level before, with the column behind. -/
def extend (before : Option (List (List Int))) (rows cols : List Int) : Option (List (List Int)) := do
  let left ← match before with
    | none => some (column rows)
    | some m => gather m rows
  hcat left (column cols)

/-- Row lengths from row splits (tensor.py:2556-2560). -/
def lengthsOf (split : List Int) : Option (List Int) := zip2 (fun a b => a - b) (split.drop 1) split.dropLast

/-- One round of the loop of `ragged_nested_splits_to_sparse_indices` (tensor.py:2552-2569). -/
def splitsRound (acc : Option (List (List Int)) × List Int) (split : List Int) : Option (Option (List (List Int)) × List Int) := do
  let lens ← lengthsOf split
  let (numRows, numCols, r, c) ← lengthsToIndices lens
  let dims := if acc.2 = [] then [numRows] else acc.2
  let ix ← extend acc.1 r c
  some (some ix, dims ++ [numCols])

/-- `ragged_nested_splits_to_sparse_indices` (tensor.py:2549-2571). -/
def splitsToIndices (splits : List (List Int)) : Option (Option (List (List Int)) × List Int) := splits.foldlM splitsRound (none, [])

/-- One round of the loop of `ragged_nested_row_ids_to_sparse_indices` (tensor.py:2580-2590). -/
def rowIdsRound (acc : Option (List (List Int)) × List Int) (ids : List Int) : Option (Option (List (List Int)) × List Int) := do
  let (numCols, c) ← rowIdsToColumns ids
  let ix ← extend acc.1 ids c
  some (some ix, acc.2 ++ [numCols])

/-- `ragged_nested_row_ids_to_sparse_indices` (tensor.py:2574-2592). -/
def rowIdsToIndices (numRows : Int) (ids : List (List Int)) : Option (Option (List (List Int)) × List Int) := ids.foldlM rowIdsRound (none, [numRows])

/-- `RaggedTensorToSparse` (tensor.py:2595-2608): indices and dense shape; the values are the last input. -/
def raggedToSparse (splits : List (List Int)) : Option (List (List Int) × List Int) := do
  let (ix, dims) ← splitsToIndices splits
  some (← ix, dims)

/-- How the rows are given (tensor.py:2617-2625). -/
inductive Partition
  | rowSplits (splits : List (List Int))
  | valueRowids (firstDim : Int) (ids : List (List Int))

/-- The indices and the natural shape (tensor.py:2627-2637). -/
def Partition.indices : Partition → Option (List (List Int) × List Int)
  | .rowSplits s => do
    let (ix, dims) ← splitsToIndices s
    some (← ix, dims)
  | .valueRowids n ids => do
    let (ix, dims) ← rowIdsToIndices n ids
    some (← ix, dims)

/-- `n_dims` (tensor.py:2629, 2635). -/
def Partition.dims : Partition → Nat
  | .rowSplits s => s.length + 1
  | .valueRowids _ ids => ids.length + 1

/-- The shape that is asked for (tensor.py:2643-2651): negative dimensions are the natural ones. -/
def outShape (n : Nat) (uniform : Bool) (shape natural : List Int) : Option (List Int) :=
  zip2 (fun s d => if s < 0 then d else s) (if uniform then shape.take n else shape) natural

/-- Which indices are inside of the shape (tensor.py:2652-2656). -/
def inBounds (shape : List Int) (ix : List (List Int)) : Option (List Bool) := do
  let amt ← ix.mapM (zip2 (fun a b => a - b) shape)
  let m ← rowMin amt
  some (m.map (fun z => decide (0 < z)))

/-- `RaggedTensorToTensor` (tensor.py:2611-2671). `shape`: none if it is of rank 0; `uniform`: the recorded rank of the values is not 1; the default is a
number. -/
def raggedToTensor {β : Type} (p : Partition) (uniform : Bool) (shape : Option (List Int)) (values : T β) (default : β) : Option (T β) := do
  let (ix, natural) ← p.indices
  let (ix, values, out) ← match shape with
    | none => some (ix, values, natural)
    | some s => do
      let out ← outShape p.dims uniform s natural
      let keep ← inBounds out ix
      let ix' ← compress ix keep
      let values' ← compressT values keep
      some (ix', values', out)
  let dims := if uniform then out ++ values.shape.tail.map Int.ofNat else out
  let x ← constOfShape default dims
  scatterSlices p.dims x ix values

/-! ## `RaggedRange` -/

/-- An input of rank 0 or 1. -/
inductive Arg
  | scalar (a : Int)
  | vec (l : List Int)

/-- Element-wise operator with broadcasting of numbers. -/
def Arg.zip (f : Int → Int → Int) : Arg → Arg → Option Arg
  | .scalar a, .scalar b => some (.scalar (f a b))
  | .scalar a, .vec l => some (.vec (l.map (f a)))
  | .vec l, .scalar b => some (.vec (l.map (fun a => f a b)))
  | .vec l, .vec m => (zip2 f l m).map .vec

/-- `Expand` to a vector of the length `n`; a vector stays (tensor.py:2722-2726). -/
def Arg.expand (n : Nat) : Arg → List Int
  | .scalar a => List.replicate n a
  | .vec l => l

/-- The quotient of two integers, rounded up (tensor.py:2690-2701): one more unless it is exact. -/
def ceilDiv (a d : Int) : Int := Int.tdiv a d + (if Int.tdiv a d * d = a then 0 else 1)

/-- All divisors differ from 0. -/
def Arg.nonzero : Arg → Prop
  | .scalar a => a ≠ 0
  | .vec l => ∀ a ∈ l, a ≠ 0

instance (a : Arg) : Decidable a.nonzero := by cases a <;> unfold Arg.nonzero <;> infer_instance

/-- A vector. -/
def Arg.asVec : Arg → Option (List Int)
  | .vec l => some l
  | .scalar _ => none

/-- The numbers of elements, rounded up, possibly negative (tensor.py:2687-2701). -/
def rangeCounts (starts limits deltas : Arg) : Option Arg :=
  (limits.zip (fun a b => a - b) starts).bind (fun sub => if deltas.nonzero then sub.zip ceilDiv deltas else none)

/-- `RaggedRange.version_11` for integers (tensor.py:2674-2734): splits and values. -/
def raggedRange (starts limits deltas : Arg) : Option (List Int × List Int) := do
  let quo ← rangeCounts starts limits deltas
  let lens := (← quo.asVec).map (fun z => max z 0)
  let (numRows, _, r, c) ← lengthsToIndices lens
  let s ← gather (starts.expand numRows.toNat) r
  let d ← gather (deltas.expand numRows.toNat) r
  let mul ← zip2 (fun a b => a * b) c d
  let vals ← zip2 (fun a b => a + b) s mul
  some (0 :: cumsum lens, vals)

/-! ## `RaggedGather` -/

/-- The steps of the running index (tensor.py:2773-2789). -/
def gatherSteps (starts lens : List Int) : Option (List Int) := do
  let prevLens := (0 :: lens).dropLast
  let prevStarts := 1 :: starts.dropLast
  let deltas ← zip2 (fun a b => a - b) starts prevStarts
  let deltas2 ← zip2 (fun a b => a - b) deltas prevLens
  some (deltas2.map (· + 1))

/-- `RaggedGather.version_11` (tensor.py:2737-2805) for ragged rank 1: splits and values. -/
def raggedGather {β : Type} (splits : List Int) (values : List β) (indices : List Int) : Option (List Int × List β) := do
  let lens ← lengthsOf splits
  let glens ← gather lens indices
  let gsplits := cumsum (0 :: glens)
  let total ← gsplits.getLast?
  let gstarts ← gather splits indices
  let pos := glens.map (fun z => decide (0 < z))
  let nzLens ← compress glens pos
  let nzStarts ← compress gstarts pos
  let nzSplits ← compress gsplits pos
  let steps ← gatherSteps nzStarts nzLens
  let ones ← fill (1 : Int) total
  let full ← scatterVec ones nzSplits steps
  let vals ← gather values (cumsum full)
  some (gsplits, vals)

end Verif.Ragged
