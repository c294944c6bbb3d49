import Verif.Spec.VecOps
/-!
# Sparse tensors (`tf2onnx/onnx_opset/tensor.py:2861-2985`)

Handlers are modelled by the function that the emitted ONNX operators compute. A sparse tensor is a matrix of indices, a vector of values and a shape.
-/
namespace Verif.Sparse
open Verif.Tensor Verif.Emit Verif.Seg Verif.Vec

/-! ## `SparseReshape` -/

/-- The new shape (tensor.py:2867-2877): a negative dimension becomes what is missing. -/
def newShape (shape new : List Int) : Option (List Int) :=
  if reduceProd new ≠ 0 then
    some (new.map (fun d => if d < 0 then -(Int.tdiv (reduceProd shape) (reduceProd new)) else d))
  else none

/-- `cum_prod_of_vector` (tensor.py:2881-2897): row `i` of the matrix is 1 up to column `i` and the vector behind. -/
def cumProd (v : List Int) : List Int :=
  (List.range v.length).map (fun i => reduceProd (v.mapIdx (fun j a => if j ≤ i then 1 else a)))

/-- One index (tensor.py:2906-2909). -/
def reshapeIndex (cur new : List Int) (total : Int) (ix : List Int) : Option (List Int) := do
  let flat ← dot ix cur
  let inc := (total :: new).dropLast
  let m ← if ∀ d ∈ inc, d ≠ 0 then some (inc.map (fun d => Int.fmod flat d)) else none
  if ∀ d ∈ new, d ≠ 0 then some (List.zipWith Int.tdiv m new) else none

/-- `SparseReshape.any_version` (tensor.py:2864-2913): indices and shape. -/
def sparseReshape (ix : List (List Int)) (shape new : List Int) : Option (List (List Int) × List Int) := do
  let out ← newShape shape new
  let r ← ix.mapM (reshapeIndex (cumProd shape) (cumProd out) (reduceProd shape))
  some (r, out)

/-! ## `SparseFillEmptyRows` -/

/-- Which rows have no element (tensor.py:2931-2945). -/
def emptyRowFlags (ix : List (List Int)) (rows : Int) : Option (List Bool) := do
  let first := uniqueVal (ix.flatMap (fun r => r.take 1))
  let all ← fill true rows
  let none' ← fill false first.length
  scatter all first none'

/-- `SparseFillEmptyRows.any_version` (tensor.py:2928-2977): indices, values and flags; `d` is the number of columns of the index matrix. -/
def fillEmptyRows {β : Type} (d : Nat) (ix : List (List Int)) (vals : List β) (shape : List Int) (default : β) :
    Option (List (List Int) × List β × List Bool) := do
  let rows ← shape[0]?
  let flags ← emptyRowFlags ix rows
  let new ← compress (rangeVec rows) flags
  if d = 0 then none
  else some (ix ++ new.map (fun r => r :: List.replicate (d - 1) 0), vals ++ List.replicate new.length default, flags)

end Verif.Sparse
