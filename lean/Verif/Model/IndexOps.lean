import Verif.Spec.IndexOps
import Verif.Spec.TfIndex
/-!
# Operators that choose or place elements by computed indices (`tf2onnx/onnx_opset/tensor.py`)

Handlers are modelled by the function that the emitted ONNX operators compute. Casts of indices to 64 bits do not appear.
-/
namespace Verif.Index
open Verif.Tensor Verif.Emit Verif.Seg Verif.Vec

/-! ## `Unique`, `UniqueWithCounts` -/

/-- `Unique.version_11` (tensor.py:2375-2403): `cast` and `back` are the casts to and from the type that the target runtime has, the identity for 32-bit floats
and 64-bit integers. -/
def uniqueOp {β γ : Type} [DecidableEq γ] (cast : β → γ) (back : γ → β) (l : List β) : List β × List Int × List Int :=
  let r := uniqueUnsorted (l.map cast)
  (r.1.map back, r.2.1, r.2.2)

/-! ## `Bincount`, `DenseBincount` -/

/-- Which values are kept (tensor.py:2449-2452). -/
def validVals (vals : List Int) (size : Int) : List Bool := vals.map (fun v => decide (-1 < v) && decide (v < size))

/-- What is placed: counts or ones (tensor.py:2455-2462). -/
def placed (binary : Bool) (cnt : List Int) (keep : List Bool) (n : Nat) : Option (List Int) :=
  if binary then fill 1 n else compress cnt keep

/-- `Bincount.any_version` for a vector (tensor.py:2441-2471). -/
def bincount1 (binary : Bool) (arr : List Int) (size : Int) : Option (List Int) := do
  let keep := validVals (uniqueVal arr) size
  let vals ← compress (uniqueVal arr) keep
  let cnt ← placed binary (uniqueCnt arr) keep vals.length
  let zeros ← fill 0 size
  scatter zeros vals cnt

/-- The rows `[row, value]` (tensor.py:2424-2436). -/
def rowPairs (rows : List (List Int)) : List (List Int) := rows.zipIdx.flatMap (fun p => p.1.map (fun v => [(p.2 : Int), v]))

/-- `Bincount.any_version` for a matrix (tensor.py:2423-2440, 2449-2469). -/
def bincount2 (binary : Bool) (rows : List (List Int)) (size : Int) : Option (T Int) := do
  let pairs := rowPairs rows
  let keep := validVals ((uniqueRows pairs).map (fun r => r.getD 1 0)) size
  let vals ← compress (uniqueRows pairs) keep
  let cnt ← placed binary (uniqueRowsCnt pairs) keep vals.length
  let zeros ← constOfShape 0 [(rows.length : Int), size]
  scatterND zeros vals cnt

/-! ## `DynamicPartition`, `DynamicStitch` -/

/-- `DynamicPartition.any_version` (tensor.py:3090-3106): row `i` of the matrix of equalities chooses the slices of output `i`. -/
def dynamicPartition {β : Type} (data : T β) (part : List Int) (num : Nat) : Option (List (T β)) :=
  ((List.range num).map (fun i : Nat => part.map (fun p => decide (p = (i : Int))))).mapM (compressT data)

/-- The indices, one for each slice, as large as the data (tensor.py:3139-3144). -/
def expandIndices (l : List Int) (s : List Nat) : Option (T Int) :=
  if l.length = nth s 0 then some ⟨s, fun i => l.getD (nth i 0) 0⟩ else none

/-- `Concat` along axis 0. -/
def concatAll {β : Type} (zero : β) (l : List (T β)) : Option (T β) := if ConcatOk 0 l then some (concat zero 0 l) else none

/-- `DynamicStitch.any_version` (tensor.py:3131-3157). -/
def dynamicStitch {β : Type} (zero : β) (parts : List (List Int × T β)) : Option (T β) := do
  let data ← concatAll zero (parts.map Prod.snd)
  let ix ← expandIndices (parts.map Prod.fst).flatten data.shape
  scatterElems0 ⟨data.shape, fun _ => zero⟩ ix data

/-! ## `OneHot` -/

/-- `OneHot.any_version_after9` (tensor.py:1403-1473) for values of type float: an index without dimensions gets one and loses it again. -/
def oneHotNew {β : Type} (axis : Int) (depth : Nat) (on off : β) (ix : T Int) : Option (T β) :=
  if ix.shape = [] then
    (oneHotAxis 1 (if axis = 0 then -1 else axis)).map (fun a =>
      let y := oneHot a depth off on (⟨[1], fun _ => ix.get []⟩ : T Int)
      ⟨y.shape.tail, fun i => y.get (0 :: i)⟩)
  else (oneHotAxis ix.shape.length axis).map (fun a => oneHot a depth off on ix)

/-- The table (tensor.py:1374-1380): `numpy.eye` with its ones and zeros replaced, one after the other. -/
def eyeTable {β : Type} [DecidableEq β] [Zero β] [One β] (depth : Nat) (on off : β) : T β :=
  let eye := fun i : List Nat => if nth i 0 = nth i 1 then (1 : β) else 0
  let swap := fun (a b : β) (f : List Nat → β) (i : List Nat) => if f i = a then b else f i
  ⟨[depth, depth], if on ≠ 0 then swap 0 off (swap 1 on eye) else swap 1 on (swap 0 off eye)⟩

/-- `OneHot.version_1` (tensor.py:1360-1399): a row of the table for each index; none if the indices are no vector. -/
def oneHotOld {β : Type} [DecidableEq β] [Zero β] [One β] (axis : Int) (depth : Nat) (on off : β) (ix : T Int) : Option (T β) :=
  if ix.shape.length = 1 then
    (gather0 (eyeTable depth on off) ix).map (fun y => if axis = 0 then transpose [1, 0] y else y)
  else none

/-! ## `MatrixDiagPart` -/

/-- The smaller one of the last two dimensions (tensor.py:3174-3184). The dimensions go through 32-bit floats, which is exact below 2^24. -/
def minDim (s : List Nat) : Option Nat :=
  if 2 ≤ s.length then some (min (nth s (s.length - 2)) (nth s (s.length - 1))) else none

/-- `Expand` of the column of the numbers below `k` (tensor.py:3194-3197). -/
def expandRange (k : Nat) (s : List Nat) : Option (T Int) := expandOn s ⟨[k, 1], fun i => (nth i 0 : Int)⟩

/-- `Slice` of the axes 2 and 1 (tensor.py:3187). -/
def sliceSquare {β : Type} (zero : β) (k : Nat) (x : T β) : Option (T β) :=
  if SliceOk x.shape.length [0, 0] [(k : Int), k] [2, 1] then some (sliceOn [0, 0] [(k : Int), k] [2, 1] zero x) else none

/-- `MatrixDiagPart.any_version` (tensor.py:3170-3206). -/
def matrixDiagPart {β : Type} (zero : β) (x : T β) : Option (T β) := do
  let k ← minDim x.shape
  let y ← sliceSquare zero k x
  let ix ← expandRange k (y.shape.dropLast ++ [1])
  let g ← gatherElemsLast y ix
  if nth g.shape (g.shape.length - 1) = 1 then some ⟨g.shape.dropLast, fun i => g.get (i ++ [0])⟩ else none

/-! ## `DenseToDenseSetOperation` -/

open TfIndex (SetOp)

/-- `concat_indices` (tensor.py:3012-3020): a row for each element, the leading indices and the value. -/
def indexRows (x : T Int) : List (List Int) := (allIdx x.shape).map (fun i => i.dropLast.map Int.ofNat ++ [x.get i])

/-- `Concat` along the last axis (tensor.py:3023). -/
def concatLast (a b : T Int) : Option (T Int) :=
  if ConcatOk (a.shape.length - 1) [a, b] then some (concat 0 (a.shape.length - 1) [a, b]) else none

/-- The rows of the result (tensor.py:3022-3053), for the operations that are left after `b-a` is `a-b` with arguments swapped (tensor.py:2999-3001). -/
def setRows (op : SetOp) (a b : T Int) : Option (List (List Int)) :=
  match op with
  | .union => (concatLast a b).map (fun c => uniqueRows (indexRows c))
  | .intersection =>
    let c := uniqueRows (indexRows a) ++ uniqueRows (indexRows b)
    compress (uniqueRows c) ((uniqueRowsCnt c).map (fun n => decide (n = 2)))
  | .aMinusB =>
    let c := uniqueRows (indexRows a) ++ uniqueRows (indexRows b) ++ uniqueRows (indexRows b)
    compress (uniqueRows c) ((uniqueRowsCnt c).map (fun n => decide (n = 1)))
  | .bMinusA =>
    let c := uniqueRows (indexRows b) ++ uniqueRows (indexRows a) ++ uniqueRows (indexRows a)
    compress (uniqueRows c) ((uniqueRowsCnt c).map (fun n => decide (n = 1)))

/-- The last index of each row (tensor.py:3062-3075). -/
def lastIndex (m : List (List Int)) : Option (List Int) := do
  let shifted := 0 :: ((uniqueRowsCnt m).map (fun c => 1 - c)).dropLast
  let ones ← fill 1 (m.length : Int)
  let deltas ← scatterVec ones (uniqueRowsFirst m) shifted
  some (cumsum deltas)

/-- `DenseToDenseSetOperation.version_11` (tensor.py:2991-3076): indices, values and shape. -/
def setOperation (op : SetOp) (a b : T Int) : Option (List (List Int) × List Int × List Int) := do
  let rows ← setRows op a b
  let m := rows.map List.dropLast
  let last ← lastIndex m
  let mx ← reduceMax1 (uniqueRowsCnt m)
  let ix ← hcat m (column last)
  some (ix, rows.map (fun r => r.getLastD 0), a.shape.dropLast.map Int.ofNat ++ [mx])

/-! ## `ScatterNd`, `TensorScatter*`, `SparseToDense` -/

/-- `ScatterND.version_11` (tensor.py:648-660): into zeros. -/
def scatterNdOp {β : Type} (zero : β) (d : Nat) (shape : List Int) (ix : List (List Int)) (upd : T β) : Option (T β) := do
  let x ← constOfShape zero shape
  scatterSlices d x ix upd

/-- `TensorScatterAdd`, `TensorScatterMax`, `TensorScatterMin` (tensor.py:663-690): `reduction` is the operation. -/
def tensorScatter {β : Type} (f : β → β → β) (d : Nat) (x : T β) (ix : List (List Int)) (upd : T β) : Option (T β) := scatterReduce f d x ix upd

/-- `TensorScatterSub` (tensor.py:693-701): addition of the negative. -/
def tensorScatterSub {β : Type} (add : β → β → β) (neg : β → β) (d : Nat) (x : T β) (ix : List (List Int)) (upd : T β) : Option (T β) :=
  scatterReduce add d x ix ⟨upd.shape, fun i => neg (upd.get i)⟩

/-- `TensorScatterUpdate` (tensor.py:704-709). -/
def tensorScatterUpdate {β : Type} (d : Nat) (x : T β) (ix : List (List Int)) (upd : T β) : Option (T β) := scatterSlices d x ix upd

/-- `SparseToDense.version_11` (tensor.py:2489-2503). -/
def sparseToDense {β : Type} (ix : List (List Int)) (shape : List Nat) (vals : List β) (default : β) : Option (T β) :=
  scatterND ⟨shape, fun _ => default⟩ ix vals

end Verif.Index
