import Verif.Spec.OnnxEval
import Mathlib.Data.List.Sort
/-!
# Handlers that rearrange the elements of a tensor (`tf2onnx/onnx_opset/tensor.py`)

A handler is modelled by the ONNX operators it emits, applied to the inputs of the converted node (`Expr`; a node that is used twice appears twice), or
by the exception it raises. Names, and recorded shapes and types of what is emitted, are not modelled. `v` is `ctx.opset`, `rank` is the recorded rank of
the first input.
-/
namespace Verif.Emit
open Verif.Tensor

/-- `GraphBuilder.make_squeeze` (tf2onnx/graph_builder.py:161-200): the axes are an attribute before operator set 13. -/
def mkSqueeze (v : Nat) (axes : List Int) (x : Expr) : Expr := if v < 13 then .app (.squeezeAttr axes) [x] else .app .squeeze [x, .const (vecT axes)]

/-- `GraphBuilder.make_unsqueeze` (tf2onnx/graph_builder.py:202-241). -/
def mkUnsqueeze (v : Nat) (axes : List Int) (x : Expr) : Expr := if v < 13 then .app (.unsqueezeAttr axes) [x] else .app .unsqueeze [x, .const (vecT axes)]

/-- `GraphBuilder.make_slice` with lists for `starts`, `ends`, `axes` (tf2onnx/graph_builder.py:27-76): attributes before operator set 10. -/
def mkSlice (v : Nat) (starts ends axes : List Int) (x : Expr) : Expr :=
  if v < 10 then .app (.sliceAttr starts ends axes) [x] else .app .slice [x, .const (vecT starts), .const (vecT ends), .const (vecT axes)]

/-- `curr_perm[axis], curr_perm[0] = curr_perm[0], curr_perm[axis]` (tensor.py:2273, 2342-2343). -/
def swap0 (l : List Nat) (a : Nat) : List Nat := (l.set a (nth l 0)).set 0 (nth l a)

/-- One round of the loop of `ReverseV2` (tensor.py:2266-2330): bring the axis to the front, reverse it. `x0` is the input, `cur` what the rounds before
gave. -/
def reverseRound (rank : Nat) (x0 : Expr) (cur : Expr) (axis : Nat) : Expr :=
  let y := if axis ≠ 0 then .app (.transpose (some (swap0 (List.range rank) axis))) [cur] else cur
  let batch := Expr.app (.gather 0) [.app .shape [y], .const (vecT [1])]
  let dim := Expr.app (.gather 0) [.app .shape [x0], .const (vecT [(axis : Int)])]
  .app (.reverseSequence 1 0) [y, .app .expand [dim, batch]]

/-- The rest of `ReverseV2` for axes that have been sorted (tensor.py:2262-2357): all rounds, then the transpose that restores the order of the axes. -/
def reverseRounds (rank : Nat) (x0 : Expr) (axes : List Nat) : Expr :=
  let y := axes.foldl (reverseRound rank x0) x0
  let cur := swap0 (List.range rank) (axes.getLastD 0)
  if cur ≠ List.range rank then .app (.transpose (some (axes.dropLast.reverse.foldl swap0 cur))) [y] else y

/-- `ReverseV2.version_10` (tensor.py:2201-2362). `axes` is the value of the constant second input, a vector. An axis outside of the rank raises an
exception in the code when it is used as an index (an axis below `-rank` may be taken for another one there; here it raises as well). -/
def reverseV2 (v : Nat) (rank : Option Nat) (axes : List Int) : Except String Expr :=
  match rank with
  | none => .error "rank is unknown"
  | some rank =>
    if axes = [] then .ok (.app .identity [.inp 0])
    else if rank = 1 then
      if axes = [-1] ∨ axes = [0] then .ok (mkSqueeze v [0] (reverseRounds 2 (mkUnsqueeze v [0] (.inp 0)) [1]))
      else .error "Invalid value for axes of ReverseV2 of 1d tensor"
    else
      let l : List Int := axes.map (fun a => if a < 0 then a + (rank : Int) else a)
      if ∀ a ∈ l, 0 ≤ a ∧ a < (rank : Int) then .ok (reverseRounds rank (.inp 0) ((l.map Int.toNat).insertionSort (· ≤ ·)))
      else .error "IndexError"

/-- `ReverseSequence.version_10` (tensor.py:2176-2198). `lens64`: is the recorded type of the lengths INT64; none if there is none. -/
def reverseSequence10 (lens64 : Option Bool) (seqDim : Option Int) (batchDim : Int) : Except String Expr :=
  match seqDim with
  | none => .error "sequence dim must be given"
  | some seqDim =>
    match lens64 with
    | none => .error "dtype is None"
    | some b => .ok (.app (.reverseSequence batchDim seqDim) [.inp 0, if b then .inp 1 else .app .cast64 [.inp 1]])

/-! ## `BatchToSpaceND`, `SpaceToBatchND` -/

/-- `np.iinfo(np.int32).max`. -/
def int32Max : Int := 2147483647

/-- `utils.get_max_value(np.int64)` (tf2onnx/utils.py). -/
def int64Max : Int := 9223372036854775807

/-- The end of a slice that drops `c` elements at the end (tensor.py:1556-1560). -/
def cropEnd (c : Int) : Int := if c ≠ 0 then -c else int32Max

/-- `crop_to_end` (tensor.py:1573-1585): the same as operators. -/
def cropToEnd (c : Expr) : Expr :=
  let zero := Expr.const (vecT [0])
  let eq := Expr.app .equal [c, zero]
  let neg := Expr.app .neg [.app .cast64 [.app .not [eq]]]
  .app .add [.app .mul [c, neg], .app .mul [.const (vecT [int32Max]), .app .cast64 [eq]]]

/-- The data with the batch in front of height and width: the order C, N, H, W (tensor.py:1536-1546, 1735-1745). -/
def toCNHW (v rank : Nat) (x : Expr) : Expr :=
  if rank = 3 then .app (.transpose (some [3, 0, 1, 2])) [mkUnsqueeze v [3] x]
  else .app (.transpose (some [1, 0, 2, 3])) [.app (.transpose (some [0, 3, 1, 2])) [x]]

/-- Back again (tensor.py:1599-1612, 1778-1790). -/
def fromCNHW (v rank : Nat) (x : Expr) : Expr :=
  if rank = 3 then mkSqueeze v [3] (.app (.transpose (some [1, 2, 3, 0])) [x])
  else .app (.transpose (some [0, 2, 3, 1])) [.app (.transpose (some [1, 0, 2, 3])) [x]]

/-- Part `k` of a matrix of two rows and two columns, flattened (tensor.py:1564-1568, 1763-1767). -/
def quarter (m : Expr) (k : Nat) : Expr := .app (.split 4 k) [.app .cast64 [.app .reshape [m, .const (vecT [-1])]]]

/-- `BatchToSpace.any_version` for a square block of two dimensions and rank 3 or 4 (tensor.py:1527-1612). `crops`: the value of the third input if it is
a constant. -/
def batchToSpaceFast (v rank : Nat) (b : Int) (crops : Option (List (Int × Int))) : Except String Expr :=
  let d := Expr.app (.depthToSpace b) [toCNHW v rank (.inp 0)]
  match crops with
  | some [(top, bottom), (left, right)] => .ok (fromCNHW v rank (mkSlice v [top, left] [cropEnd bottom, cropEnd right] [2, 3] d))
  | some _ => .error "ValueError"
  | none =>
    if v < 10 then .error "AttributeError"
    else
      let q := quarter (.inp 2)
      .ok (fromCNHW v rank (.app .slice [d, .app (.concat 0) [q 0, q 2], .app (.concat 0) [cropToEnd (q 1), cropToEnd (q 3)], .const (vecT [2, 3])]))

/-- Interleave two vectors of the same length: concatenate, reshape to two rows, transpose, flatten (tensor.py:1639-1643, 1829-1833). -/
def interleaveE (m : Nat) (a b : Expr) : Expr :=
  .app .reshape [.app (.transpose none) [.app .reshape [.app (.concat 0) [a, b], .const (vecT [-1, m])]], .const (vecT [-1])]

/-- `list(range(2, 2 * m + 1, 2)) + [0] + list(range(1, 2 * m + 1, 2)) + list(range(0, rank + m)[1 + 2 * m:])` (tensor.py:1646-1648, 1837-1839). -/
def blocksFirst (m rank : Nat) : List Nat :=
  (List.range m).map (fun k => 2 * k + 2) ++ [0] ++ (List.range m).map (fun k => 2 * k + 1) ++ (List.range (rank + m)).drop (1 + 2 * m)

/-- The permutation of `BatchToSpace` (tensor.py:1651-1656). -/
def blocksBack (m rank : Nat) : List Nat :=
  (List.range' 3 (2 * m - 2)).foldl (fun p i => p.set i (nth p (i - 2) + 1)) ((((List.range (rank + m)).set 0 m).set 1 (m + 1)).set 2 0)

/-- `mknode('Squeeze', ..)` of `BatchToSpace` (tensor.py:1614-1619): version 13 is used from operator set 13 on. -/
def squeeze0 (v : Nat) (x : Expr) : Expr := if 13 ≤ v then mkSqueeze v [0] x else .app (.squeezeAttr [0]) [x]

/-- The dimensions 1 to `m` of `x` (tensor.py:1623-1626, 1825). -/
def spatialE (m : Nat) (x : Expr) : Expr := .app .slice [.app .shape [x], .const (vecT [1]), .const (vecT [(m : Int) + 1])]

/-- The dimensions behind them (tensor.py:1627-1630, 1826). -/
def depthE (m : Nat) (x : Expr) : Expr := .app .slice [.app .shape [x], .const (vecT [(m : Int) + 1]), .const (vecT [int64Max])]

/-- The full images of `BatchToSpace`, before the crop (tensor.py:1632-1664). -/
def imagesE (rank : Nat) (block : List Int) (m : Nat) : Expr :=
  let c (l : List Int) := Expr.const (vecT l)
  let target := Expr.app .mul [spatialE m (.inp 0), c block]
  let shape1 := Expr.app (.concat 0) [c [-1], interleaveE m (spatialE m (.inp 0)) (c block), depthE m (.inp 0)]
  let gather := Expr.app (.gather 0) [shape1, c ((blocksFirst m rank).map Int.ofNat)]
  let x2 := Expr.app .reshape [.inp 0, gather]
  let tr2 := Expr.app (.transpose (some (blocksBack m rank))) [x2]
  .app .reshape [tr2, .app (.concat 0) [c [-1], target, depthE m (.inp 0)]]

/-- Column `r` of the crops (tensor.py:1666-1682). -/
def cropColumn (v r : Nat) : Expr :=
  squeeze0 v (.app .slice [.app (.transpose none) [.app .cast64 [.inp 2]], .const (vecT [(r : Int), 0]), .const (vecT [(r : Int) + 1, int64Max])])

/-- The crop of `BatchToSpace` (tensor.py:1666-1689). -/
def cropE (v : Nat) (block : List Int) (m : Nat) (x3 : Expr) : Expr :=
  .app .slice [x3, cropColumn v 0, .app .sub [.app .mul [spatialE m (.inp 0), .const (vecT block)], cropColumn v 1],
    .const (vecT ((List.range m).map (fun k => ((k + 1 : Nat) : Int))))]

/-- The general case of `BatchToSpace.any_version` (tensor.py:1613-1689). -/
def batchToSpaceGen (v rank : Nat) (block : List Int) : Expr := cropE v block block.length (imagesE rank block block.length)

/-- Two equal block sizes. -/
def squareBlock : List Int → Option Int
  | [a, b] => if a = b then some a else none
  | _ => none

/-- `BatchToSpace` (tensor.py:1514-1697). `block`: the value of the second input, a constant vector; `crops`: that of the third if it is a constant. -/
def batchToSpace (v : Nat) (rank : Option Nat) (block : Option (List Int)) (crops : Option (List (Int × Int))) : Except String Expr :=
  match block, rank with
  | none, _ => .error "only support constant block_shape value."
  | some _, none => .error "TypeError"
  | some block, some rank =>
    match (if rank = 3 ∨ rank = 4 then squareBlock block else none) with
    | some b => batchToSpaceFast v rank b crops
    | none => if 11 ≤ v then .ok (batchToSpaceGen v rank block) else .error "non-4D tensor or non-const crops require opset 11"

/-- `SpaceToBatch.version_1` for a square block (tensor.py:1718-1790). -/
def spaceToBatchFast (v rank : Nat) (b : Int) (pads : Option (List (Int × Int))) : Except String Expr :=
  let t := toCNHW v rank (.inp 0)
  let fin p := fromCNHW v rank (.app (.spaceToDepth b) [p])
  match pads with
  | some [(top, bottom), (left, right)] =>
    let pads := [0, 0, top, left, 0, 0, bottom, right]
    .ok (fin (if v ≤ 10 then .app (.padAttr pads) [t] else .app .pad [t, .const (vecT pads)]))
  | some _ => .error "ValueError"
  | none =>
    if v ≤ 10 then .error "AttributeError"
    else
      let q := quarter (.inp 2)
      let zero := Expr.const (vecT [0])
      .ok (fin (.app .pad [t, .app (.concat 0) [zero, zero, q 0, q 2, zero, zero, q 1, q 3]]))

/-- The pads of the general case of `SpaceToBatch` (tensor.py:1809-1820): rows for the axes that are not padded are added to the third input. -/
def spaceToBatchPads : Expr :=
  let c (l : List Int) := Expr.const (vecT l)
  let xRank := Expr.app .size [.app .shape [.inp 0]]
  let pad := Expr.app .cast64 [.inp 2]
  let padRank := Expr.app .slice [.app .shape [pad], c [0], c [1]]
  let gap := Expr.app .sub [.app .sub [xRank, padRank], c [1]]
  let padded := Expr.app .pad [.app .pad [pad, c [1, 0, 0, 0]], .app .mul [c [0, 0, 1, 0], gap]]
  .app .reshape [.app (.transpose none) [padded], c [-1]]

/-- The general case of `SpaceToBatch.version_1` from the padded images `x1` on (tensor.py:1821-1844). -/
def blocksE (rank : Nat) (block : List Int) (m : Nat) (x1 : Expr) : Expr :=
  let c (l : List Int) := Expr.const (vecT l)
  let reduced := Expr.app .div [spatialE m x1, c block]
  let shape1 := Expr.app (.concat 0) [c [-1], interleaveE m reduced (c block), depthE m x1]
  let x2 := Expr.app .reshape [x1, shape1]
  let tr2 := Expr.app (.transpose (some (blocksFirst m rank))) [x2]
  .app .reshape [tr2, .app (.concat 0) [c [-1], reduced, depthE m x1]]

/-- The general case of `SpaceToBatch.version_1` (tensor.py:1791-1844). -/
def spaceToBatchGen (rank : Nat) (block : List Int) : Expr := blocksE rank block block.length (.app .pad [.inp 0, spaceToBatchPads])

/-- `SpaceToBatch` (tensor.py:1700-1844). -/
def spaceToBatch (v : Nat) (rank : Option Nat) (block : Option (List Int)) (pads : Option (List (Int × Int))) : Except String Expr :=
  match block, rank with
  | none, _ => .error "only support constant block_shape value."
  | some _, none => .error "TypeError"
  | some block, some rank =>
    match (if (rank = 3 ∨ rank = 4) ∧ (pads.isSome ∨ 11 ≤ v) then squareBlock block else none) with
    | some b => spaceToBatchFast v rank b pads
    | none => if 11 ≤ v then .ok (spaceToBatchGen rank block) else .error "non-4D tensor or non-const pads require opset 11"

end Verif.Emit
