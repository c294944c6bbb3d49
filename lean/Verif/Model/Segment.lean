import Verif.Spec.SegmentOps
/-!
# The handler of segment reductions (`tf2onnx/onnx_opset/reduction.py:181-350`)

The handler is modelled by the function that the ONNX operators it emits compute (`Emitted`), or by the exception it raises. Every `let` is one emitted
operator or a group of them. Names and recorded shapes are not modelled, recorded types only where the handler looks at them. `Cast` to INT64 is the
identity here, since integers are unbounded.
-/
namespace Verif.Seg
open Verif.Tensor Verif.Emit

/-- The middle of the name of the operator. -/
inductive Base
  | sum | prod | max | min | mean | sqrtN
deriving DecidableEq

/-- The name of the operator, taken apart: `Unsorted` and `Sparse` in front, `WithNumSegments` behind `Segment<base>`. -/
structure SegType where
  unsorted : Bool
  sparse : Bool
  withNum : Bool
  base : Base

/-- The type of the data as far as the handler looks at it. -/
inductive Kind
  /-- is it float32 -/
  | float (is32 : Bool)
  | int
  | other
deriving DecidableEq

/-- The numbers the data consists of. -/
structure Num (α : Type) where
  sum : Multiset α → α
  prod : Multiset α → α
  max : Multiset α → α
  min : Multiset α → α
  zero : α
  one : α
  ninf : α
  pinf : α
  ofInt : Int → α
  sqrt : α → α
  div : α → α → α
  /-- maximum of two numbers -/
  max2 : α → α → α

/-- The inputs of the node; `indices` is read by the sparse variants only, `num` by those with a number of segments. -/
structure SegIn (α : Type) where
  data : T α
  indices : List Int
  ids : List Int
  num : Int

/-- What the emitted operators compute; none if the runtime rejects the model or its inputs. -/
abbrev Emitted (α : Type) := SegIn α → Option (T α)

/-- `num_segments_specified` (reduction.py:191). -/
def SegType.hasNum (t : SegType) : Bool := t.withNum || t.unsorted

/-- The operator that reduces and its neutral element (reduction.py:228-247). `np.iinfo(..).min` is a number of Python, which has no `tolist`
(reduction.py:318). -/
def reducer {α : Type} (N : Num α) (b : Base) (k : Kind) : Except String ((Multiset α → α) × α) :=
  match b with
  | .sum | .mean | .sqrtN => .ok (N.sum, N.zero)
  | .prod => .ok (N.prod, N.one)
  | .max => if k = .int then .error "AttributeError" else .ok (N.max, N.ninf)
  | .min => if k = .int then .error "AttributeError" else .ok (N.min, N.pinf)

/-- The data that is reduced: the sparse variants gather it (reduction.py:199-203). -/
def dataOf {α : Type} (t : SegType) (i : SegIn α) : Option (T α) :=
  if t.sparse then gather0 i.data (vecT i.indices) else some i.data

/-- `num_segments` (reduction.py:192-194, 249-252). -/
def numOf {α : Type} (t : SegType) (i : SegIn α) : Option Int :=
  if t.hasNum then some i.num else (reduceMax1 i.ids).map (· + 1)

/-- Zeros for all segments (reduction.py:268-272). -/
def zerosOf (constNum : Option Int) (num : Int) : Option (List Int) :=
  match constNum with
  | some n => if 0 ≤ n then some (List.replicate n.toNat 0) else none
  | none => if 0 ≤ num then some (List.replicate num.toNat 0) else none

/-- How many elements each segment has (reduction.py:267-275). -/
def countsOf {α : Type} (constNum : Option Int) (num : Int) (i : SegIn α) : Option (List Int) :=
  (zerosOf constNum num).bind (fun z => scatterVec z (uniqueVal (topkVal i.ids)) (uniqueCnt (topkVal i.ids)))

/-- The `Max` that avoids a division by zero: its second operand is of type float32 (reduction.py:283-286). -/
def atLeastOne {α : Type} (N : Num α) (t : SegType) (k : Kind) (x : List α) : Option (List α) :=
  if t.hasNum then (if k = .float true then some (x.map (fun a => N.max2 a N.one)) else none) else some x

/-- `scaling_amt` (reduction.py:267-286): none if there is none. -/
def scaling {α : Type} (N : Num α) (t : SegType) (k : Kind) (constNum : Option Int) (num : Int) (i : SegIn α) : Option (Option (List α)) :=
  match t.base with
  | .mean => do
    let c ← countsOf constNum num i
    (atLeastOne N t k (c.map N.ofInt)).map some
  | .sqrtN => do
    let c ← countsOf constNum num i
    (atLeastOne N t k (c.map (fun x => N.sqrt (N.ofInt x)))).map some
  | _ => some none

/-- The grid of positions (reduction.py:254-265, 289-306): row `s` holds the positions of segment `s`, the rest is -1. -/
def grid {α : Type} (num : Int) (i : SegIn α) : Option (T Int) := do
  let sorted := topkVal i.ids
  let indices := topkIdx i.ids
  let cnts := uniqueCnt sorted
  let maxCnt ← reduceMax1 cnts
  let idToCnt ← gatherVec cnts (uniqueInv sorted)
  let rangeMod ← modVec (rangeVec i.ids.length) idToCnt
  let empty ← constOfShape (-1) [num, maxCnt]
  scatterND empty (List.zipWith (fun a b => [a, b]) sorted rangeMod) (indices.map Int.ofNat)

/-- The reduction (reduction.py:308-328). -/
def reduceGrid {α : Type} (f : Multiset α → α) (e : α) (data : T α) (g : T Int) : Option (T α) := do
  let identity ← constOfShape e (data.shape.tail.map Int.ofNat)
  let all ← concat0 e data (unsqueeze0 identity)
  let dataGrid ← gather0 all g
  reduceAxis1 f dataGrid

/-- Divide row `s` by `scale[s]` (reduction.py:329-342): with a known rank axes are added behind the first one, else the scale is reshaped. -/
def divRows {α : Type} (N : Num α) (rank : Option Nat) (x : T α) (scale : List α) : Option (T α) :=
  let col : T α := ⟨[scale.length], fun i => scale.getD (nth i 0) N.zero⟩
  let col := match rank with
    | none => Tensor.reshape (scale.length :: List.replicate (x.shape.length - 1) 1) col
    | some r => if r ≠ 1 then ⟨scale.length :: List.replicate (r - 1) 1, fun i => col.get (i.take 1)⟩ else col
  zipT N.div x col

/-- All that is emitted, for the reducing operator `f` with the neutral element `e` (reduction.py:199-342). -/
def emitted {α : Type} (N : Num α) (t : SegType) (k : Kind) (rank : Option Nat) (constNum : Option Int) (f : Multiset α → α) (e : α) : Emitted α := fun i => do
  let data ← dataOf t i
  let num ← numOf t i
  let g ← grid num i
  let r ← reduceGrid f e data g
  let sc ← scaling N t k constNum num i
  match sc with
  | none => some r
  | some s => divRows N rank r s

/-- `SegmentSum.any_version` (reduction.py:185-344). `segRank`: recorded rank of the segment ids, `rank`: recorded rank of the data that is reduced,
`constNum`: the value of the last input if it is a constant. -/
def segment {α : Type} (N : Num α) (t : SegType) (k : Kind) (segRank rank : Option Nat) (constNum : Option Int) : Except String (Emitted α) :=
  if segRank ≠ some 1 then .error "Segment ops only supported for segments of rank 1"
  else if k = .other then .error "dtype for Segment ops must be float or int"
  else
    match reducer N t.base k with
    | .error e => .error e
    | .ok (f, e) => .ok (emitted N t k rank (if t.hasNum then constNum else none) f e)

end Verif.Seg
