import Verif.Spec.ScanOps
import Verif.Spec.SegmentOps
import Verif.Spec.VecOps
/-!
# Scans, masks, generators and choices: what the handlers emit

Element types are abstract; casts are functions the theorems make assumptions about.
-/
namespace Verif.Scan
open Verif.Tensor Verif.Emit

/-! ## `generator.py`: `OnesLike`, `ZerosLike`, `Fill` -/

/-- `_const_like_version_1` (generator.py:238-248): the operand is cast to a 64-bit integer, multiplied with the value and cast back. -/
def constLike1 {α : Type} (toInt : α → Int) (ofInt : Int → α) (value : Int) (x : T α) : T α := mapT (fun a => ofInt (toInt a * value)) x

/-- `_const_like_version_9` (generator.py:251-259): `ConstantOfShape(Shape(x))`. -/
def constLike9 {α β : Type} (value : β) (x : T α) : Option (T β) := Seg.constOfShape value (x.shape.map Int.ofNat)

/-- `Fill.version_7` (generator.py:137-184). `dimsLen` is the recorded length of the vector of dimensions (`none`: no recorded shape). Below opset 9 types other than
32-bit floats are cast to that type and back (`viaFloat`). The scalar gets as many axes of length 1 as there are dimensions and is tiled. -/
def fill7 {α : Type} (zero : α) (isFloat : Bool) (opset : Nat) (viaFloat : α → α) (dimsLen : Option Int) (dims : List Int) (v : α) : Except String (T α) :=
  match dimsLen with
  | none => .error "shape of the dimensions is None"
  | some n =>
    if 0 < n then
      let v := if !isFloat && decide (opset < 9) then viaFloat v else v
      .ok (tile zero dims ⟨List.replicate n.toNat 1, fun _ => v⟩)
    else .error "opset 7 requires fill shape length > 0, or please try opset > 7"

/-- `Fill.version_9` (generator.py:186-201): the value has to be a constant. -/
def fill9 {α : Type} (dims : List Int) (constant : Option α) : Except String (Option (T α)) :=
  match constant with
  | none => .error "get tensor value: must be Const"
  | some v => .ok (Seg.constOfShape v dims)

/-- `Fill.version_11` (generator.py:203-210): `Expand` of the scalar. -/
def fill11 {α : Type} (dims : List Int) (v : α) : Option (T α) :=
  if ∀ d ∈ dims, 0 ≤ d then expandOn (dims.map Int.toNat) ⟨[], fun _ => v⟩ else none

/-! ## `generator.py`: `RandomUniformInt`, `RandomShuffle` -/

/-- `RandomOp.randuniform_int` (generator.py:31-56): which of the bounds are constants decides whether they become attributes; `u` is what is drawn. `Floor`, then a cast
of a whole number. -/
def uniformInt (minConst maxConst : Bool) (u : List Nat → ℚ) (lo hi : Int) (s : List Nat) : T Int :=
  let drawn : T ℚ :=
    if minConst && maxConst then uniform u lo hi s
    else if minConst && decide (lo = 0) then mapT (fun r => r * (hi : ℚ)) (uniform u 0 1 s)
    else mapT (fun r => r + (lo : ℚ)) (mapT (fun r => r * ((hi : ℚ) - lo)) (uniform u 0 1 s))
  mapT (fun r => ⌊r⌋) drawn

/-- `RandomShuffleOp.version_10` (generator.py:110-131): `Gather` by the positions `TopK` gives for as many random numbers as there are rows. -/
def shuffle {α : Type} (u : List Nat → ℚ) (x : T α) : Option (T α) :=
  let n := nth x.shape 0
  let ord := topkDesc n (fun k => (uniform u 0 1 [n]).get [k])
  Seg.gather0 x ⟨[ord.length], fun i => (nth ord (nth i 0) : Int)⟩

/-! ## `math.py`: `InvertPermutation`, `Cumprod` -/

/-- The two integer types of indices. -/
inductive IxType
  | int32
  | int64
  deriving DecidableEq

/-- `InvertPermutationOp.version_11` (math.py:1016-1044): the positions `TopK` gives for the negated vector; they are 64-bit integers. The first component is the type
of the values, the second the type that is recorded for them. -/
def invertPermutation (t : IxType) (x : List Int) : IxType × IxType × List Int :=
  (.int64, t, (topkDesc x.length (fun k => -(x.getD k 0))).map (fun k : Nat => (k : Int)))

/-- `CumProd.get_pads_node` (math.py:724-758): `[0 .. 0, before, 0 .. 0, 0 .. 0, after, 0 .. 0]`. -/
def padsAt (axis rank : Nat) (before after : Int) : List Int :=
  (List.replicate axis 0 ++ [before] ++ List.replicate (rank - axis - 1) 0) ++ (List.replicate axis 0 ++ [after] ++ List.replicate (rank - axis - 1) 0)

/-- The body of the loop (math.py:640-722): iteration `k` multiplies the accumulator with `inputs` moved by `k + 1`. `len` is the length of the axis of the operand. -/
def cumprodBody {α : Type} [CommMonoid α] (reverse : Bool) (axis : Nat) (len : Nat) (inputs : T α) (k : Nat) (acc : T α) : Option (T α) :=
  let c : Int := k + 1
  let s := if reverse then sliceOn [c] [(len : Int) + 1] [(axis : Int)] 1 inputs else sliceOn [0] [-c] [(axis : Int)] 1 inputs
  let p := if reverse then padsAt axis inputs.shape.length 0 c else padsAt axis inputs.shape.length c 0
  zipT (· * ·) acc (pad .constant 1 p s)

/-- The emitted operators (math.py:564-637), the axis being one. -/
def cumprodAt {α : Type} [CommMonoid α] (exclusive reverse : Bool) (axis : Nat) (x : T α) : Option (T α) :=
  let len := nth x.shape axis
  let inputs :=
    if exclusive then (if reverse then sliceOn [1] [(len : Int) + 1] [(axis : Int)] 1 x else sliceOn [0] [-1] [(axis : Int)] 1 x) else x
  let trips : Int := if exclusive then (len : Int) - 1 - 1 else (len : Int) - 1
  (loopN (cumprodBody reverse axis len inputs) inputs trips.toNat).map (fun acc =>
    if exclusive then pad .constant 1 (if reverse then padsAt axis x.shape.length 0 1 else padsAt axis x.shape.length 1 0) acc else acc)

/-- `CumProd.version_10` (math.py:562-637). A constant axis that is not between 0 and the rank makes `np.zeros` raise; one that is computed makes `Tile` fail. -/
def cumprod {α : Type} [CommMonoid α] (exclusive reverse axisConst : Bool) (axis : Int) (x : T α) : Except String (Option (T α)) :=
  if 0 ≤ axis ∧ axis < x.shape.length then .ok (cumprodAt exclusive reverse axis.toNat x)
  else if axisConst then .error "ValueError: negative dimensions are not allowed" else .ok none

/-! ## `nn.py`: `MatrixBandPart` -/

/-- `_apply_mask_and_transform` (nn.py:1650-1667): the mask, cast to the element type, times the data. Truth values are cast to 32-bit floats and back, which is `and`. -/
def applyMask {α : Type} [Mul α] (cast : Bool → α) (mask : T Bool) (x : T α) : Option (T α) := zipT (· * ·) (mapT cast mask) x

/-- Column minus row of every element of a matrix (nn.py:1765-1777): the running numbers, `CumSum` of ones, are reshaped to the matrix; `Div` and `Mod` by the number of
columns. -/
def bandDiff (rows cols : Nat) : Option (T Int) :=
  (reshapeDims [rows * cols] [(rows : Int), (cols : Int)]).map (fun r =>
    mapT (fun z => Int.fmod z cols - Int.tdiv z cols)
      (Tensor.reshape r ⟨[rows * cols], fun i => (Vec.cumsumExcl (List.replicate (rows * cols) 1)).getD (nth i 0) 0⟩))

/-- The conditions (nn.py:1779-1793); `none`: nothing is masked. -/
def bandCond (lowerConst upperConst : Bool) (lower upper : Int) : Option (Int → Bool) :=
  let up := !upperConst || decide (0 ≤ upper)
  let lo := !lowerConst || decide (0 ≤ lower)
  if up && lo then some (fun d => !decide (d > upper) && !decide (-lower > d))
  else if up then some (fun d => !decide (d > upper))
  else if lo then some (fun d => !decide (-lower > d))
  else none

/-- `MatrixBandPart.version_11` (nn.py:1742-1803). `lowerConst`, `upperConst` say whether the bounds are constants. -/
def bandPart11 {α : Type} [Mul α] (cast : Bool → α) (lowerConst upperConst : Bool) (lower upper : Int) (x : T α) : Option (T α) :=
  let rows := nth x.shape (x.shape.length - 2)
  let cols := nth x.shape (x.shape.length - 1)
  if lowerConst && decide (lower = 0) && upperConst && decide (upper = 0) then
    (Patt.eyeLike false true (⟨[rows, cols], fun _ => ()⟩ : T Unit)).bind (fun m => applyMask cast m x)
  else
    match bandCond lowerConst upperConst lower upper with
    | none => some x
    | some f => (bandDiff rows cols).bind (fun d => applyMask cast (mapT f d) x)

/-- One iteration of the loop of `MatrixBandPart.version_7` (nn.py:1692-1715): the line is the scan output; the next one is `Concat([False], line)` without its last
element. -/
def bandLine (line : List Bool) : List Bool × List Bool := ((false :: line).dropLast, line)

/-- `MatrixBandPart.version_7` (nn.py:1669-1740): matrices only, the lower or the upper triangle. For the lower one the lines are columns, otherwise rows; the first line is
all true, made of the first column or row, which has to exist; there are as many as columns or rows. -/
def bandPart7 {α : Type} [Mul α] (cast : Bool → α) (lower upper : Int) (x : T α) : Except String (Option (T α)) :=
  if x.shape.length = 2 then
    if lower = -1 ∧ upper = 0 then
      let lines := loopScan bandLine (nth x.shape 1) (List.replicate (nth x.shape 0) true)
      if nth x.shape 1 = 0 then .ok none else .ok (applyMask cast ⟨x.shape, fun i => ((lines.getD (nth i 1) []).getD (nth i 0) false)⟩ x)
    else if lower = 0 ∧ upper = -1 then
      let lines := loopScan bandLine (nth x.shape 0) (List.replicate (nth x.shape 1) true)
      if nth x.shape 0 = 0 then .ok none else .ok (applyMask cast ⟨x.shape, fun i => ((lines.getD (nth i 0) []).getD (nth i 1) false)⟩ x)
    else .error "only support Lower/Upper triangular for opset < 11"
  else .error "MatrixBandPart op: only rank 2 is supported"

/-! ## `controlflow.py`: `Range`, `Select` -/

/-- `make_range_non_const` (controlflow.py:39-89): the trip count is `Ceil` of the quotient; the loop adds. `toFloat` is the cast that is inserted for integers (the
identity otherwise). A quotient by zero is no number; its cast is undefined. -/
def rangeLoop {K : Type} [Field K] [LinearOrder K] [IsStrictOrderedRing K] [FloorRing K] (toFloat : K → K) (start limit delta : K) : Option (List K) :=
  if toFloat delta = 0 then none
  else some (loopScan (fun prev => (prev + delta, prev)) ⌈toFloat (limit - start) / toFloat delta⌉.toNat start)

/-- What `Select.version_9` looks at (controlflow.py:180-201). -/
structure SelectNode where
  /-- `Select`, not `SelectV2` -/
  v1 : Bool
  isString : Bool
  /-- 32- or 64-bit float -/
  isFloat : Bool
  isBool : Bool
  /-- set by a rewriter -/
  handlesNan : Bool
  /-- the condition is `IsNaN`, `IsInf`, `x != x` or `not (x == x)` -/
  condNan : Bool
  /-- the operands are constants with a NaN or an infinity -/
  constNan : Bool × Bool
  /-- the operands are products with a constant that has an infinity -/
  mulInf : Bool × Bool
  condShape : Option (List Int)
  inRank : Option Nat

/-- The loop over the operands (controlflow.py:193-201). -/
def SelectNode.needsWhere (n : SelectNode) : Bool :=
  if n.isFloat then n.handlesNan || n.condNan || (n.constNan.1 || n.mulInf.1) || (n.constNan.2 || n.mulInf.2) else n.handlesNan

/-- The reshaped condition (controlflow.py:152-159, 214-220): for `Select`, one truth value for each row gets axes of length 1. -/
def SelectNode.cond (n : SelectNode) (c : T Bool) : Except String (Option (T Bool)) :=
  match n.condShape with
  | some [d] =>
    if n.v1 ∧ n.inRank ≠ some 1 then
      match n.inRank with
      | none => .error "input_rank unknown and cond_rank == 1"
      | some r => .ok ((reshapeDims c.shape (d :: List.replicate (r - 1) 1)).map (fun s => Tensor.reshape s c))
    else .ok (some c)
  | _ => .ok (some c)

/-- The products and the sum (controlflow.py:161-177), `cast` being the cast of truth values to the element type. -/
def mulAdd {α : Type} [Add α] [Mul α] (cast : Bool → α) (c : T Bool) (x y : T α) : Option (T α) :=
  (zipT (· * ·) (mapT cast c) x).bind (fun p =>
    (zipT (· * ·) y (mapT cast (mapT not c))).bind (fun q => zipT (· + ·) p q))

/-- `Select.version_7` (controlflow.py:126-177) and `version_9` (controlflow.py:179-222). Truth values are cast to 32-bit integers and back: `toNum`, `ofNum`. -/
def select {α : Type} [Add α] [Mul α] (cast : Bool → α) (opset : Nat) (n : SelectNode) (c : T Bool) (x y : T α) : Except String (Option (T α)) :=
  if opset < 9 then
    if n.isString then .error "Select with dtype string requires opset 9"
    else (n.cond c).map (fun c => c.bind (fun c => mulAdd cast c x y))
  else if !n.isString && !n.needsWhere then (n.cond c).map (fun c => c.bind (fun c => mulAdd cast c x y))
  else (n.cond c).map (fun c => c.bind (fun c => onnxWhere c x y))

/-- The same for truth values: `Cast` to integers, the products and the sum, `Cast` back (controlflow.py:134-150, 176-177). -/
def selectBool (opset : Nat) (n : SelectNode) (c : T Bool) (x y : T Bool) : Except String (Option (T Bool)) :=
  let num := fun b : Bool => if b then (1 : Int) else 0
  if opset < 9 ∨ !n.needsWhere then
    (n.cond c).map (fun c => c.bind (fun c => (mulAdd num c (mapT num x) (mapT num y)).map (mapT (fun z => decide (z ≠ 0)))))
  else (n.cond c).map (fun c => c.bind (fun c => onnxWhere c x y))

end Verif.Scan
