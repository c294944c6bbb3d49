import Verif.Spec.Tensor
import Mathlib.Data.Multiset.MapFold
/-!
# Meaning of the ONNX operators a transpose is moved across

Written from the ONNX operator specification, independently of `tf2onnx`. `x.shape.length` is the rank. Axis numbers are
naturals; a (possibly negative) axis attribute `a` of an operator of rank `r` means `normAxis r a`.
-/
namespace Verif.Tensor

/-- Negative axes count from the back. -/
def normAxis (rank : Nat) (a : Int) : Nat := (if a < 0 then a + rank else a).toNat

/-- Replace component `a`. -/
def setAt (idx : List Nat) (a k : Nat) : List Nat := idx.set a k

/-! ## Operators that treat every axis on its own: Pad, Tile, Slice -/

/-- How one axis is treated, given a per-axis parameter: the length of the axis in the result and the position each
result position is read from (`none`: not read from the operand). -/
structure AxisRule (P : Type) where
  outDim : P → Nat → Nat
  src : P → Nat → Nat → Option Nat

/-- An operator that treats every axis on its own; `par i` is the parameter of axis `i`, `fill` the value of elements
not read from the operand. -/
def axisOp {α P : Type} (R : AxisRule P) (fill : α) (par : Nat → P) (x : T α) : T α :=
  { shape := (List.range x.shape.length).map (fun i => R.outDim (par i) (nth x.shape i))
    get := fun idx =>
      if ∀ i, i < x.shape.length → (R.src (par i) (nth x.shape i) (nth idx i)).isSome then
        x.get ((List.range x.shape.length).map (fun i => (R.src (par i) (nth x.shape i) (nth idx i)).getD 0))
      else fill }

/-- ONNX `Pad` modes. -/
inductive PadMode where
  | constant | edge | reflect | wrap
  deriving DecidableEq

/-- Where position `k` (relative to the first operand element, possibly outside) is read from on an axis of length
`d`. -/
def PadMode.src (m : PadMode) (d : Nat) (k : Int) : Option Nat :=
  if 0 ≤ k ∧ k < d then some k.toNat
  else match m with
    | .constant => none
    | .edge => some (if k < 0 then 0 else d - 1)
    | .reflect =>
      let p : Int := k % (2 * (d - 1))
      some (if p < d then p.toNat else (2 * (d - 1) - p).toNat)
    | .wrap => some (k % d).toNat

/-- One axis of `Pad`; the parameter is (number of elements added before, after). -/
def padRule (m : PadMode) : AxisRule (Int × Int) :=
  { outDim := fun p d => (d + p.1 + p.2).toNat
    src := fun p d o => m.src d ((o : Int) - p.1) }

/-- ONNX `Pad`: `pads = [begin_0, begin_1, .., end_0, end_1, ..]`. -/
def pad {α : Type} (m : PadMode) (fill : α) (pads : List Int) (x : T α) : T α :=
  axisOp (padRule m) fill (fun i => (pads.getD i 0, pads.getD (i + x.shape.length) 0)) x

/-- One axis of `Tile`. -/
def tileRule : AxisRule Int :=
  { outDim := fun r d => d * r.toNat, src := fun _ d o => some (o % d) }

/-- ONNX `Tile`. -/
def tile {α : Type} (fill : α) (repeats : List Int) (x : T α) : T α :=
  axisOp tileRule fill (fun i => repeats.getD i 0) x

/-- `start:end:step` on one axis of length `d`, with ONNX's clamping. -/
structure SliceSpec where
  start : Int
  stop : Int
  step : Int
  deriving DecidableEq

/-- A position counted from the back if negative, clamped to `lo..hi`. -/
def clampPos (d lo hi p : Int) : Int := max lo (min hi (if p < 0 then p + d else p))

def SliceSpec.first (s : SliceSpec) (d : Int) : Int :=
  if 0 < s.step then clampPos d 0 d s.start else clampPos d 0 (d - 1) s.start

def SliceSpec.last (s : SliceSpec) (d : Int) : Int :=
  if 0 < s.step then clampPos d 0 d s.stop else clampPos d (-1) (d - 1) s.stop

/-- Number of elements of `range(first, last, step)`. -/
def SliceSpec.count (s : SliceSpec) (d : Int) : Nat :=
  if 0 < s.step then ((s.last d - s.first d + s.step - 1) / s.step).toNat
  else ((s.first d - s.last d + (-s.step) - 1) / (-s.step)).toNat

/-- One axis of `Slice`; axes that are not sliced have no parameter. -/
def sliceRule : AxisRule (Option SliceSpec) :=
  { outDim := fun p d => match p with | none => d | some s => s.count d
    src := fun p d o => match p with | none => some o | some s => some ((s.first d + o * s.step).toNat) }

/-- ONNX `Slice`: entry `j` of the lists slices axis `axes[j]`. -/
def slice {α : Type} (fill : α) (axes : List Int) (specs : List SliceSpec) (x : T α) : T α :=
  axisOp sliceRule fill
    (fun i => ((axes.zip specs).find? (fun p => normAxis x.shape.length p.1 = i)).map (·.2)) x

/-! ## Operators along one axis: Softmax (opset 13), ArgMax, ArgMin, CumSum, per-axis (De)QuantizeLinear -/

/-- An operator that maps every line along axis `a` to a line: `line d v k` is element `k` of the image of the line
`v` of length `d`; `outDim d` is the length of the image. -/
def alongAxis {α β : Type} (outDim : Nat → Nat) (line : Nat → (Nat → α) → Nat → β) (a : Nat) (x : T α) : T β :=
  { shape := (List.range x.shape.length).map (fun i => if i = a then outDim (nth x.shape i) else nth x.shape i)
    get := fun idx => line (nth x.shape a) (fun k => x.get (setAt idx a k)) (nth idx a) }

/-! ## Reductions over sets of axes -/

/-- All multi-indices of a shape, in row-major order. -/
def allIdx : List Nat → List (List Nat)
  | [] => [[]]
  | d :: s => (List.range d).flatMap (fun k => (allIdx s).map (fun i => k :: i))

/-- The elements of `x` whose index agrees with `idx` on the axes not in `ax`. -/
def group {α : Type} (ax : Nat → Bool) (x : T α) (idx : List Nat) : Multiset α :=
  Multiset.map x.get ((allIdx x.shape).filter (fun j =>
    (List.range x.shape.length).all (fun i => ax i || nth j i = nth idx i)) : List (List Nat))

/-- ONNX `Reduce*` with `keepdims = 1` over the set `ax` of axes: every result element is a function of the multiset of
the elements it reduces. -/
def reduceKeep {α β : Type} (f : Multiset α → β) (ax : Nat → Bool) (x : T α) : T β :=
  { shape := (List.range x.shape.length).map (fun i => if ax i then 1 else nth x.shape i)
    get := fun idx => f (group ax x idx) }

/-- An operator that maps every element using the multiset of the elements that agree with it outside the axes `ax`
(`Softmax`, `LogSoftmax` before opset 13: `ax` is all axes from the coercion axis on). -/
def groupMap {α β : Type} (f : Multiset α → α → β) (ax : Nat → Bool) (x : T α) : T β :=
  { shape := x.shape, get := fun idx => f (group ax x idx) (x.get idx) }

/-! ## Squeeze and Unsqueeze -/

/-- The axes of a rank-`n` tensor that are not in `ax`, in order. -/
def keptAxes (n : Nat) (ax : Nat → Bool) : List Nat := (List.range n).filter (fun i => !ax i)

/-- ONNX `Squeeze`: drop the axes in `ax` (which must have length 1). -/
def squeeze {α : Type} (ax : Nat → Bool) (x : T α) : T α :=
  { shape := (keptAxes x.shape.length ax).map (nth x.shape)
    get := fun idx => x.get ((List.range x.shape.length).map (fun i =>
      if ax i then 0 else nth idx ((keptAxes x.shape.length ax).idxOf i))) }

/-- ONNX `Unsqueeze`: the result has rank `n`, its axes in `ax` are new and have length 1. -/
def unsqueeze {α : Type} (n : Nat) (ax : Nat → Bool) (x : T α) : T α :=
  { shape := (List.range n).map (fun i => if ax i then 1 else nth x.shape ((keptAxes n ax).idxOf i))
    get := fun idx => x.get ((keptAxes n ax).map (nth idx)) }

/-- ONNX `Reduce*` with `keepdims = 0`. -/
def reduceDrop {α β : Type} (f : Multiset α → β) (ax : Nat → Bool) (x : T α) : T β := squeeze ax (reduceKeep f ax x)

/-! ## Concat -/

/-- Element `idx` of a concatenation: walk along the operands. -/
def concatGet {α : Type} (fill : α) (a : Nat) : List (T α) → List Nat → α
  | [], _ => fill
  | x :: xs, idx =>
    if nth idx a < nth x.shape a then x.get idx
    else concatGet fill a xs (setAt idx a (nth idx a - nth x.shape a))

/-- ONNX `Concat` along axis `a` (`fill` is never read inside the shape). -/
def concat {α : Type} (fill : α) (a : Nat) (xs : List (T α)) : T α :=
  { shape := setAt (match xs with | [] => [] | x :: _ => x.shape) a ((xs.map (fun x => nth x.shape a)).sum)
    get := concatGet fill a xs }

/-! ## Element-wise operators with broadcasting -/

/-- The operand seen with rank `n`: axes of length 1 are added in front. -/
def expandRank {α : Type} (n : Nat) (x : T α) : T α :=
  { shape := List.replicate (n - x.shape.length) 1 ++ x.shape, get := fun idx => x.get (idx.drop (n - x.shape.length)) }

/-- The length of an axis after broadcasting. -/
def bdim (l : List Nat) : Nat := (l.find? (fun d => d ≠ 1)).getD 1

/-- Where an operand of shape `s` is read when element `idx` of a broadcast result is computed. -/
def bidx (s idx : List Nat) : List Nat := (List.range s.length).map (fun i => if nth s i = 1 then 0 else nth idx i)

/-- Element-wise operator on operands of the same rank `n`. -/
def elementwiseSame {α β : Type} (f : List α → β) (n : Nat) (xs : List (T α)) : T β :=
  { shape := (List.range n).map (fun i => bdim (xs.map (fun x => nth x.shape i)))
    get := fun idx => f (xs.map (fun x => x.get (bidx x.shape idx))) }

/-- ONNX element-wise operator with multidirectional broadcasting to rank `n` (the largest rank of the operands). -/
def elementwise {α β : Type} (f : List α → β) (n : Nat) (xs : List (T α)) : T β :=
  elementwiseSame f n (xs.map (expandRank n))

/-! ## Shape and Gather on it -/

/-- ONNX `Shape`. -/
def shapeOf {α : Type} (x : T α) : T Int := { shape := [x.shape.length], get := fun idx => nth x.shape (nth idx 0) }

/-- ONNX `Gather` with `axis = 0` of a vector, by a vector of indices. -/
def gather1 {α : Type} (x : T α) (ind : List Nat) : T α :=
  { shape := [ind.length], get := fun idx => x.get [nth ind (nth idx 0)] }

/-! ## Reshape -/

/-- Number of elements. -/
def size (s : List Nat) : Nat := s.foldr (· * ·) 1

/-- Position of a multi-index in row-major order. -/
def lin : List Nat → List Nat → Nat
  | _ :: s, i :: idx => i * size s + lin s idx
  | _, _ => 0

/-- Multi-index of a row-major position. -/
def delin : List Nat → Nat → List Nat
  | [], _ => []
  | _ :: s, k => (k / size s) :: delin s (k % size s)

/-- ONNX `Reshape` to the concrete shape `s` (with as many elements): the row-major order of the elements is kept. -/
def reshape {α : Type} (s : List Nat) (x : T α) : T α :=
  { shape := s, get := fun idx => x.get (delin x.shape (lin s idx)) }

/-- ONNX `Reshape` of a tensor of shape `s` with the shape operand `t` gives shape `r`: `0` copies the dimension of the
operand (unless `allowzero`), one `-1` stands for whatever makes the number of elements right (and can only be inferred
if the other dimensions are not zero), all other entries are the dimensions. `numpy.reshape` is the case `allowzero`. -/
structure ReshapesTo (allowzero : Bool) (s : List Nat) (t : List Int) (r : List Nat) : Prop where
  rank : r.length = t.length
  copy : ∀ i : Nat, t[i]? = some 0 → allowzero = false → i < s.length ∧ nth r i = nth s i
  zero : ∀ i : Nat, t[i]? = some 0 → allowzero = true → nth r i = 0
  pos : ∀ (i : Nat) (d : Int), t[i]? = some d → 0 < d → (nth r i : Int) = d
  valid : ∀ d ∈ t, -1 ≤ d
  one : ∀ i j : Nat, t[i]? = some (-1) → t[j]? = some (-1) → i = j
  total : size r = size s
  infer : ∀ i : Nat, t[i]? = some (-1) → size (r.eraseIdx i) ≠ 0

/-- ONNX `Split` along axis `a`: chunk `j` starts where the chunks before it end. -/
def splitChunk {α : Type} (a : Nat) (lens : List Nat) (j : Nat) (x : T α) : T α :=
  { shape := setAt x.shape a (nth lens j)
    get := fun idx => x.get (setAt idx a (nth idx a + (lens.take j).sum)) }

end Verif.Tensor
