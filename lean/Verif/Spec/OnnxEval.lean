import Verif.Spec.TensorOps
import Mathlib.Data.List.Perm.Basic
/-!
# Running the ONNX operators a handler emits

`Expr` is what a handler builds: operators applied to inputs of the converted node and to integer constants. `Expr.eval v` runs it under operator
set `v`, after the ONNX operator specification: none if the runtime or the checker rejects the model (a form of the operator that the operator set does
not have, shapes that do not fit, ...). Integers are unbounded. Attributes that the schema of the operator does not know are not exported
(tf2onnx/graph.py:121-134), so they are not there.
-/
namespace Verif.Emit
open Verif.Tensor

/-- A value: a tensor of data, of which nothing is known, of integers or of Booleans. -/
inductive Value (α : Type)
  | data (x : T α)
  | ints (x : T Int)
  | bools (x : T Bool)

instance (s idx : List Nat) : Decidable (InB s idx) := inferInstanceAs (Decidable (_ ∧ _))
instance (p : List Nat) : Decidable (IsPerm p) := inferInstanceAs (Decidable (List.Perm _ _))

/-- The same tensor of integers, 0 outside of the shape: two tensors that are the same become equal. -/
def canon (x : T Int) : T Int := ⟨x.shape, fun i => if InB x.shape i then x.get i else 0⟩

/-- A vector. -/
def vecT (l : List Int) : T Int := canon ⟨[l.length], fun i => l.getD (nth i 0) 0⟩

/-- The elements of a vector. -/
def asVec (x : T Int) : Option (List Int) :=
  if x.shape.length = 1 then some ((List.range (nth x.shape 0)).map (fun k => x.get [k])) else none

/-- The elements of a vector of integers. -/
def Value.vec {α : Type} : Value α → Option (List Int)
  | .ints x => asVec x
  | _ => none

/-- Apply an operator that only moves elements (the element given to it is never seen, or is the filling of `Pad`). -/
def Value.move {α : Type} (zero : α) (f : ∀ {β : Type}, β → T β → T β) : Value α → Value α
  | .data x => .data (f zero x)
  | .ints x => .ints (canon (f 0 x))
  | .bools x => .bools (f false x)

/-- Dimensions. -/
def Value.dims {α : Type} : Value α → List Nat
  | .data x => x.shape
  | .ints x => x.shape
  | .bools x => x.shape

/-- ONNX operators, with their attributes. -/
inductive Op
  /-- default: reverse the axes -/
  | transpose (perm : Option (List Nat))
  /-- inputs: data, shape -/
  | reshape
  /-- before operator set 10 -/
  | sliceAttr (starts ends axes : List Int)
  /-- from operator set 10 on; inputs: data, starts, ends, axes (optional) -/
  | slice
  | concat (axis : Int)
  | gather (axis : Int)
  | shape
  | size
  /-- to INT64 -/
  | cast64
  /-- before operator set 13 -/
  | squeezeAttr (axes : List Int)
  /-- from operator set 13 on; inputs: data, axes -/
  | squeeze
  | unsqueezeAttr (axes : List Int)
  | unsqueeze
  /-- before operator set 11; constant mode, filling 0 -/
  | padAttr (pads : List Int)
  /-- from operator set 11 on; inputs: data, pads -/
  | pad
  | add | sub | mul | div | neg | equal | not
  /-- output `k` of a split of axis 0 into `n` equal parts -/
  | split (n k : Nat)
  | expand
  | reverseSequence (batch time : Int)
  | depthToSpace (b : Int)
  | spaceToDepth (b : Int)
  | identity

/-- What a handler builds. -/
inductive Expr
  | inp (i : Nat)
  | const (c : T Int)
  | app (op : Op) (args : List Expr)

/-! ## Operators -/

/-- Axes of a tensor of rank `r`, none twice. -/
def AxesOk (r : Nat) (l : List Int) : Prop := (∀ a ∈ l, -(r : Int) ≤ a ∧ a < r) ∧ (l.map (normAxis r)).Nodup

instance (r : Nat) (l : List Int) : Decidable (AxesOk r l) := inferInstanceAs (Decidable (_ ∧ _))

/-- The axes as a set. -/
def axSet (r : Nat) (l : List Int) : Nat → Bool := fun i => (l.map (normAxis r)).contains i

/-- The dimensions a target shape means: 0 copies a dimension, -1 (at most one) is what is left. -/
def reshapeDims (s : List Nat) (t : List Int) : Option (List Nat) :=
  let t' := t.mapIdx (fun i z => if z = 0 then (nth s i : Int) else z)
  let k := Tensor.size ((t'.filter (· ≠ -1)).map Int.toNat)
  let r := t'.map (fun z => if z = -1 then Tensor.size s / k else z.toNat)
  if (∀ z ∈ t, -1 ≤ z) ∧ (∀ i, i < t.length → t[i]? = some 0 → i < s.length) ∧ t.count (-1) ≤ 1 ∧ ((-1) ∈ t → k ≠ 0) ∧ Tensor.size r = Tensor.size s
  then some r else none

/-- `Slice` with step 1. -/
def sliceOn {β : Type} (starts ends axes : List Int) (fill : β) (x : T β) : T β :=
  slice fill axes (List.zipWith (fun s e => ⟨s, e, 1⟩) starts ends) x

/-- The lists of a `Slice` fit. -/
def SliceOk (r : Nat) (starts ends axes : List Int) : Prop := starts.length = axes.length ∧ ends.length = axes.length ∧ AxesOk r axes

instance (r : Nat) (s e a : List Int) : Decidable (SliceOk r s e a) := inferInstanceAs (Decidable (_ ∧ _))

/-- Operands of `Concat` fit: same rank, same dimensions outside of the axis. -/
def ConcatOk {β : Type} (a : Nat) : List (T β) → Prop
  | [] => False
  | x :: xs => a < x.shape.length ∧ ∀ y ∈ xs, y.shape.length = x.shape.length ∧ ∀ i, i < x.shape.length → i ≠ a → nth y.shape i = nth x.shape i

instance {β : Type} (a : Nat) (l : List (T β)) : Decidable (ConcatOk a l) := by
  cases l <;> unfold ConcatOk <;> infer_instance

/-- An index, counted from the back if negative. -/
def posOf (d : Nat) (z : Int) : Nat := (if z < 0 then z + d else z).toNat

/-- `Gather` along axis `a`. -/
def gatherOn {β : Type} (a : Nat) (ix : T Int) (x : T β) : T β :=
  { shape := x.shape.take a ++ ix.shape ++ x.shape.drop (a + 1)
    get := fun idx => x.get (idx.take a ++ [posOf (nth x.shape a) (ix.get ((idx.drop a).take ix.shape.length))] ++ idx.drop (a + ix.shape.length)) }

/-- The indices of `Gather` are inside of the dimension. -/
def IndicesOk (d : Nat) (ix : T Int) : Prop := ∀ i ∈ allIdx ix.shape, -(d : Int) ≤ ix.get i ∧ ix.get i < d

instance (d : Nat) (ix : T Int) : Decidable (IndicesOk d ix) := inferInstanceAs (Decidable (∀ _ ∈ _, _))

/-- Dimensions that broadcast. -/
def Fits (a b : List Nat) : Prop := ∀ i, i < a.length → nth a i = nth b i ∨ nth a i = 1 ∨ nth b i = 1

instance (a b : List Nat) : Decidable (Fits a b) := inferInstanceAs (Decidable (∀ _, _))

/-- Element-wise operator of two tensors with broadcasting. -/
def zipT {β γ δ : Type} (f : β → γ → δ) (x : T β) (y : T γ) : Option (T δ) :=
  let n := max x.shape.length y.shape.length
  let x := expandRank n x
  let y := expandRank n y
  if Fits x.shape y.shape then
    some { shape := (List.range n).map (fun i => if nth x.shape i = 1 then nth y.shape i else nth x.shape i)
           get := fun idx => f (x.get (bidx x.shape idx)) (y.get (bidx y.shape idx)) }
  else none

/-- ONNX `Expand`: broadcast with a tensor of the shape `s`. -/
def expandOn {β : Type} (s : List Nat) (x : T β) : Option (T β) := zipT (fun a _ => a) x (⟨s, fun _ => ()⟩ : T Unit)

/-- `ReverseSequence`: in batch `i` the first `lens[i]` elements along the time axis are reversed. -/
def reverseSeq {β : Type} (batch time : Nat) (lens : List Int) (x : T β) : T β :=
  { shape := x.shape
    get := fun idx =>
      let n := (lens.getD (nth idx batch) 0).toNat
      if nth idx time < n then x.get (setAt idx time (n - 1 - nth idx time)) else x.get idx }

/-- `DepthToSpace`, mode DCR: data in the order N, C, H, W. -/
def depthToSpaceOn {β : Type} (b : Nat) (x : T β) : T β :=
  let c := nth x.shape 1 / (b * b)
  { shape := [nth x.shape 0, c, nth x.shape 2 * b, nth x.shape 3 * b]
    get := fun i => x.get [nth i 0, (nth i 2 % b * b + nth i 3 % b) * c + nth i 1, nth i 2 / b, nth i 3 / b] }

/-- `SpaceToDepth`. -/
def spaceToDepthOn {β : Type} (b : Nat) (x : T β) : T β :=
  let c := nth x.shape 1
  { shape := [nth x.shape 0, c * (b * b), nth x.shape 2 / b, nth x.shape 3 / b]
    get := fun i => x.get [nth i 0, nth i 1 % c, nth i 2 * b + nth i 1 / c / b, nth i 3 * b + nth i 1 / c % b] }

/-- The operands are all tensors of integers. -/
def allInts {α : Type} : List (Value α) → Option (List (T Int))
  | [] => some []
  | .ints x :: l => (allInts l).map (x :: ·)
  | _ :: _ => none

/-- The operands are all tensors of data. -/
def allData {α : Type} : List (Value α) → Option (List (T α))
  | [] => some []
  | .data x :: l => (allData l).map (x :: ·)
  | _ :: _ => none

/-- ONNX `Concat`. Negative axes are allowed from operator set 11 on. -/
def concatOp {α : Type} (v : Nat) (zero : α) (axis : Int) (xs : List (Value α)) : Option (Value α) :=
  match allInts xs, allData xs with
  | some l, _ =>
    let a := normAxis (l.headD ⟨[], fun _ => 0⟩).shape.length axis
    if ConcatOk a l ∧ (v < 11 → 0 ≤ axis) then some (.ints (canon (concat 0 a l))) else none
  | none, some l =>
    let a := normAxis (l.headD ⟨[], fun _ => zero⟩).shape.length axis
    if ConcatOk a l ∧ (v < 11 → 0 ≤ axis) then some (.data (concat zero a l)) else none
  | none, none => none

/-- Run an operator. -/
def Op.eval {α : Type} (v : Nat) (zero : α) : Op → List (Value α) → Option (Value α)
  | .transpose perm, [x] =>
    let p := perm.getD (List.range x.dims.length).reverse
    if IsPerm p ∧ p.length = x.dims.length then some (x.move zero (fun _ y => Tensor.transpose p y)) else none
  | .reshape, [x, s] => do
    let r ← reshapeDims x.dims (← s.vec)
    some (x.move zero (fun _ y => Tensor.reshape r y))
  | .sliceAttr starts ends axes, [x] =>
    if v < 10 ∧ SliceOk x.dims.length starts ends axes then some (x.move zero (sliceOn starts ends axes)) else none
  | .slice, [x, s, e] => do
    let s ← s.vec
    let e ← e.vec
    let a := (List.range s.length).map Int.ofNat
    if 10 ≤ v ∧ SliceOk x.dims.length s e a then some (x.move zero (sliceOn s e a)) else none
  | .slice, [x, s, e, a] => do
    let s ← s.vec
    let e ← e.vec
    let a ← a.vec
    if 10 ≤ v ∧ SliceOk x.dims.length s e a then some (x.move zero (sliceOn s e a)) else none
  | .concat axis, xs => concatOp v zero axis xs
  | .gather axis, [x, .ints ix] =>
    let a := normAxis x.dims.length axis
    if AxesOk x.dims.length [axis] ∧ IndicesOk (nth x.dims a) ix ∧ (v < 11 → ∀ i ∈ allIdx ix.shape, 0 ≤ ix.get i) then
      some (x.move zero (fun _ y => gatherOn a ix y)) else none
  | .shape, [x] => some (.ints (vecT (x.dims.map Int.ofNat)))
  | .size, [x] => some (.ints (canon ⟨[], fun _ => (Tensor.size x.dims : Int)⟩))
  | .cast64, [.ints x] => some (.ints x)
  | .cast64, [.bools x] => some (.ints (canon ⟨x.shape, fun i => if x.get i then 1 else 0⟩))
  | .squeezeAttr axes, [x] =>
    if v < 13 ∧ AxesOk x.dims.length axes ∧ (v < 11 → ∀ a ∈ axes, 0 ≤ a) ∧ ∀ a ∈ axes, nth x.dims (normAxis x.dims.length a) = 1 then
      some (x.move zero (fun _ y => Tensor.squeeze (axSet x.dims.length axes) y)) else none
  | .squeeze, [x, a] => do
    let axes ← a.vec
    if 13 ≤ v ∧ AxesOk x.dims.length axes ∧ ∀ a ∈ axes, nth x.dims (normAxis x.dims.length a) = 1 then
      some (x.move zero (fun _ y => Tensor.squeeze (axSet x.dims.length axes) y)) else none
  | .unsqueezeAttr axes, [x] =>
    let n := x.dims.length + axes.length
    if v < 13 ∧ AxesOk n axes ∧ (v < 11 → ∀ a ∈ axes, 0 ≤ a) then some (x.move zero (fun _ y => Tensor.unsqueeze n (axSet n axes) y)) else none
  | .unsqueeze, [x, a] => do
    let axes ← a.vec
    let n := x.dims.length + axes.length
    if 13 ≤ v ∧ AxesOk n axes then some (x.move zero (fun _ y => Tensor.unsqueeze n (axSet n axes) y)) else none
  | .padAttr pads, [x] =>
    if v < 11 ∧ pads.length = 2 * x.dims.length then some (x.move zero (fun z y => Tensor.pad .constant z pads y)) else none
  | .pad, [x, p] => do
    let pads ← p.vec
    if 11 ≤ v ∧ pads.length = 2 * x.dims.length then some (x.move zero (fun z y => Tensor.pad .constant z pads y)) else none
  | .add, [.ints x, .ints y] => (zipT (· + ·) x y).map (fun z => .ints (canon z))
  | .sub, [.ints x, .ints y] => (zipT (· - ·) x y).map (fun z => .ints (canon z))
  | .mul, [.ints x, .ints y] => (zipT (· * ·) x y).map (fun z => .ints (canon z))
  | .div, [.ints x, .ints y] => (zipT Int.tdiv x y).map (fun z => .ints (canon z))
  | .neg, [.ints x] => some (.ints (canon ⟨x.shape, fun i => - x.get i⟩))
  | .equal, [.ints x, .ints y] => (zipT (fun a b => decide (a = b)) x y).map .bools
  | .not, [.bools x] => some (.bools ⟨x.shape, fun i => !x.get i⟩)
  | .split n k, [x] =>
    if 0 < n ∧ k < n ∧ 0 < x.dims.length ∧ n ∣ nth x.dims 0 then
      some (x.move zero (fun _ y => splitChunk 0 (List.replicate n (nth x.dims 0 / n)) k y)) else none
  | .expand, [x, s] => do
    let l ← s.vec
    if ∀ z ∈ l, 0 ≤ z then
      match x with
      | .data x => (expandOn (l.map Int.toNat) x).map .data
      | .ints x => (expandOn (l.map Int.toNat) x).map (fun z => .ints (canon z))
      | .bools x => (expandOn (l.map Int.toNat) x).map .bools
    else none
  | .reverseSequence batch time, [x, s] => do
    let lens ← s.vec
    if 10 ≤ v ∧ 2 ≤ x.dims.length ∧ (batch = 0 ∧ time = 1 ∨ batch = 1 ∧ time = 0) ∧ lens.length = nth x.dims batch.toNat ∧
        ∀ z ∈ lens, 0 ≤ z ∧ z ≤ nth x.dims time.toNat then
      some (x.move zero (fun _ y => reverseSeq batch.toNat time.toNat lens y)) else none
  | .depthToSpace b, [x] =>
    if 0 < b ∧ x.dims.length = 4 ∧ b.toNat * b.toNat ∣ nth x.dims 1 then some (x.move zero (fun _ y => depthToSpaceOn b.toNat y)) else none
  | .spaceToDepth b, [x] =>
    if 0 < b ∧ x.dims.length = 4 ∧ b.toNat ∣ nth x.dims 2 ∧ b.toNat ∣ nth x.dims 3 then some (x.move zero (fun _ y => spaceToDepthOn b.toNat y)) else none
  | .identity, [x] => some x
  | _, _ => none

mutual
/-- Run what a handler built on the inputs of the converted node. -/
def Expr.eval {α : Type} (v : Nat) (zero : α) (env : Nat → Option (Value α)) : Expr → Option (Value α)
  | .inp i => env i
  | .const c => some (.ints c)
  | .app op args => do op.eval v zero (← Expr.evalList v zero env args)
/-- The operands. -/
def Expr.evalList {α : Type} (v : Nat) (zero : α) (env : Nat → Option (Value α)) : List Expr → Option (List (Value α))
  | [] => some []
  | e :: es => do
    let a ← Expr.eval v zero env e
    let as ← Expr.evalList v zero env es
    some (a :: as)
end

end Verif.Emit
