import Verif.Spec.TensorOps
import Verif.Model.TransposeOpt
/-!
# Model of `tf2onnx/optimizer/const_fold_optimizer.py`: the folding functions

The numpy functions they call (`transpose`, `reshape`, `concatenate`, `split`, `multiply`, ...) have their documented
meaning. Errors are numpy's or Python's exceptions. `astype` (`_fold_cast`) is element-wise and not modelled further.
-/
namespace Verif.ConstFold
open Verif.Tensor

/-- `numpy.reshape(a, shape)`: the dimensions it resolves a shape argument to, or `ValueError`. -/
def npReshape (s : List Nat) (t : List Int) : Except String (List Nat) :=
  let known := t.filter (· ≠ -1)
  if t.any (· < -1) then .error "ValueError: negative dimensions not allowed"
  else if (t.filter (· = -1)).length > 1 then .error "ValueError: can only specify one unknown dimension"
  else if (t.filter (· = -1)).length = 1 then
    let p := size (known.map Int.toNat)
    if p = 0 ∨ size s % p ≠ 0 then .error "ValueError: cannot reshape array"
    else .ok (t.map (fun d => if d = -1 then size s / p else d.toNat))
  else if size (t.map Int.toNat) = size s then .ok (t.map Int.toNat)
  else .error "ValueError: cannot reshape array"

/-- `for i, dim in enumerate(const_val_shape): if dim == 0: const_val_shape[i] = data_shape[i]`
(tf2onnx/optimizer/const_fold_optimizer.py:125-128): `rest` are the entries from position `i` on. -/
def copyZeros (s : List Nat) : List Int → Nat → Except String (List Int)
  | [], _ => .ok []
  | d :: rest, i =>
    if d = 0 then
      match s[i]? with
      | none => .error "IndexError: tuple index out of range"
      | some v => do
        let l ← copyZeros s rest (i + 1)
        .ok ((v : Int) :: l)
    else do
      let l ← copyZeros s rest (i + 1)
      .ok (d :: l)

/-- The shape computed by `_fold_reshape` (tf2onnx/optimizer/const_fold_optimizer.py:121-130; also
`pre_optimize_action`, tf2onnx/optimizer/transpose_optimizer.py:73-79). `allowzero` is not looked at. -/
def foldReshapeShape (s : List Nat) (t : List Int) : Except String (List Nat) := do
  let t ← copyZeros s t 0
  npReshape s t

/-- `_fold_reshape`. -/
def foldReshape {α : Type} (x : T α) (t : List Int) : Except String (T α) := do
  let s ← foldReshapeShape x.shape t
  .ok (reshape s x)

/-- `_fold_transpose` (tf2onnx/optimizer/const_fold_optimizer.py:112-117): `numpy.transpose(None)` reverses the axes. -/
def foldTranspose {α : Type} (x : T α) (perm : Option (List Nat)) : T α :=
  transpose (perm.getD (List.range x.shape.length).reverse) x

/-- The loop of `_fold_unsqueeze` that fills the `None` entries with `next(shape_in)`
(tf2onnx/optimizer/const_fold_optimizer.py:159-161). -/
def fillNext : List (Option Nat) → List Nat → Except String (List Nat)
  | [], _ => .ok []
  | some v :: l, s => do
    let r ← fillNext l s
    .ok (v :: r)
  | none :: _, [] => .error "StopIteration"
  | none :: l, d :: s => do
    let r ← fillNext l s
    .ok (d :: r)

/-- The shape computed by `_fold_unsqueeze` (tf2onnx/optimizer/const_fold_optimizer.py:150-161). -/
def unsqueezeShape (s : List Nat) (axes : List Int) : Except String (List Nat) :=
  let dimsOut := s.length + axes.length
  let axes : List Int := axes.map (fun i => if i ≥ 0 then i else i + dimsOut)
  if axes.any (fun i => i < 0 ∨ i ≥ dimsOut) then .error "IndexError: list assignment index out of range"
  else
    let marked := axes.foldl (fun l i => l.set i.toNat (some 1)) (List.replicate dimsOut none)
    fillNext marked s

/-- `_fold_unsqueeze`. -/
def foldUnsqueeze {α : Type} (x : T α) (axes : List Int) : Except String (T α) := do
  let s ← unsqueezeShape x.shape axes
  let s ← npReshape x.shape (s.map (fun (d : Nat) => (d : Int)))
  .ok (reshape s x)

/-- `_fold_concat` (tf2onnx/optimizer/const_fold_optimizer.py:134-137); `numpy.concatenate` accepts negative axes. -/
def foldConcat {α : Type} (fill : α) (xs : List (T α)) (axis : Int) : T α :=
  concat fill (normAxis ((xs.head?.map (fun x => x.shape.length)).getD 0) axis) xs

/-- `_fold_mul`, `_fold_add`, `_fold_sub` (tf2onnx/optimizer/const_fold_optimizer.py:168-188): numpy's binary ufuncs,
with numpy's broadcasting (which is ONNX's). -/
def foldBinary {α : Type} (f : α → α → α) (dflt : α) (x y : T α) : T α :=
  elementwise (fun l => f (l.getD 0 dflt) (l.getD 1 dflt)) (max x.shape.length y.shape.length) [x, y]

/-- `numpy.cumsum`. -/
def cumsum : List Nat → Nat → List Nat
  | [], _ => []
  | d :: l, acc => (acc + d) :: cumsum l (acc + d)

/-- One Python slice `data[st:end]` along axis `a`. -/
def pySlice {α : Type} (a st en : Nat) (x : T α) : T α :=
  let d := nth x.shape a
  { shape := setAt x.shape a (min en d - min st d)
    get := fun idx => x.get (setAt idx a (nth idx a + min st d)) }

/-- `numpy.array_split` with split points (`numpy.split` with a list): `zip(div_points[:-1], div_points[1:])`. -/
def splitAt {α : Type} (a : Nat) (points : List Nat) (x : T α) : List (T α) :=
  let div := 0 :: (points ++ [nth x.shape a])
  (div.zip div.tail).map (fun se => pySlice a se.1 se.2 x)

/-- `_fold_split` (tf2onnx/optimizer/const_fold_optimizer.py:192-204). `nout` is the number of outputs, `split` the sizes
if given. `numpy.split` with a number of sections requires an equal division. -/
def foldSplit {α : Type} (x : T α) (axis : Int) (nout : Nat) (split : Option (List Nat)) : Except String (List (T α)) :=
  let a := normAxis x.shape.length axis
  if nout = 1 then .ok [x]
  else match split with
    | some l => .ok (splitAt a (cumsum l.dropLast 0) x)
    | none =>
      let d := nth x.shape a
      if nout = 0 ∨ d % nout ≠ 0 then .error "ValueError: array split does not result in an equal division"
      else .ok (splitAt a ((List.range (nout - 1)).map (fun i => (i + 1) * (d / nout))) x)

end Verif.ConstFold
