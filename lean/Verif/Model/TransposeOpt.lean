import Verif.Spec.Tensor
import Mathlib.Data.List.Sort
/-!
# Model of the permutation and attribute arithmetic of the transpose optimizations

`tf2onnx/optimizer/back_to_back_optimizer.py` (`_optimize_transpose`) and `tf2onnx/optimizer/transpose_optimizer.py`.
Permutations are lists of naturals. List indexing out of range raises `IndexError` in Python; here `nth` gives `0`
(the theorems assume permutations, for which no index is out of range).
-/
namespace Verif.TransposeOpt
open Verif.Tensor

/-- `new_perm = [t1[i] for i in t2]` (tf2onnx/optimizer/back_to_back_optimizer.py:137). -/
def fusePerm (t1 t2 : List Nat) : List Nat := t2.map (nth t1)

/-- What `_optimize_transpose` (tf2onnx/optimizer/back_to_back_optimizer.py:130-153) leaves in place of the second
transpose: `none` if it is removed and its consumers read the operand of the first one, else its new `perm`. -/
def optimizeTranspose (t1 t2 : List Nat) : Option (List Nat) :=
  if fusePerm t1 t2 = List.range t2.length then none else some (fusePerm t1 t2)

/-- `is_useless_transpose` (tf2onnx/optimizer/transpose_optimizer.py:30-32). -/
def isUseless (perm : List Nat) : Bool := perm = List.range perm.length

/-- `invert_perm` (tf2onnx/optimizer/transpose_optimizer.py:39-43): `inv[p] = i` for every `(i, p)`. -/
def invertPerm (perm : List Nat) : List Nat :=
  perm.zipIdx.foldl (fun inv pi => inv.set pi.1 pi.2) (List.replicate perm.length 0)

/-- Python list indexing `l[a]`: negative positions count from the back (`IndexError` cases give `0`). -/
def pyIdx (l : List Nat) (a : Int) : Nat := nth l (if a < 0 then a + l.length else a).toNat

/-- `permute_pads` (tf2onnx/optimizer/transpose_optimizer.py:820-821). -/
def permutePads (perm : List Nat) (pads : List Int) : List Int :=
  (invertPerm perm).map (fun i => pads.getD i 0) ++ (invertPerm perm).map (fun i => pads.getD (i + perm.length) 0)

/-- `repeats_val = [repeats[p] for p in perm_inv]` (tf2onnx/optimizer/transpose_optimizer.py:940-941). -/
def tileRepeats (perm : List Nat) (repeats : List Int) : List Int :=
  (invertPerm perm).map (fun p => repeats.getD p 0)

/-- `new_axes = [perm[axes[i]] for i in range(len(axes))]` of `_slice_handler` and `_reduce_latest_handler`
(tf2onnx/optimizer/transpose_optimizer.py:917, 962, 971). -/
def mapAxes (perm : List Nat) (axes : List Int) : List Int := axes.map (fun a => (pyIdx perm a : Int))

/-- The axes of `_reduce_base_handler` (tf2onnx/optimizer/transpose_optimizer.py:885-888); `none`: no `axes` attribute. -/
def reduceAxes (perm : List Nat) (axes : Option (List Int)) : List Nat :=
  let axes : List Int := axes.getD ((List.range perm.length).map (fun (i : Nat) => (i : Int)))
  let axes : List Int := axes.map (fun a => if a < 0 then a + perm.length else a)
  axes.map (fun a => pyIdx perm a)

/-- The `remaining_axes` loop (tf2onnx/optimizer/transpose_optimizer.py:895-902): `j` counts the axes kept so far, `todo`
lists the `i` still to visit. -/
def remainingAxes (newAxes : List Nat) : List Nat → Nat → List (Option Nat)
  | [], _ => []
  | i :: todo, j =>
    if i ∈ newAxes then none :: remainingAxes newAxes todo j
    else some j :: remainingAxes newAxes todo (j + 1)

/-- `new_perm = [remaining_axes[p] for p in perm if remaining_axes[p] is not None]`
(tf2onnx/optimizer/transpose_optimizer.py:903). -/
def reduceNewPerm (perm newAxes : List Nat) : List Nat :=
  perm.filterMap (fun p => ((remainingAxes newAxes (List.range perm.length) 0)[p]?).getD none)

/-- `_calculate_new_attr` of `_squeeze_handler` (tf2onnx/optimizer/transpose_optimizer.py:759-772, 791): new axes of the
squeeze and new `perm`. `sorted` is insertion into increasing order. -/
def squeezeNewAttr (perm : List Nat) (axes : List Int) : List Nat × List Nat :=
  let axes : List Int := axes.map (fun i => if i ≥ 0 then i else i + perm.length)
  let newAxes := (axes.map (fun i => pyIdx perm i)).insertionSort (· ≤ ·)
  let n := perm.length
  let inputShape := List.range n
  let shapeAfterTrans := perm.map (nth inputShape)
  let outputShape := ((List.range n).filter (fun (i : Nat) => (i : Int) ∉ axes)).map (nth shapeAfterTrans)
  let shapeAfterSqueeze := ((List.range n).filter (fun i => i ∉ newAxes)).map (nth inputShape)
  (newAxes, outputShape.map (fun i => shapeAfterSqueeze.idxOf i))

/-- `axes = sorted([a % new_rank for a in axes])` (tf2onnx/optimizer/transpose_optimizer.py:711-712). -/
def unsqueezeAxes (perm : List Nat) (axes : List Int) : List Nat :=
  (axes.map (fun a => (a % ((perm.length + axes.length : Nat) : Int)).toNat)).insertionSort (· ≤ ·)

/-- `pre_perm_axes` (tf2onnx/optimizer/transpose_optimizer.py:715-716) of the sorted axes. -/
def prePermAxes (perm axes : List Nat) : List Nat :=
  (axes.zipIdx.map (fun ai => ai.1 - ai.2)).map (fun a => if a < perm.length then nth perm a else perm.length)

/-- Lexicographic comparison of Python pairs. -/
def pairLE (p q : Nat × Nat) : Bool := p.1 < q.1 || (p.1 = q.1 && p.2 ≤ q.2)

/-- `new_axes` (tf2onnx/optimizer/transpose_optimizer.py:717-718). -/
def unsqueezeNewAxes (pre : List Nat) : List Nat :=
  let sorted := pre.zipIdx.insertionSort (fun p q => pairLE p q = true)
  pre.zipIdx.map (fun ai => ai.1 + sorted.idxOf ai)

/-- `shift_map` (tf2onnx/optimizer/transpose_optimizer.py:720-723). -/
def shiftMap (newRank : Nat) (newAxes : List Nat) : List Nat := (List.range newRank).filter (fun i => i ∉ newAxes)

/-- The `new_perm` loop (tf2onnx/optimizer/transpose_optimizer.py:725-734), with its two counters. -/
def unsqueezePermLoop (perm axes newAxes shift : List Nat) : List Nat → Nat → Nat → List Nat
  | [], _, _ => []
  | i :: todo, permI, axesI =>
    if i ∈ axes then nth newAxes axesI :: unsqueezePermLoop perm axes newAxes shift todo permI (axesI + 1)
    else nth shift (nth perm permI) :: unsqueezePermLoop perm axes newAxes shift todo (permI + 1) axesI

/-- `_unsqueeze_handler` (tf2onnx/optimizer/transpose_optimizer.py:700-740): the new axes of the unsqueeze and the new
`perm` of the transpose. -/
def unsqueezeNewAttr (perm : List Nat) (axes : List Int) : List Nat × List Nat :=
  let newRank := perm.length + axes.length
  let ax := unsqueezeAxes perm axes
  let newAxes := unsqueezeNewAxes (prePermAxes perm ax)
  (newAxes.insertionSort (· ≤ ·),
    unsqueezePermLoop perm ax newAxes (shiftMap newRank newAxes) (List.range newRank) 0 0)

/-- `new_axis = perm[axis + trans_rank if axis < 0 else axis]` (tf2onnx/optimizer/transpose_optimizer.py:857-858;
also `_concat_handler`, `_quantize_handler` and `_arg_min_max_handler`, which index `perm` with a possibly negative
axis, 677, 691, 998, 873-880). -/
def mapAxis (perm : List Nat) (axis : Int) : Nat := pyIdx perm axis

/-- The check of `_softmax_handler` before opset 13 (tf2onnx/optimizer/transpose_optimizer.py:866-869): `true` if the
transpose is moved (the axis is not changed). -/
def softmaxOldMoves (perm : List Nat) (axis : Int) : Bool :=
  perm.zipIdx.all (fun tf => !((tf.2 < axis && axis ≤ tf.1) || (tf.2 ≥ axis && axis > tf.1)))

/-- Shape given to a constant multiplier of shape `(1, .., 1, m)` (tf2onnx/optimizer/transpose_optimizer.py:613-617). -/
def mulConstShape (perm : List Nat) (m : Nat) : List Nat :=
  (List.replicate perm.length 1).set (nth perm (perm.length - 1)) m

/-- `shape_after_expand` (tf2onnx/optimizer/transpose_optimizer.py:420-428) for fully known shapes. -/
def shapeAfterExpand (rank : Nat) (s : List Nat) : List Nat := List.replicate (rank - s.length) 1 ++ s

/-- `_calculate_new_shape` (tf2onnx/optimizer/transpose_optimizer.py:93-112): `true` if the transpose is replaced by a
reshape to `[input_shape[p] for p in perm]`. Dimension `i` of the tagged shape is `1` or the tag of `i`; a dimension
unknown to the optimizer (`-1`, here `none`) is tagged. -/
def reshapeInstead (perm : List Nat) (shape : List (Option Nat)) : Bool :=
  let tagged : List (Option Nat) := shape.zipIdx.map (fun di => if di.1 = some 1 then none else some di.2)
  let trim := tagged.filter (·.isSome)
  let permShape := perm.map (fun p => tagged.getD p none)
  permShape.filter (·.isSome) = trim

/-- The recorded shape of the moved operator's output, `[shape[i] for i in perm_inv]`
(tf2onnx/optimizer/transpose_optimizer.py:310-311). -/
def switchShape (perm shape : List Nat) : List Nat := (invertPerm perm).map (nth shape)

end Verif.TransposeOpt
