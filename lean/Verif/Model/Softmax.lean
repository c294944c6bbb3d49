import Verif.Spec.Softmax
import Verif.Spec.IndexOps
import Verif.Spec.VecOps
import Verif.Spec.Fourier
/-!
# Model: softmax and cross-entropy (tf2onnx/onnx_opset/math.py, nn.py)

What the handlers emit, as functions of the operands. `Except.error`: the handler raises. `none`: the emitted operators do not accept their operands. Element types and the casts
between them are not modelled; the elements are real numbers. `v` is the operator set, `neg` says whether the runtime takes negative axes before operator set 11.
-/
namespace Verif.Softmax
open Verif.Tensor Verif.Emit Verif.Einsum Verif.Fourier

/-! ## Softmax -/

/-- The attribute `axis` of the emitted node, `Softmax.version_1`, `version_11`, `version_13` (math.py:203-221). `recorded`: the recorded shape of the operand. -/
def softmaxAttr (v : Nat) (attr : Option Int) (recorded : Option (List Int)) : Except String (Option Int) :=
  if v < 13 then
    match attr with
    | some a => .ok (some a)
    | none =>
      match recorded with
      | none => .error "TypeError: object of type 'NoneType' has no len()"
      | some s => .ok (some ((s.length : Int) - 1))
  else .ok attr

/-- `Softmax` (math.py:203-221). -/
noncomputable def softmax (v : Nat) (neg : Bool) (attr : Option Int) (recorded : Option (List Int)) (x : T ℝ) : Except String (Option (T ℝ)) :=
  match softmaxAttr v attr recorded with
  | .error e => .error e
  | .ok a => .ok (onnxSoftmax v neg a x)

/-- `LogSoftmax` (math.py:203-221). -/
noncomputable def logSoftmax (v : Nat) (neg : Bool) (attr : Option Int) (recorded : Option (List Int)) (x : T ℝ) : Except String (Option (T ℝ)) :=
  match softmaxAttr v attr recorded with
  | .error e => .error e
  | .ok a => .ok (onnxLogSoftmax v neg a x)

/-! ## Cross-entropy -/

/-- The constant -1. -/
def minusOne : T ℝ := ⟨[], fun _ => -1⟩

/-- `_make_softmax_cross_entropy_with_logits` (nn.py:1804-1823), which `SoftmaxCrossEntropyWithLogits.version_7` calls (nn.py:1870-1881). -/
noncomputable def crossEntropy (v : Nat) (neg : Bool) (labels logits : T ℝ) : Option (T ℝ) :=
  (onnxLogSoftmax v neg none logits).bind (fun ls => (zipT (· * ·) labels ls).bind (fun m => (reduceOne v neg Multiset.sum true (-1) m).bind (fun s =>
    (zipT (· * ·) minusOne s).bind (fun y => squeezeT [1] y))))

/-! ## Cross-entropy with class numbers -/

/-- `np.eye(depth)` (nn.py:1935). -/
def eye (depth : Nat) : T ℝ := ⟨[depth, depth], fun i => if nth i 0 = nth i 1 then 1 else 0⟩

/-- The one-hot rows (nn.py:1935-1939) and what follows (nn.py:1940-1953). -/
noncomputable def sparseByEye (v : Nat) (neg : Bool) (depth : Nat) (labels : T Int) (logits : T ℝ) : Option (T ℝ) :=
  (Seg.gather0 (eye depth) labels).bind (fun hot => (onnxLogSoftmax v neg none logits).bind (fun ls => (zipT (· * ·) hot ls).bind (fun m =>
    (reduceOne v neg Multiset.sum true 1 m).bind (fun s => (zipT (· * ·) minusOne s).bind (fun y => squeezeT [1] y)))))

/-- `sparse_softmax_cross_entropy_with_logits_op_by_gathernd` (nn.py:1826-1867). `gathernd` is what `tensor.make_gathernd` emits (two nested loops). -/
noncomputable def sparseByGather (v : Nat) (neg : Bool) (gathernd : T ℝ → List (List Int) → Option (T ℝ)) (labels : T Int) (logits : T ℝ) : Option (T ℝ) :=
  let l := (List.range (Tensor.size labels.shape)).map (fun i => labels.get [i])
  (Vec.hcat (Vec.column (Seg.rangeVec l.length)) (Vec.column l)).bind (fun ix => (onnxLogSoftmax v neg none logits).bind (fun ls => (gathernd ls ix).bind (fun g =>
    (zipT (· * ·) minusOne g).bind (fun y => squeezeT [1] y))))

/-- `SparseSoftmaxCrossEntropyWithLogits.version_7` (nn.py:1915-1953), for operator sets 7 and 8. -/
noncomputable def sparse7 (v : Nat) (neg : Bool) (gathernd : T ℝ → List (List Int) → Option (T ℝ)) (labelShape logitShape : Option (List Int)) (labels : T Int) (logits : T ℝ) :
    Except String (Option (T ℝ)) :=
  match labelShape with
  | none => .error "TypeError: object of type 'NoneType' has no len()"
  | some s =>
    if s.length = 1 then
      match logitShape with
      | none => .error "TypeError: 'NoneType' object is not subscriptable"
      | some [] => .error "IndexError"
      | some (d :: t) =>
        let depth := (d :: t).getLastD 0
        if depth = -1 ∨ 20000 < depth then .ok (sparseByGather v neg gathernd labels logits) else .ok (sparseByEye v neg depth.toNat labels logits)
    else .error "onehot op: only rank1 is supported"

/-- The number of classes: recorded, or read at run time (nn.py:1966-1975). -/
def classes (logitShape : Option (List Int)) (logits : T ℝ) : Except String (List Int) :=
  match logitShape with
  | some [] => .error "IndexError"
  | some (d :: t) => if (d :: t).getLastD 0 = -1 then .ok (sliceVec (logits.shape.map Int.ofNat) (-1) 2147483647) else .ok [(d :: t).getLastD 0]
  | none => .ok (sliceVec (logits.shape.map Int.ofNat) (-1) 2147483647)

/-- The mask, as real numbers (nn.py:1976-1997). -/
noncomputable def labelMask (v : Nat) (depth : List Int) (labels : T Int) : Option (T ℝ) :=
  match depth with
  | [c] =>
    if v < 11 then (Index.oneHotAxis labels.shape.length (-1)).map (fun a => Index.oneHot a c.toNat (0 : ℝ) 1 labels)
    else (unsqueezeT [labels.shape.length] labels).bind (fun l =>
      zipT (fun a b : Int => if a = b then (1 : ℝ) else 0) l ⟨[(Seg.rangeVec c).length], fun i => (Seg.rangeVec c).getD (nth i 0) 0⟩)
  | _ => none

/-- `_make_sparse_softmax_cross_entropy_with_logits` (nn.py:1884-1912). -/
noncomputable def sparseByMask (v : Nat) (neg : Bool) (mask logits : T ℝ) : Option (T ℝ) :=
  (reduceOne v neg greatest true (-1) logits).bind (fun mx => (zipT (· - ·) logits mx).bind (fun nrm =>
    let e := Scan.mapT Real.exp nrm
    (reduceOne v neg Multiset.sum false (-1) e).bind (fun s => (zipT (· * ·) mask e).bind (fun m => (reduceOne v neg Multiset.sum false (-1) m).bind (fun ms =>
      (zipT (· / ·) ms s).bind (fun p => zipT (· * ·) (Scan.mapT Real.log p) minusOne))))))

/-- `SparseSoftmaxCrossEntropyWithLogits.version_9` (nn.py:1956-1999). -/
noncomputable def sparse9 (v : Nat) (neg : Bool) (logitShape : Option (List Int)) (labels : T Int) (logits : T ℝ) : Except String (Option (T ℝ)) :=
  match classes logitShape logits with
  | .error e => .error e
  | .ok depth => .ok ((labelMask v depth labels).bind (fun mask => sparseByMask v neg mask logits))

end Verif.Softmax
