import Verif.Model.Conv
import Verif.Spec.Channels
import Verif.Spec.SegmentOps
import Verif.Spec.VecOps
import Verif.Spec.ScanOps
/-!
# Model: layers on the channels of images (tf2onnx/onnx_opset/nn.py, math.py)

What the handlers emit, as functions of the operands. `Except.error`: the handler raises. `none`: the emitted operators do not accept their operands. Element types are not
modelled, except where a handler compares them; the elements of the arithmetic layers are real numbers.
-/
namespace Verif.Channels
open Verif.Tensor Verif.Conv Verif.Einsum Verif.Emit

/-- `conv_convert_inputs` around an operator (nn.py:62-197), which needs a recorded shape of the result if the channels are last. -/
def around {α β : Type} (last : Bool) (m : Nat) (outShape : Option (List Int)) (f : T α → Option (T β)) (x : T α) : Except String (Option (T β)) :=
  if last ∧ outShape = none then .error "TypeError: 'NoneType' object is not subscriptable" else .ok ((f (toOnnx last m x)).map (fromOnnx last m))

/-- `SpaceToDepth.version_1` (nn.py:1062-1067). -/
def spaceToDepth {α : Type} (last : Bool) (outShape : Option (List Int)) (b : Nat) (x : T α) : Except String (Option (T α)) := around last 2 outShape (onnxSpaceToDepth b) x

/-- `DepthToSpace.version_1`, `version_11` (nn.py:1070-1081). -/
def depthToSpace {α : Type} (last : Bool) (outShape : Option (List Int)) (b : Nat) (x : T α) : Except String (Option (T α)) := around last 2 outShape (onnxDepthToSpace b) x

/-- `LRN.version_1` (math.py:345-367). The other attributes keep their names; where one is missing ONNX has its own default (`bias` 1, `beta` 0.75). -/
noncomputable def lrn (radius : Option Nat) (bias alpha beta : Option ℝ) (x : T ℝ) : Except String (Option (T ℝ)) :=
  match alpha with
  | none => .error "AttributeError: 'NoneType' object has no attribute 'f'"
  | some a =>
    let sz := radius.getD 5 * 2 + 1
    .ok ((transposeT [0, 3, 1, 2] x).bind (fun t => transposeT [0, 2, 3, 1] (onnxLrn sz (bias.getD 1) ((sz : ℝ) * a) (beta.getD 0.75) t)))

/-! ## Batch normalisation -/

/-- `np.resize`: the elements again and again. -/
def resize (s : List Nat) (t : T ℝ) : T ℝ := ⟨s, fun i => if size t.shape = 0 then 0 else t.get (delin t.shape (lin s i % size t.shape))⟩

/-- Mean and variance get the shape of the scale (nn.py:1044-1058). `isConst`: the operand is a constant, with a value the handler can read. -/
def fit (scaleShape recorded : Option (List Int)) (isConst : Bool) (t : T ℝ) : Except String (T ℝ) :=
  if recorded = scaleShape then .ok t else
    match scaleShape with
    | none => .error "TypeError: 'NoneType' object is not iterable"
    | some s => if ∀ d ∈ s, 0 ≤ d then (if isConst then .ok (resize (s.map Int.toNat) t) else .error "get tensor value: must be Const") else .ok t

/-- The axes of mean and variance (nn.py:1014). -/
def statAxes (rank : Nat) : List Nat := 0 :: (List.range (rank - 2)).map (· + 2)

/-- Mean and variance of the batch, from the image with the channels first (nn.py:1014-1031). -/
noncomputable def batchStats (x : T ℝ) : Option (T ℝ × T ℝ) :=
  let axes := statAxes x.shape.length
  let avg := reduceKeep mean (fun i => axes.contains i) x;
  (squeezeT axes avg).bind (fun avgS => (zipT (· - ·) x avg).bind (fun sub =>
    let sq := reduceDrop (fun s => (s.map (· ^ 2)).sum) (fun i => axes.contains i) sub;
    (Vec.gather (x.shape.map Int.ofNat) (axes.map Int.ofNat)).bind (fun dims =>
      (zipT (· / ·) sq ⟨[], fun _ => ((dims.prod : Int) : ℝ)⟩).map (fun pop => (avgS, pop)))))

/-- The rank of the operand as the handler looks at it: the number of spatial axes (nn.py:966-972). -/
def spatialOf (recorded : Option (List Int)) : Except String Nat :=
  match recorded with
  | none => .error "TypeError: object of type 'NoneType' has no len()"
  | some s => if s.length = 4 then .ok 2 else if s.length = 5 then .ok 3 else .error "node input must be 4 or 5-dimensional"

/-- What is known about a node: recorded shapes of the operands and of the result, which of mean and variance are constants, and the attributes. -/
structure BatchNormNode where
  last : Bool
  xShape : Option (List Int)
  scaleShape : Option (List Int)
  meanShape : Option (List Int)
  varShape : Option (List Int)
  outShape : Option (List Int)
  meanConst : Bool
  varConst : Bool
  eps : ℝ
  training : Option Bool
  factor : Option ℝ

open Classical in
/-- `BatchNorm.version_6`, `version_9` (nn.py:961-1058). Not modelled: the casts where the image has another type than the mean (985-994); the other outputs. -/
noncomputable def batchNorm (n : BatchNormNode) (x scale b μ σ2 : T ℝ) : Except String (Option (T ℝ)) :=
  match spatialOf n.xShape with
  | .error e => .error e
  | .ok m =>
    if n.training.getD true = true ∧ n.factor.getD 1 = 1 then
      around n.last m n.outShape (fun t => (batchStats t).bind (fun s => onnxBatchNorm n.eps t scale b s.1 s.2)) x
    else
      match fit n.scaleShape n.meanShape n.meanConst μ, fit n.scaleShape n.varShape n.varConst σ2 with
      | .ok μ', .ok σ2' => around n.last m n.outShape (fun t => onnxBatchNorm n.eps t scale b μ' σ2') x
      | .error e, _ => .error e
      | _, .error e => .error e

/-! ## Contrast -/

/-- `list(range(rank))[-3:-1]` (nn.py:1531). -/
def contrastAxes (rank : Nat) : List Nat := (List.range rank).drop (rank - 3) |>.dropLast

/-- `AdjustContrastv2.version_1` (nn.py:1521-1539). `rank`: the recorded rank. The `Cast` of the factor is made with the element type as the name of its operand, which is no text. -/
noncomputable def adjustContrast (imageType factorType : String) (rank : Option Nat) (x factor : T ℝ) : Except String (Option (T ℝ)) :=
  if factorType ≠ imageType then .error "TypeError: bad argument type for built-in operation" else
    match rank with
    | none => .error "AdjustContrastv2 requires input of known rank"
    | some r =>
      let μ := reduceKeep mean (fun i => (contrastAxes r).contains i) x;
      .ok ((zipT (· - ·) x μ).bind (fun d => (zipT (· * ·) d factor).bind (fun s => zipT (· + ·) s μ)))

end Verif.Channels
