/-!
# Model of the shape helpers of `tf2onnx/utils.py`

A static shape in tf2onnx is `None` (unknown rank) or a list whose entries are Python ints or `None`.
-/
namespace Verif.Shapes

/-- One static dimension: `None` or an int. -/
abbrev Dim := Option Int
/-- A static shape: `None` (unknown rank) or a list of dimensions. -/
abbrev Shape := Option (List Dim)

/-- `utils.is_unknown_dimension` (tf2onnx/utils.py:450-454). -/
def isUnknownDim : Dim → Bool
  | none => true
  | some d => d ≤ 0

/-- The loop body of `merge_shapes` over `zip(shape1, shape2)` (tf2onnx/utils.py:470-478). -/
def mergeDims : List Dim → List Dim → Except String (List Dim)
  | d1 :: s1, d2 :: s2 =>
    if isUnknownDim d1 then do
      let r ← mergeDims s1 s2
      .ok (d2 :: r)
    else if !isUnknownDim d2 then
      if d1 = d2 then do
        let r ← mergeDims s1 s2
        .ok (d1 :: r)
      else .error "make_sure failure: shapes dimension mismatch"
    else do
      let r ← mergeDims s1 s2
      .ok (d1 :: r)
  | _, _ => .ok []

/-- `utils.merge_shapes` (tf2onnx/utils.py:457-479). -/
def mergeShapes : Shape → Shape → Except String Shape
  | none, s2 => .ok s2
  | s1, none => .ok s1
  | some s1, some s2 =>
    if s1.length = s2.length then do
      let r ← mergeDims s1 s2
      .ok (some r)
    else .error "make_sure failure: shapes rank mismatch"

/-- `utils.are_shapes_compatible` (tf2onnx/utils.py:482-491). -/
def areShapesCompatible (src dest : Shape) : Bool :=
  match mergeShapes src dest with
  | .ok _ => true
  | .error _ => false

/-- `utils.are_shapes_equal` (tf2onnx/utils.py:494-506). -/
def areShapesEqual (src dest : Shape) : Bool :=
  match src with
  | none => dest.isNone
  | some s =>
    match dest with
    | none => (some s).isNone
    | some d => if s.length ≠ d.length then false else (s.zip d).all (fun p => p.1 == p.2)

/-- `utils.create_vague_shape_like` (tf2onnx/utils.py:509-511). -/
def createVagueShapeLike (s : List Dim) : List Dim := s.map (fun _ => some (-1))

end Verif.Shapes
