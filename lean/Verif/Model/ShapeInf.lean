/-!
# Model of `tf2onnx/shape_inference.py`

A TensorFlow graph is a list of ops; tensors are numbered. The static shape of a tensor is what
`tensor.get_shape().as_list()` returns (`get_tf_tensor_shape`, tf2onnx/tf_utils.py:149-155): `none` for unknown rank, or a
list whose entries are `none` (unknown) or a size. What the code looks up through the graph (the value of a constant axis
operand, the shape source of a `RandomUniform`, the tensor written into a `TensorArray`) is a field of the op.

The inference of one op is split in two: the plan, that is the shapes that the code passes to `set_shape`, computed from
the current static shapes, and `Tensor.set_shape`, which merges. The code interleaves the two only in `Pack`, where a tensor
that occurs twice among the inputs is passed to `set_shape` twice here and once there, with the same shape.
-/
namespace Verif.ShapeInf

/-- A dimension: `None` or a size. -/
abbrev Dim := Option Nat
/-- Static shapes of all tensors. -/
abbrev Store := Nat → Option (List Dim)

inductive Kind where
  /-- `attr`: the `shape` attribute (`get_tf_shape_attr`, tf2onnx/tf_utils.py:137-146), with -1 for unknown dimensions -/
  | placeholder (attr : Option (List Int))
  | merge | switch | enter
  /-- `TensorArrayGatherV3`; `written`: the tensor that `_find_tensorarray_write` (shape_inference.py:198-208) finds -/
  | taGather (written : Option Nat)
  /-- `TensorArrayReadV3`; `scattered`: the tensor scattered into the array, if `Enter` and `TensorArrayScatterV3` lead to it -/
  | taRead (scattered : Option Nat)
  /-- `direct_ops` (shape_inference.py:241-252) -/
  | direct
  /-- `broadcast_ops` (shape_inference.py:253-264) -/
  | broadcast
  /-- `src`: the input of the `Shape` op that feeds it, if there is one -/
  | randomUniform (src : Option Nat)
  /-- `axis`: 0 with two inputs, the constant value with three, `none` if it is not constant -/
  | gather (axis : Option Int)
  /-- `All`, `Any`, `Max`, `Min`; `axes`: the constant value of the second input as a list, `none` if it is not constant -/
  | reduce (axes : Option (List Int)) (keep : Bool)
  | expandDims (dim : Option Int)
  | unpack (axis : Int)
  /-- `Minimum`, `Maximum` -/
  | minMax
  /-- `Concat`, `ConcatV2`, `ConcatV3` -/
  | concat
  /-- `Select`, `SelectV2`: this file treats them alike -/
  | select | selectV2
  | pack (axis : Int)
  | pow
  /-- any other op -/
  | other
deriving DecidableEq, Repr

structure Op where
  kind : Kind
  inputs : List Nat
  outputs : List Nat
deriving DecidableEq, Repr

def Op.inp (o : Op) (i : Nat) : Nat := o.inputs.getD i 0
def Op.out (o : Op) (i : Nat) : Nat := o.outputs.getD i 0

/-- What `TensorShape.merge_with` makes of two dimensions. -/
def mergeDim : Dim → Dim → Except String Dim
  | none, d => .ok d
  | d, none => .ok d
  | some a, some b => if a = b then .ok (some a) else .error "ValueError: Dimensions are not compatible"

/-- ... and of two lists of dimensions. -/
def mergeList : List Dim → List Dim → Except String (List Dim)
  | [], [] => .ok []
  | a :: as, b :: bs =>
    match mergeDim a b with
    | .error e => .error e
    | .ok d =>
      match mergeList as bs with
      | .error e => .error e
      | .ok r => .ok (d :: r)
  | _, _ => .error "ValueError: Shapes are not compatible"

/-- TensorFlow's `tensor.set_shape(shape)`: the shape is merged into the static shape, or an exception is raised. -/
def setShape (st : Store) (t : Nat) (s : List Dim) : Except String Store :=
  match st t with
  | none => .ok (fun x => if x = t then some s else st x)
  | some s0 =>
    match mergeList s0 s with
    | .error e => .error e
    | .ok m => .ok (fun x => if x = t then some m else st x)

def setShapes (st : Store) : List (Nat × List Dim) → Except String Store
  | [] => .ok st
  | (t, s) :: r =>
    match setShape st t s with
    | .error e => .error e
    | .ok st' => setShapes st' r

/-- `_merge_shapes_for_tf` on shapes of the same rank (shape_inference.py:211-233). -/
def mergeForTf : List Dim → List Dim → List Dim
  | d1 :: s1, d2 :: s2 => (if d1 = none then d2 else if d2 ≠ none then none else d1) :: mergeForTf s1 s2
  | _, _ => []

/-- `any(get_tf_tensor_shape(out) is None for out in op.outputs)` (shape_inference.py:87). -/
def unknownIn (st : Store) (ts : List Nat) : Bool := ts.any (fun t => (st t).isNone)

/-- A list of Python ints as a TensorFlow shape: a negative dimension raises. -/
def dimsOfInts : List Int → Except String (List Dim)
  | [] => .ok []
  | d :: ds =>
    if d < 0 then .error "ValueError: Dimension must be >= 0"
    else
      match dimsOfInts ds with
      | .error e => .error e
      | .ok r => .ok (some d.toNat :: r)

/-- A plan: `none` if the function returns `False`, else the calls of `set_shape` before it returns `True`. -/
abbrev Plan := Except String (Option (List (Nat × List Dim)))

/-- The plan of `Merge` when both input shapes are known (shape_inference.py:122-137). -/
def planMergeBoth (o : Op) (s1 s2 : List Dim) : Option (List (Nat × List Dim)) :=
  if s1 ≠ s2 then
    if s1.length ≠ s2.length then none
    else some [(o.out 0, mergeForTf s1 s2)]
  else some [(o.out 0, s1)]

/-- `infer_shape_for_op` (shape_inference.py:86-195). -/
def planOp (st : Store) (o : Op) : Plan :=
  if unknownIn st o.outputs = false then .ok none
  else
    match o.kind with
    | .placeholder (some a) =>
      match dimsOfInts a with
      | .error e => .error e
      | .ok s => .ok (some [(o.out 0, s)])
    | .placeholder none => .ok (some [(o.out 0, [])])
    | .merge =>
      match st (o.inp 0), st (o.inp 1) with
      | none, none => .ok none
      | none, some s2 => .ok (some [(o.inp 0, s2), (o.inp 1, s2), (o.out 0, s2)])
      | some s1, none => .ok (some [(o.inp 0, s1), (o.inp 1, s1), (o.out 0, s1)])
      | some s1, some s2 => .ok (planMergeBoth o s1 s2)
    | .switch =>
      match st (o.inp 0) with
      | some s => .ok (some [(o.out 0, s), (o.out 1, s)])
      | none => .ok none
    | .enter =>
      match st (o.inp 0) with
      | some s => .ok (some [(o.out 0, s)])
      | none => .ok none
    | .taGather (some w) =>
      match st w with
      | some s => .ok (some [(o.out 0, none :: s)])
      | none => .ok none
    | .taRead (some w) =>
      match st w with
      | some s => .ok (some [(o.out 0, s.drop 1)])
      | none => .ok none
    | _ => .ok none

/-- One dimension of `broadcast_shape_inference` (shape_inference.py:483-501); `none` is the failure. The comparisons with
-1 are left out: the shapes come from `as_list()`, which has `None` there. -/
def bcastDim (d0 d1 : Dim) : Option Dim :=
  if d0 = d1 then some d1
  else if d0 = some 1 then some d1
  else if d1 = some 1 then some d0
  else none

/-- The loop of `broadcast_shape_inference`: it compares position `i` of both shapes, for every `i` of the shorter one. -/
def bcastLoop : List Dim → List Dim → Option (List Dim)
  | [], s1 => some s1
  | _ :: _, [] => some []
  | d0 :: s0, d1 :: s1 =>
    match bcastDim d0 d1, bcastLoop s0 s1 with
    | some d, some r => some (d :: r)
    | _, _ => none

/-- `broadcast_shape_inference` on known shapes (shape_inference.py:466-502). -/
def bcastInfer (s0 s1 : List Dim) : Option (List Dim) :=
  if s1.length < s0.length then bcastLoop s1 s0 else bcastLoop s0 s1

/-- A Python index as a position for slicing a list of length `n`: negative indices count from the end, and out-of-range
positions are clamped. -/
def pyPos (n : Nat) (i : Int) : Nat := if i < 0 then (i + n).toNat else min i.toNat n

/-- `l[:i]` and `l[i:]`. -/
def pyTake {α : Type} (l : List α) (i : Int) : List α := l.take (pyPos l.length i)
def pyDrop {α : Type} (l : List α) (i : Int) : List α := l.drop (pyPos l.length i)

/-- `infer_input_shapes` (shape_inference.py:376-388). `shape_t or shape_e` takes `shape_e` when `shape_t` is empty. -/
def planInputs (st : Store) (o : Op) : Option (List (Nat × List Dim)) :=
  match o.kind with
  | .select | .selectV2 =>
    match st (o.inp 1), st (o.inp 2) with
    | some _, some _ => none
    | some [], none => none
    | some (d :: s), none => some [(o.inp 1, d :: s), (o.inp 2, d :: s)]
    | none, some s => some [(o.inp 1, s), (o.inp 2, s)]
    | none, none => none
  | _ => none

/-- The first known shape. -/
def firstKnown (st : Store) : List Nat → Option (List Dim)
  | [] => none
  | t :: ts =>
    match st t with
    | some s => some s
    | none => firstKnown st ts

/-- The shapes `Pack` gives to its inputs: those that are unknown or empty (`if not get_tf_tensor_shape(i)`). -/
def packInputs (st : Store) (s : List Dim) : List Nat → List (Nat × List Dim)
  | [] => []
  | t :: ts =>
    match st t with
    | some (_ :: _) => packInputs st s ts
    | _ => (t, s) :: packInputs st s ts

/-- `infer_output_shapes_with_partial_inputs` (shape_inference.py:391-447). The outer `none`: the function returns `None`
and the caller goes on. -/
def planPartial (st : Store) (o : Op) : Option Plan :=
  match o.kind with
  | .concat =>
    match firstKnown st o.inputs.dropLast with
    | none => some (.ok none)
    | some _ => some (.error "AttributeError: 'Tensor' object has no attribute 'type'")
  | .select | .selectV2 =>
    match firstKnown st [o.inp 1, o.inp 2] with
    | some s => some (.ok (some [(o.out 0, s), (o.inp 1, s), (o.inp 2, s)]))
    | none => some (.ok none)
  | .pack axis =>
    match firstKnown st o.inputs with
    | none => some (.ok none)
    | some s =>
      let axis := if axis < 0 then axis + s.length else axis
      some (.ok (some (packInputs st s o.inputs ++
        [(o.out 0, pyTake s axis ++ [some o.inputs.length] ++ pyDrop s axis)])))
  | .pow =>
    match firstKnown st [o.inp 0, o.inp 1] with
    | some s => some (.ok (some [(o.out 0, s)]))
    | none => some (.ok none)
  | _ => none

/-- The new shape of a reduction (shape_inference.py:322-338): `i` is the position of the head of the list. -/
def reduceDims (axes : List Int) (keep : Bool) : Nat → List Dim → List Dim
  | _, [] => []
  | i, d :: s =>
    if (i : Int) ∈ axes then (if keep then [some 1] else []) ++ reduceDims axes keep (i + 1) s
    else d :: reduceDims axes keep (i + 1) s

/-- The part of `infer_shape_for_op_legacy` that needs all input shapes (shape_inference.py:302-373). -/
def planFull (st : Store) (o : Op) : Option (List (Nat × List Dim)) :=
  match o.kind with
  | .direct =>
    match st (o.inp 0) with
    | some s => some [(o.out 0, s)]
    | none => none
  | .broadcast =>
    match st (o.inp 0), st (o.inp 1) with
    | some s0, some s1 =>
      match bcastInfer s0 s1 with
      | some s => some [(o.out 0, s)]
      | none => none
    | _, _ => none
  | .randomUniform (some t) =>
    match st t with
    | some s => some [(o.out 0, s)]
    | none => none
  | .gather (some axis) =>
    match st (o.inp 0), st (o.inp 1) with
    | some p, some i => some [(o.out 0, pyTake p axis ++ i ++ pyDrop p (axis + 1))]
    | _, _ => none
  | .reduce (some axes) keep =>
    match st (o.inp 0) with
    | some s => some [(o.out 0, reduceDims (axes.map (fun a => if a < 0 then a + s.length else a)) keep 0 s)]
    | none => none
  | .expandDims (some dim) =>
    match st (o.inp 0) with
    | some s =>
      let dim := if dim < 0 then dim + s.length + 1 else dim
      some [(o.out 0, pyTake s dim ++ [some 1] ++ pyDrop s dim)]
    | none => none
  | .unpack axis =>
    match st (o.inp 0) with
    | some s =>
      let axis := if axis ≥ 0 then axis else axis + s.length
      some (o.outputs.map (fun t => (t, pyTake s axis ++ pyDrop s (axis + 1))))
    | none => none
  | .minMax =>
    match st (o.inp 0), st (o.inp 1) with
    | some s0, some s1 =>
      match bcastInfer s0 s1 with
      | some s => some [(o.out 0, s)]
      | none => some []
    | _, _ => none
  | _ => none

/-- Apply a plan: the new shapes and whether the function returned `True`. -/
def runPlan (st : Store) : Plan → Except String (Store × Bool)
  | .error e => .error e
  | .ok none => .ok (st, false)
  | .ok (some a) =>
    match setShapes st a with
    | .error e => .error e
    | .ok st' => .ok (st', true)

def inferOp (st : Store) (o : Op) : Except String (Store × Bool) := runPlan st (planOp st o)

/-- What remains of `infer_shape_for_op_legacy` when no input shape was inferred (shape_inference.py:283-373). -/
def planRest (st : Store) (o : Op) : Plan :=
  match planPartial st o with
  | some p => p
  | none => if unknownIn st o.inputs then .ok none else .ok (planFull st o)

/-- `infer_shape_for_op_legacy` (shape_inference.py:279-373). -/
def inferOpLegacy (st0 : Store) (o : Op) : Except String (Store × Bool) :=
  match inferOp st0 o with
  | .error e => .error e
  | .ok (st, _) =>
    match (if unknownIn st o.inputs then planInputs st o else none) with
    | some a => runPlan st (.ok (some a))
    | none => if unknownIn st o.outputs = false then .ok (st, false) else runPlan st (planRest st o)

/-- `for op in tf_graph.get_operations(): updated = ...` (shape_inference.py:78-81, 271-274). -/
def round (f : Store → Op → Except String (Store × Bool)) : List Op → Store → Except String (Store × Bool)
  | [], st => .ok (st, false)
  | o :: os, st =>
    match f st o with
    | .error e => .error e
    | .ok (st', u) =>
      match round f os st' with
      | .error e => .error e
      | .ok (st'', u') => .ok (st'', u || u')

/-- `while shape_updated` of `infer_shape_for_graph` and `infer_shape_for_graph_legacy` (shape_inference.py:75-84, 268-276).
`reload` is `tf_reload_graph`, TensorFlow's own inference on the reloaded graph (the identity for the legacy loop). `none`
means that the loop has not ended after `fuel` rounds. -/
def loop (f : Store → Op → Except String (Store × Bool)) (reload : Store → Store) (ops : List Op) :
    Nat → Store → Option (Except String Store)
  | 0, _ => none
  | fuel + 1, st =>
    match round f ops st with
    | .error e => some (.error e)
    | .ok (st', false) => some (.ok st')
    | .ok (st', true) => loop f reload ops fuel (reload st')

/-- `check_shape_for_tf_graph` (shape_inference.py:48-61): some output has no shape. The skip list (output 5 of
`FusedBatchNormV3`) is left out. -/
def someUnknown (st : Store) (ops : List Op) : Bool := ops.any (fun o => unknownIn st o.outputs)

/-- `infer_shape` without shape override (shape_inference.py:25-45). -/
def inferShape (reload : Store → Store) (ops : List Op) (fuel : Nat) (st : Store) : Option (Except String Store) :=
  match loop inferOp reload ops fuel st with
  | none => none
  | some (.error e) => some (.error e)
  | some (.ok st') => if someUnknown st' ops then loop inferOpLegacy id ops fuel st' else some (.ok st')

end Verif.ShapeInf
