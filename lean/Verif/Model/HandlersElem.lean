import Verif.Model.HandlerActs
import Verif.Model.Mapping
/-!
# Handlers of element-wise operators (`tf2onnx/onnx_opset/math.py`, `logical.py`, `common.py`) as sequences of calls

`k` is always the number of node objects when the handler starts: the node made by the `i`-th call of `make_node` is number `k + i`.
Recorded shapes and types of tensors inside the new group are left out. Element types are given by their codes: FLOAT 1, UINT8 2, INT8 3,
UINT16 4, INT16 5, INT32 6, INT64 7, STRING 8, BOOL 9, FLOAT16 10, DOUBLE 11, UINT32 12, UINT64 13, COMPLEX64 14, COMPLEX128 15.
-/
namespace Verif.Graph
open Verif

/-- An entry of `ops_mapping`: `onnx_op` and a handler that is a sequence of calls (tf2onnx/handler.py:60-107). -/
def entry (fresh : Nat → String) (onnxOp : Option String) (decide : G → Ref → Except String (List Act)) : MapInfo :=
  ⟨onnxOp, fun g r _ => G.handle fresh decide g r⟩

/-- `node.input[i]`. -/
def G.inp (g : G) (r : Ref) (i : Nat) : Except String String :=
  match (g.node r).input[i]? with
  | some x => .ok x
  | none => .error "IndexError"

/-- `node.output[0]`. -/
def G.outp (g : G) (r : Ref) : Except String String :=
  match (g.node r).output[0]? with
  | some x => .ok x
  | none => .error "IndexError"

/-- Name of the tensor made by the `make_node` call that makes node object number `k`. -/
def port (fresh : Nat → String) (k : Nat) : String := fresh k ++ ":0"

/-- A scalar constant of the type with code `t`. -/
def scalarSpec (t : Nat) (v : Int) : Spec := .const ⟨t, [], [v]⟩

/-- A `Cast` to the type with code `t`. -/
def castSpec (x : String) (t : Nat) : Spec := .mk' "Cast" [x] [("to", .int t)]

/-- FLOAT, FLOAT16, DOUBLE. -/
def floatCodes : List Nat := [1, 10, 11]

/-- `get_dtype(x) in l`. -/
def G.dtypeIn (g : G) (x : String) (l : List Nat) : Bool := match g.dtypes.get x with
  | some t => t ∈ l
  | none => false

/-- Handlers that do nothing: `DirectOp.version_1`, `TrigOpSinceOpset7`, `TrigOpSinceOpset9`, `Selu`, `Round.version_11`, `Rint`,
`MinMaxOp.version_12`, `Pow.version_7`, `BitwiseOps`, `Erf.version_9`, and `LogicalNot` (math.py:33-80, 154-156, 329-330, 508-510, 546-550,
772-783, 820-827; logical.py:49-53). -/
def passActs : G → Ref → Except String (List Act) := fun _ _ => .ok []

/-- Handlers that only rename: `ClipByValueOp.version_12` (math.py:198-200). -/
def renameActs (op : String) : G → Ref → Except String (List Act) := fun _ _ => .ok [.setType op]

/-- `GreaterLessEqual.version_12` (logical.py:158-160). -/
def greaterLessEqual12Acts : G → Ref → Except String (List Act) := fun g r =>
  .ok [.setType (if (g.node r).op = "GreaterEqual" then "GreaterOrEqual" else "LessOrEqual")]

/-- Whether `BroadcastOp.version_6` swaps the operands (common.py:48-66): both shapes are recorded and not empty, the first has fewer
dimensions, and the operator is `Mul` or `Add`. The target is not RS4. -/
def swaps (op : String) (s0 s1 : Option Shapes.Shape) : Bool :=
  match s0, s1 with
  | some (some d0), some (some d1) => d0 ≠ d1 && d0 ≠ [] && d1 ≠ [] && d0.length < d1.length && (op = "Mul" || op = "Add")
  | _, _ => false

/-- `BroadcastOp.version_6` (common.py:43-66), for `Add`, `AddV2`, `Div`, `Mul`, `Sub`, `RealDiv`, `TruncateDiv`, `LogicalAnd`, `LogicalOr`. -/
def broadcast6Acts : G → Ref → Except String (List Act) := fun g r => do
  let x ← g.inp r 0
  let y ← g.inp r 1
  let op := if (g.node r).op = "AddV2" then "Add" else (g.node r).op
  .ok ((if (g.node r).op = "AddV2" then [.setType "Add"] else []) ++
    if swaps op (g.shapes.get x) (g.shapes.get y) then [.inputAt 0 y, .inputAt 1 x] else [])

/-- `Square.version_1` (math.py:224-229). -/
def squareActs : G → Ref → Except String (List Act) := fun g r => do
  let x ← g.inp r 0
  .ok [.setType "Mul", .rawInputs ((g.node r).input ++ [x])]

/-- `Relu6.version_1` (math.py:232-240). The attributes are the numbers 0.0 and 6.0. -/
def relu6Acts1 : G → Ref → Except String (List Act) := fun _ _ =>
  .ok [.setType "Clip", .setAttr "min" (.int 0), .setAttr "max" (.int 6)]

/-- `Relu6.version_11` (math.py:242-251). A type that is not known raises. -/
def relu6Acts11 (fresh : Nat → String) : G → Ref → Except String (List Act) := fun g r => do
  let x ← g.inp r 0
  match g.dtypes.get x with
  | none => .error "KeyError"
  | some t =>
    .ok [.setType "Clip", .make (scalarSpec t 0), .make (scalarSpec t 6), .rawInputs ((g.node r).input ++ [fresh g.heap.length]),
      .rawInputs ((g.node r).input ++ [fresh g.heap.length] ++ [fresh (g.heap.length + 1)])]

/-- `Rsqrt.version_1` (math.py:254-261). -/
def rsqrtActs : G → Ref → Except String (List Act) := fun g r => do
  let o ← g.outp r
  .ok [.setType "Sqrt", .make (.mk' "Reciprocal" [o]), .insertOut o]

/-- `SquaredDifference.version_1` (math.py:264-271). -/
def sqDiffActs : G → Ref → Except String (List Act) := fun g r => do
  let o ← g.outp r
  .ok [.setType "Sub", .make (.mk' "Mul" [o, o]), .insertOut o]

/-- The calls of `Sign.version_1` before the node is removed (math.py:283-293). -/
def signPre (fresh : Nat → String) (k : Nat) (x : String) (t : Nat) : List Spec :=
  if t ∈ floatCodes then
    [scalarSpec 1 0, .mk' "Greater" [x, fresh k], .mk' "Less" [x, fresh k], castSpec (port fresh (k + 1)) t, castSpec (port fresh (k + 2)) t]
  else
    [scalarSpec 1 0, castSpec x 1, .mk' "Greater" [port fresh (k + 1), fresh k], .mk' "Less" [port fresh (k + 1), fresh k],
     castSpec (port fresh (k + 2)) t, castSpec (port fresh (k + 3)) t]

/-- `Sign.version_1` (math.py:274-300). -/
def signActs1 (fresh : Nat → String) : G → Ref → Except String (List Act) := fun g r => do
  let x ← g.inp r 0
  let o ← g.outp r
  match g.dtypes.get o with
  | none => .error "Dtype is None"
  | some t =>
    if t = 14 ∨ t = 15 then .error "dtype is not supported"
    else
      let l := signPre fresh g.heap.length x t
      let k := g.heap.length + l.length
      .ok (l.map .make ++ [.remove, .makeOut "Sub" [port fresh (k - 2), port fresh (k - 1)] [] (fresh k) o])

/-- `Sign.version_9` (math.py:302-307). -/
def signActs9 : G → Ref → Except String (List Act) := fun g r => do
  let o ← g.outp r
  match g.dtypes.get o with
  | none => .error "dtype is None"
  | some t => if t = 9 ∨ t = 14 ∨ t = 15 then .error "dtype is not supported" else .ok []

/-- `DivNoNan.version_9` (math.py:332-341). -/
def divNoNanActs (fresh : Nat → String) : G → Ref → Except String (List Act) := fun g r => do
  let y ← g.inp r 1
  let o ← g.outp r
  match g.dtypes.get y with
  | none => .error "KeyError"
  | some t =>
    let k := g.heap.length
    .ok [.setType "Div", .make (scalarSpec t 0), .make (.mk' "Equal" [y, fresh k]),
      .make (.mk' "Where" [port fresh (k + 1), fresh k, o]), .insertOut o]

/-- `FloorDiv.version_6` (math.py:512-524). -/
def floorDivActs : G → Ref → Except String (List Act) := fun g r => do
  let x ← g.inp r 0
  let o ← g.outp r
  .ok (.setType "Div" :: if g.isFloat x then [.make (.mk' "Floor" [o]), .insertOut o] else [])

/-- `FloorMod.version_7` (math.py:527-543). -/
def floorModActs (fresh : Nat → String) : G → Ref → Except String (List Act) := fun g r => do
  let x ← g.inp r 0
  let y ← g.inp r 1
  let o ← g.outp r
  let k := g.heap.length
  .ok (if g.isFloat x then
      [.make (.mk' "Div" (g.node r).input), .make (.mk' "Floor" [port fresh k]), .make (.mk' "Mul" [port fresh (k + 1), y]), .remove,
       .makeOut "Sub" [x, port fresh (k + 2)] [] (g.node r).name o]
    else
      [.make (.mk' "Div" (g.node r).input), .make (.mk' "Mul" [port fresh k, y]), .remove,
       .makeOut "Sub" [x, port fresh (k + 1)] [] (g.node r).name o])

/-- `Cast` in front of all inputs from number `i` on (`insert_new_node_on_input` in a loop: every slot before `i` already reads a new
tensor, so the first slot reading the tensor is `i`). -/
def castAll (fresh : Nat → String) (t : Nat) (k i : Nat) : List String → List Act
  | [] => []
  | x :: xs => .make (castSpec x t) :: .inputAt i (port fresh k) :: castAll fresh t (k + 1) (i + 1) xs

/-- `_add_cast_to_inputs` (logical.py:20-30). -/
def addCastsActs (fresh : Nat → String) (supported : List Nat) (target : Nat) (g : G) (r : Ref) : List Act :=
  if (g.node r).input.all (fun x => g.dtypeIn x supported) then [] else castAll fresh target g.heap.length 0 (g.node r).input

/-- `GreaterLess.version_7` (logical.py:133-145). -/
def greaterLess7Acts (fresh : Nat → String) : G → Ref → Except String (List Act) := fun g r =>
  .ok (addCastsActs fresh floatCodes 1 g r)

/-- `GreaterLessEqual.version_7` (logical.py:147-156). -/
def greaterLessEqual7Acts (fresh : Nat → String) : G → Ref → Except String (List Act) := fun g r => do
  let o ← g.outp r
  .ok (addCastsActs fresh floatCodes 1 g r ++
    [.setType (if (g.node r).op = "GreaterEqual" then "Less" else "Greater"), .make (.mk' "Not" [o]), .insertOut o])

/-- The end of the versions of `Equal`: `NotEqual` becomes `Not(Equal)` (logical.py:87-92, 116-122). -/
def equalNotActs (op o : String) : List Act :=
  if op = "NotEqual" then [.setType "Equal", .make (.mk' "Not" [o]), .insertOut o] else []

/-- `Equal.version_7` (logical.py:71-92). -/
def equal7Acts (fresh : Nat → String) : G → Ref → Except String (List Act) := fun g r => do
  let x ← g.inp r 0
  let y ← g.inp r 1
  let o ← g.outp r
  if (g.node r).op = "NotEqual" ∧ x = y then .ok [.setType "IsNaN", .inputs [x]]
  else .ok (addCastsActs fresh [9, 6, 7] 6 g r ++ equalNotActs (g.node r).op o)

/-- The types `Equal.version_11` supports (logical.py:98-111). -/
def equal11Codes : List Nat := [9, 11, 1, 10, 3, 5, 6, 7, 2, 4, 12, 13]

/-- The loop of `_add_cast_to_same_type_to_inputs` (logical.py:37-47). The replacement of the string constant '' by -1 is left out. -/
def castSame (fresh : Nat → String) (g : G) (t : Nat) (k i : Nat) : List String → List Act
  | [] => []
  | x :: xs =>
    if g.dtypes.get x = some t then castSame fresh g t k (i + 1) xs
    else .make (castSpec x t) :: .inputAt i (port fresh k) :: castSame fresh g t (k + 1) (i + 1) xs

/-- `Equal.version_11` (logical.py:94-122). -/
def equal11Acts (fresh : Nat → String) : G → Ref → Except String (List Act) := fun g r => do
  let x ← g.inp r 0
  let o ← g.outp r
  let t := if g.dtypeIn x equal11Codes then (g.dtypes.get x).getD 6 else 6
  .ok (castSame fresh g t g.heap.length 0 (g.node r).input ++ equalNotActs (g.node r).op o)

/-- `make_min_or_max_op`, from operator set 8 on, for two inputs (math.py:83-120): new nodes after the removal of the node. `b0`, `b1`:
whether the input is of a floating type. The Cast after the operator is inserted "on its output", which nothing reads yet. -/
def minMaxSpecs (fresh : Nat → String) (k : Nat) (op x y : String) (b0 b1 : Bool) (t : Nat) : List Spec :=
  match b0, b1 with
  | true, true => [.mk' op [x, y]]
  | true, false => [castSpec y 1, .mk' op [x, port fresh k], castSpec (port fresh (k + 1)) t]
  | false, true => [castSpec x 1, .mk' op [port fresh k, y], castSpec (port fresh (k + 1)) t]
  | false, false => [castSpec x 1, castSpec y 1, .mk' op [port fresh k, port fresh (k + 1)], castSpec (port fresh (k + 2)) t]

/-- `MinMaxOp.version_1` (math.py:144-152, 83-120), for two inputs, from operator set 8 on. -/
def minMaxActs (fresh : Nat → String) : G → Ref → Except String (List Act) := fun g r => do
  let x ← g.inp r 0
  let y ← g.inp r 1
  let o ← g.outp r
  match g.dtypes.get x, g.dtypes.get y, g.dtypes.get o with
  | some t0, some t1, some t =>
    let l := minMaxSpecs fresh g.heap.length (g.node r).op x y (t0 ∈ floatCodes) (t1 ∈ floatCodes) t
    let k := g.heap.length + l.length
    .ok (.remove :: (l.map .make ++ [.makeOut "Identity" [port fresh (k - 1)] [] (fresh k) o]))
  | _, _, _ => .error "dtype is None"

/-- `DirectOp.version_6` for `Log` (math.py:46-59): operands of type double are cast to float and the result back. -/
def log6Acts (fresh : Nat → String) : G → Ref → Except String (List Act) := fun g r => do
  let x ← g.inp r 0
  let o ← g.outp r
  match g.dtypes.get x with
  | some 1 => .ok []
  | some 11 =>
    .ok [.make (castSpec x 1), .inputAt 0 (port fresh g.heap.length), .make (castSpec o ((g.dtypes.get o).getD 0)), .insertOut o]
  | _ => .error "don't know how to cast type"

/-- `IsFinite.version_10` (math.py:882-902). -/
def isFiniteActs (fresh : Nat → String) : G → Ref → Except String (List Act) := fun g r => do
  let o ← g.outp r
  let k := g.heap.length
  .ok [.remove, .make (.mk' "IsInf" (g.node r).input), .make (.mk' "IsNaN" (g.node r).input),
    .make (.mk' "Or" [port fresh k, port fresh (k + 1)]), .makeOut "Not" [port fresh (k + 2)] [] (g.node r).name o]

/-- `IsInf.version_10` (tensor.py:1846-1854). -/
def isInfActs : G → Ref → Except String (List Act) := fun g r => do
  let x ← g.inp r 0
  match g.dtypes.get x with
  | none => .error "Dtype is None"
  | some t => if t = 1 ∨ t = 11 then .ok [] else .error "dtype is not supported"

/-! ## The table -/

/-- Operators with handlers that do nothing at operator set 12: the TensorFlow name, `onnx_op`, and the operator set they are supported from
(math.py:33-75, 427-430, 508-510, 546-550, 772-783; logical.py:49-53; tensor.py:1507-1511). Versions 1 of `Round` and `Erf`, which are in force
before, are left out. -/
def passOps : List (String × Option String × Nat) :=
  [("Softplus", none, 1), ("Softsign", none, 1), ("Abs", none, 1), ("Ceil", none, 1), ("Elu", none, 1), ("Exp", none, 1), ("Floor", none, 1),
   ("Neg", none, 1), ("Relu", none, 1), ("Sigmoid", none, 1), ("Sqrt", none, 1), ("Tanh", none, 1), ("Reciprocal", none, 1), ("Acos", none, 7),
   ("Asin", none, 7), ("Atan", none, 7), ("Cos", none, 7), ("Sin", none, 7), ("Tan", none, 7), ("Acosh", none, 9), ("Asinh", none, 9),
   ("Atanh", none, 9), ("Cosh", none, 9), ("Sinh", none, 9), ("Erf", none, 9), ("Selu", none, 1), ("Round", none, 11), ("Rint", some "Round", 11),
   ("LogicalNot", some "Not", 1), ("IsNan", some "IsNaN", 9)]

/-- Operators with the handler `BroadcastOp` (math.py:23-30; logical.py:56-59). -/
def broadcastOps : List (String × Option String) :=
  [("Add", none), ("AddV2", none), ("Div", none), ("Mul", none), ("Sub", none), ("RealDiv", some "Div"), ("TruncateDiv", some "Div"),
   ("LogicalAnd", some "And"), ("LogicalOr", some "Or")]

/-- The other entries (math.py:40-59, 144-156, 224-341, 512-543, 882-902; logical.py:62-160; tensor.py:1846-1854), from operator set 8 on. -/
def otherOp (fresh : Nat → String) (v : Nat) (op : String) : Option MapInfo :=
  if op = "Log" then some (entry fresh none (log6Acts fresh))
  else if op = "Square" then some (entry fresh none squareActs)
  else if op = "Rsqrt" then some (entry fresh none rsqrtActs)
  else if op = "Relu6" then some (entry fresh none (if v < 11 then relu6Acts1 else relu6Acts11 fresh))
  else if op = "Sign" then some (entry fresh none (if v < 9 then signActs1 fresh else signActs9))
  else if op = "IsFinite" then (if v < 10 then none else some (entry fresh none (isFiniteActs fresh)))
  else if op = "IsInf" then (if v < 10 then none else some (entry fresh (some "IsInf") isInfActs))
  else if op = "Minimum" then some (entry fresh (some "Min") (if v < 12 then minMaxActs fresh else passActs))
  else if op = "Maximum" then some (entry fresh (some "Max") (if v < 12 then minMaxActs fresh else passActs))
  else if op = "Pow" then some (entry fresh none passActs)
  else if op = "SquaredDifference" then some (entry fresh none sqDiffActs)
  else if op = "DivNoNan" then (if v < 9 then none else some (entry fresh none (divNoNanActs fresh)))
  else if op = "FloorDiv" then some (entry fresh none floorDivActs)
  else if op = "FloorMod" then some (entry fresh none (floorModActs fresh))
  else if op = "Greater" ∨ op = "Less" then some (entry fresh none (greaterLess7Acts fresh))
  else if op = "GreaterEqual" ∨ op = "LessEqual" then
    some (entry fresh none (if v < 12 then greaterLessEqual7Acts fresh else greaterLessEqual12Acts))
  else if op = "Equal" ∨ op = "NotEqual" then some (entry fresh none (if v < 11 then equal7Acts fresh else equal11Acts fresh))
  else none

/-- The part of `ops_mapping` for element-wise operators at operator set `v`, from 8 on, and the nodes that stay as they are. -/
def elemTable (fresh : Nat → String) (v : Nat) (op : String) : Option MapInfo :=
  if op = "Placeholder" ∨ op = "Const" then some ⟨none, fun g _ _ => .ok g⟩
  else match passOps.find? (fun p => p.1 = op) with
  | some p => if p.2.2 ≤ v then some (entry fresh p.2.1 passActs) else none
  | none => match broadcastOps.find? (fun p => p.1 = op) with
    | some p => some (entry fresh p.2 broadcast6Acts)
    | none => otherOp fresh v op

end Verif.Graph
