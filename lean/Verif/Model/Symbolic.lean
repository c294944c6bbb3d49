import Verif.Spec.Dict
import Verif.Model.ConstFold
/-!
# Model of `tf2onnx/symbolic_executor.py`

Integers are unbounded (numpy's int64 wrap-around is not modelled); constants are integer tensors. A numpy array is
either numeric (`Val.num`) or an object array (`Val.sym`); Python ints inside object arrays are represented as the
symbolic constants `from_value` turns them into. Shape mismatches numpy would reject in `*` and `concatenate` are not
checked (the model then returns a value where the program raises). The numpy functions have their documented meaning.
-/
namespace Verif.Symbolic
open Verif.Tensor Verif.ConstFold

/-- Apply a function to every element. -/
def tmap {α β : Type} (f : α → β) (x : T α) : T β := { shape := x.shape, get := fun i => f (x.get i) }

/-- `SymbolicTensorElement` (tf2onnx/symbolic_executor.py:15-24): a product of variables and a constant. -/
structure Sym where
  terms : List Nat
  const : Int
  deriving DecidableEq, Repr

/-- `__init__` (tf2onnx/symbolic_executor.py:20-25). -/
def Sym.init (terms : List Nat) (c : Int) : Sym := if c = 0 then ⟨[], c⟩ else ⟨terms, c⟩

/-- `__mul__` with another symbolic element (tf2onnx/symbolic_executor.py:27-30); multiplying by an int (:31-35) is
multiplying by `fromConst` of it. -/
def Sym.mul (a b : Sym) : Sym := Sym.init (a.terms ++ b.terms) (a.const * b.const)

/-- `from_const` (tf2onnx/symbolic_executor.py:57-58). -/
def Sym.fromConst (c : Int) : Sym := Sym.init [] c

/-- `from_variable` (tf2onnx/symbolic_executor.py:61-62). -/
def Sym.fromVariable (x : Nat) : Sym := Sym.init [x] 1

/-- A numpy array: numeric, or of dtype object. -/
inductive Val where
  | num (t : T Int)
  | sym (t : T Sym)

def Val.shape : Val → List Nat
  | .num t => t.shape
  | .sym t => t.shape

/-- Elements as symbolic elements (`SymbolicTensorElement.np_array`, tf2onnx/symbolic_executor.py:65-72). -/
def Val.toSym : Val → T Sym
  | .num t => tmap Sym.fromConst t
  | .sym t => t

/-- A numpy function that only moves elements. -/
def Val.mapT (F : (α : Type) → T α → T α) : Val → Val
  | .num t => .num (F Int t)
  | .sym t => .sym (F Sym t)

/-- The operator of a node with the attributes the executor reads; `other` is an operator that is not in `op_map`
(tf2onnx/symbolic_executor.py:79-91). `none`: attribute absent. -/
inductive Op where
  | const (t : T Int)
  | cast (dst : Int)
  | mul
  | unsqueeze (axes : Option (List Int))
  | squeeze (axes : Option (List Int))
  | gather (axis : Int)
  | reduceProd (axes : Option (List Int)) (keepdims : Bool)
  | slice (starts ends axes : Option (List Int))
  | concat (axis : Int)
  | other (type : String)

structure Node where
  op : Op
  input : List String
  output : List String

/-- `feed_dict[node.input[i]]`. -/
def arg (results : Dict String Val) (n : Node) (i : Nat) : Except String Val :=
  match n.input[i]? with
  | none => .error "IndexError: list index out of range"
  | some name => match results.get name with
    | none => .error "KeyError"
    | some v => .ok v

/-- `v.tolist()`, used as a list of ints: it has to be numeric and a vector. -/
def tolist : Val → Except String (List Int)
  | .sym _ => .error "TypeError"
  | .num t => match t.shape with
    | [k] => .ok ((List.range k).map (fun i => t.get [i]))
    | _ => .error "TypeError"

/-- The axes of a node: an attribute before opset `thr`, the second input from then on. -/
def axesArg (thr opset : Nat) (results : Dict String Val) (n : Node) (attr : Option (List Int)) : Except String (List Int) :=
  if opset < thr then
    match attr with
    | none => .error "TypeError: object of type 'NoneType' has no len()"
    | some l => .ok l
  else do
    let v ← arg results n 1
    tolist v

/-- `compute_squeeze_shape` (tf2onnx/symbolic_executor.py:207-213). -/
def squeezeShape (shapeIn : List Nat) (axes : List Int) : List Nat :=
  let axes : List Int := axes.map (fun i => if i ≥ 0 then i else i + axes.length)
  ((List.range shapeIn.length).filter (fun (i : Nat) => (i : Int) ∉ axes)).map (nth shapeIn)

/-- `inp1.reshape(new_shape)`. -/
def reshapeVal (x : Val) (s : List Nat) : Except String Val := do
  let s ← npReshape x.shape (s.map (fun (d : Nat) => (d : Int)))
  .ok (x.mapT (fun _ => reshape s))

/-- `numpy.take(data, indices, axis)` on valid arguments: the axis is replaced by the axes of the indices; negative
indices count from the back. -/
def take {α : Type} (a : Nat) (ind : T Int) (x : T α) : T α :=
  { shape := x.shape.take a ++ ind.shape ++ x.shape.drop (a + 1)
    get := fun idx => x.get (idx.take a ++
      [normAxis (nth x.shape a) (ind.get ((idx.drop a).take ind.shape.length))] ++ idx.drop (a + ind.shape.length)) }

/-- `compute_gather` (tf2onnx/symbolic_executor.py:185-191). -/
def computeGather (data indices : Val) (axis : Int) : Except String Val :=
  match indices with
  | .sym _ => .error "Gather requires non-symbolic indices"
  | .num ind =>
    if axis < -data.shape.length ∨ axis ≥ data.shape.length then .error "AxisError"
    else
      let a := normAxis data.shape.length axis
      if (allIdx ind.shape).all (fun i => -(nth data.shape a : Int) ≤ ind.get i ∧ ind.get i < nth data.shape a) then
        .ok (data.mapT (fun _ => take a ind))
      else .error "IndexError"

/-- `numpy.prod(x, axis, keepdims=True)`: the product, from the left and in row-major order, of the elements that agree
with the result index on the axes that are kept. -/
def prodKeep {α : Type} (mul : α → α → α) (one : α) (ax : Nat → Bool) (x : T α) : T α :=
  { shape := (List.range x.shape.length).map (fun i => if ax i then 1 else nth x.shape i)
    get := fun idx => (((allIdx x.shape).filter (fun j =>
      (List.range x.shape.length).all (fun i => ax i || nth j i = nth idx i))).map x.get).foldl mul one }

/-- `numpy.prod`. -/
def npProd {α : Type} (mul : α → α → α) (one : α) (ax : Nat → Bool) (keepdims : Bool) (x : T α) : T α :=
  if keepdims then prodKeep mul one ax x else squeeze ax (prodKeep mul one ax x)

/-- `compute_reduceprod` (tf2onnx/symbolic_executor.py:145-152); numpy rejects axes that are out of range or repeated. -/
def computeReduceProd (x : Val) (axes : List Int) (keepdims : Bool) : Except String Val :=
  let r := x.shape.length
  if axes.any (fun a => a < -r ∨ a ≥ r) then .error "AxisError"
  else if ¬ (axes.map (normAxis r)).Nodup then .error "ValueError: duplicate value in 'axis'"
  else
    let ax : Nat → Bool := fun i => decide (i ∈ axes.map (normAxis r))
    match x with
    | .num t => .ok (.num (npProd (· * ·) 1 ax keepdims t))
    | .sym t => .ok (.sym (npProd Sym.mul (Sym.fromConst 1) ax keepdims t))

/-- Python's `slice(start, stop, step)`. -/
structure PySlice where
  start : Int
  stop : Int
  step : Int

/-- `slice.indices`: a bound, counted from the back if negative, then clamped. -/
def pyBound (d step p : Int) : Int :=
  let p := if p < 0 then p + d else p
  if p < 0 then (if step < 0 then -1 else 0)
  else if p ≥ d then (if step < 0 then d - 1 else d)
  else p

/-- Number of elements of a Python slice on an axis of length `d`. -/
def pyCount (s : PySlice) (d : Int) : Nat :=
  let a := pyBound d s.step s.start
  let b := pyBound d s.step s.stop
  if s.step < 0 then (if b < a then ((a - b - 1) / (-s.step) + 1).toNat else 0)
  else (if a < b then ((b - a - 1) / s.step + 1).toNat else 0)

def pyDim (s : Option PySlice) (d : Nat) : Nat :=
  match s with | none => d | some s => pyCount s d

def pySrc (s : Option PySlice) (d o : Nat) : Nat :=
  match s with | none => o | some s => (pyBound d s.step s.start + o * s.step).toNat

/-- `data[tuple(slices)]`; `none` is `slice(None, None, None)`. -/
def pySliceAll {α : Type} (slices : Nat → Option PySlice) (x : T α) : T α :=
  { shape := (List.range x.shape.length).map (fun i => pyDim (slices i) (nth x.shape i))
    get := fun idx => x.get ((List.range x.shape.length).map (fun i => pySrc (slices i) (nth x.shape i) (nth idx i))) }

/-- `for axis, ... in zip(...): slices[axis] = slice(start, end, step)` (tf2onnx/symbolic_executor.py:173-175): later
entries win. -/
def setSlices (rank : Nat) : List (Int × PySlice) → (Nat → Option PySlice) → Except String (Nat → Option PySlice)
  | [], f => .ok f
  | (a, s) :: l, f =>
    if a < -rank ∨ a ≥ rank then .error "IndexError: list assignment index out of range"
    else setSlices rank l (fun i => if i = normAxis rank a then some s else f i)

/-- The entries `zip(axes, starts, ends, steps)`. -/
def sliceEntries (axes starts ends steps : List Int) : List (Int × PySlice) :=
  axes.zip ((starts.zip (ends.zip steps)).map (fun p => ⟨p.1, p.2.1, p.2.2⟩))

/-- `compute_slice` once the operands are known (tf2onnx/symbolic_executor.py:167-176). -/
def computeSlice (data : Val) (starts ends : List Int) (axes steps : Option (List Int)) : Except String Val := do
  let axes := axes.getD ((List.range starts.length).map (fun (i : Nat) => (i : Int)))
  let steps := steps.getD (List.replicate starts.length 1)
  let f ← setSlices data.shape.length (sliceEntries axes starts ends steps) (fun _ => none)
  if (sliceEntries axes starts ends steps).any (fun p => p.2.step = 0) then .error "ValueError: slice step cannot be zero"
  else .ok (data.mapT (fun _ => pySliceAll f))

/-- `feed_dict[inp] if inp != '' else None` for input `i`, `None` if there are fewer inputs
(tf2onnx/symbolic_executor.py:155-159), read as a list of ints. -/
def optArg (results : Dict String Val) (n : Node) (i : Nat) : Except String (Option (List Int)) :=
  match n.input[i]? with
  | none => .ok none
  | some name =>
    if name = "" then .ok none
    else do
      let v ← arg results n i
      let l ← tolist v
      .ok (some l)

/-- The operands of `compute_slice` (tf2onnx/symbolic_executor.py:154-166). -/
def sliceArgs (opset : Nat) (results : Dict String Val) (n : Node) (starts ends axes : Option (List Int)) :
    Except String (Option (List Int) × Option (List Int) × Option (List Int) × Option (List Int)) :=
  if opset ≥ 10 then do
    let s ← optArg results n 1
    let e ← optArg results n 2
    let a ← optArg results n 3
    let t ← optArg results n 4
    .ok (s, e, a, t)
  else .ok (starts, ends, axes, none)

/-- `*` of two arrays (`compute_mul`, tf2onnx/symbolic_executor.py:142-143), with broadcasting. -/
def computeMul (x y : Val) : Val :=
  match x, y with
  | .num a, .num b => .num (foldBinary (· * ·) 0 a b)
  | x, y => .sym (foldBinary Sym.mul (Sym.fromConst 0) x.toSym y.toSym)

/-- All values are numeric. -/
def allNum : List Val → Option (List (T Int))
  | [] => some []
  | .num t :: l => (allNum l).map (t :: ·)
  | .sym _ :: _ => none

/-- `numpy.concatenate` (`compute_concat`, tf2onnx/symbolic_executor.py:178-181); the result has dtype object if one of
the operands has. -/
def computeConcat (xs : List Val) (axis : Int) : Val :=
  match allNum xs with
  | some l => .num (foldConcat 0 l axis)
  | none => .sym (foldConcat (Sym.fromConst 0) (xs.map Val.toSym) axis)

/-- `compute_cast` (tf2onnx/symbolic_executor.py:136-140); `castTo dst` is `astype` on one element. -/
def computeCast (castTo : Int → Int → Int) (dst : Int) : Val → Val
  | .sym t => .sym t
  | .num t => .num (tmap (castTo dst) t)

/-- `[feed_dict[inp] for inp in node.input]`. -/
def args (results : Dict String Val) : List String → Except String (List Val)
  | [] => .ok []
  | name :: l => match results.get name with
    | none => .error "KeyError"
    | some v => do
      let r ← args results l
      .ok (v :: r)

/-- `op_map[node.type](node, feed_dict)` (tf2onnx/symbolic_executor.py:119-213): the one result of the node. -/
def computeOp (castTo : Int → Int → Int) (opset : Nat) (results : Dict String Val) (n : Node) : Except String Val :=
  match n.op with
  | .const t => .ok (.num t)
  | .cast dst => do
    let x ← arg results n 0
    .ok (computeCast castTo dst x)
  | .mul => do
    let x ← arg results n 0
    let y ← arg results n 1
    .ok (computeMul x y)
  | .unsqueeze attr => do
    let x ← arg results n 0
    let axes ← axesArg 13 opset results n attr
    let s ← unsqueezeShape x.shape axes
    reshapeVal x s
  | .squeeze attr => do
    let x ← arg results n 0
    let axes ← axesArg 13 opset results n attr
    reshapeVal x (squeezeShape x.shape axes)
  | .gather axis => do
    let x ← arg results n 0
    let i ← arg results n 1
    computeGather x i axis
  | .reduceProd attr keepdims => do
    let x ← arg results n 0
    let axes ← axesArg 18 opset results n attr
    computeReduceProd x axes keepdims
  | .slice st en ax => do
    let x ← arg results n 0
    let p ← sliceArgs opset results n st en ax
    match p with
    | (some starts, some ends, axes, steps) => computeSlice x starts ends axes steps
    | _ => .error "TypeError: object of type 'NoneType' has no len()"
  | .concat axis => do
    let xs ← args results n.input
    .ok (computeConcat xs axis)
  | .other t => .error ("KeyError: " ++ t)

/-- `results.update(compute_node(node, results))` (tf2onnx/symbolic_executor.py:100-104, 119-121). -/
def stepNode (castTo : Int → Int → Int) (opset : Nat) (results : Dict String Val) (n : Node) :
    Except String (Dict String Val) := do
  let r ← computeOp castTo opset results n
  match n.output with
  | [] => .ok results
  | out :: _ => .ok (results.set out r)

/-- The loop of `compute_outputs` (tf2onnx/symbolic_executor.py:100-104). -/
def runNodes (castTo : Int → Int → Int) (opset : Nat) : List Node → Dict String Val → Except String (Dict String Val)
  | [], results => .ok results
  | n :: l, results => do
    let r ← stepNode castTo opset results n
    runNodes castTo opset l r

/-- Whether the type of a node is a key of `op_map`. -/
def supported (n : Node) : Bool := match n.op with | .other _ => false | _ => true

/-- `nodes.append(inp)` for the inputs that are not fed (tf2onnx/symbolic_executor.py:115-117); the end of the Python
list is the head of `stack`. -/
def pushInputs (byOutput : String → Option Node) (feed : Dict String Val) : List String → List (Option Node) → List (Option Node)
  | [], stack => stack
  | name :: l, stack =>
    if name ≠ "" ∧ feed.contains name = false then pushInputs byOutput feed l (byOutput name :: stack)
    else pushInputs byOutput feed l stack

/-- `plan_computation` (tf2onnx/symbolic_executor.py:108-118). `acc` is `sorted_nodes[::-1]`. The program's loop has no
bound: running out of `fuel` means it has not ended within that many iterations. -/
def planLoop (byOutput : String → Option Node) (feed : Dict String Val) :
    Nat → List (Option Node) → List Node → Except String (List Node)
  | _, [], acc => .ok acc
  | 0, _ :: _, _ => .error "fuel"
  | _ + 1, none :: _, _ => .error "AttributeError: 'NoneType' object has no attribute 'type'"
  | fuel + 1, some n :: stack, acc =>
    if supported n then planLoop byOutput feed fuel (pushInputs byOutput feed n.input stack) (n :: acc)
    else .error "Unsupported op"

/-- `[SymbolicTensorElement.np_array(results[out]) for out in outputs]`; `numpy.vectorize` rejects empty arrays. -/
def readOutputs (results : Dict String Val) : List String → Except String (List (T Sym))
  | [] => .ok []
  | name :: l => match results.get name with
    | none => .error "KeyError"
    | some v =>
      if size v.shape = 0 then .error "ValueError: cannot call `vectorize` on size 0 inputs"
      else do
        let r ← readOutputs results l
        .ok (v.toSym :: r)

/-- `compute_outputs` (tf2onnx/symbolic_executor.py:93-106). `setOrder` is the order in which `list(set(..))` gives the
nodes. -/
def computeOutputs (castTo : Int → Int → Int) (opset : Nat) (byOutput : String → Option Node)
    (setOrder : List (Option Node) → List (Option Node)) (fuel : Nat)
    (outputs : List String) (feed : Dict String Val) : Except String (List (T Sym)) := do
  let plan ← planLoop byOutput feed fuel (setOrder (outputs.map byOutput)) []
  let results ← runNodes castTo opset plan feed
  readOutputs results outputs

end Verif.Symbolic
