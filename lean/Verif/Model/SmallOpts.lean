import Verif.Model.HandlersAxis
import Verif.Spec.TensorOps
/-!
# Models of `global_pool_optimizer.py`, `upsample_optimizer.py`, `const_dequantize_optimizer.py` and `loop_optimizer.py` (in `tf2onnx/optimizer/`)

One graph level. The shapes recorded for tensors inside a replaced group are left out (as in `Model/Handlers`).
-/
namespace Verif.Graph
open Verif

/-! ## Loops over the nodes -/

/-- `for op in graph.get_nodes(): if step(op): graph_changed = True` over the live list (global_pool_optimizer.py:31-36,
upsample_optimizer.py:29-50). `i` is the position of the iterator. -/
def G.optPass (step : G → Ref → Except String (Option G)) : Nat → G → Nat → Bool → Except String (G × Bool)
  | 0, _, _, _ => .error "out of fuel"
  | fuel + 1, g, i, changed =>
    match g.nodes[i]? with
    | none => .ok (g, changed)
    | some r =>
      match step g r with
      | .error m => .error m
      | .ok none => G.optPass step fuel g (i + 1) changed
      | .ok (some g') => G.optPass step fuel g' (i + 1) true

/-- `while graph_changed` (global_pool_optimizer.py:28-37). -/
def G.optLoop (step : G → Ref → Except String (Option G)) : Nat → G → Except String G
  | 0, _ => .error "out of fuel"
  | fuel + 1, g =>
    match G.optPass step (fuel + 1) g 0 false with
    | .error m => .error m
    | .ok (g', true) => G.optLoop step fuel g'
    | .ok (g', false) => .ok g'

/-! ## Global pooling -/

/-- `list(range(2, rank))`. -/
def spatialAxes (rank : Nat) : List Int := (List.range (rank - 2)).map (fun i : Nat => (i : Int) + 2)

/-- `op_map` (global_pool_optimizer.py:52). -/
def poolType (op : String) : String := if op = "ReduceMean" then "GlobalAveragePool" else "GlobalMaxPool"

/-- `make_squeeze({'data': o, 'axes': axes})` and `insert_node_on_output` (global_pool_optimizer.py:60-63, tf2onnx/graph_builder.py:172-210). -/
def poolSqueeze (v : Nat) (fresh : Nat → String) (len : Nat) (o : String) (axes : List Int) : List Act :=
  if v < 13 then [.make (.mk' "Squeeze" [o] [("axes", .ints axes)]), .insertOut o]
  else [.make (.const ⟨7, [axes.length], axes⟩), .make (.mk' "Squeeze" [o, fresh len]), .insertOut o]

/-- `_optimize_reduce` (global_pool_optimizer.py:39-66): the calls, `none` if the node is left alone. -/
def poolActs (v : Nat) (fresh : Nat → String) (g : G) (r : Ref) : Except String (Option (List Act)) :=
  match (g.node r).input, (g.node r).output with
  | x :: _, o :: _ =>
    if g.dtypes.get o ≠ some 1 ∧ g.dtypes.get o ≠ some 11 then .ok none
    else if o ∈ g.outputs then .ok none
    else
      match g.rankOf x with
      | none => .ok none
      | some n =>
        if (g.node r).attr.get "axes" ≠ some (.ints (spatialAxes n)) then .ok none
        else .ok (some ([.setType (poolType (g.node r).op), .attrs ((g.node r).attr.erase "axes")] ++
          (if (g.node r).attr.get "keepdims" = some (.int 0) then poolSqueeze v fresh g.heap.length o (spatialAxes n) else []) ++
          [.attrs (((g.node r).attr.erase "axes").erase "keepdims")]))
  | _, _ => .error "IndexError"

/-- The body of the loop (global_pool_optimizer.py:33-36). -/
def poolStep (v : Nat) (fresh : Nat → String) (g : G) (r : Ref) : Except String (Option G) :=
  if (g.node r).op = "ReduceMean" ∨ (g.node r).op = "ReduceMax" then
    match poolActs v fresh g r with
    | .error m => .error m
    | .ok none => .ok none
    | .ok (some as) =>
      match G.runActs fresh g r as g with
      | .error m => .error m
      | .ok g' => .ok (some g')
  else .ok none

/-- `GlobalPoolOptimizer._optimize_at_current_graph_level` (global_pool_optimizer.py:26-37). -/
def G.poolOptimize (v : Nat) (fresh : Nat → String) (fuel : Nat) (g : G) : Except String G := G.optLoop (poolStep v fresh) fuel g

/-! ## Upsampling by one -/

/-- Every element of the constant is 1 (`np.all(value == 1.)`); what the raw elements mean is a parameter. -/
def upsampleActs (v : Nat) (isOne : Tensor → Bool) (g : G) (r : Ref) : Except String (Option (List Act)) :=
  if v ≤ 8 then
    match (g.node r).attr.get "scales" with
    | some (.tensor W) => if W.data ≠ [] ∧ isOne W then .ok (some [.setType "Identity"]) else .ok none
    | _ => .ok none
  else
    match (g.node r).input with
    | [x, c] =>
      match g.getNodeByOutput c with
      | none => .error "AttributeError"
      | some q =>
        if (g.node q).isConst then
          match (g.node q).attr.get "value" with
          | some (.tensor W) => if isOne W then .ok (some [.setType "Identity", .rawInputs [x]]) else .ok none
          | _ => .error "ValueError"
        else .ok none
    | _ => .ok none

/-- The body of the loop (upsample_optimizer.py:29-50). The attribute `scales`, a list of floats, is a tensor attribute here. -/
def upsampleStep (v : Nat) (fresh : Nat → String) (isOne : Tensor → Bool) (g : G) (r : Ref) : Except String (Option G) :=
  if (g.node r).op = "Upsample" then
    match upsampleActs v isOne g r with
    | .error m => .error m
    | .ok none => .ok none
    | .ok (some as) =>
      match G.runActs fresh g r as g with
      | .error m => .error m
      | .ok g' => .ok (some g')
  else .ok none

/-- `UpsampleOptimizer._optimize_at_current_graph_level` (upsample_optimizer.py:26-51): one pass. -/
def G.upsampleOptimize (v : Nat) (fresh : Nat → String) (isOne : Tensor → Bool) (fuel : Nat) (g : G) : Except String G :=
  (G.optPass (upsampleStep v fresh isOne) fuel g 0 false).map Prod.fst

/-! ## Moving a dequantization behind an operator that moves elements -/

/-- The operators the constant is sent through (const_dequantize_optimizer.py:36); the second operand of `Reshape` and the axes of `Unsqueeze` are
given. -/
inductive Mover
  | transpose (perm : Option (List Nat))
  | reshape (t : List Int)
  | unsqueeze (axes : List Int)

/-- The loop of const_dequantize_optimizer.py:88-95: `i` entries were multiplied to `acc`. -/
def reshapeAxis (prod dim : Int) : Nat → Int → List Int → Option Nat
  | _, _, [] => none
  | i, acc, d :: t => if acc * d = prod then (if d = dim then some i else none) else reshapeAxis prod dim (i + 1) (acc * d) t

/-- The loop of const_dequantize_optimizer.py:103-107 over `is`; `old` positions not in `axes` are to be skipped. -/
def unsqueezeAxis (axes : List Int) : List Nat → Int → Option Nat
  | [], _ => none
  | i :: is, old =>
    if (i : Int) ∈ axes then unsqueezeAxis axes is old
    else if old = 0 then some i
    else unsqueezeAxis axes is (old - 1)

/-- `compute_new_axis` (const_dequantize_optimizer.py:74-107). `old` is the attribute `axis`, `none` if it is missing. -/
def computeNewAxis (old : Option Int) (shape : List Nat) : Mover → Except String (Option Nat)
  | m =>
    match old with
    | none => .error "TypeError"
    | some a =>
      let a := if a < 0 then a + shape.length else a
      match m with
      | .transpose none => .ok none
      | .transpose (some perm) => if a.toNat ∈ perm ∧ 0 ≤ a then .ok (some (perm.idxOf a.toNat)) else .error "ValueError"
      | .reshape t => .ok (reshapeAxis ((Verif.Tensor.size (shape.take (a + 1).toNat) : Nat) : Int) (shape.getD a.toNat 0 : Nat) 0 1 t)
      | .unsqueeze axes =>
        let n := shape.length + axes.length
        .ok (unsqueezeAxis (axes.map (fun z => if 0 ≤ z then z else z + n)) (List.range n) a)

/-! ## Transposes moved out of loop bodies -/

/-- `new_perm` (loop_optimizer.py:77). -/
def loopPerm (perm : List Nat) : List Nat := 0 :: perm.map (· + 1)

end Verif.Graph
