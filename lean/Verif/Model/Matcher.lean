import Verif.Spec.Dict
/-!
# Model of `tf2onnx/graph_matcher.py`

Pattern objects are compared by identity: `ident` stands for the object. A graph is given by what the matcher reads of an
op: its type, the names of its inputs, and the ops producing them (`none` where `get_node_by_output` finds nothing).
-/
namespace Verif.Matcher
open Verif

/-- `OpTypePattern` (tf2onnx/graph_matcher.py:23-52). `types` is `op_type.split('|')` (`[]` for the empty string), or `none` for
`op_type=None`. -/
inductive Pat where
  | mk (ident : Nat) (types : Option (List String)) (name : Option String) (reorder : Option Bool) (inputs : List Pat)

def Pat.ident : Pat → Nat | .mk i _ _ _ _ => i
def Pat.types : Pat → Option (List String) | .mk _ t _ _ _ => t
def Pat.name : Pat → Option String | .mk _ _ n _ _ => n
def Pat.reorder : Pat → Option Bool | .mk _ _ _ r _ => r
def Pat.inputs : Pat → List Pat | .mk _ _ _ _ l => l

/-- What the matcher reads of an op. -/
structure OpInfo (Op : Type) where
  type : String
  input : List String
  inputs : List (Option Op)

/-- A graph: `info op`. -/
abbrev Gr (Op : Type) := Op → OpInfo Op

/-- An entry `[pattern, op, tensor]` of a match list. -/
structure Entry (Op : Type) where
  pat : Pat
  op : Option Op
  tensor : Option String

/-- `_is_op_type_same` (tf2onnx/graph_matcher.py:149-157); `op.type` of `None` raises. -/
def isOpTypeSame {Op : Type} (g : Gr Op) (op : Option Op) (types : List String) : Except String Bool :=
  if types = ["*"] then .ok true
  else match op with
    | none => .error "AttributeError: 'NoneType' object has no attribute 'type'"
    | some o => .ok (decide ((g o).type ∈ types))

/-- The elements of a list, each with the list without it. -/
def picks {α : Type} : List α → List (α × List α)
  | [] => []
  | a :: l => (a, l) :: (picks l).map (fun p => (p.1, a :: p.2))

/-- `itertools.permutations`, in its order, of a list of length `n`. -/
def permutations {α : Type} : Nat → List α → List (List α)
  | 0, _ => [[]]
  | n + 1, l => (picks l).flatMap (fun p => (permutations n p.2).map (p.1 :: ·))

/-- `zip(op.input, op.inputs, possible_pattern_inputs)`. -/
def zip3 {Op : Type} : List String → List (Option Op) → List Pat → List (Entry Op)
  | s :: ss, o :: os, p :: ps => ⟨p, o, some s⟩ :: zip3 ss os ps
  | _, _, _ => []

/-- Matching all inputs (tf2onnx/graph_matcher.py:214-219): every input is matched, even after one has failed. -/
def matchAll {Op : Type} (rec : Entry Op → Except String (Bool × List (Entry Op))) :
    List (Entry Op) → Except String (Bool × List (Entry Op))
  | [] => .ok (true, [])
  | e :: es => do
    let (b, l) ← rec e
    let (b', l') ← matchAll rec es
    .ok (b && b', l ++ l')

/-- The loop over the possible orders of the pattern's inputs (tf2onnx/graph_matcher.py:211-224). -/
def tryOrders {Op : Type} (rec : Entry Op → Except String (Bool × List (Entry Op))) (self : Entry Op)
    (input : List String) (inputs : List (Option Op)) : List (List Pat) → Except String (Bool × List (Entry Op))
  | [] => .ok (false, [self])
  | ps :: pss => do
    let (b, l) ← matchAll rec (zip3 input inputs ps)
    if b then .ok (true, self :: l) else tryOrders rec self input inputs pss

/-- `GraphMatcher._match_pattern` (tf2onnx/graph_matcher.py:159-225). The recursion follows the pattern; `fuel` is Python's
recursion limit. -/
def matchPattern {Op : Type} (g : Gr Op) (allow : Bool) : Nat → Entry Op → Except String (Bool × List (Entry Op))
  | 0, _ => .error "RecursionError"
  | fuel + 1, e =>
    match e.pat.types with
    | none => .ok (true, [])
    | some types => do
      let same ← isOpTypeSame g e.op types
      if !same then .ok (false, [])
      else if e.pat.inputs.isEmpty then .ok (true, [e])
      else match e.op with
        | none => .ok (false, [e])
        | some o =>
          if (g o).inputs.length ≠ e.pat.inputs.length then .ok (false, [e])
          else
            let orders := if e.pat.reorder.getD allow then permutations e.pat.inputs.length e.pat.inputs else [e.pat.inputs]
            tryOrders (matchPattern g allow fuel) e (g o).input (g o).inputs orders

/-- `MatchResult` (tf2onnx/graph_matcher.py:77-135): the two dictionaries. -/
structure Result (Op : Type) where
  /-- `_pattern_to_op_tensor`, by pattern identity -/
  ops : Dict Nat (Option Op × Option String) := []
  /-- `_name_to_pattern` -/
  names : Dict String Nat := []

/-- `MatchResult.add` (tf2onnx/graph_matcher.py:81-88). -/
def Result.add {Op : Type} (r : Result Op) (e : Entry Op) : Result Op :=
  { ops := r.ops.set e.pat.ident (e.op, e.tensor)
    names := match e.pat.name with | none => r.names | some n => r.names.set n e.pat.ident }

/-- `MatchResult.get_op(name)` (tf2onnx/graph_matcher.py:100-108): `None` when there is none. -/
def Result.getOp {Op : Type} (r : Result Op) (name : String) : Option Op :=
  match r.names.get name with
  | none => none
  | some i => match r.ops.get i with | none => none | some p => p.1

/-- `MatchResult.get_tensor(name)` (tf2onnx/graph_matcher.py:110-118). -/
def Result.getTensor {Op : Type} (r : Result Op) (name : String) : Option String :=
  match r.names.get name with
  | none => none
  | some i => match r.ops.get i with | none => none | some p => p.2

/-- `GraphMatcher.match_op` (tf2onnx/graph_matcher.py:231-246). -/
def matchOp {Op : Type} (g : Gr Op) (allow : Bool) (fuel : Nat) (p : Pat) (op : Op) : Except String (Option (Result Op)) := do
  let (b, l) ← matchPattern g allow fuel ⟨p, some op, none⟩
  if b then .ok (some (l.foldl Result.add {})) else .ok none

end Verif.Matcher
