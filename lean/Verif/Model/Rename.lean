import Verif.Model.Graph
import Verif.Spec.Decimal
/-!
# Model of the two renaming procedures: `Graph.rename_tensors` and `convert._rename_duplicate_keras_model_names`
-/
namespace Verif.Rename
open Verif Verif.Graph

/-- `tensors_to_rename.get(t, t)` (tf2onnx/graph.py:892). -/
def renameOf (m : Dict String String) (t : String) : String := (m.get t).getD t

/-- `rename_keys` (tf2onnx/graph.py:894-895): a dict comprehension, later entries overwrite. -/
def renameKeys {β : Type} (m : Dict String String) (d : Dict String β) : Dict String β :=
  d.foldl (fun acc p => acc.set (renameOf m p.1) p.2) []

/-- One node (tf2onnx/graph.py:903-904): `rename_list` of both lists. -/
def renameNode (m : Dict String String) (n : Node) : Node :=
  { n with input := n.input.map (renameOf m), output := n.output.map (renameOf m) }

/-- `Graph.rename_tensors` (tf2onnx/graph.py:889-904). -/
def renameTensors (g : G) (m : Dict String String) : G :=
  let g' : G := { g with
    outToName := renameKeys m g.outToName
    consumers := renameKeys m g.consumers
    dtypes := renameKeys m g.dtypes
    shapes := renameKeys m g.shapes
    outputs := g.outputs.map (renameOf m) }
  g.nodes.foldl (fun g' r => g'.setNode r (renameNode m (g'.node r))) g'

/-! ## Keras output names -/

/-- The candidate tried in round `i` (tf2onnx/convert.py:363-368): the name itself, then `name + "_" + str(i)`. -/
def cand (name : Str) (i : Nat) : Str := if i = 0 then name else name ++ ['_'] ++ Decimal.render i

/-- `while new_name in used_names: i += 1; new_name = name + "_" + str(i)` (tf2onnx/convert.py:365-369), starting with the
candidate for `i` (`i = 0` is the name itself). `fuel` bounds the number of iterations; `none` when it runs out. -/
def freshName (used : List Str) (name : Str) : Nat → Nat → Option Str
  | 0, _ => none
  | fuel + 1, i =>
    if cand name i ∈ used then freshName used name fuel (i + 1) else some (cand name i)

/-- The `for name in out_names` loop (tf2onnx/convert.py:361-371), with at most `fuel used` tests per name. -/
def renameLoop (fuel : List Str → Nat) : List Str → List Str → Option (List Str)
  | _, [] => some []
  | used, name :: names =>
    match freshName used name (fuel used) 0 with
    | none => none
    | some new => (renameLoop fuel (used ++ [new]) names).map (new :: ·)

/-- `_rename_duplicate_keras_model_names` (tf2onnx/convert.py:350-373): the output names of the model afterwards. The loop is
not entered if the names are already distinct. -/
def renameDuplicates (fuel : List Str → Nat) (names : List Str) : Option (List Str) :=
  if names.Nodup then some names else renameLoop fuel [] names

end Verif.Rename
