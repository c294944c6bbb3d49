import Verif.Model.Graph
/-!
# Model of the mapping loop `tensorflow_onnx_mapping` of `tf2onnx/tfonnx.py`, for graphs without bodies
-/
namespace Verif.Graph
open Verif

/-- An entry of `ops_mapping`: the operator the node is renamed to first (`onnx_op`), and the handler, which is told the old
operator (`tf_op`) (tf2onnx/tfonnx.py:266-274; tf2onnx/handler.py:60-107). A handler that raises leaves the graph in an unknown state;
here the exception is all that is known. -/
structure MapInfo where
  onnxOp : Option String := none
  func : G → Ref → String → Except String G

/-- `node.type = converted_op`, then `func(g, node, **kwargs)` (tf2onnx/tfonnx.py:266-274, 292). -/
def MapInfo.convert (m : MapInfo) (g : G) (r : Ref) : Except String G :=
  m.func (match m.onnxOp with | some op => g.setType r op | none => g) r (g.node r).op

/-- Where the loop stands: the graph, the two counters (as lists of operators), the exceptions. -/
structure MapState where
  g : G
  mapped : List String := []
  unmapped : List String := []
  exceptions : List String := []

/-- One round of the loop (tf2onnx/tfonnx.py:251-306). `skip` are the nodes with `skip_conversion`. After an exception the graph is
taken as it was before (the caller raises the exception, unless told to continue). -/
def mapNode (table : String → Option MapInfo) (skip : Ref → Bool) (s : MapState) (r : Ref) : MapState :=
  if skip r then s
  else match table (s.g.node r).op with
    | none => { s with unmapped := s.unmapped ++ [(s.g.node r).op] }
    | some m =>
      match m.convert s.g r with
      | .ok g => { s with g := g, mapped := s.mapped ++ [(s.g.node r).op] }
      | .error ex => { s with mapped := s.mapped ++ [(s.g.node r).op], exceptions := s.exceptions ++ [ex] }

/-- `tensorflow_onnx_mapping(g, ops_mapping)` (tf2onnx/tfonnx.py:242-306): every node that was there at the start, in order. -/
def G.mapping (table : String → Option MapInfo) (skip : Ref → Bool) (g : G) : MapState :=
  g.nodes.foldl (mapNode table skip) { g := g }

end Verif.Graph
