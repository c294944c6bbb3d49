import Verif.Spec.Cast
/-!
# Model of `_optimize_cast` (tf2onnx/optimizer/back_to_back_optimizer.py:75-126)
-/
namespace Verif.Cast

/-- `ONNX_DTYPE_NAMES` (tf2onnx/utils.py:59-75); `''` for types it does not hold. -/
def dtypeName : DT → String
  | .float => "float" | .float16 => "float16" | .double => "double" | .bfloat16 => ""
  | .int32 => "int32" | .int16 => "int16" | .int8 => "int8"
  | .uint8 => "uint8" | .uint16 => "uint16" | .uint32 => "uint32" | .uint64 => "uint64" | .int64 => "int64"
  | .string => "string" | .bool => "bool" | .complex64 => "complex64" | .complex128 => "complex128"

/-- Python's `needle in haystack`. -/
def hasSub (needle haystack : List Char) : Bool := haystack.tails.any (fun t => needle.isPrefixOf t)

/-- The test of the loop over the consumers (back_to_back_optimizer.py:99-122): may the cast to `type1` be skipped for a
consumer casting to `type2`? -/
def okToSkip (type1 type2 : DT) : Bool :=
  let n1 := (dtypeName type1).toList
  if hasSub "float".toList n1 || n1 = "double".toList then true
  else if hasSub "int".toList n1 then
    -- if type1 != type2 and type2_name != 'bool': can_reduce = False
    !(type1 ≠ type2 && (dtypeName type2).toList ≠ "bool".toList)
  else if n1 = "bool".toList then !(type1 ≠ type2)
  else if n1 = "string".toList then true
  else false

/-- What `_optimize_cast` does with a cast to `type1`, the type of a parent cast (if the operand is produced by one) and
the types of the consumer casts: `true` when the node is removed and its consumers read its operand instead
(back_to_back_optimizer.py:84-125). -/
def removes (parent : Option DT) (type1 : DT) (consumers : List DT) : Bool :=
  parent = some type1 || consumers.all (okToSkip type1)

/-- The value a consumer computes before the rewrite, on the operand `v` of the node. -/
def before (cast : DT → Val → Val) (type1 type2 : DT) (v : Val) : Val := cast type2 (cast type1 v)

/-- The value a consumer computes after the handler ran (`g.replace_input(node2, node2.input[0], node.input[0], 0)` or
no change). -/
def after (cast : DT → Val → Val) (parent : Option DT) (type1 : DT) (consumers : List DT) (type2 : DT) (v : Val) : Val :=
  if removes parent type1 consumers then cast type2 v else cast type2 (cast type1 v)

end Verif.Cast
