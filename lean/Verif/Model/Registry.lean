import Verif.Spec.Dict
/-!
# Model of the converter registry (tf2onnx/handler.py) and the schema table (tf2onnx/schemas.py)
-/
namespace Verif.Registry
open Verif

/-- Python `a.update(b)`. -/
def update {κ β : Type} [DecidableEq κ] (a : Dict κ β) : Dict κ β → Dict κ β
  | [] => a
  | (k, v) :: b => update (a.set k v) b

/-- A call of `tf_op.register_handler` (tf2onnx/handler.py:51-69); `handler` stands for the pair `(func, kwargs)`. -/
structure Call (H : Type) where
  handler : H
  version : Nat
  names : List String
  domain : String

/-- `tf_op._OPSETS`: domain to list (indexed by version) of dictionaries. -/
abbrev Opsets (H : Type) := Dict String (List (Dict String H))

/-- `while version >= len(opset): opset.append({})` (tf2onnx/handler.py:65-66). -/
def extend {H : Type} (l : List (Dict String H)) (version : Nat) : List (Dict String H) :=
  l ++ List.replicate (version + 1 - l.length) []

/-- `for name in names: opset_dict[name] = (func, kwargs)` (tf2onnx/handler.py:68-69). -/
def setAll {H : Type} (d : Dict String H) (names : List String) (h : H) : Dict String H :=
  names.foldl (fun d n => d.set n h) d

/-- `tf_op.register_handler` (tf2onnx/handler.py:51-69). An empty list under the domain counts as absent (`if not
opset`), which makes no difference: it is replaced by an empty list. -/
def register {H : Type} (o : Opsets H) (c : Call H) : Opsets H :=
  let l := extend ((o.get c.domain).getD []) c.version
  o.set c.domain (l.set c.version (setAll (l.getD c.version []) c.names c.handler))

/-- The registry after a history of registrations. -/
def registered {H : Type} (hist : List (Call H)) : Opsets H := hist.foldl register []

/-- The dictionary `mapping` of `create_mapping` (tf2onnx/handler.py:83-86): domain to requested version. -/
def requested (onnxVersion : Nat) (extra : List (String × Nat)) : Dict String Nat :=
  update [("", onnxVersion)] extra

/-- State of the loops of `create_mapping`: `ops_mapping` and `domain_to_ops_mapping`. -/
structure St (H : Type) where
  ops : Dict String H
  dom : Dict String (Dict String H)

/-- Body of the inner loop (tf2onnx/handler.py:91-95). -/
def stackOne {H : Type} (m : Option Nat) (domain : String) (st : St H) (target : Nat) (opMap : Dict String H) : St H :=
  match m with
  | none => st
  | some m =>
    -- `if m:` also drops version 0; `and op_map` drops empty dictionaries
    if m ≠ 0 ∧ target ≤ m ∧ opMap ≠ [] then
      { ops := update st.ops opMap
        dom := st.dom.set domain (update ((st.dom.get domain).getD []) st.ops) }
    else st

/-- The inner loop `for target_opset, op_map in enumerate(opsets)`, starting at `target`. -/
def stackDomain {H : Type} (m : Option Nat) (domain : String) : Nat → List (Dict String H) → St H → St H
  | _, [], st => st
  | target, d :: l, st => stackDomain m domain (target + 1) l (stackOne m domain st target d)

/-- `tf_op.create_mapping` (tf2onnx/handler.py:76-99). -/
def createMapping {H : Type} (o : Opsets H) (onnxVersion : Nat) (extra : List (String × Nat)) : St H :=
  o.foldl (fun st p => stackDomain ((requested onnxVersion extra).get p.1) p.1 0 p.2 st) ⟨[], []⟩

/-- `find_effective_op` (tf2onnx/handler.py:101-119); `_DOMAIN_MAPPING` is a `defaultdict(dict)`. -/
def findEffectiveOp {H : Type} (st : St H) (name : String) : Option String → Option H
  | none => st.ops.get name
  | some d => ((st.dom.get d).getD []).get name

/-! ## Schemas -/

/-- A schema as the onnx package lists it: name, domain, first version, and the rest. -/
structure Schema (S : Type) where
  name : String
  domain : String
  since : Nat
  body : S

/-- `name_domain_version_schema_map[name][domain]` (tf2onnx/schemas.py:61-66). -/
def versionMap {S : Type} (all : List (Schema S)) (name domain : String) : Dict Nat (Schema S) :=
  all.foldl (fun d s => if s.name = name ∧ s.domain = domain then d.set s.since s else d) []

/-- Insertion into a list sorted by descending version. -/
def insertDesc {S : Type} (p : Nat × S) : List (Nat × S) → List (Nat × S)
  | [] => [p]
  | q :: l => if q.1 ≤ p.1 then p :: q :: l else q :: insertDesc p l

/-- `OrderedDict(sorted(version_schema_map.items(), key=lambda x: -x[0]))` (tf2onnx/schemas.py:71-73). -/
def sortDesc {S : Type} : List (Nat × S) → List (Nat × S)
  | [] => []
  | p :: l => insertDesc p (sortDesc l)

/-- `get_schema` (tf2onnx/schemas.py:99-107): the first entry, in descending order, that is not above the limit.
`domain or ONNX_DOMAIN` is `""` for `None` and `""`. -/
def getSchema {S : Type} (all : List (Schema S)) (name : String) (maxVersion : Nat) (domain : Option String) :
    Option (Schema S) :=
  ((sortDesc (versionMap all name (domain.getD ""))).find? (fun p => p.1 ≤ maxVersion)).map (·.2)

end Verif.Registry
