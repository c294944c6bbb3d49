import Verif.Spec.Bytes
import Verif.Spec.Decimal
import Verif.Spec.Dict
/-!
# Model of the external tensor storage (tf2onnx/graph.py:25-32, 96-119) and of the large-model zip
(tf2onnx/utils.py:294-301, 435-444)
-/
namespace Verif.External
open Verif

/-- The fields of a `TensorProto` that matter here. `typed` stands for the values in `float_data`, `string_data`, ... .
`location` is the external location (`none`: `data_location` is `DEFAULT`). -/
structure Tensor where
  dims : List Nat
  raw : Bytes
  typed : List Bytes
  location : Option Str
  deriving DecidableEq

/-- An attribute value of a node: a tensor or anything else (`a.type != TENSOR`). -/
inductive Attr
  | tensor (t : Tensor)
  | other (n : Nat)
  deriving DecidableEq

/-- `ExternalTensorStorage` (tf2onnx/graph.py:25-32). Nodes are identified by a number (object identity). -/
structure Storage where
  nameToData : Dict Str Bytes
  counter : Nat
  threshold : Nat
  modified : Dict Nat Tensor

/-- `ExternalTensorStorage.__init__`. -/
def Storage.empty : Storage := ⟨[], 0, 1024, []⟩

/-- The characters replaced at tf2onnx/graph.py:108. -/
def badChars : List Char := ['~', '"', '#', '%', '&', '*', ':', '<', '>', '?', '/', '\\', '{', '|', '}']

/-- The loop at tf2onnx/graph.py:108-109 (each `replace` maps one character to `_`, the order does not matter). -/
def sanitize (s : Str) : Str := s.map (fun c => if c ∈ badChars then '_' else c)

/-- Python `str.strip()`; only the ASCII white space is modelled. -/
def isSpace (c : Char) : Bool := (9 ≤ c.toNat && c.toNat ≤ 13) || (28 ≤ c.toNat && c.toNat ≤ 32)
def strip (s : Str) : Str := ((s.dropWhile isSpace).reverse.dropWhile isSpace).reverse

/-- `np.product(a.t.dims)` (without the overflow of int64). -/
def size (t : Tensor) : Nat := t.dims.foldl (· * ·) 1

/-- `Node.get_value_attr` with a storage (tf2onnx/graph.py:96-119). -/
def getValueAttr (st : Storage) (node : Nat) (name : Str) (a : Attr) : Storage × Attr :=
  match st.modified.get node with
  | some t => (st, .tensor t)
  | none =>
    match a with
    | .other n => (st, .other n)
    | .tensor t =>
      if size t > st.threshold then
        let tensorName := sanitize (strip name ++ '_' :: Decimal.render st.counter)
        let t' := { t with raw := [], location := some tensorName }
        ({ st with counter := st.counter + 1, nameToData := st.nameToData.set tensorName t.raw,
                   modified := st.modified.set node t' }, .tensor t')
      else (st, .tensor t)

/-- The calls made while a model is written: `update_proto` and `make_graph` ask for the attribute of every node, in any
order and any number of times (tf2onnx/graph.py:131, 1139). A node is its identity, its name and its `value` attribute. -/
structure VNode where
  id : Nat
  name : Str
  value : Attr

def serialize : Storage → List VNode → Storage × List Attr
  | st, [] => (st, [])
  | st, n :: ns =>
    let r := getValueAttr st n.id n.name n.value
    let r' := serialize r.1 ns
    (r'.1, r.2 :: r'.2)

/-! ## The zip file -/

/-- The name an entry gets from `zipfile.ZipInfo`: cut at the first NUL. -/
def zipName (s : Str) : Str := s.takeWhile (fun c => c ≠ Char.ofNat 0)

def modelName : Str := "__MODEL_PROTO.onnx".toList

/-- `save_onnx_zip` (tf2onnx/utils.py:294-301): the entries of the archive in order. `model` is the serialized model. -/
def saveZip (model : Bytes) (st : Storage) : List (Str × Bytes) :=
  (modelName, model) :: st.nameToData.map (fun p => (zipName p.1, p.2))

/-- `ZipFile.open(name)`: `NameToInfo` holds the last entry of that name. -/
def zipRead (z : List (Str × Bytes)) (n : Str) : Option Bytes := (z.reverse.find? (fun p => p.1 = n)).map (·.2)

/-- Python `n.endswith(".onnx")`. -/
def endsOnnx (n : Str) : Bool := ".onnx".toList.reverse.isPrefixOf n.reverse

/-- One iteration of the loop of `model_proto_from_zip` (tf2onnx/utils.py:438-443). -/
def unzipStep (z : List (Str × Bytes)) (s : Bytes × Dict Str Bytes) (n : Str) : Bytes × Dict Str Bytes :=
  let content := (zipRead z n).getD []
  if endsOnnx n then (content, s.2) else (s.1, s.2.set n content)

/-- `model_proto_from_zip` (tf2onnx/utils.py:435-444) with a new storage: the bytes of the model and the tensor data.
`ParseFromString` clears the message first, so the last model read counts. -/
def readZip (z : List (Str × Bytes)) : Bytes × Dict Str Bytes := (z.map (·.1)).foldl (unzipStep z) ([], [])

end Verif.External
