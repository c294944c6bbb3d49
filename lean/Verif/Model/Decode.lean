import Verif.Spec.Bytes
/-!
# Model of the byte-level readers of tf2onnx/tfjs_utils.py and tf2onnx/tflite_utils.py
-/
namespace Verif.Decode
open Verif Bytes

/-- `struct.unpack('<I', b)[0]`: needs exactly four bytes. -/
def unpackU32 (b : Bytes) : Except String Nat :=
  if b.length = 4 then .ok (readLE b) else .error "struct.error: unpack requires a buffer of 4 bytes"

/-- Body of the loop of `read_string_weight` (tf2onnx/tfjs_utils.py:348-353): `n` more strings from position `j`. -/
def readStrings (data : Bytes) : Nat → Nat → Except String (List Bytes × Nat)
  | 0, j => .ok ([], j)
  | n + 1, j => do
    let length ← unpackU32 (slice data j (j + 4))
    let s := slice data (j + 4) (j + 4 + length)
    let (rest, j') ← readStrings data n (j + 4 + length)
    .ok (s :: rest, j')

/-- `read_string_weight` (tf2onnx/tfjs_utils.py:344-354). -/
def readStringWeight (data : Bytes) (offset numStrings : Nat) : Except String (List Bytes × Nat) := do
  let (l, j) ← readStrings data numStrings offset
  .ok (l, j - offset)

/-- What element access gives back from `np.array(list_of_bytes)` (numpy's fixed-width `S` type): trailing NUL bytes are
gone. -/
def stripNul (s : Bytes) : Bytes := (s.reverse.dropWhile (· = 0)).reverse

/-- A manifest entry: name, number of elements (`np.product(shape)`), and for number types the size of an item in the
file (the quantized type's, if quantized); `none` is `'string'`. -/
structure Weight where
  name : String
  count : Nat
  itemSize : Option Nat

/-- The value read for a weight: the raw bytes of a number array (numpy's interpretation of them is not modelled), or the
strings of a string array. -/
inductive Value
  | raw (b : Bytes)
  | strings (l : List Bytes)
  deriving DecidableEq

/-- `read_tfjs_weight` (tf2onnx/tfjs_utils.py:318-341). `np.frombuffer` raises when fewer than `count` items are left. -/
def readWeight (w : Weight) (data : Bytes) (offset : Nat) : Except String (Value × Nat) :=
  match w.itemSize with
  | none => do
    let (l, n) ← readStringWeight data offset w.count
    .ok (.strings (l.map stripNul), n)
  | some size =>
    if offset > data.length then .error "ValueError: offset must be non-negative and no greater than buffer length"
    else if data.length - offset < w.count * size then .error "ValueError: buffer is smaller than requested size"
    else .ok (.raw (slice data offset (offset + w.count * size)), w.count * size)

/-- The loop over the manifest (tf2onnx/tfjs_utils.py:286-290). The dictionary `weights` is returned as the list of
assignments made. -/
def readWeightsFrom (data : Bytes) : List Weight → Nat → Except String (List (String × Value) × Nat)
  | [], i => .ok ([], i)
  | w :: ws, i => do
    let (v, n) ← readWeight w data i
    let (rest, i') ← readWeightsFrom data ws (i + n)
    .ok ((w.name, v) :: rest, i')

/-- The whole reading of the weights (tf2onnx/tfjs_utils.py:283-292) of one manifest group, with the final check. -/
def readWeights (shards : List Bytes) (ws : List Weight) : Except String (List (String × Value)) := do
  let data := shards.flatten
  let (l, i) ← readWeightsFrom data ws 0
  if data.length = i then .ok l else .error "make_sure failure: Total weight bytes doesn't match read bytes"

/-! ## tflite strings -/

/-- `struct.unpack('<i', b[o:o+4])[0]`. -/
def readI32 (data : Bytes) (o : Nat) : Except String Int := do
  let n ← unpackU32 (slice data o (o + 4))
  .ok (if n < 2 ^ 31 then n else (n : Int) - 2 ^ 32)

/-- A Python slice bound on a sequence of length `len`. -/
def pyBound (len : Nat) (i : Int) : Nat := if i < 0 then (i + len).toNat else min i.toNat len

/-- Python `b[i:j]` with arbitrary integer bounds. -/
def pySlice (b : Bytes) (i j : Int) : Bytes := slice b (pyBound b.length i) (pyBound b.length j)

/-- The first loop of `parse_tflite_string_tensor` (tf2onnx/tflite_utils.py:313-316). -/
def readOffsets (data : Bytes) : Nat → Nat → Except String (List Int)
  | 0, _ => .ok []
  | n + 1, o => do
    let x ← readI32 data o
    let rest ← readOffsets data n (o + 4)
    .ok (x :: rest)

/-- `parse_tflite_string_tensor` (tf2onnx/tflite_utils.py:306-321) before the decoding as UTF-8 and the row-major reshape:
the byte strings in order. `range(count)` is empty for a negative count. -/
def parseTfliteStrings (data : Bytes) : Except String (List Bytes) := do
  let count ← readI32 data 0
  let offs ← readOffsets data count.toNat 4
  let offs := offs ++ [(data.length : Int)]
  .ok ((List.range count.toNat).map (fun i => pySlice data (offs.getD i 0) (offs.getD (i + 1) 0)))

/-! ## Base64 -/

/-- The base64 alphabet: character of a 6-bit number. -/
def b64char (n : Nat) : Char :=
  if n < 26 then Char.ofNat (65 + n) else if n < 52 then Char.ofNat (97 + (n - 26)) else
  if n < 62 then Char.ofNat (48 + (n - 52)) else if n = 62 then '+' else '/'

/-- `table_a2b_base64`: 6-bit number of a character. -/
def b64val (c : Char) : Option Nat :=
  let k := c.toNat
  if 65 ≤ k ∧ k ≤ 90 then some (k - 65) else if 97 ≤ k ∧ k ≤ 122 then some (k - 97 + 26) else
  if 48 ≤ k ∧ k ≤ 57 then some (k - 48 + 52) else if k = 43 then some 62 else if k = 47 then some 63 else none

/-- `binascii.b2a_base64` without the newline. -/
def b2a : List Nat → List Char
  | a :: b :: c :: l =>
    b64char (a / 4) :: b64char (a % 4 * 16 + b / 16) :: b64char (b % 16 * 4 + c / 64) :: b64char (c % 64) :: b2a l
  | [a, b] => [b64char (a / 4), b64char (a % 4 * 16 + b / 16), b64char (b % 16 * 4), '=']
  | [a] => [b64char (a / 4), b64char (a % 4 * 16), '=', '=']
  | [] => []

/-- `base64.encodebytes`: lines of at most 57 bytes, each followed by a newline (the fuel only bounds the lines). -/
def encodeLines : Nat → List Nat → List Char
  | 0, _ => []
  | _ + 1, [] => []
  | f + 1, l => b2a (l.take 57) ++ '\n' :: encodeLines f (l.drop 57)

def encodebytes (l : List Nat) : List Char := encodeLines (l.length + 1) l

/-- `fix` of `fix_string_attr` (tf2onnx/tfjs_utils.py:47-50): a list of ints becomes a base64 string (`bytes(v)` raises for
numbers outside 0..255), a string stays. -/
inductive JsonStr
  | ints (l : List Nat)
  | text (s : List Char)
  deriving DecidableEq

def fixStr : JsonStr → Except String JsonStr
  | .text s => .ok (.text s)
  | .ints l => if l.all (· < 256) then .ok (.text (encodebytes l))
    else .error "ValueError: bytes must be in range(0, 256)"

/-- `binascii.a2b_base64` (CPython, not strict), used by `base64.decodebytes` in `read_tfjs_attr_helper`
(tf2onnx/tfjs_utils.py:86-87) and by protobuf's JSON reader: characters outside the alphabet are skipped, decoding stops
at a padding that completes a group. -/
def a2b : List Char → (quad left pads : Nat) → Except String (List Nat)
  | [], quad, _, _ => if quad = 0 then .ok [] else .error "binascii.Error: Incorrect padding"
  | ch :: cs, quad, left, pads =>
    if ch = '=' then
      if 2 ≤ quad then
        if 4 ≤ quad + (pads + 1) then .ok [] else a2b cs quad left (pads + 1)
      else a2b cs quad left pads
    else
      match b64val ch with
      | none => a2b cs quad left pads
      | some v =>
        match quad with
        | 0 => a2b cs 1 v 0
        | 1 => do
          let r ← a2b cs 2 (v % 16) 0
          .ok ((left * 4 + v / 16) :: r)
        | 2 => do
          let r ← a2b cs 3 (v % 4) 0
          .ok ((left * 16 + v / 4) :: r)
        | _ => do
          let r ← a2b cs 0 0 0
          .ok ((left * 64 + v) :: r)

/-- `base64.decodebytes`. -/
def decodebytes (s : List Char) : Except String (List Nat) := a2b s 0 0 0

end Verif.Decode
