import Verif.Model.Decode
import Verif.Spec.Dict
/-!
# Model of tf2onnx/flexbuffers.py

With `decode_strings=False` (decoding of the bytes as UTF-8 is not modelled). Offsets are Python integers: reading at a
negative offset follows Python's slices. Floats are kept as their bytes. Python's recursion limit is the fuel of
`readBuffer`.
-/
namespace Verif.Flex
open Verif Bytes Decode

/-- The Python values `read_buffer` makes. A `dict` is the list of its items in insertion order. -/
inductive FVal
  | null
  | int (i : Int)
  | float (b : Bytes)
  | str (b : Bytes)
  | bool (b : Bool)
  | vec (l : List FVal)
  | map (l : List (Bytes × FVal))

/-- `read_uint` (tf2onnx/flexbuffers.py:21-24). -/
def readUInt (buf : Bytes) (off : Int) (bitSize : Nat) : Except String Nat :=
  if 3 < bitSize then .error "IndexError: string index out of range" else
  let b := pySlice buf off (off + (2 ^ bitSize : Nat))
  if b.length = 2 ^ bitSize then .ok (readLE b) else .error "struct.error"

/-- `read_int` (tf2onnx/flexbuffers.py:15-18): two's complement. -/
def readInt (buf : Bytes) (off : Int) (bitSize : Nat) : Except String Int := do
  let n ← readUInt buf off bitSize
  .ok (if n < 2 ^ (8 * 2 ^ bitSize - 1) then (n : Int) else (n : Int) - (2 ^ (8 * 2 ^ bitSize) : Nat))

/-- `read_float` (tf2onnx/flexbuffers.py:27-32). -/
def readFloat (buf : Bytes) (off : Int) (bitSize : Nat) : Except String Bytes :=
  if bitSize = 2 ∨ bitSize = 3 then
    let b := pySlice buf off (off + (2 ^ bitSize : Nat))
    if b.length = 2 ^ bitSize then .ok b else .error "struct.error"
  else .error "FlexbufferParseException: Invalid bit size for flexbuffer float"

/-- `read_string` / `read_bytes` (tf2onnx/flexbuffers.py:35-48). -/
def readBytes (buf : Bytes) (off : Int) (size : Nat) : Bytes := pySlice buf off (off + size)

/-- `read_indirect` (tf2onnx/flexbuffers.py:43-44). -/
def readIndirect (buf : Bytes) (off : Int) (bitSize : Nat) : Except String Int := do
  let n ← readUInt buf off bitSize
  .ok (off - n)

/-- The loop that finds the end of a key (tf2onnx/flexbuffers.py:75-77). The reads go through at most `2 * len + 1`
positions before one falls off the buffer, so this much fuel is never used up. -/
def scanZero (buf : Bytes) (t : Int) : Nat → Nat → Except String Nat
  | 0, _ => .error "unreachable"
  | f + 1, size => do
    let b ← readInt buf (t + size) 0
    if b ≠ 0 then scanZero buf t f (size + 1) else .ok size

/-- Value type 4 (tf2onnx/flexbuffers.py:73-78). -/
def readKey (buf : Bytes) (off : Int) (pbs : Nat) : Except String FVal := do
  let t ← readIndirect buf off pbs
  let size ← scanZero buf t (2 * buf.length + 2) 0
  .ok (.str (readBytes buf t size))

/-- The loop that widens the size field until the string is followed by a NUL (tf2onnx/flexbuffers.py:81-88). Past 8
bytes `read_uint` raises, so four rounds are enough. -/
def stringSize (buf : Bytes) (t : Int) : Nat → Nat → Except String Nat
  | 0, _ => .error "unreachable"
  | f + 1, bs => do
    let size ← readUInt buf (t - (2 ^ bs : Nat)) bs
    let b ← readInt buf (t + size) 0
    if b ≠ 0 then stringSize buf t f (bs + 1) else .ok size

/-- Value type 5 (tf2onnx/flexbuffers.py:79-89). -/
def readStr (buf : Bytes) (off : Int) (pbs bitSize : Nat) : Except String FVal := do
  let t ← readIndirect buf off pbs
  let size ← stringSize buf t 5 bitSize
  .ok (.str (readBytes buf t size))

/-- The dictionary `{1: 0, 2: 1, 4: 2, 8: 3, 16: 4}` (tf2onnx/flexbuffers.py:99, 151). -/
def bitSizeOf (n : Nat) : Except String Nat :=
  if n = 1 then .ok 0 else if n = 2 then .ok 1 else if n = 4 then .ok 2 else if n = 8 then .ok 3 else
  if n = 16 then .ok 4 else .error "KeyError"

/-- `[f(0), ..., f(n-1)]`, stopping at the first exception. -/
def collect {α : Type} (f : Nat → Except String α) (n : Nat) : Except String (List α) := (List.range n).mapM f

/-- The dictionary built by `obj[key] = value` for the items in order. -/
def toDict (l : List (Bytes × FVal)) : List (Bytes × FVal) := l.foldl (fun d p => Dict.set d p.1 p.2) []

/-- The bytes of a string value (keys are always read as strings). -/
def FVal.bytes : FVal → Bytes
  | .str b => b
  | _ => []

/-- `read_buffer` (tf2onnx/flexbuffers.py:60-146) and `read_array` (:51-57). -/
def readBuffer (buf : Bytes) : Nat → Int → Nat → Nat → Except String FVal
  | 0, _, _, _ => .error "RecursionError"
  | fuel + 1, off, pbs, packed =>
    let bitSize := packed % 4
    let ty := packed / 4
    let byteSize : Nat := 2 ^ bitSize
    if ty = 0x0 then .ok .null
    else if ty = 0x1 then do let i ← readInt buf off pbs; .ok (.int i)
    else if ty = 0x2 then do let n ← readUInt buf off pbs; .ok (.int n)
    else if ty = 0x3 then do let b ← readFloat buf off pbs; .ok (.float b)
    else if ty = 0x4 then readKey buf off pbs
    else if ty = 0x5 then readStr buf off pbs bitSize
    else if ty = 0x6 then do let t ← readIndirect buf off pbs; let i ← readInt buf t bitSize; .ok (.int i)
    else if ty = 0x7 then do let t ← readIndirect buf off pbs; let n ← readUInt buf t bitSize; .ok (.int n)
    else if ty = 0x8 then do let t ← readIndirect buf off pbs; let b ← readFloat buf t bitSize; .ok (.float b)
    else if ty = 0x9 then do
      let t ← readIndirect buf off pbs
      let length ← readUInt buf (t - byteSize) bitSize
      let keysOffset := t - (byteSize * 3 : Nat)
      let kt ← readIndirect buf keysOffset bitSize
      let keyByteSize ← readUInt buf (keysOffset + byteSize) bitSize
      let keyBitSize ← bitSizeOf keyByteSize
      let items ← collect (fun i => do
        let key ← readKey buf (kt + (i * keyByteSize : Nat)) keyBitSize
        let p ← readUInt buf (t + (length * byteSize : Nat) + i) 0
        let v ← readBuffer buf fuel (t + (i * byteSize : Nat)) bitSize p
        .ok (key.bytes, v)) length
      .ok (.map (toDict items))
    else if ty = 0xa then do
      let t ← readIndirect buf off pbs
      let length ← readUInt buf (t - byteSize) bitSize
      let items ← collect (fun i => do
        let p ← readUInt buf (t + (length * byteSize : Nat) + i) 0
        readBuffer buf fuel (t + (i * byteSize : Nat)) bitSize p) length
      .ok (.vec items)
    else if ty = 0xb ∨ ty = 0xc ∨ ty = 0xd ∨ ty = 0xe ∨ ty = 0xf ∨ ty = 0x24 then do
      let t ← readIndirect buf off pbs
      let length ← readUInt buf (t - byteSize) bitSize
      let items ← collect (fun i => readBuffer buf fuel (t + (i * byteSize : Nat)) bitSize ((ty - 0xb + 0x1) * 4)) length
      .ok (.vec items)
    else if 0x10 ≤ ty ∧ ty ≤ 0x18 then do
      let length := (ty - 0x10) / 3 + 2
      let t ← readIndirect buf off pbs
      let items ← collect (fun i => readBuffer buf fuel (t + (i * byteSize : Nat)) bitSize (((ty - 0x10) % 3 + 1) * 4)) length
      .ok (.vec items)
    else if ty = 0x19 then do
      let t ← readIndirect buf off pbs
      let size ← readUInt buf (t - byteSize) bitSize
      .ok (.str (readBytes buf t size))
    else if ty = 0x1a then do
      let n ← readUInt buf off pbs
      .ok (.bool (decide (n > 0)))
    else .error "FlexbufferParseException: Invalid flexbuffer value type"

/-- `read_flexbuffer` (tf2onnx/flexbuffers.py:149-154). -/
def readFlexbuffer (fuel : Nat) (buf : Bytes) : Except String FVal := do
  let byteSize ← readUInt buf ((buf.length : Int) - 1) 0
  let bitSize ← bitSizeOf byteSize
  let packed ← readUInt buf ((buf.length : Int) - 2) 0
  readBuffer buf fuel ((buf.length : Int) - 2 - byteSize) bitSize packed

end Verif.Flex
