import Verif.Spec.OnnxEval
/-!
# Convolution and pooling, in TensorFlow and in ONNX

Written from the TensorFlow API documentation (`tf.nn.convolution`, `tf.nn.depthwise_conv2d`, `tf.nn.max_pool`, `tf.nn.avg_pool`) and from the ONNX
operator specification (`Conv`, `MaxPool`, `AveragePool`), for any number of spatial axes.

How the products of a window are added up (in which order and with which rounding) is not fixed: `acc` is any function of what is read at every
kernel position and channel. The same function is used on both sides.
-/
namespace Verif.Conv
open Verif.Tensor

/-- A multi-index or a shape from the batch, spatial and channel components, channels last (`N...C`) or first (`NC...`). -/
def mk (last : Bool) (n : Nat) (sp : List Nat) (c : Nat) : List Nat := if last then n :: (sp ++ [c]) else n :: c :: sp

/-- Spatial component `i`. -/
def spOf (last : Bool) (idx : List Nat) (i : Nat) : Nat := nth idx (if last then i + 1 else i + 2)

/-- Channel component, if there are `m` spatial axes. -/
def chOf (last : Bool) (m : Nat) (idx : List Nat) : Nat := nth idx (if last then m + 1 else 1)

/-- How a window moves over the image: for every spatial axis the size of the kernel, the step between windows, the step between the elements of a
window, and the number of elements added before and after the image. -/
structure Geom where
  kernel : List Nat
  strides : List Nat
  dilations : List Nat
  before : List Nat
  after : List Nat
  deriving DecidableEq

/-- Number of elements a dilated kernel spans. -/
def span (k d : Nat) : Nat := d * (k - 1) + 1

/-- Number of windows along axis `i`, if the image has length `n` there: as many as fit. -/
def Geom.outDim (g : Geom) (i n : Nat) : Nat :=
  (n + nth g.before i + nth g.after i + nth g.strides i - span (nth g.kernel i) (nth g.dilations i)) / nth g.strides i

/-- Position in the padded image, along axis `i`, of element `k` of window `o`. -/
def Geom.pos (g : Geom) (o k : Nat → Nat) (i : Nat) : Nat := o i * nth g.strides i + k i * nth g.dilations i

/-- An operator computed window by window. Element `(n, o, q)` of the result is `F q` of what the window at `o` reads from image `n`: at kernel position
`k` and channel `c` an element of the image, nothing outside of it. -/
def windowed {α β : Type} (last : Bool) (g : Geom) (cout : Nat) (F : Nat → (List Nat → Nat → Option α) → β) (x : T α) : T β :=
  let m := g.kernel.length
  { shape := mk last (nth x.shape 0) ((List.range m).map (fun i => g.outDim i (spOf last x.shape i))) cout
    get := fun idx => F (chOf last m idx) (fun k c =>
      let p := g.pos (spOf last idx) (nth k)
      if InB g.kernel k ∧ c < chOf last m x.shape ∧ ∀ i, i < m → nth g.before i ≤ p i ∧ p i - nth g.before i < spOf last x.shape i then
        some (x.get (mk last (nth idx 0) ((List.range m).map (fun i => p i - nth g.before i)) c))
      else none) }

/-- Accumulate over a window: `K` the size of the kernel, `C` the number of channels, and the pair (element of the image, weight) at every kernel position
and channel. -/
abbrev Acc (α : Type) := (K : List Nat) → (C : Nat) → (List Nat → Nat → α × α) → α

/-- Summarise a window: the size of the kernel and the elements read. -/
abbrev Pool (α : Type) := (K : List Nat) → (List Nat → Option α) → α

/-- What one output channel `q` of a grouped convolution with `cin` channels per group computes: it reads the channels of its group (`per` output channels
make a group) and multiplies with the weights `w k c`. -/
def convAt {α : Type} (acc : Acc α) (zero : α) (K : List Nat) (cin per : Nat) (w : List Nat → Nat → Nat → α) (q : Nat) (r : List Nat → Nat → Option α) : α :=
  acc K cin (fun k c => if InB K k ∧ c < cin then ((r k (q / per * cin + c)).getD zero, w k c q) else (zero, zero))

/-! ## TensorFlow -/

/-- TensorFlow's padding. `explicit` gives (before, after) for every axis of the image, in the order of its layout. -/
inductive TfPad
  | same
  | valid
  | explicit (l : List (Nat × Nat))
  deriving DecidableEq

/-- (before, after) of `SAME` along an axis of length `n`, for a kernel that spans `f` and a stride `s`. -/
def tfSamePad (n f s : Nat) : Nat × Nat :=
  let total := if n % s = 0 then f - s else f - n % s
  (total / 2, total - total / 2)

/-- (before, after) along spatial axis `i`. -/
def TfPad.at (p : TfPad) (last : Bool) (shape k s d : List Nat) (i : Nat) : Nat × Nat :=
  match p with
  | .same => tfSamePad (spOf last shape i) (span (nth k i) (nth d i)) (nth s i)
  | .valid => (0, 0)
  | .explicit l => l.getD (if last then i + 1 else i + 2) (0, 0)

/-- The windows of a TensorFlow operator with kernel `k`, strides `s` and dilations `d` along the spatial axes. -/
def tfGeom (p : TfPad) (last : Bool) (shape k s d : List Nat) : Geom :=
  ⟨k, s, d, (List.range k.length).map (fun i => (p.at last shape k s d i).1), (List.range k.length).map (fun i => (p.at last shape k s d i).2)⟩

/-- Spatial part of an attribute like `strides`, which has an entry for every axis of the image. -/
def spatialPart (last : Bool) (m : Nat) (l : List Nat) : List Nat := (List.range m).map (spOf last l)

/-- `tf.nn.convolution`: kernel `w` of shape `spatial ++ [channels of a group, output channels]`. The input may have several groups of channels. -/
def tfConv {α : Type} (acc : Acc α) (zero : α) (last : Bool) (p : TfPad) (strides dilations : List Nat) (x w : T α) : T α :=
  let m := w.shape.length - 2
  let k := w.shape.take m
  let cin := nth w.shape m
  let cout := nth w.shape (m + 1)
  let groups := chOf last m x.shape / cin
  windowed last (tfGeom p last x.shape k (spatialPart last m strides) (spatialPart last m dilations)) cout
    (convAt acc zero k cin (cout / groups) (fun k c q => w.get (k ++ [c, q]))) x

/-- `tf.nn.depthwise_conv2d`: kernel `w` of shape `[h, w, channels, multiplier]`; output channel `c * multiplier + j` is channel `c` of the input convolved
with `w[.., .., c, j]`. -/
def tfDepthwise {α : Type} (acc : Acc α) (zero : α) (last : Bool) (p : TfPad) (strides dilations : List Nat) (x w : T α) : T α :=
  let m := w.shape.length - 2
  let k := w.shape.take m
  let mult := nth w.shape (m + 1)
  windowed last (tfGeom p last x.shape k (spatialPart last m strides) (spatialPart last m dilations)) (nth w.shape m * mult)
    (fun q r => acc k 1 (fun k' c => if InB k k' ∧ c < 1 then ((r k' (q / mult)).getD zero, w.get (k' ++ [q / mult, q % mult])) else (zero, zero))) x

/-- `tf.nn.max_pool`, `tf.nn.avg_pool`: every channel on its own; only elements of the image count. -/
def tfPool {α : Type} (pool : Pool α) (last : Bool) (m : Nat) (p : TfPad) (ksize strides : List Nat) (x : T α) : T α :=
  let k := spatialPart last m ksize
  windowed last (tfGeom p last x.shape k (spatialPart last m strides) (List.replicate m 1)) (chOf last m x.shape)
    (fun q r => pool k (fun k' => r k' q)) x

/-! ## ONNX -/

/-- Attributes of `Conv`, `MaxPool` and `AveragePool`. `auto_pad` is `NOTSET` or `SAME_UPPER`; `ceil_mode`, `count_include_pad` and `storage_order` have
their default 0. -/
structure Attrs where
  sameUpper : Bool := false
  kernelShape : Option (List Int) := none
  strides : Option (List Int) := none
  dilations : Option (List Int) := none
  pads : Option (List Int) := none
  group : Int := 1
  deriving DecidableEq

/-- A list of `m` naturals, not less than `lo`, from an attribute that is `dflt` everywhere if it is absent. -/
def natAttr (m lo dflt : Nat) : Option (List Int) → Option (List Nat)
  | none => some (List.replicate m dflt)
  | some l => if l.length = m ∧ ∀ z ∈ l, (lo : Int) ≤ z then some (l.map Int.toNat) else none

/-- (before, after) of `SAME_UPPER`: such that there are `out = ceil(n / s)` windows: `(out - 1) * s + f - n` elements, but not less than 0; if their number
is odd the extra one comes at the end. -/
def sameUpperPad (n f s : Nat) : Nat × Nat :=
  let out := (n + s - 1) / s
  let total := out * s + f - (n + s)
  (total / 2, total - total / 2)

/-- The windows of an ONNX operator with kernel `k`; `dim` are the dimensions of the image. -/
def Attrs.geom (a : Attrs) (k : List Nat) (dim : Nat → Nat) : Option Geom :=
  let m := k.length
  match natAttr m 1 1 a.strides, natAttr m 1 1 a.dilations, natAttr (2 * m) 0 0 a.pads with
  | some s, some d, some p =>
    if a.sameUpper then
      -- "pads cannot be used simultaneously with auto_pad"
      if a.pads.isSome then none
      else
        let e := fun i => sameUpperPad (dim i) (span (nth k i) (nth d i)) (nth s i)
        some ⟨k, s, d, (List.range m).map (fun i => (e i).1), (List.range m).map (fun i => (e i).2)⟩
    else some ⟨k, s, d, p.take m, p.drop m⟩
  | _, _, _ => none

/-- ONNX `Conv` of `x : [N, C, ...]` with `w : [M, C / group, ...]`, without bias: none if the model is not valid. -/
def onnxConv {α : Type} (acc : Acc α) (zero : α) (a : Attrs) (x w : T α) : Option (T α) :=
  let k := w.shape.drop 2
  let cin := nth w.shape 1
  let cout := nth w.shape 0
  if 2 ≤ w.shape.length ∧ x.shape.length = w.shape.length ∧ (∀ l, a.kernelShape = some l → l = k.map Int.ofNat) ∧ 1 ≤ a.group ∧
      (nth x.shape 1 : Int) = cin * a.group ∧ (cout : Int) % a.group = 0 then
    (a.geom k (fun i => nth x.shape (i + 2))).map (fun g =>
      windowed false g cout (convAt acc zero k cin (cout / a.group.toNat) (fun k c q => w.get (q :: c :: k))) x)
  else none

/-- ONNX `MaxPool` and `AveragePool`. -/
def onnxPool {α : Type} (pool : Pool α) (a : Attrs) (x : T α) : Option (T α) :=
  match a.kernelShape with
  | none => none
  | some l =>
    if x.shape.length = l.length + 2 ∧ ∀ z ∈ l, 1 ≤ z then
      let k := l.map Int.toNat
      (a.geom k (fun i => nth x.shape (i + 2))).map (fun g => windowed false g (nth x.shape 1) (fun q r => pool k (fun k' => r k' q)) x)
    else none

end Verif.Conv
