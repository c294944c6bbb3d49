import Verif.Spec.Conv
/-!
# Transposed convolution, in TensorFlow and in ONNX

Written from the TensorFlow documentation of `Conv2DBackpropInput`, `Conv3DBackpropInputV2` (the gradient of a convolution with respect to its image: this is
what `tf.nn.conv2d_transpose` is) and from the ONNX operator specification (`ConvTranspose` 1 and 11), for any number of spatial axes and one group.

As in `Spec/Conv`, how the products are added up is any function of the pairs (element, weight), one for every kernel position and channel.
-/
namespace Verif.Conv
open Verif.Tensor

/-- The window whose element `k` lies at position `p` of the image, along one axis: stride `s`, dilation `d`, `off` elements of padding before the image, `n`
windows. See `source_iff`. -/
def source (s d : Nat) (off : Int) (n p k : Nat) : Option Nat :=
  let t : Int := p + off - k * d
  if 0 ≤ t ∧ t % s = 0 ∧ t / s < n then some (t / s).toNat else none

/-- An operator that computes element `(n, p, c)` of an image with spatial dimensions `out` from the windows that cover `p`: `F c` of what is found at every
kernel position `k` and channel `q`: the element of `x` for the window whose element `k` lies at `p`, if there is one. -/
def gathered {α β : Type} (last : Bool) (K s d : List Nat) (off : Nat → Int) (out : List Nat) (cout : Nat) (F : Nat → (List Nat → Nat → Option α) → β) (x : T α) : T β :=
  let m := K.length
  { shape := mk last (nth x.shape 0) out cout
    get := fun idx => F (chOf last m idx) (fun k q =>
      let o := fun i => source (nth s i) (nth d i) (off i) (spOf last x.shape i) (spOf last idx i) (nth k i)
      if InB K k ∧ q < chOf last m x.shape ∧ ∀ i, i < m → (o i).isSome then
        some (x.get (mk last (nth idx 0) ((List.range m).map (fun i => (o i).getD 0)) q))
      else none) }

/-- What one channel `c` of the image gets: `C` the number of channels of the windows, `w k c q` the weights. -/
def backAt {α : Type} (acc : Acc α) (zero : α) (K : List Nat) (C : Nat) (w : List Nat → Nat → Nat → α) (c : Nat) (r : List Nat → Nat → Option α) : α :=
  acc K C (fun k q => if InB K k ∧ q < C then ((r k q).getD zero, w k c q) else (zero, zero))

/-- `Conv2DBackpropInput(sizes, w, y)`: the gradient of `tf.nn.convolution` with respect to its image of shape `sizes`. Kernel `w` of shape
`spatial ++ [channels of the image, channels of y]`. -/
def tfConvBackprop {α : Type} (acc : Acc α) (zero : α) (last : Bool) (p : TfPad) (strides dilations sizes : List Nat) (w y : T α) : T α :=
  let m := w.shape.length - 2
  let k := w.shape.take m
  let g := tfGeom p last sizes k (spatialPart last m strides) (spatialPart last m dilations)
  gathered last k g.strides g.dilations (fun i => (nth g.before i : Int)) (spatialPart last m sizes) (nth w.shape m)
    (backAt acc zero k (nth w.shape (m + 1)) (fun k c q => w.get (k ++ [c, q]))) y

/-- TensorFlow accepts the operands: `y` has the shape of the convolution of an image of shape `sizes`. -/
def BackpropValid {α : Type} (last : Bool) (p : TfPad) (strides dilations sizes : List Nat) (w y : T α) : Prop :=
  let m := w.shape.length - 2
  let k := w.shape.take m
  let g := tfGeom p last sizes k (spatialPart last m strides) (spatialPart last m dilations)
  2 ≤ w.shape.length ∧ y.shape.length = m + 2 ∧ sizes.length = m + 2 ∧ nth sizes 0 = nth y.shape 0 ∧ chOf last m sizes = nth w.shape m ∧
    chOf last m y.shape = nth w.shape (m + 1) ∧ ∀ i, i < m → spOf last y.shape i = g.outDim i (spOf last sizes i)

/-- Attributes of `ConvTranspose`. `auto_pad` is `NOTSET`, `group` 1 and `output_padding` 0 (their defaults). -/
structure TAttrs where
  kernelShape : Option (List Int) := none
  strides : Option (List Int) := none
  dilations : Option (List Int) := none
  pads : Option (List Int) := none
  outputShape : Option (List Int) := none
  deriving DecidableEq

/-- (begin, length) along an axis, from the length `full` without padding. With `output_shape` the total padding is `full - output_shape`; up to version 1 the
smaller half comes first if it is odd, from version 11 the larger one. -/
def TAttrs.axis (a : TAttrs) (version m : Nat) (full : Int) (i : Nat) : Int × Int :=
  match a.outputShape with
  | some o =>
    let total := full - o.getD i 0
    (if version < 11 then total / 2 else total - total / 2, o.getD i 0)
  | none =>
    let p := a.pads.getD []
    (p.getD i 0, full - p.getD i 0 - p.getD (i + m) 0)

/-- The operands of `pads` and `output_shape` are well-formed. The specification asks for pads that are not negative (`strict`); runtimes take others and add
elements instead of removing them. -/
def TAttrs.padsOk (a : TAttrs) (strict : Bool) (m : Nat) (full : Nat → Int) : Prop :=
  (∀ p, a.pads = some p → p.length = 2 * m ∧ (strict = true → ∀ z ∈ p, 0 ≤ z)) ∧
  (∀ o, a.outputShape = some o → a.pads = none ∧ o.length = m ∧ ∀ i, i < m → o.getD i 0 ≤ full i)

instance (a : TAttrs) (strict : Bool) (m : Nat) (full : Nat → Int) : Decidable (a.padsOk strict m full) := by
  unfold TAttrs.padsOk
  exact @instDecidableAnd _ _
    (match h : a.pads with
      | none => isTrue (fun p hp => by simp at hp)
      | some l => decidable_of_iff (l.length = 2 * m ∧ (strict = true → ∀ z ∈ l, 0 ≤ z)) ⟨fun hh p hp => by injection hp with hp; rw [← hp]; exact hh, fun hh => hh l rfl⟩)
    (match h : a.outputShape with
      | none => isTrue (fun p hp => by simp at hp)
      | some l => decidable_of_iff (a.pads = none ∧ l.length = m ∧ ∀ i, i < m → l.getD i 0 ≤ full i)
          ⟨fun hh p hp => by injection hp with hp; rw [← hp]; exact hh, fun hh => hh l rfl⟩)

/-- ONNX `ConvTranspose` of `x : [N, C, ...]` with `w : [C, M, ...]`, without bias: none if the model is not valid. -/
def onnxConvTranspose {α : Type} (acc : Acc α) (zero : α) (strict : Bool) (version : Nat) (a : TAttrs) (x w : T α) : Option (T α) :=
  let k := w.shape.drop 2
  let m := k.length
  if 2 ≤ w.shape.length ∧ x.shape.length = w.shape.length ∧ (∀ l, a.kernelShape = some l → l = k.map Int.ofNat) ∧ nth x.shape 1 = nth w.shape 0 then
    match natAttr m 1 1 a.strides, natAttr m 1 1 a.dilations with
    | some s, some d =>
      let full := fun i => (nth s i : Int) * ((nth x.shape (i + 2) : Int) - 1) + (span (nth k i) (nth d i) : Nat)
      if a.padsOk strict m full ∧ ∀ i, i < m → 0 ≤ (a.axis version m (full i) i).2 then
        some (gathered false k s d (fun i => (a.axis version m (full i) i).1) ((List.range m).map (fun i => (a.axis version m (full i) i).2.toNat)) (nth w.shape 1)
          (backAt acc zero k (nth w.shape 0) (fun k c q => w.get (q :: c :: k))) x)
      else none
    | _, _ => none
  else none

end Verif.Conv
