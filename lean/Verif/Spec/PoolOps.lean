import Verif.Spec.Semantics
import Verif.Spec.TensorOps
/-!
# Reading the values of a graph as tensors; global pooling, upsampling

Written from the ONNX operator specification, independently of `tf2onnx`.
-/
namespace Verif.Tensor
open Verif Verif.Graph

/-- How the values of a graph are read: as tensors, which determine them, and, for vectors of integers, as lists. -/
structure Reading (V α : Type) where
  ten : V → T α
  ints : V → Option (List Int)
  ext : ∀ a b, Same (ten a) (ten b) → a = b

/-- All axes but the first two. -/
def spatial : Nat → Bool := fun i => 2 ≤ i

/-- ONNX `GlobalAveragePool`, `GlobalMaxPool` of a tensor N x C x D1 x D2 ..: for every n and c the mean, or the largest, of the elements
at (n, c, ..); the result is N x C x 1 x 1 ... -/
def globalPool {α : Type} (f : Multiset α → α) (x : T α) : T α :=
  { shape := x.shape.take 2 ++ List.replicate (x.shape.length - 2) 1
    get := fun idx => f (Multiset.map x.get (((allIdx x.shape).filter (fun j => nth j 0 = nth idx 0 ∧ nth j 1 = nth idx 1)) : List (List Nat))) }

/-- The meaning of the operators the pooling optimizer deals with, in operator set `v`; `mean` and `max` of a collection of elements. -/
structure PoolOps {V α : Type} (v : Nat) (R : Reading V α) (I : Interp V) (mean max : Multiset α → α) : Prop where
  const : ∀ attr (W : Graph.Tensor), attr.get "value" = some (.tensor W) → W.dtype = 7 → W.dims = [W.data.length] →
    R.ints (I "Const" "" attr [] 0) = some W.data
  /-- axes as an attribute; `keepdims` is 1 by default -/
  reduce : ∀ op f, (op = "ReduceMean" ∧ f = mean ∨ op = "ReduceMax" ∧ f = max) → ∀ attr (l : List Int) a, attr.get "axes" = some (.ints l) → l ≠ [] →
    (∀ z ∈ l, -((R.ten a).shape.length : Int) ≤ z ∧ z < (R.ten a).shape.length) →
    (attr.get "keepdims" = none ∨ (∃ k, k ≠ 0 ∧ attr.get "keepdims" = some (.int k)) →
      Same (R.ten (I op "" attr [some a] 0)) (reduceKeep f (fun i => (l.map (normAxis (R.ten a).shape.length)).contains i) (R.ten a))) ∧
    (attr.get "keepdims" = some (.int 0) →
      Same (R.ten (I op "" attr [some a] 0)) (reduceDrop f (fun i => (l.map (normAxis (R.ten a).shape.length)).contains i) (R.ten a)))
  /-- no axes: all are reduced -/
  reduceAll : ∀ op f, (op = "ReduceMean" ∧ f = mean ∨ op = "ReduceMax" ∧ f = max) → ∀ attr a, attr.get "axes" = some (.ints []) →
    (attr.get "keepdims" = none ∨ (∃ k, k ≠ 0 ∧ attr.get "keepdims" = some (.int k)) →
      Same (R.ten (I op "" attr [some a] 0)) (reduceKeep f (fun _ => true) (R.ten a)))
  pool : ∀ op f, (op = "GlobalAveragePool" ∧ f = mean ∨ op = "GlobalMaxPool" ∧ f = max) → ∀ attr a, 2 ≤ (R.ten a).shape.length →
    Same (R.ten (I op "" attr [some a] 0)) (globalPool f (R.ten a))
  squeezeAttr : ∀ attr (l : List Int) a, v < 13 → attr.get "axes" = some (.ints l) → l ≠ [] →
    (∀ z ∈ l, 0 ≤ z ∧ z < (R.ten a).shape.length ∧ nth (R.ten a).shape z.toNat = 1) →
    Same (R.ten (I "Squeeze" "" attr [some a] 0)) (squeeze (fun i => (l.map Int.toNat).contains i) (R.ten a))
  squeezeIn : ∀ attr (l : List Int) a b, 13 ≤ v → R.ints b = some l → l ≠ [] →
    (∀ z ∈ l, 0 ≤ z ∧ z < (R.ten a).shape.length ∧ nth (R.ten a).shape z.toNat = 1) →
    Same (R.ten (I "Squeeze" "" attr [some a, some b] 0)) (squeeze (fun i => (l.map Int.toNat).contains i) (R.ten a))

/-- ONNX `Upsample`: dimension `i` becomes `floor(d * scale_i)`, and position `k` of the result shows the operand at position `k / scale_i`,
which `interp` (nearest neighbour or linear interpolation) extends to positions between elements. -/
def upsample {α : Type} (interp : T α → List Rat → α) (scales : List Rat) (x : T α) : T α :=
  { shape := (List.range x.shape.length).map (fun i => ((nth x.shape i : Rat) * scales.getD i 1).floor.toNat)
    get := fun idx => interp x ((List.range x.shape.length).map (fun i => (nth idx i : Rat) / scales.getD i 1)) }

/-- At the position of an element the interpolation shows the element: true of both modes. -/
def Interpolates {α : Type} (interp : T α → List Rat → α) : Prop :=
  ∀ x idx, InB x.shape idx → interp x (idx.map (fun k : Nat => (k : Rat))) = x.get idx

/-- Nearest neighbour. -/
def nearest {α : Type} (x : T α) (p : List Rat) : α := x.get (p.map (fun q => q.floor.toNat))

/-- The meaning of the operators the upsampling optimizer deals with, in operator set `v`. `decode` reads a stored tensor of floats, `floats` a value
of the graph. -/
structure UpsampleOps {V α : Type} (v : Nat) (R : Reading V α) (I : Interp V) (floats : V → Option (List Rat))
    (decode : Graph.Tensor → Option (List Rat)) (interp : T α → List Rat → α) : Prop where
  const : ∀ attr W, attr.get "value" = some (.tensor W) → floats (I "Const" "" attr [] 0) = decode W
  identity : ∀ attr a, I "Identity" "" attr [some a] 0 = a
  scalesAttr : ∀ attr W s a, v ≤ 8 → attr.get "scales" = some (.tensor W) → decode W = some s →
    Same (R.ten (I "Upsample" "" attr [some a] 0)) (upsample interp s (R.ten a))
  scalesIn : ∀ attr s a b, 9 ≤ v → floats b = some s →
    Same (R.ten (I "Upsample" "" attr [some a, some b] 0)) (upsample interp s (R.ten a))

end Verif.Tensor
