import Verif.Spec.PatternOps
import Mathlib.Algebra.BigOperators.Group.List.Basic
import Mathlib.Data.Rat.Floor
/-!
# What scans, masks, generators and choices mean

The TensorFlow operators `Cumprod`, `MatrixBandPart`, `Select`, `SelectV2`, `Range`, `InvertPermutation`, `RandomShuffle`, `RandomUniformInt`, `OnesLike`, `ZerosLike`
and the ONNX operators their conversions are made of, written after their documentation.
-/
namespace Verif.Scan
open Verif.Tensor Verif.Emit

/-! ## TensorFlow -/

/-- `tf.ones_like`, `tf.zeros_like`. -/
def tfLike {α β : Type} (c : β) (x : T α) : T β := ⟨x.shape, fun _ => c⟩

/-- Element `j` of a cumulative product multiplies element `k`. -/
def scans (exclusive reverse : Bool) (j k : Nat) : Bool :=
  match exclusive, reverse with
  | false, false => decide (k ≤ j)
  | true, false => decide (k < j)
  | false, true => decide (j ≤ k)
  | true, true => decide (j < k)

/-- The positions that element `j` of a cumulative product along an axis of length `d` multiplies. -/
def scanned (exclusive reverse : Bool) (d j : Nat) : List Nat := (List.range d).filter (scans exclusive reverse j)

/-- `tf.math.cumprod` along axis `a`. -/
def tfCumprod {α : Type} [CommMonoid α] (exclusive reverse : Bool) (a : Nat) (x : T α) : T α :=
  ⟨x.shape, fun i => ((scanned exclusive reverse (nth x.shape a) (nth i a)).map (fun k => x.get (setAt i a k))).prod⟩

/-- Row `m`, column `n` is kept by `tf.linalg.band_part`; a negative bound keeps everything on its side. -/
def InBand (lower upper : Int) (m n : Nat) : Prop := (lower < 0 ∨ (m : Int) - n ≤ lower) ∧ (upper < 0 ∨ (n : Int) - m ≤ upper)

instance (l u : Int) (m n : Nat) : Decidable (InBand l u m n) := inferInstanceAs (Decidable (_ ∧ _))

/-- `tf.linalg.band_part` of the matrices in the two last axes. -/
def tfBandPart {α : Type} (zero : α) (lower upper : Int) (x : T α) : T α :=
  ⟨x.shape, fun i => if InBand lower upper (nth i (x.shape.length - 2)) (nth i (x.shape.length - 1)) then x.get i else zero⟩

/-- `tf.where` of TensorFlow 2 (`SelectV2`): the three operands broadcast. -/
def tfSelectV2 {α : Type} (c : T Bool) (x y : T α) : Option (T α) :=
  (zipT Prod.mk x y).bind (fun p => zipT (fun (c : Bool) (q : α × α) => if c then q.1 else q.2) c p)

/-- `Select` of TensorFlow 1: the operands have the same shape, the condition has that shape, is a single truth value or has one for each row. -/
def tfSelect {α : Type} (c : T Bool) (x y : T α) : Option (T α) :=
  if x.shape = y.shape then
    if c.shape = x.shape then some ⟨x.shape, fun i => if c.get i then x.get i else y.get i⟩
    else if c.shape = [] then some ⟨x.shape, fun i => if c.get [] then x.get i else y.get i⟩
    else if c.shape = [nth x.shape 0] ∧ 1 ≤ x.shape.length then some ⟨x.shape, fun i => if c.get [nth i 0] then x.get i else y.get i⟩
    else none
  else none

/-- `tf.range`: `start + k * delta` for all `k` as long as that has not reached the limit. -/
def IsRange {K : Type} [Field K] [LinearOrder K] (start limit delta : K) (l : List K) : Prop :=
  (∀ k (h : k < l.length), l[k] = start + k * delta) ∧
    ∀ k : Nat, k < l.length ↔ (0 < delta ∧ start + k * delta < limit) ∨ (delta < 0 ∧ limit < start + k * delta)

/-- `tf.math.invert_permutation`. -/
def IsInverse (x y : List Int) : Prop := y.length = x.length ∧ ∀ i j : Nat, x[i]? = some (j : Int) ↔ y[j]? = some (i : Int)

/-- `y` consists of the rows of `x`, row `i` being row `σ[i]` of `x`. -/
def Shuffled {α : Type} (x y : T α) (σ : List Nat) : Prop :=
  y.shape = x.shape ∧ ∀ i, InB x.shape i → y.get i = x.get (setAt i 0 (nth σ (nth i 0)))

/-! ## ONNX -/

/-- `Loop` with a trip count, a condition that stays true and the state `s`; a body that gives no result gives none. -/
def loopN {S : Type} (body : Nat → S → Option S) (s : S) : Nat → Option S
  | 0 => some s
  | n + 1 => (loopN body s n).bind (body n)

/-- `Loop` with a scan output. -/
def loopScan {S γ : Type} (body : S → S × γ) : Nat → S → List γ
  | 0, _ => []
  | n + 1, s => (body s).2 :: loopScan body n (body s).1

/-- `TopK` of a vector `l` with `k` = its length `n`, `largest = 1`, `sorted = 1`: the positions, largest element first, of equal elements the one in front first. -/
def topkDesc {K : Type} [LinearOrder K] (n : Nat) (l : Nat → K) : List Nat := (List.range n).mergeSort (fun i j => decide (l j ≤ l i))

/-- `RandomUniform` and `RandomUniformLike` with the draw `u`, a number from 0 to 1 (exclusive) for each element. -/
def uniform (u : List Nat → ℚ) (low high : ℚ) (s : List Nat) : T ℚ := ⟨s, fun i => low + u i * (high - low)⟩

/-- ONNX `Where`. -/
def onnxWhere {α : Type} (c : T Bool) (x y : T α) : Option (T α) :=
  (zipT Prod.mk x y).bind (fun p => zipT (fun (c : Bool) (q : α × α) => if c then q.1 else q.2) c p)

/-- A tensor is mapped element by element. -/
def mapT {α β : Type} (f : α → β) (x : T α) : T β := ⟨x.shape, fun i => f (x.get i)⟩

end Verif.Scan
