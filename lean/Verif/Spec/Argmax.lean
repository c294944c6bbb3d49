import Verif.Spec.Conv
import Verif.Spec.OnnxEval
/-!
# The largest elements of windows, with their positions: what TensorFlow and ONNX compute
-/
namespace Verif.Argmax
open Verif.Tensor Verif.Conv

variable {α : Type}

/-- Which element of a window is taken: `K` the size of the window, the elements of the image in it. -/
abbrev Choice (α : Type) := (K : List Nat) → (List Nat → Option α) → List Nat

/-- An element is taken if there is one. -/
def Chooses (ch : Choice α) : Prop := ∀ (K : List Nat) (f : List Nat → Option α), (∃ k, InB K k ∧ f k ≠ none) → f (ch K f) ≠ none

/-- A better element than the one found so far: strictly larger. -/
def better [LinearOrder α] (f : List Nat → Option α) (best : Option (List Nat)) (k : List Nat) : Option (List Nat) :=
  match f k, best.bind f with
  | some v, some b => if b < v then some k else best
  | some _, none => some k
  | none, _ => best

/-- The first of the largest elements, row by row. -/
def firstMax [LinearOrder α] : Choice α := fun K f => ((allIdx K).foldl (better f) none).getD []

/-- An image whose elements carry a number. -/
def labelled (l : List Nat → Nat) (x : T α) : T (Nat × α) := ⟨x.shape, fun i => (l i, x.get i)⟩

/-- The element taken, with its number. -/
def pick (ch : Choice α) (d : Nat × α) : Pool (Nat × α) := fun K f => (f (ch K (fun k => (f k).map Prod.snd))).getD d

/-- TensorFlow's number of an element: `((n * height + y) * width + x) * channels + c`, the batch left out unless it is included. -/
def tfLabel (batch : Bool) (s i : List Nat) : Nat := if batch then lin s i else lin (s.drop 1) (i.drop 1)

/-- `tf.nn.max_pool_with_argmax`: the elements taken, with their numbers. -/
def tfMaxArg (ch : Choice α) (d : Nat × α) (batch : Bool) (p : TfPad) (ksize strides : List Nat) (x : T α) : T (Nat × α) :=
  tfPool (pick ch d) true 2 p ksize strides (labelled (tfLabel batch x.shape) x)

/-- ONNX `MaxPool` with both results: the numbers are positions in the whole tensor, row by row. -/
def onnxMaxArg (ch : Choice α) (d : Nat × α) (a : Attrs) (x : T α) : Option (T (Nat × α)) := onnxPool (pick ch d) a (labelled (lin x.shape) x)

/-- A tensor, element by element. -/
def mapT {β : Type} (f : α → β) (x : T α) : T β := ⟨x.shape, fun i => f (x.get i)⟩

end Verif.Argmax
