import Mathlib.Algebra.BigOperators.Group.List.Basic
import Mathlib.Order.Defs.LinearOrder
/-!
# Greedy decoding of sequences (CTC): what TensorFlow computes
-/
namespace Verif.Greedy

/-- Class `m` is the best of `C` classes: the first of the largest. -/
structure IsBest {K : Type} [LinearOrder K] (C : Nat) (l : Nat → K) (m : Nat) : Prop where
  range : m < C
  largest : ∀ j, j < C → l j ≤ l m
  first : ∀ j, j < m → l j < l m

/-- What is decoded from the best classes of the steps, one after the other: a class is written unless it is blank or, when repetitions are merged, the class of the step before. -/
def decode (merge : Bool) (blank : Nat) : Option Nat → List Nat → List Nat
  | _, [] => []
  | prev, m :: ms => if m = blank ∨ (merge = true ∧ prev = some m) then decode merge blank (some m) ms else m :: decode merge blank (some m) ms

/-- The result of `tf.nn.ctc_greedy_decoder`: a sparse matrix with the decoded sequences as rows (the places of its elements, its elements, its shape), and for every sequence the negated
sum of the largest logits. -/
structure Decoded (K : Type) where
  indices : List (Nat × Nat)
  values : List Nat
  shape : Nat × Nat
  neg : List K
  deriving DecidableEq

/-- The sparse matrix with the rows `rows`. -/
def sparseRows (rows : List (List Nat)) : List (Nat × Nat) := rows.zipIdx.flatMap (fun r => (List.range r.1.length).map (fun j => (r.2, j)))

/-- `tf.nn.ctc_greedy_decoder` of logits `x time batch class` with `B` sequences of lengths `len` and `C` classes, the last one blank. `best`: the best classes. -/
def tfDecode {K : Type} [AddCommGroup K] (merge : Bool) (B C : Nat) (len : Nat → Nat) (x : Nat → Nat → Nat → K) (best : Nat → Nat → Nat) : Decoded K :=
  let rows := (List.range B).map (fun b => decode merge (C - 1) none ((List.range (len b)).map (fun t => best t b)))
  { indices := sparseRows rows
    values := rows.flatten
    shape := (B, (rows.map List.length).foldr max 0)
    neg := (List.range B).map (fun b => -((List.range (len b)).map (fun t => x t b (best t b))).sum) }

end Verif.Greedy
