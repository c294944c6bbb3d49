import Verif.Spec.Tensor
/-!
# Ragged tensors

A ragged tensor is a list of lists of ... of leaves: `Nest α k` has `k` levels of lists. Its usual encoding is a vector of row splits for every level but
the outermost and the vector of the leaves.
-/
namespace Verif.Ragged
open Verif.Tensor

/-- `k` levels of lists around leaves. -/
@[reducible] def Nest (α : Type) : Nat → Type
  | 0 => α
  | k + 1 => List (Nest α k)

/-- Row lengths, level by level. -/
def lens {α : Type} : (k : Nat) → List (Nest α k) → List (List Nat)
  | 0, _ => []
  | k + 1, l => let rows : List (List (Nest α k)) := l; rows.map List.length :: lens k rows.flatten

/-- The leaves, in order. -/
def leaves {α : Type} : (k : Nat) → List (Nest α k) → List α
  | 0, l => l
  | k + 1, l => let rows : List (List (Nest α k)) := l; leaves k rows.flatten

/-- Where each leaf is: the positions in the lists around it, outermost first. -/
def paths {α : Type} : (k : Nat) → Nest α k → List (List Nat)
  | 0, _ => [[]]
  | k + 1, l => let rows : List (Nest α k) := l; rows.zipIdx.flatMap (fun p => (paths k p.1).map (p.2 :: ·))

/-- Look up a leaf. -/
def lookup {α : Type} : (k : Nat) → Nest α k → List Nat → Option α
  | 0, a, [] => some a
  | k + 1, l, i :: p => let rows : List (Nest α k) := l; (rows[i]?).bind (fun r => lookup k r p)
  | _, _, _ => none

/-- The smallest box around a ragged tensor: its number of rows and, for each level, its longest row. -/
def box {α : Type} (k : Nat) (l : List (Nest α k)) : List Nat := l.length :: (lens k l).map (fun r => r.foldr max 0)

/-- Row splits: where each row starts, and where the last one ends. -/
def splits (l : List Nat) : List Int := (List.range (l.length + 1)).map (fun k => ((l.take k).sum : Int))

/-- Row ids: for every element the number of its row. -/
def rowIds (l : List Nat) : List Int := l.zipIdx.flatMap (fun p => List.replicate p.1 (p.2 : Int))

/-- The dense tensor: what is not in the ragged one is the default. The leaves may be tensors themselves, of dimensions `u`. -/
def dense {β : Type} (k : Nat) (t : Nest (List Nat → β) k) (default : β) (dims u : List Nat) : T β :=
  { shape := dims ++ u, get := fun i => ((lookup k t (i.take k)).map (fun f => f (i.drop k))).getD default }

/-- The numbers from `start` in steps of `delta` (not 0) that are before `limit`. -/
def rangeOf (start limit delta : Int) : List Int :=
  let n := if 0 < delta then (limit - start + delta - 1) / delta else (start - limit - delta - 1) / -delta
  (List.range n.toNat).map (fun k : Nat => start + k * delta)

end Verif.Ragged
