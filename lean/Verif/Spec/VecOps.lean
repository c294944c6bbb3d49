import Verif.Spec.SegmentOps
/-!
# ONNX operators on vectors

Vectors are lists, matrices of indices lists of rows. After the ONNX operator specification; none where it gives no result. An operand that is a vector
of length 1 and serves as a single number is a number here.
-/
namespace Verif.Vec
open Verif.Tensor Verif.Emit Verif.Seg

/-- `CumSum` of a vector. -/
def cumsum (l : List Int) : List Int := (List.range l.length).map (fun k => (l.take (k + 1)).sum)

/-- `CumSum` with `exclusive = 1`. -/
def cumsumExcl (l : List Int) : List Int := (List.range l.length).map (fun k => (l.take k).sum)

/-- `Compress` along axis 0. -/
def compress {β : Type} (l : List β) (b : List Bool) : Option (List β) :=
  if b.length ≤ l.length then some (((l.zip b).filter (fun p => p.2)).map (fun p => p.1)) else none

/-- `Mod` of all elements by one number. -/
def modBy (l : List Int) (d : Int) : Option (List Int) := if l = [] ∨ d ≠ 0 then some (l.map (fun a => Int.fmod a d)) else none

/-- `Div` of all elements by one number: integer division rounds towards zero. -/
def divBy (l : List Int) (d : Int) : Option (List Int) := if l = [] ∨ d ≠ 0 then some (l.map (fun a => Int.tdiv a d)) else none

/-- `Gather` along axis 0 by a vector. -/
def gather {β : Type} (l : List β) (ix : List Int) : Option (List β) :=
  ix.mapM (fun i => if -(l.length : Int) ≤ i ∧ i < l.length then l[posOf l.length i]? else none)

/-- An element-wise operator on two vectors: of the same length, or one of them has one element only. -/
def zip2 {β γ δ : Type} (f : β → γ → δ) (a : List β) (b : List γ) : Option (List δ) :=
  if a.length = b.length then some (List.zipWith f a b)
  else match a, b with
    | [x], b => some (b.map (f x))
    | a, [y] => some (a.map (fun x => f x y))
    | _, _ => none

/-- `ConstantOfShape` with a vector of one element as shape. -/
def fill {β : Type} (c : β) (n : Int) : Option (List β) := if 0 ≤ n then some (List.replicate n.toNat c) else none

/-- `Unique`: second output, the first position of each of the different elements. -/
def uniqueFirst (l : List Int) : List Int := (uniqueVal l).map (fun a => (l.idxOf a : Int))

/-- `Concat` along axis 1 of two matrices with the same number of rows. -/
def hcat (a b : List (List Int)) : Option (List (List Int)) := if a.length = b.length then some (List.zipWith (· ++ ·) a b) else none

/-- A vector as a matrix with one column (`Unsqueeze` with axis 1). -/
def column (l : List Int) : List (List Int) := l.map (fun a => [a])

/-- `ReduceMin` over axis 1, `keepdims = 0`; all rows have `d` elements, `d` > 0. -/
def rowMin (m : List (List Int)) : Option (List Int) := m.mapM List.min?

/-- `ScatterND`: the rows of `ix` address slices of `x`, which are replaced by the slices of `upd`. -/
def scatterSlices {β : Type} (d : Nat) (x : T β) (ix : List (List Int)) (upd : T β) : Option (T β) :=
  match ix.mapM (placeOf (x.shape.take d)) with
  | none => none
  | some ps =>
    if d ≤ x.shape.length ∧ upd.shape = ps.length :: x.shape.drop d ∧ ps.Nodup then
      some ⟨x.shape, fun i => if i.take d ∈ ps then upd.get (ps.idxOf (i.take d) :: i.drop d) else x.get i⟩
    else none

/-- `ScatterElements` of a vector along axis 0. -/
def scatter {β : Type} (x : List β) (ix : List Int) (upd : List β) : Option (List β) :=
  if ix.length = upd.length ∧ (∀ i ∈ ix, -(x.length : Int) ≤ i ∧ i < x.length) ∧ (ix.map (posOf x.length)).Nodup then
    some (x.mapIdx (fun i a => (upd[(ix.map (posOf x.length)).idxOf i]?).getD a)) else none

/-- `ReduceProd` of a vector. -/
def reduceProd (l : List Int) : Int := l.foldr (· * ·) 1

/-- `MatMul` of a vector and a vector. -/
def dot (a b : List Int) : Option Int := if a.length = b.length then some (List.zipWith (· * ·) a b).sum else none

/-- `Compress` of a tensor along axis 0: the slices with a true condition. -/
def compressT {β : Type} (x : T β) (b : List Bool) : Option (T β) :=
  if x.shape ≠ [] ∧ b.length = nth x.shape 0 then
    let keep := (List.range b.length).filter (fun k => b.getD k false)
    some ⟨keep.length :: x.shape.tail, fun i => x.get (nth keep (nth i 0) :: i.tail)⟩
  else none

end Verif.Vec
