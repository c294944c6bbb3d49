import Verif.Spec.Greedy
import Verif.Spec.Stack
import Mathlib.Algebra.Ring.Defs
/-!
# Model: `CTCGreedyDecoder` (tf2onnx/onnx_opset/nn.py:2002-2096)

`none`: the emitted operators do not accept their operands. Simplified: tensors of a known number of axes are functions of their indices together with their sizes (`x` with the sizes
`T`, `B`, `C`), transposed, squeezed and unsqueezed ones are read at the moved index; flat tensors are lists; numbers are elements of an ordered ring (no infinities, no NaN).
-/
namespace Verif.Greedy

variable {K : Type} [Ring K] [LinearOrder K]

/-- The steps within the sequence (nn.py:2032-2033): `Less` of the numbers of the steps and the lengths. -/
def valid (len : Nat → Nat) (t b : Nat) : Bool := decide (t < len b)

/-- The logits with zeros behind the end of the sequence (nn.py:2035-2037): the mask as numbers, and a product. -/
def validInp (len : Nat → Nat) (x : Nat → Nat → Nat → K) (t b c : Nat) : K := x t b c * (if valid len t b then 1 else 0)

/-- `TopK` with one element over the classes (nn.py:2040-2041). -/
def maxIdx (C : Nat) (len : Nat → Nat) (x : Nat → Nat → Nat → K) (t b : Nat) : Nat := (Stack.topk C 1 (validInp len x t b)).getD 0 0

/-- The best classes, moved by one step, with -1 in front (nn.py:2058-2066). -/
def shifted (m : Nat → Nat → Nat) (t b : Nat) : Int := if t = 0 then -1 else (m (t - 1) b : Int)

/-- The steps that are kept (nn.py:2053-2069). -/
def keep (merge : Bool) (blank : Int) (len : Nat → Nat) (m : Nat → Nat → Nat) (b t : Nat) : Bool :=
  let k := decide ((m t b : Int) < blank) && valid len t b
  if merge then k && !decide (shifted m t b = (m t b : Int)) else k

/-- `CumSum` with `exclusive` over the steps (nn.py:2073-2074). -/
def filteredTime (k : Nat → Nat → Bool) (b t : Nat) : Nat := ((List.range t).map (fun u => if k b u then 1 else 0)).sum

/-- `Reshape` of a matrix to a list (nn.py:2076-2081). -/
def flat {β : Type} (B T : Nat) (f : Nat → Nat → β) : List β := (List.range B).flatMap (fun b => (List.range T).map (f b))

/-- `Compress` of a list. -/
def compress {β : Type} (xs : List β) (cond : List Bool) : List β := ((xs.zip cond).filter Prod.snd).map Prod.fst

/-- `ReduceMax` over the first axis: not defined over nothing. -/
def reduceMax : List Nat → Option Nat
  | [] => none
  | x :: xs => some (xs.foldl max x)

/-- `CTCGreedyDecoder.version_11` (nn.py:2005-2096). `float`: the logits are of type `float`, that of the mask. -/
def ctcGreedyDecoder (float merge : Bool) (T B C : Nat) (len : Nat → Nat) (x : Nat → Nat → Nat → K) : Option (Decoded K) :=
  let m := maxIdx C len x
  let k := keep merge ((C : Int) - 1) len m
  let kf := flat B T k
  let sparse := compress ((flat B T (fun b _ => b)).zip (flat B T (filteredTime k))) kf
  if float = true ∧ 1 ≤ C then
    (reduceMax (sparse.map Prod.snd)).map (fun mt =>
      { indices := sparse
        values := compress (flat B T (fun b t => m t b)) kf
        shape := (B, mt + 1)
        neg := (List.range B).map (fun b => -((List.range T).map (fun t => validInp len x t b (m t b))).sum) })
  else none

end Verif.Greedy
