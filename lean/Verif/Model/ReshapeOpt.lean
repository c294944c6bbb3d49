import Verif.Model.Symbolic
/-!
# Model of `tf2onnx/optimizer/reshape_optimizer.py`: the decision of `_optimize_reshape`

What is modelled: the symbolic feed for the `Shape` consumers, the classification of the symbolic target shape, the new
constant shape and the shift, and the test that gives up. The graph surgery is described by the returned plan: `Reshape`
gets the constant shape; for `shift > 0` the output goes through `Squeeze(axes = 0..shift-1)`, for `shift < 0` the data
comes through `Unsqueeze(axes = 0..-shift-1)`.
-/
namespace Verif.ReshapeOpt
open Verif.Tensor Verif.Symbolic

/-- `is_const`, `is_single_var`, `has_multiple_terms` (tf2onnx/symbolic_executor.py:37-47). -/
def isConst (s : Sym) : Bool := s.terms.length = 0
def isSingleVar (s : Sym) : Bool := s.terms.length = 1 ∧ s.const = 1
def hasMultipleTerms (s : Sym) : Bool := !isConst s && !isSingleVar s

/-- The symbolic shape fed for every `Shape` consumer of the data (tf2onnx/optimizer/reshape_optimizer.py:51-59):
unknown dimension `i` becomes variable `i`. -/
def symbolicShape (inpShape : List Int) : T Sym :=
  { shape := [inpShape.length]
    get := fun idx =>
      let d := inpShape.getD (nth idx 0) 0
      if d = -1 then Sym.fromVariable (nth idx 0) else Sym.fromConst d }

/-- The feed (tf2onnx/optimizer/reshape_optimizer.py:49-59): `shapeOuts` are the outputs of the `Shape` consumers. -/
def makeFeed (inpShape : List Int) (shapeOuts : List String) : Dict String Val :=
  shapeOuts.foldl (fun d out => d.set out (.sym (symbolicShape inpShape))) []

/-- `get_shift` (tf2onnx/optimizer/reshape_optimizer.py:76-79). -/
def getShift (v : Sym) (i : Nat) : Option Int :=
  if isSingleVar v then some ((v.terms.headD 0 : Nat) - (i : Int)) else none

/-- `get_reshape_dim` (tf2onnx/optimizer/reshape_optimizer.py:84-90). -/
def getReshapeDim (v : Sym) (i : Nat) (shift : Int) : Int :=
  if isConst v then v.const
  else if getShift v i = some shift then 0
  else -1

/-- `Counter(..).most_common(1)` (tf2onnx/optimizer/reshape_optimizer.py:82-83): among the most frequent elements the one
that occurs first; `cand` are the candidates still to look at. -/
def mostCommonLoop (l : List Int) : List Int → Option Int → Option Int
  | [], best => best
  | a :: cand, none => mostCommonLoop l cand (some a)
  | a :: cand, some b => mostCommonLoop l cand (if l.count b < l.count a then some a else some b)

def mostCommon (l : List Int) : Option Int := mostCommonLoop l l none

/-- `enumerate`. -/
def enumFrom {α β : Type} (f : α → Nat → β) : List α → Nat → List β
  | [], _ => []
  | a :: l, i => f a i :: enumFrom f l (i + 1)

/-- The new shape and shift (tf2onnx/optimizer/reshape_optimizer.py:70-91): constants and a -1 if at most one dimension is
not constant, otherwise zeros for the dimensions that are copied with the most popular shift. -/
def planPair (syms : List Sym) : List Int × Int :=
  if (syms.filter isSingleVar).length + (syms.filter hasMultipleTerms).length ≤ 1 then
    (syms.map (fun v => if isConst v then v.const else -1), 0)
  else
    (enumFrom (fun v i => getReshapeDim v i ((mostCommon ((enumFrom getShift syms 0).filterMap id)).getD 0)) syms 0,
      (mostCommon ((enumFrom getShift syms 0).filterMap id)).getD 0)

/-- The new shape and shift before the squeeze is accounted for, `none` if the reshape is left alone
(tf2onnx/optimizer/reshape_optimizer.py:64-93). -/
def plan (syms : List Sym) : Option (List Int × Int) :=
  if (syms.filter hasMultipleTerms).length > 1 then none
  else if (planPair syms).1.count (-1) > 1 then none else some (planPair syms)

/-- The constant that becomes the shape operand (tf2onnx/optimizer/reshape_optimizer.py:95-97, 103): with a positive
shift ones are put in front. -/
def constShape (p : List Int × Int) : List Int := if p.2 > 0 then List.replicate p.2.toNat 1 ++ p.1 else p.1

/-- The check that gives up after all (tf2onnx/optimizer/reshape_optimizer.py:104-106). -/
def mismatch (inpShape : List Int) (p : List Int × Int) : Bool := inpShape = [-1] ∧ (constShape p).length > 1

/-- `_optimize_reshape` (tf2onnx/optimizer/reshape_optimizer.py:43-117) on the symbolic target shape: the constant shape
and the shift of the rewritten reshape; `none`: not rewritten. `outShape` is the recorded shape of the output: with a
positive shift `[1] * shift + None` raises if it is unknown. -/
def optimizeReshape (inpShape : List Int) (outShape : Option (List Int)) (syms : List Sym) :
    Except String (Option (List Int × Int)) :=
  match plan syms with
  | none => .ok none
  | some p =>
    if p.2 > 0 ∧ outShape = none then .error "TypeError: can only concatenate list (not \"NoneType\") to list"
    else if mismatch inpShape p then .ok none
    else .ok (some (constShape p, p.2))

end Verif.ReshapeOpt
