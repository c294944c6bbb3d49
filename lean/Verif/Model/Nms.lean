import Verif.Spec.Nms
import Mathlib.Algebra.Order.Ring.Rat
/-!
# Model: `NonMaxSuppressionV2` to `V5` (tf2onnx/onnx_opset/tensor.py:1853-1961)

`Except.error`: the handler raises. `none`: the emitted operators do not accept their operands. Simplified: boxes and scores are functions of their numbers together with their count, vectors are
lists, numbers are elements of an ordered field.
-/
namespace Verif.Nms

variable {K : Type} [Field K] [LinearOrder K]

/-- What the handler reads. `version`: 2 to 5; `sigma`: the sixth input if there is one, its value (`none`: not a constant); `float`: boxes and scores are of type `float`. -/
structure NmsNode where
  opset : Nat
  version : Nat
  pad : Bool
  sigma : Option (Option ℚ)
  float : Bool

/-- The results: the selected boxes, their scores (version 5) and their number (versions 4 and 5). -/
structure Result (K : Type) where
  selected : List Nat
  scores : Option (List K)
  valid : Option Nat

/-- `make_sure` on `soft_nms_sigma` (tensor.py:1885-1886): `int` of the value is 0. -/
def sigmaOk (n : NmsNode) : Bool := match n.sigma with
  | none => true
  | some none => false
  | some (some v) => decide (-1 < v ∧ v < 1)

/-- Columns 2 to 3, squeezed (tensor.py:1889-1891). -/
def column (rows : List (List Nat)) : List Nat := rows.flatMap (fun r => (r.drop 2).take 1)

/-- How much is padded (tensor.py:1906-1909): a difference, through a float. -/
def padAmt (viaFloat : Int → Int) (k m : Nat) : Int := max (viaFloat ((k : Int) - m)) 0

/-- `Pad`, or `Concat` with zeros (tensor.py:1913-1920, 1928-1939). -/
def padTo {β : Type} (amt : Int) (z : β) (s : List β) : List β := s ++ List.replicate amt.toNat z

/-- `Gather` from the scores (tensor.py:1926, 1942): positions must exist. -/
def gatherScores (n : Nat) (score : Nat → K) (s : List Nat) : Option (List K) := if ∀ i ∈ s, i < n then some (s.map score) else none

/-- The scores of version 5 (tensor.py:1923-1943). -/
def scoresOut (viaFloat : Int → Int) (nd : NmsNode) (n k : Nat) (score : Nat → K) (s : List Nat) : Option (Option (List K)) :=
  if nd.version = 5 then (gatherScores n score s).map (fun g => some (if nd.pad then padTo (padAmt viaFloat k s.length) 0 g else g)) else some none

/-- `NonMaxSuppression.any_version` (tensor.py:1859-1947), operator sets from 10 on. One image and one class: both inputs get axes of length 1 in front (tensor.py:1874-1877). -/
def nonMaxSuppression (viaFloat : Int → Int) (nd : NmsNode) (n k : Nat) (box : Nat → Box K) (score : Nat → K) (iou : K) (least : Option K) : Except String (Option (Result K)) :=
  if !sigmaOk nd then .error "soft_nms_sigma must be 0"
  else if nd.pad && decide (nd.version < 4) then .error "local variable 'shape_op' referenced before assignment"
  else if nd.pad && decide (nd.version = 5) && decide (nd.opset ≤ 10) then .error "make_tensor: the type is a list"
  else if !nd.float then .ok none
  else
    let s := column (onnxNms 1 1 n k (fun _ => box) (fun _ _ => score) iou least)
    .ok ((scoresOut viaFloat nd n k score s).map (fun sc =>
      { selected := if nd.pad then padTo (padAmt viaFloat k s.length) 0 s else s
        scores := sc
        valid := if 4 ≤ nd.version then some s.length else none }))

/-! ## `CombinedNonMaxSuppression` (tensor.py:1964-2096) -/

/-- Component `a` of row `p`. -/
def comp (rows : List (List Nat)) (a p : Nat) : Nat := (rows.getD p []).getD a 0

/-- How many rows above row `p` belong to the same image (tensor.py:2030-2040): the exclusive running sum of the rows of a unit matrix, read at the image of the row. -/
def within (rows : List (List Nat)) (p : Nat) : Nat := ((List.range p).map (fun q => if comp rows 0 q == comp rows 0 p then 1 else 0)).sum

/-- Which row is written to place `j` of image `b` of the grid (tensor.py:2041, 2053-2054): `ScatterND` with the pairs of the image of a row and its number within the image. -/
def cell (rows : List (List Nat)) (b j : Nat) : Option Nat := (List.range rows.length).find? (fun p => comp rows 0 p == b && within rows p == j)

/-- The grid of scores (tensor.py:2043-2053). `score`: by image, box and class. -/
def gridScore (rows : List (List Nat)) (score : Nat → Nat → Nat → K) (b j : Nat) : K := match cell rows b j with
  | some p => score (comp rows 0 p) (comp rows 2 p) (comp rows 1 p)
  | none => 0

/-- The grid of row numbers (tensor.py:2050-2054). -/
def gridRow (rows : List (List Nat)) (b j : Nat) : Int := match cell rows b j with
  | some p => p
  | none => -1

/-- The results for image `b` (tensor.py:2056-2090). `kv`: how many are taken. -/
def combinedImage (clipBoxes : Bool) (rows : List (List Nat)) (box : Nat → Nat → Box K) (score : Nat → Nat → Nat → K) (width kv target b : Nat) : Combined K :=
  let t := Stack.topk width kv (gridScore rows score b)
  let idx := t.map (gridRow rows b) ++ List.replicate (target - kv) (-1)
  let boxes := rows.map (fun r => (if clipBoxes then clip else id) (box (r.getD 0 0) (r.getD 2 0)))
  { boxes := idx.map (fun i => ((⟨0, 0, 0, 0⟩ : Box K) :: boxes).getD (i + 1).toNat ⟨0, 0, 0, 0⟩)
    scores := t.map (gridScore rows score b) ++ List.replicate (target - kv) 0
    classes := idx.map (fun i => (0 :: rows.map (fun r => r.getD 1 0)).getD (i + 1).toNat 0)
    valid := (t.map (fun j => if -1 < gridRow rows b j then 1 else 0)).sum }

/-- `CombinedNonMaxSuppression.version_12` (tensor.py:1966-2096) of `B` images. `shared`: the known shape says that all classes have the same boxes. `ScatterND` needs places within the grid. -/
def combinedNms (shared clipBoxes perClass : Bool) (B C n k total : Nat) (box : Nat → Nat → Box K) (score : Nat → Nat → Nat → K) (iou : K) (least : Option K) : Except String (Option (Nat → Combined K)) :=
  if !shared then .error "CombinedNonMaxSuppression only currently implemented for boxes shared across classes."
  else
    let rows := onnxNms B C n k box (fun b c i => score b i c) iou least
    let width := k * C
    let kv := min total width
    if ∀ p, p < rows.length → within rows p < width then .ok (some (combinedImage clipBoxes rows box score width kv (if perClass then kv else total)))
    else .ok none

end Verif.Nms
