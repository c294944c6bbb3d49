import Verif.Spec.Einsum
import Mathlib.Data.List.Sort
/-!
# Model of tf2onnx/optimizer/einsum_optimizer.py

`decompose` is `decompose_einsum_equation` (1436-1557): what `Einsum` nodes are replaced by. Nodes are modelled as a tree (`Sub`): every node the
code makes is used once, except for the `*_mm` nodes that only serve to update the bookkeeping of the dimensions and are removed again by
`clean_unused_nodes` (1087-1130); the bookkeeping (`rows`) is modelled. None: the code raises an exception, which the optimizer driver turns into
"graph unchanged".
-/
namespace Verif.Einsum
open Verif.Tensor
open Verif.Emit (instDecidableInB)

/-! ## Reading the equation -/

/-- A parsed equation. -/
structure Eqn where
  ins : List (List Char)
  out : List Char
  deriving DecidableEq, Repr

/-- `str.strip(chars)`. -/
def strip (p : Char → Bool) (l : List Char) : List Char := ((l.dropWhile p).reverse.dropWhile p).reverse

/-- `str.split(c)` for one character. -/
def splitC (c : Char) : List Char → List (List Char)
  | [] => [[]]
  | x :: l =>
    if x = c then [] :: splitC c l
    else match splitC c l with
      | [] => [[x]]
      | h :: t => (x :: h) :: t

/-- `str.split("->")`. -/
def splitArrow : List Char → List (List Char)
  | [] => [[]]
  | [x] => [[x]]
  | x :: y :: l =>
    if x = '-' ∧ y = '>' then [] :: splitArrow l
    else match splitArrow (y :: l) with
      | [] => [[x]]
      | h :: t => (x :: h) :: t

/-- The letters an equation may have (1398-1402), in the order in which `sorted` (1397) puts them. -/
def alphabet : List Char := "ABCDEFGHIJKLMNOPQRSTUVWXYZabcdefghijklmnopqrstuvwxyz".toList

/-- `letters` (1391-1397): the letters of the operands, sorted. -/
def lettersOf (ins : List (List Char)) : List Char := alphabet.filter (fun c => ins.any (fun t => t.contains c))

/-- `analyse_einsum_equation` (1384-1408): the terms; a side is missing, a character is not a letter or the output has an unknown letter: raises. -/
def analyse (eq : List Char) : Option Eqn :=
  match splitArrow (strip (fun c => c = ' ' || c = ',') eq) with
  | [l, r] =>
    let ins := (splitC ',' l).map (strip Char.isWhitespace)
    if l ≠ [] ∧ r ≠ [] ∧ (∀ t ∈ ins, ∀ c ∈ t, c ∈ alphabet) ∧ (∀ c ∈ r, c ∈ lettersOf ins) then some ⟨ins, r⟩ else none
  | _ => none

/-- A row of `mat` (1409-1414): for every letter the (last) position it has in the term, -1 if it has none. -/
def rowOf (letters term : List Char) : List Int :=
  letters.map (fun c => if c ∈ term then ((term.length - 1 - term.reverse.idxOf c : Nat) : Int) else -1)

/-! ## The operations -/

/-- `EinsumSubOp` (244-940) and the operands they apply to. -/
inductive Sub where
  /-- an operand of the `Einsum` node -/
  | inp (i : Nat)
  | ident (x : Sub)
  | expand (axes : List Nat) (x : Sub)
  | transpose (perm : List Nat) (x : Sub)
  | reduceSum (axes : List Nat) (x : Sub)
  | mul (x y : Sub)
  /-- `batched`: `get_dot_kind` (909-934) is `1N` or `NN` -/
  | batchDot (batch sum left right : List Nat) (batched : Bool) (fd : Nat) (x y : Sub)
  | squeeze (axes : List Nat) (x : Sub)
  deriving DecidableEq, Repr

/-- Component of a row. -/
def rget (r : List Int) (i : Nat) : Int := r.getD i (-1)

/-- `list.sort()` of pairs. -/
def sortPairs (l : List (Int × Nat)) : List (Int × Nat) := l.insertionSort (fun a b => a.1 < b.1 ∨ a.1 = b.1 ∧ a.2 ≤ b.2)

/-- `is_transpose_identity` (1560-1567) guards every transpose. -/
def mkTranspose (perm : List Nat) (x : Sub) : Sub := if perm = List.range perm.length then x else .transpose perm x

/-- `_compute_output_row_transpose` (345-360). -/
def permRow (perm : List Nat) (r : List Int) : List Int := perm.map (rget r)

/-- The letters that a row has, in order (the loops over `row` of 1593-1598, 1620-1624). -/
def present (row : List Int) : List Nat := (List.range row.length).filter (fun i => rget row i ≠ -1)

/-- The letters that a row has not. -/
def absent (row : List Int) : List Nat := (List.range row.length).filter (fun i => rget row i = -1)

/-- `perm` sorted (1592-1601, 1619-1625): the letters in the order of the positions in `row`. -/
def byPos (row : List Int) : List Nat := (sortPairs ((present row).map (fun i => (rget row i, i)))).map (·.2)

/-- `new_perm` of `_apply_transpose_reshape` (1602-1608): `new_perm[perm[p][1]] = i` for the `p`-th letter `i` that is there. -/
def alignPerm (row : List Int) : List Nat :=
  (List.range row.length).map (fun j => if j ∈ byPos row then nth (present row) ((byPos row).idxOf j) else j)

/-- `new_perm` of `_apply_squeeze_transpose` (1626-1632): `new_perm[i] = perm[p][1]` for the `p`-th letter `i` that is there. -/
def outPerm (row : List Int) : List Nat :=
  (List.range row.length).map (fun j => if j ∈ present row then nth (byPos row) ((present row).idxOf j) else j)

/-- Operand `i` with all letters as axes, in order (1757-1780, `_apply_transpose_reshape` 1582-1611), and its row. -/
def align (i : Nat) (row : List Int) : Sub × List Int :=
  (mkTranspose (alignPerm row) (.expand (absent row) (.ident (.inp i))),
   if alignPerm row = List.range (alignPerm row).length then row else permRow (alignPerm row) row)

/-- `mat[i + 1:, d].max() >= 0`: letter `d` occurs later. -/
def usedLater (later : List (List Int)) (d : Nat) : Bool := later.any (fun r => decide (0 ≤ rget r d))

/-- Set the entries at the axes to -1 (`_compute_output_row_reduce_sum`, 389-397). -/
def dropRow (axes : List Nat) (r : List Int) : List Int := (List.range r.length).map (fun d => if d ∈ axes then -1 else rget r d)

/-- A reduction over letters, if there are any. -/
def mkReduce (red : List Nat) (p : Sub × List Int) : Sub × List Int := if red = [] then p else (.reduceSum red p.1, dropRow red p.2)

/-- Letters of the operand that occur nowhere else (1783-1787). -/
def deadLetters (n : Nat) (later : List (List Int)) (r0 r1 : List Int) : List Nat :=
  (List.range n).filter (fun d => !usedLater later d && decide (rget r1 d ≠ -1) && decide (rget r0 d = -1))

/-- Both rows have the letter. -/
def inBoth (r0 r1 : List Int) (d : Nat) : Bool := decide (0 ≤ min (rget r0 d) (rget r1 d))

/-- `left`, `right`, `common_dims` (1795-1812). -/
def leftOf (n : Nat) (later : List (List Int)) (r0 r1 : List Int) : List Nat :=
  (List.range n).filter (fun d => if inBoth r0 r1 d then usedLater later d else decide (0 ≤ rget r0 d))
@[inherit_doc leftOf] def rightOf (n : Nat) (later : List (List Int)) (r0 r1 : List Int) : List Nat :=
  (List.range n).filter (fun d => if inBoth r0 r1 d then usedLater later d else decide (0 ≤ rget r1 d))
@[inherit_doc leftOf] def axesOf (n : Nat) (later : List (List Int)) (r0 r1 : List Int) : List Nat :=
  (List.range n).filter (fun d => inBoth r0 r1 d && !usedLater later d)

/-- `common_axes` (1668-1673). -/
def commonOf (n : Nat) (left right axes : List Nat) : List Nat :=
  (List.range n).filter (fun i => (left.contains i && right.contains i) || (!left.contains i && !right.contains i && !axes.contains i))

/-- `perm` (1691-1695): common axes first, axes that are summed last. -/
def dotPerm (n : Nat) (common axes : List Nat) : List Nat :=
  (sortPairs ((List.range n).map (fun i => ((if i ∈ common then -1 else if i ∈ axes then 1 else 0 : Int), i)))).map (·.2)

/-- `ordered_axes` (1722-1725). -/
def orderedAxes (n : Nat) (left right common : List Nat) : List Nat :=
  common ++ left.filter (fun i => !right.contains i) ++ right.filter (fun i => !left.contains i) ++
    (List.range n).filter (fun i => !left.contains i && !right.contains i && !common.contains i)

/-- `rev_perm` (1726-1728). -/
def revPerm (ordered : List Nat) : List Nat := (sortPairs (ordered.mapIdx (fun (i : Nat) (a : Nat) => ((a : Int), i)))).map (·.2)

/-- `np.maximum` of two rows. -/
def maxRow (r0 r1 : List Int) : List Int := List.zipWith max r0 r1

/-- The positions in `perm` of the axes in `l` (`perm_left`, `perm_right`, 1696-1697). -/
def posIn (perm l : List Nat) : List Nat := (List.range perm.length).filter (fun i => l.contains (nth perm i))

/-- `_compute_output_row_batch_dot` (463-481). -/
def dotRow (sum right : List Nat) (r0 r1 : List Int) : List Int :=
  (List.range r1.length).map (fun d => if d ∈ sum ∧ d ∉ right then -1 else max (rget r0 d) (rget r1 d))

/-- The branch of `_apply_einsum_matmul` (1664-1734) with a product: the two operands `op1` and `op2`, their rows (after the transposes), and the
lists. -/
def dotStep (n : Nat) (left right axes : List Nat) (op1 op2 : Sub) (r0 r1 : List Int) : Sub × List Int :=
  let common := commonOf n left right axes
  let perm := dotPerm n common axes
  let r0 := permRow perm r0
  let r1 := permRow perm r1
  let batch := List.range common.length
  let sum := (List.range n).drop (n - axes.length)
  let pl := posIn perm left
  let pr := posIn perm right
  let batched := batch.any (fun k => decide (rget r1 k ≠ -1))
  let rev := revPerm (orderedAxes n left right common)
  (mkTranspose rev (.batchDot batch sum pl pr batched n (mkTranspose perm op1) (mkTranspose perm op2)), permRow rev (dotRow sum pr r0 r1))

/-- Letters that would have to be summed before the product (`right_no_left`, `left_no_right`, 1676-1688). -/
def onlyHere (row : List Int) (a b axes : List Nat) : List Nat :=
  a.filter (fun d => decide (0 ≤ rget row d) && !b.contains d && !axes.contains d)

/-- `_apply_einsum_matmul` (1642-1735) for `op_matmul = 'batch_dot'`; `reduce_sum` in the second reduction (1686-1688) is refused by
`compute_output_row` (389-392), lists that overlap are refused (1735-1739). -/
def matmulStep (n : Nat) (left right axes : List Nat) (op1 op2 : Sub) (r0 r1 : List Int) : Option (Sub × List Int) :=
  if axes = [] ∧ (∀ d ∈ left, d ∉ right) then some (.mul op1 op2, maxRow r0 r1)
  else if (∀ d ∈ axes, d ∉ left) ∧ (∀ d ∈ axes, d ∉ right) then
    if onlyHere r1 left right axes = [] then
      let p := mkReduce (onlyHere r0 right left axes) (op1, r0)
      some (dotStep n left right axes p.1 op2 p.2 r1)
    else none
  else none

/-- One operand (1753-1822): the result so far `last` and its row `r0`. -/
def operand (n i : Nat) (later : List (List Int)) (row : List Int) (last : Option Sub) (r0 : List Int) : Option (Sub × List Int) :=
  let a := align i row
  let p := mkReduce (deadLetters n later r0 a.2) a
  match last with
  | none => some p
  | some op1 => matmulStep n (leftOf n later r0 p.2) (rightOf n later r0 p.2) (axesOf n later r0 p.2) op1 p.1 r0 p.2

/-- The loop over the operands (1753-1822). -/
def operands (n : Nat) (outRow : List Int) : Nat → List (List Int) → Option Sub → List Int → Option (Option Sub × List Int)
  | _, [], last, r0 => some (last, r0)
  | i, row :: rows, last, r0 =>
    match operand n i (rows ++ [outRow]) row last r0 with
    | none => none
    | some p => operands n outRow (i + 1) rows (some p.1) p.2

/-- The final output (1825-1845): `rows[0, d] > 0` is what the code tests. -/
def finalOut (n : Nat) (outRow : List Int) (op : Sub) (r0 : List Int) : Option Sub :=
  if ∃ d ∈ List.range n, rget r0 d = -1 ∧ 0 ≤ rget outRow d then none
  else
    let red := (List.range n).filter (fun d => decide (0 < rget r0 d) && decide (rget outRow d = -1))
    let op := if red = [] then op else .reduceSum red op
    let op := mkTranspose (outPerm outRow) op
    some (if absent outRow = [] then op else .squeeze (absent outRow) op)

/-- `_decompose_einsum_equation` (1737-1847). An operand with a repeated letter leads to a `diagonal` node, for which `to_onnx` raises (895-899). -/
def decomposeRaw (e : Eqn) : Option Sub :=
  if ∃ t ∈ e.ins, ¬ t.Nodup then none
  else
    let letters := lettersOf e.ins
    let n := letters.length
    let outRow := rowOf letters e.out
    match operands n outRow 0 (e.ins.map (rowOf letters)) none (List.replicate n (-1)) with
    | some (some op, r0) => finalOut n outRow op r0
    | _ => none

/-- Two transposes in a row become one, or none (`remove_duplicate_transpose`, 1233-1280: `perm[i] = perm1[perm2[i]]`); `x` has none left. -/
def mergeT (perm2 : List Nat) : Sub → Sub
  | .transpose perm1 x =>
    let perm := perm2.map (nth perm1)
    if perm = List.range perm.length then x else .transpose perm x
  | x => .transpose perm2 x

/-- `remove_duplicate_transpose` (1233-1280). The code merges pair after pair, in the order of the nodes, until there is none left. -/
def mergeAll : Sub → Sub
  | .inp i => .inp i
  | .ident x => .ident (mergeAll x)
  | .expand a x => .expand a (mergeAll x)
  | .transpose p x => mergeT p (mergeAll x)
  | .reduceSum a x => .reduceSum a (mergeAll x)
  | .mul x y => .mul (mergeAll x) (mergeAll y)
  | .batchDot b s l r k n x y => .batchDot b s l r k n (mergeAll x) (mergeAll y)
  | .squeeze a x => .squeeze a (mergeAll x)

/-- `decompose_einsum_equation` (1436-1557) of the equation. -/
def decompose (eq : List Char) : Option Sub :=
  match analyse eq with
  | none => none
  | some e =>
    match decomposeRaw e with
    | none => none
    | some s => some (mergeAll (.ident s))

/-! ## The equation that is decomposed -/

/-- One assignment of new letters (`_build_optimize_ml`, 2109-2113): `eq.replace(k, v.upper())` for one pair after the other, then `eq.lower()`. -/
def renameSeq (pairs : List (Char × Char)) (eq : List Char) : List Char :=
  (pairs.foldl (fun e kv => e.map (fun c => if c = kv.1 then kv.2.toUpper else c)) eq).map Char.toLower

/-- `letters` (2102-2103). -/
def lowerLetters (eq : List Char) : List Char := "abcdefghijklmnopqrstuvwxyz".toList.filter (fun c => eq.contains c)

/-- The equation for one permutation of the letters (2108-2113); which of the permutations is taken depends on a cost model (2114-2152) that is not
modelled: the theorems are about all of them. An equation with upper-case letters is refused (2099-2101). -/
def candidate (perm eq : List Char) : Option (List Char) :=
  if eq.map Char.toLower = eq then some (renameSeq (perm.zip (lowerLetters eq)) eq) else none

/-! ## The handler (tf2onnx/onnx_opset/math.py:837-882) -/

/-- `should_replace_with_matmul` (843-872) for an equation with an output: whether the node becomes a `MatMul`, and whether the second operand is
transposed. -/
def asMatmul (t1 t2 rhs : List Char) : Option Bool :=
  if t1.Nodup ∧ 2 ≤ t1.length ∧ t2.Nodup ∧ 2 ≤ t2.length ∧ rhs.Nodup ∧ 2 ≤ rhs.length ∧ t2.length = 2 then
    let i := rhs.getD (rhs.length - 2) ' '
    let j := rhs.getD (rhs.length - 1) ' '
    let ok (k : Char) : Bool := decide (t1.drop (t1.length - 2) = [i, k]) && decide (t1.take (t1.length - 2) = rhs.take (rhs.length - 2))
    if t2.getD 0 ' ' = j then (if ok (t2.getD 1 ' ') then some true else none)
    else if t2.getD 1 ' ' = j then (if ok (t2.getD 0 ' ') then some false else none)
    else none
  else none

/-- What the converted node is (837-882): an `Einsum` with the equation in lower case (841), or a `MatMul` (873-878). -/
inductive Converted where
  | einsum (eq : List Char)
  | matmul (transposed : Bool)
  deriving DecidableEq, Repr

/-- The handler, for an equation with an output. -/
def convert (eq : List Char) : Converted :=
  let eq := eq.map Char.toLower
  match splitArrow eq with
  | [l, r] =>
    match splitC ',' l with
    | [t1, t2] =>
      match asMatmul t1 t2 r with
      | some b => .matmul b
      | none => .einsum eq
    | _ => .einsum eq
  | _ => .einsum eq

/-! ## The nodes that the operations become -/

/-- Product of dimensions (the chains of `Shape`, `Gather` and `ReduceProd`, 664-753; the constant 1 if there are no axes). -/
def prodDims {α : Type} (x : T α) (axes : List Nat) : Int := (size (axes.map (nth x.shape)) : Nat)

/-- Dimensions (`Shape`, `Gather`). -/
def takeDims {α : Type} (x : T α) (axes : List Nat) : List Int := axes.map (fun a => (nth x.shape a : Int))

/-- `new_shape` (823-865). -/
def dotShape {α : Type} (batch left right : List Nat) (fd : Nat) (x y : T α) : List Int :=
  let l := left.filter (fun i => !batch.contains i)
  let r := right.filter (fun i => !batch.contains i)
  List.zipWith max (takeDims x batch) (takeDims y batch) ++ takeDims x l ++ takeDims y r ++
    List.replicate (fd - (batch.length + l.length + r.length)) 1

/-- The product: `Gemm` (755-784), or `MatMul` with the second operand transposed (785-814). -/
def dotProduct {α : Type} [CommSemiring α] (batch sum : List Nat) (batched : Bool) (x y : T α) : Option (T α) :=
  if batched then
    match reshapeTo [prodDims x batch, -1, prodDims x sum] x, reshapeTo [prodDims y batch, -1, prodDims y sum] y with
    | some x', some y' =>
      match transposeT [0, 2, 1] y' with
      | some y'' => matmul3 x' y''
      | none => none
    | _, _ => none
  else
    match reshapeTo [-1, prodDims x sum] x, reshapeTo [-1, prodDims y sum] y with
    | some x', some y' => gemmT x' y'
    | _, _ => none

/-- `_to_onnx_batch_dot` (638-878); refused before operator set 13 (641). The axes are those of the operands, `Gather` refuses others. -/
def batchDot {α : Type} [CommSemiring α] (v : Nat) (batch sum left right : List Nat) (batched : Bool) (fd : Nat) (x y : T α) : Option (T α) :=
  if 13 ≤ v ∧ ∀ a ∈ batch ++ sum ++ left ++ right, a < x.shape.length ∧ a < y.shape.length then
    match dotProduct batch sum batched x y with
    | some d => reshapeTo (dotShape batch left right fd x y) d
    | none => none
  else none

/-- What the converted node computes when it is a `MatMul`. -/
def runMatmul {α : Type} [CommSemiring α] (transposed : Bool) (x y : T α) : Option (T α) :=
  if transposed then (transposeT [1, 0] y).bind (matmulM x) else matmulM x y

/-- A tensor has no elements outside of its shape. -/
def canonT {α : Type} [CommSemiring α] (x : T α) : T α := ⟨x.shape, fun i => if InB x.shape i then x.get i else 0⟩

/-- The nodes of an operation, run on the operands of the `Einsum` node (`to_onnx`, 569-907). `expand_dims`, `squeeze` and `reduce_sum` are refused
before operator set 11 (578, 595, 619). -/
def Sub.run {α : Type} [CommSemiring α] (v : Nat) (xs : List (T α)) : Sub → Option (T α)
  | .inp i => xs[i]?.map canonT
  | .ident x => x.run v xs
  | .expand axes x => ((x.run v xs).bind (fun t => if 11 ≤ v then unsqueezeT axes t else none)).map canonT
  | .transpose perm x => ((x.run v xs).bind (transposeT perm)).map canonT
  | .reduceSum axes x => ((x.run v xs).bind (fun t => if 11 ≤ v then Einsum.reduceSum v axes t else none)).map canonT
  | .mul x y => ((x.run v xs).bind (fun a => (y.run v xs).bind (fun b => mulT a b))).map canonT
  | .batchDot b s l r k n x y => ((x.run v xs).bind (fun a => (y.run v xs).bind (fun c => Einsum.batchDot v b s l r k n a c))).map canonT
  | .squeeze axes x => ((x.run v xs).bind (fun t => if 11 ≤ v then squeezeT axes t else none)).map canonT

end Verif.Einsum
