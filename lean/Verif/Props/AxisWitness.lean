import Verif.Props.ElemWitness
import Verif.Spec.AxisOps
/-!
# Operators as `ArrLaws`, `TfAxisOps`, `OnnxAxisOps` and `ConstOps` describe them
-/
namespace Verif.Graph
open Verif Verif.Elem Verif.Cast

/-- `m` first, then `i`. -/
def consIdx (m : Nat) (i : Nat → Nat) : Nat → Nat
  | 0 => m
  | k + 1 => i k

/-- `i` without its first number. -/
def tailIdx (i : Nat → Nat) : Nat → Nat := fun k => i (k + 1)

theorem consIdx_tail (i : Nat → Nat) : consIdx (i 0) (tailIdx i) = i := by
  funext k
  cases k <;> rfl

/-- Shape of a reduction; `p k` if the dimension with `k` dimensions before it is reduced. -/
def exRsh (keep : Bool) (p : Nat → Bool) : List Nat → List Nat
  | [] => []
  | n :: sh => if p sh.length then (if keep then 1 :: exRsh keep p sh else exRsh keep p sh) else n :: exRsh keep p sh

/-- The positions that are reduced to one. -/
def exCells (keep : Bool) (p : Nat → Bool) : List Nat → (Nat → Nat) → List (Nat → Nat)
  | [], i => [i]
  | n :: sh, i =>
    if p sh.length then (List.range n).flatMap (fun m => (exCells keep p sh (if keep then tailIdx i else i)).map (consIdx m))
    else (exCells keep p sh (tailIdx i)).map (consIdx (i 0))

theorem exRsh_none (keep : Bool) (p : Nat → Bool) (hp : ∀ k, p k = false) : ∀ sh, exRsh keep p sh = sh
  | [] => rfl
  | n :: sh => by simp [exRsh, hp, exRsh_none keep p hp sh]

theorem exCells_none (keep : Bool) (p : Nat → Bool) (hp : ∀ k, p k = false) : ∀ sh i, exCells keep p sh i = [i]
  | [], i => rfl
  | n :: sh, i => by simp [exCells, hp, exCells_none keep p hp sh, consIdx_tail]

/-- The number in a value. -/
def numOf : Val → ℚ
  | .num q => q
  | _ => 0

/-- Reductions. -/
def exRed (op : String) (l : List Val) : Val :=
  if op = "All" then bval (l.all (fun x => !vzero x))
  else if op = "Any" then bval (l.any (fun x => !vzero x))
  else
    match l with
    | [x] => x
    | [] => .num 0
    | x :: l =>
      if op = "Min" then l.foldl vmin x
      else if op = "Max" then l.foldl vmax x
      else if op = "Sum" then .num ((x :: l).map numOf).sum
      else if op = "Prod" then .num ((x :: l).map numOf).prod
      else .num (((x :: l).map numOf).sum / (l.length + 1))

/-- Sizes of the dimensions, first dimension first. -/
def dimsOf (a : Ten Val) : List Nat := a.sh.reverse

/-- The tensor has the target shape. -/
def fitsTarget (a : Ten Val) (l : List Int) : Bool :=
  l.length = a.rank && decide (l.count (-1) ≤ 1) && (List.range l.length).all (fun k => l.getD k 0 = -1 || l.getD k 0 = (a.size k : Int))

theorem fitsTarget_of {a : Ten Val} {l : List Int} (h1 : l.length = a.rank) (h2 : l.count (-1) ≤ 1)
    (h3 : ∀ (k : Nat) (z : Int), l[k]? = some z → z = -1 ∨ z = a.size k) : fitsTarget a l = true := by
  simp only [fitsTarget, Bool.and_eq_true, decide_eq_true_iff, List.all_eq_true, List.mem_range, Bool.or_eq_true]
  refine ⟨⟨h1, h2⟩, fun k hk => ?_⟩
  rw [List.getD_eq_getElem?_getD, List.getElem?_eq_getElem hk]
  exact h3 k _ (List.getElem?_eq_getElem hk)

/-- The number of a position in a shape, last dimension first. -/
def toFlat : List Nat → (Nat → Nat) → Nat
  | [], _ => 0
  | n :: sh, i => i 0 + n * toFlat sh (tailIdx i)

/-- The position with a number. -/
def ofFlat : List Nat → Nat → Nat → Nat
  | [], _ => fun _ => 0
  | n :: sh, m => consIdx (m % n) (ofFlat sh (m / n))

/-- The dimensions of a target shape, for `total` elements. -/
def targetDims (total : Nat) (l : List Int) : List Nat :=
  l.map (fun z => if z = -1 then total / ((l.filter (· ≠ -1)).map Int.toNat).prod else z.toNat)

/-- Reshape. -/
def exReshape (l : List Int) (a : Ten Val) : Ten Val :=
  if fitsTarget a l then a
  else ⟨a.dt, (targetDims a.sh.prod l).reverse, fun i => a.at_ (ofFlat a.sh (toFlat (targetDims a.sh.prod l).reverse i))⟩

/-- The element at `i` of several tensors one after the other in the dimension at `pos`. -/
def pick (pos : Nat) (i : Nat → Nat) : List (Ten Val) → Nat → Val
  | [], _ => .num 0
  | p :: ps, m => if m < dim p.sh pos then p.at_ (Function.update i pos m) else pick pos i ps (m - dim p.sh pos)

/-- Concatenation. -/
def exConcat (k : Nat) (as : List (Ten Val)) : Ten Val :=
  match as.filter (fun a => a.size k ≠ 0) with
  | [] => match as with
    | [] => Ten.scalar .float .nan
    | a :: _ => ⟨a.dt, a.sh, fun _ => .num 0⟩
  | p :: ps => ⟨p.dt, p.sh.set (p.rank - 1 - k) (((p :: ps).map (fun a => a.size k)).sum), fun i => pick (p.rank - 1 - k) i (p :: ps) (i (p.rank - 1 - k))⟩

open Classical in
/-- Array functions. What `ArrLaws` does not mention is chosen simply. -/
noncomputable def exArr : Arr where
  cells := fun keep s sh i => exCells keep (fun k => decide (k ∈ s)) sh i
  rsh := fun keep s sh => exRsh keep (fun k => decide (k ∈ s)) sh
  red := fun op _ l => exRed op l
  arg := fun _ k a => ⟨.int64, a.sh.eraseIdx (a.rank - 1 - k), fun _ => .num (0 : Nat)⟩
  squeeze := fun s a => ⟨a.dt, exRsh false (fun k => decide (k ∈ s)) a.sh, fun i => ((exCells false (fun k => decide (k ∈ s)) a.sh i).map a.get).headD .nan⟩
  unsqueeze := fun k a => ⟨a.dt, a.sh.insertIdx (a.rank - k) 1, fun i => a.at_ (fun j => if j < a.rank - k then i j else i (j + 1))⟩
  transpose := fun l a => ⟨a.dt, (l.map (fun k => a.size k)).reverse, fun i => a.at_ (fun j => i (l.length - 1 - l.idxOf (a.rank - 1 - j)))⟩
  concat := exConcat
  gather := fun _ a _ => a
  reshape := exReshape
  tile := fun _ a => a
  expand := fun _ a => a
  size := fun a => a.sh.prod
  scatter := fun _ a _ _ => a

theorem size_vec {a : Ten Val} {n : Nat} (h : a.sh = [n]) : a.size 0 = n := by simp [Ten.size, h]

theorem exReshape_holds {a : Ten Val} {l : List Int} {z : Int} (h : Holds a l) (hz : z = -1 ∨ z = 1 ∧ l.length = 1) :
    Holds (exReshape [z] a) l ∧ (exReshape [z] a).rank = 1 ∧ (exReshape [z] a).dt = a.dt := by
  rcases h with ⟨w, h1, rfl, h2⟩ | ⟨h1, h2⟩
  · have hnf : fitsTarget a [z] = false := by simp [fitsTarget, Ten.rank, h1]
    have hd : (targetDims a.sh.prod [z]).reverse = [1] := by
      rcases hz with rfl | ⟨rfl, -⟩ <;> simp [targetDims, h1]
    have hr : exReshape [z] a = ⟨a.dt, [1], fun i => a.at_ (fun _ => 0)⟩ := by
      rw [exReshape, if_neg (by simp [hnf]), hd, h1]
      rfl
    rw [hr]
    refine ⟨Or.inr ⟨rfl, fun k w' hk => ?_⟩, rfl, rfl⟩
    cases k with
    | zero => simp at hk; rw [← hk]; exact h2
    | succ k => simp at hk
  · have hf : fitsTarget a [z] = true := by
      refine fitsTarget_of (by simp [Ten.rank, h1]) ?_ ?_
      · exact (List.count_le_length).trans (by simp)
      · intro k w hk
        cases k with
        | zero =>
          simp at hk
          subst hk
          rw [size_vec h1]
          rcases hz with h | ⟨h, h'⟩
          · exact Or.inl h
          · exact Or.inr (by rw [h, h']; rfl)
        | succ k => simp at hk
    rw [exReshape, if_pos hf]
    exact ⟨Or.inr ⟨h1, h2⟩, by simp [Ten.rank, h1], rfl⟩

theorem sh_ext {a b : Ten Val} (hr : a.rank = b.rank) (h : ∀ j, a.size j = b.size j) : a.sh = b.sh := by
  apply List.reverse_injective
  apply List.ext_getElem (by simpa [Ten.rank] using hr)
  intro k h1 h2
  have := h k
  simpa [Ten.size, List.getElem?_eq_getElem h1, List.getElem?_eq_getElem h2] using this

theorem exConcat_drop (k : Nat) (l : List (Ten Val)) (a : Ten Val) (m : List (Ten Val)) (ha : a.size k = 0) (hne : l ++ m ≠ [])
    (hs : ∀ b ∈ l ++ m, b.dt = a.dt ∧ b.rank = a.rank ∧ ∀ j, j ≠ k → b.size j = a.size j) : exConcat k (l ++ a :: m) = exConcat k (l ++ m) := by
  have hf : (l ++ a :: m).filter (fun a => a.size k ≠ 0) = (l ++ m).filter (fun a => a.size k ≠ 0) := by
    simp [List.filter_append, ha]
  unfold exConcat
  rw [hf]
  cases hc : (l ++ m).filter (fun a => a.size k ≠ 0) with
  | cons p ps => rfl
  | nil =>
    cases l with
    | cons b l => rfl
    | nil =>
      cases m with
      | nil => exact absurd rfl hne
      | cons b m =>
        obtain ⟨h1, h2, h3⟩ := hs b (by simp)
        have hb : b.size k = 0 := by
          by_contra h0
          have : b ∈ ([] : List (Ten Val)) := by rw [← hc]; exact List.mem_filter.2 ⟨by simp, by simpa using h0⟩
          cases this
        have hsh : b.sh = a.sh := sh_ext h2 (fun j => by
          by_cases e : j = k
          · rw [e, hb, ha]
          · exact h3 j e)
        simp [h1, hsh]

theorem exArr_laws : ArrLaws exArr where
  none := fun keep sh => ⟨exRsh_none _ _ (by simp) sh, fun i => exCells_none _ _ (by simp) sh i⟩
  one := by
    intro op hop t x
    have h : op ≠ "All" ∧ op ≠ "Any" := (by decide : ∀ op ∈ redOps, op ≠ "All" ∧ op ≠ "Any") op hop
    simp [exArr, exRed, h]
  all := by intro l; simp [exArr, exRed]
  any := by intro l; simp [exArr, exRed]
  min := by
    intro t x l
    cases l <;> simp [exArr, exRed]
  sum := by
    intro t l _ hl
    have key : ∀ m : List Val, (∀ x ∈ m, x = .num 0 ∨ x = .num 1) → 0 ≤ (m.map numOf).sum ∧ (0 < (m.map numOf).sum ↔ Val.num 1 ∈ m) := by
      intro m
      induction m with
      | nil => intro _; simp
      | cons x m ih =>
        intro hm
        obtain ⟨i1, i2⟩ := ih (fun x hx => hm x (by simp [hx]))
        rcases hm x (by simp) with rfl | rfl
        · simp [numOf, i1, i2]
        · simp only [List.map_cons, List.sum_cons, numOf, List.mem_cons, true_or, iff_true]
          constructor <;> linarith
    obtain ⟨-, k2⟩ := key l hl
    match l, hl, k2 with
    | [], _, _ => exact ⟨0, by simp [exArr, exRed], by simp⟩
    | [x], hl, _ =>
      rcases hl x (by simp) with rfl | rfl
      · exact ⟨0, by simp [exArr, exRed], by simp⟩
      · exact ⟨1, by simp [exArr, exRed], by simp⟩
    | x :: y :: l, _, k2 => exact ⟨_, by simp [exArr, exRed], k2⟩
  arg := fun op k a h => ⟨rfl, fun i => ⟨0, rfl, Nat.pos_of_ne_zero h⟩⟩
  flat := fun a l h => exReshape_holds h (Or.inl rfl)
  flat1 := fun a z h => exReshape_holds h (Or.inr ⟨rfl, rfl⟩)
  drop := exConcat_drop
  same := by
    intro a l h1 h2 h3
    simp [exArr, exReshape, fitsTarget_of h1 h2 h3]

/-! ## Operators -/

open Classical in
/-- The integers a tensor holds. -/
noncomputable def held (a : Ten Val) : List Int := if h : ∃ l, Holds a l then Classical.choose h else []

theorem held_eq {a : Ten Val} {l : List Int} (h : Holds a l) : held a = l := by
  have he : ∃ l, Holds a l := ⟨l, h⟩
  rw [held, dif_pos he]
  exact (Classical.choose_spec he).inj h

/-- An integer attribute. -/
def intAttr (attr : Dict String Attr) (k : String) : Int := match attr.get k with
  | some (.int z) => z
  | _ => 0

/-- A list attribute; none if it is not there or empty. -/
def intsAttr (attr : Dict String Attr) (k : String) : List Int := match attr.get k with
  | some (.ints l) => l
  | _ => []

theorem intAttr_eq {attr : Dict String Attr} {k : String} {z : Int} (h : attr.get k = some (.int z)) : intAttr attr k = z := by simp [intAttr, h]

theorem intsAttr_eq {attr : Dict String Attr} {k : String} {z : List Int} (h : attr.get k = some (.ints z)) : intsAttr attr k = z := by simp [intsAttr, h]

theorem intsAttr_none {attr : Dict String Attr} {k : String} (h : attr.get k = none ∨ attr.get k = some (.ints [])) : intsAttr attr k = [] := by
  rcases h with h | h <;> simp [intsAttr, h]

/-- The tensors that are there. -/
def present (args : List (Option (Ten Val))) : List (Ten Val) := args.filterMap id

theorem present_map (as : List (Ten Val)) : present (as.map some) = as := by
  induction as with
  | nil => rfl
  | cons a as ih => simpa [present] using ih

/-- TensorFlow. -/
noncomputable def exTfAxis (op : String) (attr : Dict String Attr) (args : List (Option (Ten Val))) : Option (Ten Val) :=
  if op = "Concat" then
    match args with
    | some ax :: as => some (exArr.concat (axisOf ((present as).headD ax).rank ((held ax).headD 0)) (present as))
    | _ => none
  else if op = "ConcatV2" then
    match args.reverse with
    | some ax :: as => some (exArr.concat (axisOf ((present as.reverse).headD ax).rank ((held ax).headD 0)) (present as.reverse))
    | _ => none
  else
    match args with
    | [some a] =>
      if op = "Squeeze" then some (exArr.squeeze (if intsAttr attr "squeeze_dims" = [] then ones a else axisSet a.rank (intsAttr attr "squeeze_dims")) a)
      else if op = "EnsureShape" then some a
      else if op = "Size" then some (Ten.scalar (dtOf (intAttr attr "out_type")) (.num (exArr.size a)))
      else none
    | [some a, some b] =>
      if op ∈ ["Max", "Mean", "Min", "Prod", "Sum", "All", "Any"] then some (exArr.reduce op (intAttr attr "keep_dims" ≠ 0) (axisSet a.rank (held b)) a)
      else if op ∈ ["ArgMax", "ArgMin"] then
        some (if intAttr attr "output_type" = 6 then Ten.map .int32 id (exArr.arg op (axisOf a.rank ((held b).headD 0)) a)
          else exArr.arg op (axisOf a.rank ((held b).headD 0)) a)
      else if op = "ExpandDims" then some (exArr.unsqueeze (axisOf (a.rank + 1) ((held b).headD 0)) a)
      else if op = "Transpose" then some (exArr.transpose ((held b).map Int.toNat) a)
      else if op = "Gather" then some (exArr.gather 0 a b)
      else if op = "Reshape" then some (exArr.reshape (held b) a)
      else if op = "Tile" then some (exArr.tile (held b) a)
      else if op = "BroadcastTo" then some (exArr.expand (held b) a)
      else none
    | [some a, some b, some c] => if op = "GatherV2" then some (exArr.gather (axisOf a.rank ((held c).headD 0)) a b) else none
    | _ => none

/-- The reduction an ONNX operator is. -/
def redName (op : String) : Option String := redOps.find? (fun r => "Reduce" ++ r = op)

theorem redName_eq : ∀ op ∈ redOps, redName ("Reduce" ++ op) = some op := by decide

/-- ONNX. -/
noncomputable def exOnnxAxis (op : String) (attr : Dict String Attr) (args : List (Option (Ten Val))) : Option (Ten Val) :=
  if op = "Concat" then
    some (exArr.concat (axisOf ((present args).headD (Ten.scalar .float .nan)).rank (intAttr attr "axis")) (present args))
  else
    match redName op with
    | some q =>
      match args with
      | [some a] =>
        some (exArr.reduce q (intAttr attr "keepdims" ≠ 0) (if intsAttr attr "axes" = [] then {j | j < a.rank} else axisSet a.rank (intsAttr attr "axes")) a)
      | [some a, some b] => some (if held b = [] then a.self else exArr.reduce q (intAttr attr "keepdims" ≠ 0) (axisSet a.rank (held b)) a)
      | _ => none
    | none =>
      match args with
      | [some a] =>
        if op ∈ ["ArgMax", "ArgMin"] then some (exArr.arg op (axisOf a.rank (intAttr attr "axis")) a)
        else if op = "Squeeze" then some (exArr.squeeze (if intsAttr attr "axes" = [] then ones a else axisSet a.rank (intsAttr attr "axes")) a)
        else if op = "Unsqueeze" then some (exArr.unsqueeze (axisOf (a.rank + 1) ((intsAttr attr "axes").headD 0)) a)
        else if op = "Transpose" then some (exArr.transpose ((intsAttr attr "perm").map Int.toNat) a)
        else if op = "Size" then some (Ten.scalar .int64 (.num (exArr.size a)))
        else none
      | [some a, some b] =>
        if op = "Squeeze" then some (exArr.squeeze (axisSet a.rank (held b)) a)
        else if op = "Unsqueeze" then some (exArr.unsqueeze (axisOf (a.rank + 1) ((held b).headD 0)) a)
        else if op = "Gather" then some (exArr.gather (axisOf a.rank (intAttr attr "axis")) a b)
        else if op = "Reshape" then some (exArr.reshape (copyZeros a (held b)) a)
        else if op = "Tile" then some (exArr.tile (held b) a)
        else if op = "Expand" then some (exArr.expand (held b) a)
        else none
      | _ => none

/-- A constant. -/
def exConst (attr : Dict String Attr) : Ten Val := match attr.get "value" with
  | some (.tensor T) => ⟨dtOf T.dtype, T.dims.reverse, fun i => .num (T.data.getD (if T.dims = [] then 0 else i 0) 0)⟩
  | _ => Ten.scalar .float .nan

/-- A meaning of TensorFlow and ONNX operators, with and without axes. -/
noncomputable def axInterp (cast : DT → Val → Val) : Interp (Ten Val) := fun op dom attr args k =>
  if op = "Const" ∧ args = [] then exConst attr
  else ((if dom = "tf" then exTfAxis op attr args else exOnnxAxis op attr args).getD (exInterp cast op dom attr args k))

theorem axInterp_const (cast : DT → Val → Val) : ConstOps (axInterp cast) where
  const := by
    intro dom attr t T _ ha ht hd
    have he : axInterp cast "Const" dom attr [] 0 = ⟨dtOf T.dtype, T.dims.reverse, fun i => .num (T.data.getD (if T.dims = [] then 0 else i 0) 0)⟩ := by
      simp [axInterp, exConst, ha]
    rw [he]
    have hr : T.dims.reverse = T.dims := by rcases hd with ⟨h1, -⟩ | h1 <;> simp [h1]
    refine ⟨by rw [ht]; exact dtOf_code t, hr, ?_⟩
    rw [hr]
    rcases hd with ⟨h1, h2⟩ | h1
    · obtain ⟨z, hz⟩ := List.length_eq_one_iff.1 h2
      exact Or.inl ⟨z, h1, hz, by simp [h1, hz]⟩
    · refine Or.inr ⟨h1, fun k z hk => ?_⟩
      have : T.dims ≠ [] := by rw [h1]; simp
      simp [this, List.getD_eq_getElem?_getD, hk]

theorem axInterp_tfAt {cast : DT → Val → Val} {op : String} {attr : Dict String Attr} {args : List (Option (Ten Val))} {w : Ten Val} (hne : args ≠ [])
    (h : exTfAxis op attr args = some w) : axInterp cast op "tf" attr args 0 = w := by
  simp [axInterp, hne, h]

theorem axInterp_onnxAt {cast : DT → Val → Val} {op : String} {attr : Dict String Attr} {args : List (Option (Ten Val))} {w : Ten Val} (hne : args ≠ [])
    (h : exOnnxAxis op attr args = some w) : axInterp cast op "" attr args 0 = w := by
  simp [axInterp, hne, h]

theorem headD_rank {as : List (Ten Val)} {d : Ten Val} {r : Nat} (hne : as ≠ []) (h : ∀ a ∈ as, a.rank = r) : (as.headD d).rank = r := by
  cases as with
  | nil => exact absurd rfl hne
  | cons a as => exact h a (by simp)

theorem axInterp_tfAxis (cast : DT → Val → Val) : TfAxisOps (axInterp cast) exArr where
  reduce := by
    intro op hop attr k a ax l hk hl _
    refine axInterp_tfAt (by simp) ?_
    have h : op ≠ "Concat" ∧ op ≠ "ConcatV2" ∧ op ∈ ["Max", "Mean", "Min", "Prod", "Sum", "All", "Any"] :=
      (by decide : ∀ op ∈ redOps, op ≠ "Concat" ∧ op ≠ "ConcatV2" ∧ op ∈ ["Max", "Mean", "Min", "Prod", "Sum", "All", "Any"]) op hop
    simp only [exTfAxis, h.1, h.2.1, h.2.2, if_false, if_true, held_eq hl, intAttr_eq hk]
  allAny := by
    intro op hop attr k a ax l hk hl _ _
    refine axInterp_tfAt (by simp) ?_
    have h : op ≠ "Concat" ∧ op ≠ "ConcatV2" ∧ op ∈ ["Max", "Mean", "Min", "Prod", "Sum", "All", "Any"] :=
      (by decide : ∀ op ∈ ["All", "Any"], op ≠ "Concat" ∧ op ≠ "ConcatV2" ∧ op ∈ ["Max", "Mean", "Min", "Prod", "Sum", "All", "Any"]) op hop
    simp only [exTfAxis, h.1, h.2.1, h.2.2, if_false, if_true, held_eq hl, intAttr_eq hk]
  arg64 := by
    intro op hop attr a ax z hk hl _
    refine axInterp_tfAt (by simp) ?_
    have h : op ≠ "Concat" ∧ op ≠ "ConcatV2" ∧ op ∉ ["Max", "Mean", "Min", "Prod", "Sum", "All", "Any"] :=
      (by decide : ∀ op ∈ ["ArgMax", "ArgMin"], op ≠ "Concat" ∧ op ≠ "ConcatV2" ∧ op ∉ ["Max", "Mean", "Min", "Prod", "Sum", "All", "Any"]) op hop
    simp only [exTfAxis, h.1, h.2.1, h.2.2, hop, if_false, if_true, held_eq hl, intAttr_eq hk]
    simp
  arg32 := by
    intro op hop attr a ax z hk hl _
    refine axInterp_tfAt (by simp) ?_
    have h : op ≠ "Concat" ∧ op ≠ "ConcatV2" ∧ op ∉ ["Max", "Mean", "Min", "Prod", "Sum", "All", "Any"] :=
      (by decide : ∀ op ∈ ["ArgMax", "ArgMin"], op ≠ "Concat" ∧ op ≠ "ConcatV2" ∧ op ∉ ["Max", "Mean", "Min", "Prod", "Sum", "All", "Any"]) op hop
    simp only [exTfAxis, h.1, h.2.1, h.2.2, hop, if_false, if_true, held_eq hl, intAttr_eq hk]
    simp
  squeezeAll := by
    intro attr a h
    exact axInterp_tfAt (by simp) (by simp [exTfAxis, intsAttr_none h])
  squeeze := by
    intro attr a l h hne _ _
    exact axInterp_tfAt (by simp) (by simp [exTfAxis, intsAttr_eq h, hne])
  expandDims := by
    intro attr a ax z h _
    exact axInterp_tfAt (by simp) (by simp [exTfAxis, held_eq h])
  transpose := by
    intro attr a p l h _
    exact axInterp_tfAt (by simp) (by simp [exTfAxis, held_eq h])
  concat := by
    intro attr ax z as r h hne hr _
    exact axInterp_tfAt (by simp) (by simp only [exTfAxis, if_true, present_map, held_eq h, headD_rank hne hr, List.headD_cons])
  concatV2 := by
    intro attr ax z as r h hne hr _
    refine axInterp_tfAt (by simp) ?_
    have h1 : (as.map some ++ [some ax]).reverse = some ax :: (as.map some).reverse := by simp
    have h2 : "ConcatV2" ≠ "Concat" := by decide
    simp only [exTfAxis, h2, if_false, if_true, h1, List.reverse_reverse, present_map, held_eq h, headD_rank hne hr, List.headD_cons]
  gather := by
    intro attr a ix _ _
    exact axInterp_tfAt (by simp) (by simp [exTfAxis])
  gatherV2 := by
    intro attr a ix ax z _ h _ _
    exact axInterp_tfAt (by simp) (by simp [exTfAxis, held_eq h])
  reshape := by
    intro attr a s l h _
    exact axInterp_tfAt (by simp) (by simp [exTfAxis, held_eq h])
  tile := by
    intro attr a s l h _ _
    exact axInterp_tfAt (by simp) (by simp [exTfAxis, held_eq h])
  broadcastTo := by
    intro attr a s l h _
    exact axInterp_tfAt (by simp) (by simp [exTfAxis, held_eq h])
  ensureShape := by
    intro attr a
    exact axInterp_tfAt (by simp) (by simp [exTfAxis])
  size := by
    intro attr t a h _
    exact axInterp_tfAt (by simp) (by simp [exTfAxis, intAttr_eq h, dtOf_code])

/-- Operators that are not reductions. -/
theorem redName_none : ∀ op ∈ ["ArgMax", "ArgMin", "Squeeze", "Unsqueeze", "Transpose", "Size", "Gather", "Reshape", "Tile", "Expand"],
    redName op = none := by decide

theorem axInterp_onnxAxis (cast : DT → Val → Val) (v : Nat) : OnnxAxisOps v (axInterp cast) exArr where
  redAttr := by
    intro op hop _ attr l k a hl hk hne _ _
    refine axInterp_onnxAt (by simp) ?_
    have h : "Reduce" ++ op ≠ "Concat" := (by decide : ∀ op ∈ redOps, "Reduce" ++ op ≠ "Concat") op hop
    simp only [exOnnxAxis, h, if_false, redName_eq op hop, intsAttr_eq hl, intAttr_eq hk, hne]
  redAll := by
    intro op hop _ attr k a hl hk _
    refine axInterp_onnxAt (by simp) ?_
    have h : "Reduce" ++ op ≠ "Concat" := (by decide : ∀ op ∈ redOps, "Reduce" ++ op ≠ "Concat") op hop
    simp only [exOnnxAxis, h, if_false, redName_eq op hop, intsAttr_none hl.symm, intAttr_eq hk, if_true]
  redIn := by
    intro op hop _ attr l k a ax _ hk hl _ _ _ _
    refine axInterp_onnxAt (by simp) ?_
    have h : "Reduce" ++ op ≠ "Concat" := (by decide : ∀ op ∈ redOps, "Reduce" ++ op ≠ "Concat") op hop
    simp only [exOnnxAxis, h, if_false, redName_eq op hop, held_eq hl, intAttr_eq hk]
  arg := by
    intro op hop attr z a hz _ _ _
    refine axInterp_onnxAt (by simp) ?_
    have h : op ≠ "Concat" ∧ redName op = none := (by decide : ∀ op ∈ ["ArgMax", "ArgMin"], op ≠ "Concat" ∧ redName op = none) op hop
    simp only [exOnnxAxis, h.1, h.2, hop, if_false, if_true, intAttr_eq hz]
  squeezeAll := by
    intro attr a h _
    exact axInterp_onnxAt (by simp) (by simp [exOnnxAxis, redName_none "Squeeze", intsAttr_none (Or.inl h)])
  squeezeAttr := by
    intro attr a l _ h hne _ _ _
    exact axInterp_onnxAt (by simp) (by simp [exOnnxAxis, redName_none "Squeeze", intsAttr_eq h, hne])
  squeezeIn := by
    intro attr a ax l _ h _ _ _ _ _
    exact axInterp_onnxAt (by simp) (by simp [exOnnxAxis, redName_none "Squeeze", held_eq h])
  unsqueezeAttr := by
    intro attr a z _ h _ _
    exact axInterp_onnxAt (by simp) (by simp [exOnnxAxis, redName_none "Unsqueeze", intsAttr_eq h])
  unsqueezeIn := by
    intro attr a ax z _ h _ _ _
    exact axInterp_onnxAt (by simp) (by simp [exOnnxAxis, redName_none "Unsqueeze", held_eq h])
  transpose := by
    intro attr a l h _ _
    exact axInterp_onnxAt (by simp) (by simp [exOnnxAxis, redName_none "Transpose", intsAttr_eq h])
  concat := by
    intro attr z as r t h hne hr _ _
    exact axInterp_onnxAt (by simpa using hne)
      (by simp only [exOnnxAxis, if_true, present_map, intAttr_eq h, headD_rank hne (fun a ha => (hr a ha).1)])
  gather := by
    intro attr z a ix h _ _ _
    exact axInterp_onnxAt (by simp) (by simp [exOnnxAxis, redName_none "Gather", intAttr_eq h])
  gather0 := by
    intro attr a ix h _ _ _
    exact axInterp_onnxAt (by simp) (by simp [exOnnxAxis, redName_none "Gather", intAttr, h, axisOf])
  reshape := by
    intro attr a s l _ h _ _ _ _ _
    exact axInterp_onnxAt (by simp) (by simp [exOnnxAxis, redName_none "Reshape", held_eq h])
  tile := by
    intro attr a s l h _ _ _ _ _
    exact axInterp_onnxAt (by simp) (by simp [exOnnxAxis, redName_none "Tile", held_eq h])
  expand := by
    intro attr a s l _ h _ _ _ _
    exact axInterp_onnxAt (by simp) (by simp [exOnnxAxis, redName_none "Expand", held_eq h])
  size := by
    intro attr a _
    exact axInterp_onnxAt (by simp) (by simp [exOnnxAxis, redName_none "Size"])

/-- Operators without axes mean what they meant. -/
theorem axInterp_elem {cast : DT → Val → Val} {op : String} {attr : Dict String Attr} {args : List (Option (Ten Val))} (hc : op ≠ "Const")
    (h : exOnnxAxis op attr args = none) : axInterp cast op "" attr args 0 = exInterp cast op "" attr args 0 := by
  simp [axInterp, hc, h]

theorem axInterp_elemTf {cast : DT → Val → Val} {op : String} {attr : Dict String Attr} {args : List (Option (Ten Val))} (hc : op ≠ "Const")
    (h : exTfAxis op attr args = none) : axInterp cast op "tf" attr args 0 = exInterp cast op "tf" attr args 0 := by
  simp [axInterp, hc, h]

/-- The names with axes. -/
def axisNames : List String := ["Const", "Concat", "ConcatV2", "Squeeze", "EnsureShape", "Size", "Max", "Mean", "Min", "Prod", "Sum", "All", "Any", "ArgMax",
  "ArgMin", "ExpandDims", "Transpose", "Gather", "Reshape", "Tile", "BroadcastTo", "GatherV2"]

/-- The names with axes. -/
def axisNames' : List String := ["Const", "Concat", "Squeeze", "Size", "ArgMax", "ArgMin", "Unsqueeze", "Transpose", "Gather", "Reshape", "Tile", "Expand"]

theorem exOnnxAxis_none {op : String} {attr : Dict String Attr} {args : List (Option (Ten Val))} (h : op ∉ axisNames') (hr : redName op = none) :
    exOnnxAxis op attr args = none := by
  simp only [axisNames', List.mem_cons, List.not_mem_nil, or_false, not_or] at h
  unfold exOnnxAxis
  rw [hr]
  simp only [h, if_false, List.mem_cons, List.not_mem_nil, or_false]
  split <;> rfl

theorem exTfAxis_none {op : String} {attr : Dict String Attr} {args : List (Option (Ten Val))} (h : op ∉ axisNames) :
    exTfAxis op attr args = none := by
  simp only [axisNames, List.mem_cons, List.not_mem_nil, or_false, not_or] at h
  unfold exTfAxis
  simp only [h, if_false, List.mem_cons, List.not_mem_nil, or_false]
  split <;> rfl

theorem axInterp_onnx {cast : DT → Val → Val} (hc : Conforming cast) (v : Nat) : OnnxOps v (axInterp cast) exK cast := by
  have base := exInterp_onnx hc v
  have go : ∀ op ∈ onnxUn ++ onnxBin ++ ["Cast", "Where", "Clip", "Identity"], ∀ attr args,
      axInterp cast op "" attr args 0 = exInterp cast op "" attr args 0 := by
    intro op hop attr args
    have h : op ∉ axisNames' ∧ redName op = none ∧ op ≠ "Const" :=
      (by decide +kernel : ∀ op ∈ onnxUn ++ onnxBin ++ ["Cast", "Where", "Clip", "Identity"], op ∉ axisNames' ∧ redName op = none ∧ op ≠ "Const") op hop
    exact axInterp_elem h.2.2 (exOnnxAxis_none h.1 h.2.1)
  exact
  { un := fun op hop attr a h => by rw [go op (by simp [hop])]; exact base.un op hop attr a h
    bin := fun op hop attr a b h1 h2 h3 => by rw [go op (by simp [hop])]; exact base.bin op hop attr a b h1 h2 h3
    isCast := fun attr t a h => by rw [go "Cast" (by simp)]; exact base.isCast attr t a h
    conf := hc
    isConst := fun attr t n h => by
      simp [axInterp, exConst, h, dtOf_code, Ten.scalar]
    isWhere := fun attr c a b h1 h2 h3 h4 h5 => by rw [go "Where" (by simp)]; exact base.isWhere attr c a b h1 h2 h3 h4 h5
    clipAttr := fun attr lo hi a h1 h2 h3 h4 => by rw [go "Clip" (by simp)]; exact base.clipAttr attr lo hi a h1 h2 h3 h4
    clipIn := fun attr a lo hi h1 h2 h3 h4 h5 h6 => by rw [go "Clip" (by simp)]; exact base.clipIn attr a lo hi h1 h2 h3 h4 h5 h6
    identity := fun attr a => by rw [go "Identity" (by simp)]; exact base.identity attr a }

theorem axInterp_tf (cast : DT → Val → Val) : TfOps (axInterp cast) exT := by
  have base := exInterp_tf cast
  have go : ∀ op ∈ tfUn ++ tfBin ++ ["ClipByValue"], ∀ attr args, axInterp cast op "tf" attr args 0 = exInterp cast op "tf" attr args 0 := by
    intro op hop attr args
    have h : op ∉ axisNames ∧ op ≠ "Const" := (by decide +kernel : ∀ op ∈ tfUn ++ tfBin ++ ["ClipByValue"], op ∉ axisNames ∧ op ≠ "Const") op hop
    exact axInterp_elemTf h.2 (exTfAxis_none h.1)
  exact
  { un := fun op hop attr a => by rw [go op (by simp [hop])]; exact base.un op hop attr a
    bin := fun op hop attr a b h1 h2 => by rw [go op (by simp [hop])]; exact base.bin op hop attr a b h1 h2
    clip := fun attr a lo hi h1 h2 => by rw [go "ClipByValue" (by simp)]; exact base.clip attr a lo hi h1 h2 }

end Verif.Graph
