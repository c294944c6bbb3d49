import Verif.Spec.ElemOps
import Mathlib.Data.Set.Defs
/-!
# What TensorFlow and ONNX operators with an axis, a list of axes, a permutation or a target shape mean

What an operator does to an array once it is known which dimensions are meant is the same function in TensorFlow and in ONNX. These functions are
arbitrary (`Arr`), so every statement holds whatever they are. What differs is how the dimensions are given: as an input or as an attribute, with or
without negative numbers, with a special meaning of "none" or of 0, depending on the operator set. Shapes in `Ten` are written last dimension first;
axes count from the first dimension.
-/
namespace Verif.Elem
open Verif Verif.Graph Verif.Cast

/-! ## Axes -/

/-- The dimension a possibly negative axis means in a tensor of rank `r`. -/
def axisOf (r : Nat) (a : Int) : Nat := (if a < 0 then a + r else a).toNat

/-- An axis of a tensor of rank `r`. -/
def AxisOk (r : Nat) (a : Int) : Prop := -(r : Int) ≤ a ∧ a < r

/-- A list of axes: no dimension twice. -/
structure AxesOk (r : Nat) (l : List Int) : Prop where
  ok : ∀ a ∈ l, AxisOk r a
  nodup : (l.map (axisOf r)).Nodup

/-- The dimensions a list of axes means. -/
def axisSet (r : Nat) (l : List Int) : Set Nat := {k | ∃ a ∈ l, axisOf r a = k}

/-- Before operator set 11 axes may not be negative. -/
def OnnxAxis (v r : Nat) (a : Int) : Prop := AxisOk r a ∧ (v < 11 → 0 ≤ a)

/-- A list of axes in operator set `v`. -/
def OnnxAxes (v r : Nat) (l : List Int) : Prop := AxesOk r l ∧ (v < 11 → ∀ a ∈ l, 0 ≤ a)

/-- Rank. -/
def Ten.rank {α : Type} (a : Ten α) : Nat := a.sh.length

/-- Dimension `k`, counted from the first. -/
def Ten.size {α : Type} (a : Ten α) (k : Nat) : Nat := a.sh.reverse.getD k 1

/-- A tensor that holds a list of integers: a scalar, or a vector. -/
def Holds (a : Ten Val) (l : List Int) : Prop :=
  (∃ z, a.sh = [] ∧ l = [z] ∧ a.at_ (fun _ => 0) = .num z) ∨
  (a.sh = [l.length] ∧ ∀ (k : Nat) (z : Int), l[k]? = some z → a.at_ (fun j => if j = 0 then k else 0) = .num z)

/-- INT32, INT64. -/
def idxType (t : DT) : Bool := t = .int32 || t = .int64

/-! ## Functions of arrays -/

/-- Functions of arrays, the same for TensorFlow and ONNX. A reduction gives a value for the elements at some positions of the operand; for the other
functions nothing is said. -/
structure Arr where
  /-- the positions of the operand that are reduced to one position of the result: keep dimensions, dimensions to reduce, shape, position -/
  cells : Bool → Set Nat → List Nat → (Nat → Nat) → List (Nat → Nat)
  /-- shape of the result -/
  rsh : Bool → Set Nat → List Nat → List Nat
  /-- value of a reduction: operator, type, elements -/
  red : String → DT → List Val → Val
  arg : String → Nat → Ten Val → Ten Val
  squeeze : Set Nat → Ten Val → Ten Val
  unsqueeze : Nat → Ten Val → Ten Val
  transpose : List Nat → Ten Val → Ten Val
  concat : Nat → List (Ten Val) → Ten Val
  gather : Nat → Ten Val → Ten Val → Ten Val
  reshape : List Int → Ten Val → Ten Val
  tile : List Int → Ten Val → Ten Val
  expand : List Int → Ten Val → Ten Val
  size : Ten Val → Nat
  scatter : String → Ten Val → Ten Val → Ten Val → Ten Val

/-- Positions in dimensions of size 1 are 0. -/
def mask (s : List Nat) (i : Nat → Nat) : Nat → Nat := fun k => if dim s k = 1 then 0 else i k

/-- A reduction. The result has the type of the operand. -/
def Arr.reduce (A : Arr) (op : String) (keep : Bool) (s : Set Nat) (a : Ten Val) : Ten Val :=
  ⟨a.dt, A.rsh keep s a.sh, fun i => A.red op a.dt ((A.cells keep s a.sh (mask (A.rsh keep s a.sh) i)).map a.get)⟩

/-- The tensor itself, read as any operator reads it. -/
def Ten.self (a : Ten Val) : Ten Val := Ten.map a.dt id a

/-- The reductions of numbers. -/
def redOps : List String := ["Max", "Mean", "Min", "Prod", "Sum"]

/-- What is known of the functions. -/
structure ArrLaws (A : Arr) : Prop where
  /-- reducing no dimension -/
  none : ∀ keep sh, A.rsh keep ∅ sh = sh ∧ ∀ i, A.cells keep ∅ sh i = [i]
  /-- reducing one element -/
  one : ∀ op ∈ redOps, ∀ t x, A.red op t [x] = x
  all : ∀ l, A.red "All" .bool l = bval (l.all (fun x => !vzero x))
  any : ∀ l, A.red "Any" .bool l = bval (l.any (fun x => !vzero x))
  /-- the smallest of several numbers -/
  min : ∀ t x l, A.red "Min" t (x :: l) = l.foldl vmin x
  /-- a sum of zeros and ones is positive if there is a one (also where the sum is rounded) -/
  sum : ∀ t l, fl3 t = true → (∀ x ∈ l, x = .num 0 ∨ x = .num 1) → ∃ q : ℚ, A.red "Sum" t l = .num q ∧ (0 < q ↔ Val.num 1 ∈ l)
  /-- the index of an element of a dimension that is not empty -/
  arg : ∀ op k a, a.size k ≠ 0 → (A.arg op k a).dt = .int64 ∧ ∀ i, ∃ n : Nat, (A.arg op k a).at_ i = .num n ∧ n < a.size k
  /-- flattening -/
  flat : ∀ a l, Holds a l → Holds (A.reshape [-1] a) l ∧ (A.reshape [-1] a).rank = 1 ∧ (A.reshape [-1] a).dt = a.dt
  flat1 : ∀ a z, Holds a [z] → Holds (A.reshape [1] a) [z] ∧ (A.reshape [1] a).rank = 1 ∧ (A.reshape [1] a).dt = a.dt
  /-- a part of size 0 adds nothing to the others -/
  drop : ∀ k l (a : Ten Val) m, a.size k = 0 → l ++ m ≠ [] → (∀ b ∈ l ++ m, b.dt = a.dt ∧ b.rank = a.rank ∧ ∀ j, j ≠ k → b.size j = a.size j) →
    A.concat k (l ++ a :: m) = A.concat k (l ++ m)
  /-- reshaping to the shape the tensor has -/
  same : ∀ (a : Ten Val) l, l.length = a.rank → l.count (-1) ≤ 1 → (∀ (k : Nat) (z : Int), l[k]? = some z → z = -1 ∨ z = a.size k) → A.reshape l a = a

/-! ## Operators -/

/-- From this operator set on a reduction takes the axes as an input. -/
def redInputFrom (op : String) : Nat := if op = "Sum" then 13 else 18

/-- Types of ONNX reductions. -/
def redTypes (v : Nat) (op : String) (t : DT) : Bool :=
  fl3 t || int32s t || (12 ≤ v && op ∈ ["Max", "Min"] && t ∈ [DT.int8, .uint8])

/-- Types of operators that only move elements. -/
def moveTypes (v : Nat) (t : DT) : Bool := t ≠ .bfloat16 || 13 ≤ v

/-- A permutation of the dimensions. -/
def PermOk (r : Nat) (l : List Int) : Prop := l.length = r ∧ (∀ a ∈ l, 0 ≤ a ∧ a < r) ∧ l.Nodup

/-- Indices into dimension `k` of `a`. -/
def IdxOk (a ix : Ten Val) (k : Nat) : Prop := idxType ix.dt = true ∧ ∀ i, ∃ n : Nat, ix.at_ i = .num n ∧ n < a.size k

/-- The dimensions of size 1. -/
def ones (a : Ten Val) : Set Nat := {k | k < a.rank ∧ a.size k = 1}

/-- Axes of dimensions of size 1. -/
def SqueezeOk (a : Ten Val) (l : List Int) : Prop := ∀ x ∈ l, a.size (axisOf a.rank x) = 1

/-- A target shape: at most one dimension is left open. -/
def TargetOk (l : List Int) : Prop := l.count (-1) ≤ 1 ∧ ∀ z ∈ l, -1 ≤ z

/-- The target shape ONNX means: 0 stands for the size of the operand at the same position. -/
def copyZeros (a : Ten Val) (l : List Int) : List Int := l.mapIdx (fun k z => if z = 0 then (a.size k : Int) else z)

/-- Constants with a list of values, and `Cast`, in both worlds. -/
structure ConstOps (I : Interp (Ten Val)) : Prop where
  const : ∀ dom attr t (T : Tensor), dom = "" ∨ dom = "tf" → attr.get "value" = some (.tensor T) → T.dtype = code t →
    (T.dims = [] ∧ T.data.length = 1 ∨ T.dims = [T.data.length]) →
    (I "Const" dom attr [] 0).dt = t ∧ (I "Const" dom attr [] 0).sh = T.dims ∧ Holds (I "Const" dom attr [] 0) T.data

/-- TensorFlow. -/
structure TfAxisOps (I : Interp (Ten Val)) (A : Arr) : Prop where
  reduce : ∀ op ∈ redOps, ∀ attr (k : Int) a ax l, attr.get "keep_dims" = some (.int k) → Holds ax l → AxesOk a.rank l →
    I op "tf" attr [some a, some ax] 0 = A.reduce op (k ≠ 0) (axisSet a.rank l) a
  allAny : ∀ op ∈ ["All", "Any"], ∀ attr (k : Int) a ax l, attr.get "keep_dims" = some (.int k) → Holds ax l → AxesOk a.rank l → a.dt = .bool →
    I op "tf" attr [some a, some ax] 0 = A.reduce op (k ≠ 0) (axisSet a.rank l) a
  arg64 : ∀ op ∈ ["ArgMax", "ArgMin"], ∀ attr a ax z, attr.get "output_type" = some (.int 7) → Holds ax [z] → AxisOk a.rank z →
    I op "tf" attr [some a, some ax] 0 = A.arg op (axisOf a.rank z) a
  /-- the same indices as INT32 -/
  arg32 : ∀ op ∈ ["ArgMax", "ArgMin"], ∀ attr a ax z, attr.get "output_type" = some (.int 6) → Holds ax [z] → AxisOk a.rank z →
    I op "tf" attr [some a, some ax] 0 = Ten.map .int32 id (A.arg op (axisOf a.rank z) a)
  squeezeAll : ∀ attr a, attr.get "squeeze_dims" = none ∨ attr.get "squeeze_dims" = some (.ints []) →
    I "Squeeze" "tf" attr [some a] 0 = A.squeeze (ones a) a
  squeeze : ∀ attr a l, attr.get "squeeze_dims" = some (.ints l) → l ≠ [] → AxesOk a.rank l → SqueezeOk a l →
    I "Squeeze" "tf" attr [some a] 0 = A.squeeze (axisSet a.rank l) a
  expandDims : ∀ attr a ax z, Holds ax [z] → AxisOk (a.rank + 1) z → I "ExpandDims" "tf" attr [some a, some ax] 0 = A.unsqueeze (axisOf (a.rank + 1) z) a
  transpose : ∀ attr a p l, Holds p l → PermOk a.rank l → I "Transpose" "tf" attr [some a, some p] 0 = A.transpose (l.map Int.toNat) a
  concat : ∀ attr ax z (as : List (Ten Val)) r, Holds ax [z] → as ≠ [] → (∀ a ∈ as, a.rank = r) → AxisOk r z →
    I "Concat" "tf" attr (some ax :: as.map some) 0 = A.concat (axisOf r z) as
  concatV2 : ∀ attr ax z (as : List (Ten Val)) r, Holds ax [z] → as ≠ [] → (∀ a ∈ as, a.rank = r) → AxisOk r z →
    I "ConcatV2" "tf" attr (as.map some ++ [some ax]) 0 = A.concat (axisOf r z) as
  gather : ∀ attr a ix, a.rank ≠ 0 → IdxOk a ix 0 → I "Gather" "tf" attr [some a, some ix] 0 = A.gather 0 a ix
  gatherV2 : ∀ attr a ix ax z, attr.get "batch_dims" = none ∨ attr.get "batch_dims" = some (.int 0) → Holds ax [z] → AxisOk a.rank z →
    IdxOk a ix (axisOf a.rank z) → I "GatherV2" "tf" attr [some a, some ix, some ax] 0 = A.gather (axisOf a.rank z) a ix
  reshape : ∀ attr a s l, Holds s l → TargetOk l → I "Reshape" "tf" attr [some a, some s] 0 = A.reshape l a
  tile : ∀ attr a s l, Holds s l → l.length = a.rank → (∀ z ∈ l, 0 ≤ z) → I "Tile" "tf" attr [some a, some s] 0 = A.tile l a
  broadcastTo : ∀ attr a s l, Holds s l → (∀ z ∈ l, 0 ≤ z) → I "BroadcastTo" "tf" attr [some a, some s] 0 = A.expand l a
  ensureShape : ∀ attr a, I "EnsureShape" "tf" attr [some a] 0 = a
  size : ∀ attr t a, attr.get "out_type" = some (.int (code t)) → idxType t = true → I "Size" "tf" attr [some a] 0 = Ten.scalar t (.num (A.size a))

/-- ONNX operator set `v`, from 7 on. -/
structure OnnxAxisOps (v : Nat) (I : Interp (Ten Val)) (A : Arr) : Prop where
  redAttr : ∀ op ∈ redOps, v < redInputFrom op → ∀ attr l (k : Int) a, attr.get "axes" = some (.ints l) → attr.get "keepdims" = some (.int k) →
    l ≠ [] → OnnxAxes v a.rank l → redTypes v op a.dt = true →
    I ("Reduce" ++ op) "" attr [some a] 0 = A.reduce op (k ≠ 0) (axisSet a.rank l) a
  /-- no axes: all dimensions -/
  redAll : ∀ op ∈ redOps, v < redInputFrom op → ∀ attr (k : Int) a, attr.get "axes" = some (.ints []) ∨ attr.get "axes" = none →
    attr.get "keepdims" = some (.int k) → redTypes v op a.dt = true → I ("Reduce" ++ op) "" attr [some a] 0 = A.reduce op (k ≠ 0) {j | j < a.rank} a
  redIn : ∀ op ∈ redOps, redInputFrom op ≤ v → ∀ attr l (k : Int) a ax, attr.get "noop_with_empty_axes" = some (.int 1) →
    attr.get "keepdims" = some (.int k) → Holds ax l → ax.rank = 1 → ax.dt = .int64 → AxesOk a.rank l → redTypes v op a.dt = true →
    I ("Reduce" ++ op) "" attr [some a, some ax] 0 = if l = [] then a.self else A.reduce op (k ≠ 0) (axisSet a.rank l) a
  arg : ∀ op ∈ ["ArgMax", "ArgMin"], ∀ attr z a, attr.get "axis" = some (.int z) → attr.get "keepdims" = some (.int 0) → OnnxAxis v a.rank z →
    numeric a.dt = true → I op "" attr [some a] 0 = A.arg op (axisOf a.rank z) a
  squeezeAll : ∀ attr a, attr.get "axes" = none → moveTypes v a.dt = true → I "Squeeze" "" attr [some a] 0 = A.squeeze (ones a) a
  squeezeAttr : ∀ attr a l, v < 13 → attr.get "axes" = some (.ints l) → l ≠ [] → OnnxAxes v a.rank l → SqueezeOk a l → moveTypes v a.dt = true →
    I "Squeeze" "" attr [some a] 0 = A.squeeze (axisSet a.rank l) a
  squeezeIn : ∀ attr a ax l, 13 ≤ v → Holds ax l → ax.rank = 1 → ax.dt = .int64 → l ≠ [] → AxesOk a.rank l → SqueezeOk a l →
    I "Squeeze" "" attr [some a, some ax] 0 = A.squeeze (axisSet a.rank l) a
  unsqueezeAttr : ∀ attr a z, v < 13 → attr.get "axes" = some (.ints [z]) → OnnxAxis v (a.rank + 1) z → moveTypes v a.dt = true →
    I "Unsqueeze" "" attr [some a] 0 = A.unsqueeze (axisOf (a.rank + 1) z) a
  unsqueezeIn : ∀ attr a ax z, 13 ≤ v → Holds ax [z] → ax.rank = 1 → ax.dt = .int64 → AxisOk (a.rank + 1) z →
    I "Unsqueeze" "" attr [some a, some ax] 0 = A.unsqueeze (axisOf (a.rank + 1) z) a
  transpose : ∀ attr a l, attr.get "perm" = some (.ints l) → PermOk a.rank l → moveTypes v a.dt = true →
    I "Transpose" "" attr [some a] 0 = A.transpose (l.map Int.toNat) a
  concat : ∀ attr z (as : List (Ten Val)) r t, attr.get "axis" = some (.int z) → as ≠ [] → (∀ a ∈ as, a.rank = r ∧ a.dt = t) → OnnxAxis v r z →
    moveTypes v t = true → I "Concat" "" attr (as.map some) 0 = A.concat (axisOf r z) as
  /-- negative axes are allowed in all operator sets -/
  gather : ∀ attr z a ix, attr.get "axis" = some (.int z) → AxisOk a.rank z → IdxOk a ix (axisOf a.rank z) → moveTypes v a.dt = true →
    I "Gather" "" attr [some a, some ix] 0 = A.gather (axisOf a.rank z) a ix
  gather0 : ∀ attr a ix, attr.get "axis" = none → a.rank ≠ 0 → IdxOk a ix 0 → moveTypes v a.dt = true →
    I "Gather" "" attr [some a, some ix] 0 = A.gather 0 a ix
  /-- 0 in the target: the dimension of the operand -/
  reshape : ∀ attr a s l, attr.get "allowzero" = none → Holds s l → s.rank = 1 → s.dt = .int64 → TargetOk l → moveTypes v a.dt = true →
    (∀ k : Nat, l[k]? = some 0 → k < a.rank) → I "Reshape" "" attr [some a, some s] 0 = A.reshape (copyZeros a l) a
  tile : ∀ attr a s l, Holds s l → s.rank = 1 → s.dt = .int64 → l.length = a.rank → (∀ z ∈ l, 0 ≤ z) → moveTypes v a.dt = true →
    I "Tile" "" attr [some a, some s] 0 = A.tile l a
  expand : ∀ attr a s l, 8 ≤ v → Holds s l → s.rank = 1 → s.dt = .int64 → (∀ z ∈ l, 0 ≤ z) → moveTypes v a.dt = true →
    I "Expand" "" attr [some a, some s] 0 = A.expand l a
  size : ∀ attr a, moveTypes v a.dt = true → I "Size" "" attr [some a] 0 = Ten.scalar .int64 (.num (A.size a))

/-! ## Laws -/

theorem axisOf_of_nonneg {r : Nat} {a : Int} (h : 0 ≤ a) : axisOf r a = a.toNat := by
  simp [axisOf, not_lt.2 h]

/-- Adding the rank to negative axes. -/
def normAxis (r : Nat) (a : Int) : Int := if a < 0 then a + r else a

theorem axisOf_norm {r : Nat} {a : Int} (h : AxisOk r a) : axisOf r (normAxis r a) = axisOf r a := by
  unfold axisOf normAxis
  obtain ⟨h1, h2⟩ := h
  by_cases ha : a < 0
  · have : ¬ (a + r < 0) := by omega
    simp [ha, this]
  · simp [ha]

theorem AxisOk.norm {r : Nat} {a : Int} (h : AxisOk r a) : 0 ≤ normAxis r a ∧ AxisOk r (normAxis r a) := by
  unfold normAxis
  obtain ⟨h1, h2⟩ := h
  by_cases ha : a < 0
  · simp only [ha, if_true]; exact ⟨by omega, by constructor <;> omega⟩
  · simp only [ha, if_false]; exact ⟨by omega, by constructor <;> omega⟩

theorem map_axisOf_norm {r : Nat} {l : List Int} (h : ∀ a ∈ l, AxisOk r a) : (l.map (normAxis r)).map (axisOf r) = l.map (axisOf r) := by
  rw [List.map_map]
  exact List.map_congr_left fun a ha => axisOf_norm (h a ha)

theorem AxesOk.norm {r : Nat} {l : List Int} (h : AxesOk r l) (v : Nat) : OnnxAxes v r (l.map (normAxis r)) := by
  refine ⟨⟨?_, by rw [map_axisOf_norm h.ok]; exact h.nodup⟩, fun _ => ?_⟩
  · intro a ha
    obtain ⟨b, hb, rfl⟩ := List.mem_map.1 ha
    exact (h.ok b hb).norm.2
  · intro a ha
    obtain ⟨b, hb, rfl⟩ := List.mem_map.1 ha
    exact (h.ok b hb).norm.1

theorem axisSet_eq {r : Nat} {l : List Int} : axisSet r l = {k | k ∈ l.map (axisOf r)} := by
  ext k; simp [axisSet]

theorem axisSet_norm {r : Nat} {l : List Int} (h : ∀ a ∈ l, AxisOk r a) : axisSet r (l.map (normAxis r)) = axisSet r l := by
  rw [axisSet_eq, axisSet_eq, map_axisOf_norm h]

@[simp] theorem axisSet_nil (r : Nat) : axisSet r [] = ∅ := by
  ext k
  simp [axisSet]

theorem mask_mask (s : List Nat) (i : Nat → Nat) : mask s (mask s i) = mask s i := by
  funext k
  by_cases h : dim s k = 1 <;> simp [mask, h]

theorem Ten.get_mask (a : Ten Val) (i : Nat → Nat) : a.get (mask a.sh i) = a.get i := by
  unfold Ten.get
  congr 1
  exact mask_mask a.sh i

theorem Arr.get_reduce (A : Arr) (op : String) (keep : Bool) (s : Set Nat) (a : Ten Val) (i : Nat → Nat) :
    (A.reduce op keep s a).get i = (A.reduce op keep s a).at_ i := by
  show (A.reduce op keep s a).at_ (mask (A.rsh keep s a.sh) i) = _
  simp only [Arr.reduce, mask_mask]

/-- Reducing no dimension of numbers. -/
theorem ArrLaws.reduce_none {A : Arr} (h : ArrLaws A) {op : String} (hop : op ∈ redOps) (keep : Bool) (a : Ten Val) : A.reduce op keep ∅ a = a.self := by
  unfold Arr.reduce Ten.self
  refine Ten.ext_at rfl (h.none keep a.sh).1 (fun i => ?_)
  simp [(h.none keep a.sh).1, (h.none keep a.sh).2, h.one op hop, Ten.get_mask]

@[simp] theorem copyZeros_flat (a : Ten Val) : copyZeros a [-1] = [-1] := by simp [copyZeros]
@[simp] theorem copyZeros_one (a : Ten Val) : copyZeros a [1] = [1] := by simp [copyZeros]

theorem copyZeros_self {a : Ten Val} {l : List Int} (h : ∀ k : Nat, l[k]? = some 0 → a.size k = 0) : copyZeros a l = l := by
  unfold copyZeros
  apply List.ext_getElem (by simp)
  intro k h1 h2
  simp only [List.getElem_mapIdx]
  by_cases e : l[k] = 0
  · simp [e, h k (by rw [List.getElem?_eq_getElem h2, e])]
  · simp [e]

theorem Holds.rank {a : Ten Val} {l : List Int} (h : Holds a l) : a.rank = 0 ∧ l.length = 1 ∨ a.rank = 1 := by
  rcases h with ⟨z, h1, rfl, -⟩ | ⟨h1, -⟩
  · exact Or.inl ⟨by simp [Ten.rank, h1], rfl⟩
  · exact Or.inr (by simp [Ten.rank, h1])

/-- What a tensor holds is determined. -/
theorem Holds.inj {a : Ten Val} {l m : List Int} (h : Holds a l) (h' : Holds a m) : l = m := by
  rcases h with ⟨z, h1, rfl, h2⟩ | ⟨h1, h2⟩ <;> rcases h' with ⟨z', k1, rfl, k2⟩ | ⟨k1, k2⟩
  · rw [h2] at k2
    simpa using k2
  · rw [h1] at k1; cases k1
  · rw [k1] at h1; cases h1
  · rw [h1] at k1
    have hl : l.length = m.length := by simpa using k1
    apply List.ext_getElem hl
    intro k h3 h4
    have a1 := h2 k _ (List.getElem?_eq_getElem h3)
    have a2 := k2 k _ (List.getElem?_eq_getElem h4)
    rw [a1] at a2
    simpa using a2

/-- A cast to INT64 keeps integers that fit. -/
theorem Holds.cast {cast : DT → Val → Val} (hc : Conforming cast) {a : Ten Val} {l : List Int} (h : Holds a l) (ht : ∀ z ∈ l, HasType .int64 (.num z)) :
    Holds (Ten.map .int64 (cast .int64) a) l := by
  rcases h with ⟨z, h1, rfl, h2⟩ | ⟨h1, h2⟩
  · refine Or.inl ⟨z, h1, rfl, ?_⟩
    have : a.get (fun _ => 0) = .num z := by simp [Ten.get, h2]
    rw [Ten.map_at, this, hc.exact _ _ (ht z (by simp))]
  · refine Or.inr ⟨h1, fun k z hk => ?_⟩
    have hk' := (List.getElem?_eq_some_iff.1 hk).1
    have : a.get (fun j => if j = 0 then k else 0) = .num z := by
      rw [← h2 k z hk]
      unfold Ten.get
      congr 1
      funext j
      rw [h1]
      cases j with
      | zero =>
        by_cases e : l.length = 1
        · have : k = 0 := by omega
          simp [this]
        · simp [e]
      | succ j => simp [dim]
    rw [Ten.map_at, this, hc.exact _ _ (ht z (List.mem_of_getElem? hk))]

end Verif.Elem
