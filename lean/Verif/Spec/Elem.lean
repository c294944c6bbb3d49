import Verif.Spec.Semantics
import Verif.Spec.Cast
/-!
# Element-wise operators on typed tensors, with broadcasting

A tensor has an element type, a shape and a value at each position. Shapes and positions are written last dimension first, so
that broadcasting (align at the last dimension, a dimension of size 1 is repeated) is position by position. What operators mean is in
`Spec/ElemOps.lean`.
-/
namespace Verif.Elem
open Verif Verif.Graph Verif.Cast

/-- Codes of the element types (`onnx.TensorProto.DataType`). -/
def code : DT → Nat
  | .float => 1 | .uint8 => 2 | .int8 => 3 | .uint16 => 4 | .int16 => 5 | .int32 => 6 | .int64 => 7 | .string => 8 | .bool => 9
  | .float16 => 10 | .double => 11 | .uint32 => 12 | .uint64 => 13 | .complex64 => 14 | .complex128 => 15 | .bfloat16 => 16

/-- A tensor: element type, dimensions (last one first), value at a position (last coordinate first). -/
structure Ten (α : Type) where
  dt : DT
  sh : List Nat
  at_ : (Nat → Nat) → α

variable {α β γ δ : Type}

/-- Size of dimension `k`; missing dimensions have size 1. -/
def dim (s : List Nat) (k : Nat) : Nat := s.getD k 1

/-- The element seen at a position of a larger, broadcast result. -/
def Ten.get (a : Ten α) (i : Nat → Nat) : α := a.at_ (fun k => if dim a.sh k = 1 then 0 else i k)

/-- The shape two shapes broadcast to. -/
def bsh : List Nat → List Nat → List Nat
  | [], b => b
  | a, [] => a
  | x :: a, y :: b => (if x = 1 then y else x) :: bsh a b

/-- Apply a function to every element. -/
def Ten.map (t : DT) (f : α → β) (a : Ten α) : Ten β := ⟨t, a.sh, fun i => f (a.get i)⟩

/-- Apply a function to the elements of two tensors at every position of their broadcast. -/
def Ten.zip (t : DT) (f : α → β → γ) (a : Ten α) (b : Ten β) : Ten γ := ⟨t, bsh a.sh b.sh, fun i => f (a.get i) (b.get i)⟩

/-- Three tensors (`Where`, `Clip`). -/
def Ten.zip3 (t : DT) (f : α → β → γ → δ) (a : Ten α) (b : Ten β) (c : Ten γ) : Ten δ :=
  ⟨t, bsh a.sh (bsh b.sh c.sh), fun i => f (a.get i) (b.get i) (c.get i)⟩

/-- A scalar. -/
def Ten.scalar (t : DT) (v : α) : Ten α := ⟨t, [], fun _ => v⟩

/-- Functions of elements: one for each operator and type of its (first) operand. -/
structure Kern (α : Type) where
  un : String → DT → α → α
  bin : String → DT → α → α → α

/-! ## Laws of broadcasting -/

@[simp] theorem dim_nil (k : Nat) : dim [] k = 1 := by simp [dim]
@[simp] theorem dim_cons_zero (x : Nat) (s : List Nat) : dim (x :: s) 0 = x := by simp [dim]
@[simp] theorem dim_cons_succ (x : Nat) (s : List Nat) (k : Nat) : dim (x :: s) (k + 1) = dim s k := by simp [dim]

@[simp] theorem bsh_nil (a : List Nat) : bsh a [] = a := by cases a <;> rfl
@[simp] theorem nil_bsh (a : List Nat) : bsh [] a = a := by cases a <;> rfl

@[simp] theorem dim_bsh (a b : List Nat) (k : Nat) : dim (bsh a b) k = if dim a k = 1 then dim b k else dim a k := by
  induction a generalizing b k with
  | nil => simp
  | cons x a ih =>
    cases b with
    | nil => by_cases h : dim (x :: a) k = 1 <;> simp [h]
    | cons y b =>
      cases k with
      | zero => simp [bsh]
      | succ k => simp [bsh, ih]

@[simp] theorem bsh_self (a : List Nat) : bsh a a = a := by induction a with | nil => rfl | cons x a ih => simp [bsh, ih]

@[simp] theorem bsh_length (a b : List Nat) : (bsh a b).length = max a.length b.length := by
  induction a generalizing b with
  | nil => simp
  | cons x a ih => cases b <;> simp [bsh, ih]

theorem sh_ext {s t : List Nat} (hl : s.length = t.length) (h : ∀ k, dim s k = dim t k) : s = t := by
  apply List.ext_getElem hl
  intro k h1 h2
  have := h k
  simpa [dim, h1, h2] using this

theorem bsh_assoc (a b c : List Nat) : bsh (bsh a b) c = bsh a (bsh b c) := by
  apply sh_ext
  · simp [Nat.max_assoc]
  · intro k; by_cases h : dim a k = 1 <;> simp [h]

@[simp] theorem bsh_absorb (a b : List Nat) : bsh (bsh a b) b = bsh a b := by rw [bsh_assoc, bsh_self]
@[simp] theorem bsh_absorb' (a b : List Nat) : bsh a (bsh a b) = bsh a b := by rw [← bsh_assoc, bsh_self]
@[simp] theorem bsh_absorb3 (a b : List Nat) : bsh (bsh a b) a = bsh a b := by
  apply sh_ext
  · simp
  · intro k; by_cases h : dim a k = 1 <;> by_cases h' : dim b k = 1 <;> simp [h, h']
@[simp] theorem bsh_absorb4 (a b : List Nat) : bsh a (bsh b a) = bsh a b := by rw [← bsh_assoc, bsh_absorb3]

@[simp] theorem Ten.get_map (t : DT) (f : α → β) (a : Ten α) (i : Nat → Nat) : (Ten.map t f a).get i = f (a.get i) := by
  simp only [Ten.get, Ten.map]
  congr 2
  funext k
  by_cases h : dim a.sh k = 1 <;> simp [h]

@[simp] theorem Ten.get_zip (t : DT) (f : α → β → γ) (a : Ten α) (b : Ten β) (i : Nat → Nat) :
    (Ten.zip t f a b).get i = f (a.get i) (b.get i) := by
  simp only [Ten.get, Ten.zip]
  congr 2 <;> funext k <;> by_cases h : dim a.sh k = 1 <;> by_cases h' : dim b.sh k = 1 <;> simp [h, h']

@[simp] theorem Ten.get_zip3 (t : DT) (f : α → β → γ → δ) (a : Ten α) (b : Ten β) (c : Ten γ) (i : Nat → Nat) :
    (Ten.zip3 t f a b c).get i = f (a.get i) (b.get i) (c.get i) := by
  simp only [Ten.get, Ten.zip3]
  congr 2 <;> funext k <;> by_cases h : dim a.sh k = 1 <;> by_cases h' : dim b.sh k = 1 <;> by_cases h'' : dim c.sh k = 1 <;>
    simp [h, h', h'']

@[simp] theorem Ten.get_scalar (t : DT) (v : α) (i : Nat → Nat) : (Ten.scalar t v).get i = v := rfl

@[simp] theorem Ten.map_dt (t : DT) (f : α → β) (a : Ten α) : (Ten.map t f a).dt = t := rfl
@[simp] theorem Ten.map_sh (t : DT) (f : α → β) (a : Ten α) : (Ten.map t f a).sh = a.sh := rfl
@[simp] theorem Ten.zip_dt (t : DT) (f : α → β → γ) (a : Ten α) (b : Ten β) : (Ten.zip t f a b).dt = t := rfl
@[simp] theorem Ten.zip_sh (t : DT) (f : α → β → γ) (a : Ten α) (b : Ten β) : (Ten.zip t f a b).sh = bsh a.sh b.sh := rfl
@[simp] theorem Ten.zip3_dt (t : DT) (f : α → β → γ → δ) (a : Ten α) (b : Ten β) (c : Ten γ) : (Ten.zip3 t f a b c).dt = t := rfl
@[simp] theorem Ten.zip3_sh (t : DT) (f : α → β → γ → δ) (a : Ten α) (b : Ten β) (c : Ten γ) :
    (Ten.zip3 t f a b c).sh = bsh a.sh (bsh b.sh c.sh) := rfl
@[simp] theorem Ten.scalar_dt (t : DT) (v : α) : (Ten.scalar t v).dt = t := rfl
@[simp] theorem Ten.scalar_sh (t : DT) (v : α) : (Ten.scalar t v).sh = [] := rfl

@[simp] theorem Ten.map_at (t : DT) (f : α → β) (a : Ten α) (i : Nat → Nat) : (Ten.map t f a).at_ i = f (a.get i) := rfl
@[simp] theorem Ten.zip_at (t : DT) (f : α → β → γ) (a : Ten α) (b : Ten β) (i : Nat → Nat) :
    (Ten.zip t f a b).at_ i = f (a.get i) (b.get i) := rfl
@[simp] theorem Ten.zip3_at (t : DT) (f : α → β → γ → δ) (a : Ten α) (b : Ten β) (c : Ten γ) (i : Nat → Nat) :
    (Ten.zip3 t f a b c).at_ i = f (a.get i) (b.get i) (c.get i) := rfl

/-- Tensors whose elements are always read through `get` are determined by type, shape and elements. -/
theorem Ten.ext_at {a b : Ten α} (h1 : a.dt = b.dt) (h2 : a.sh = b.sh) (h3 : ∀ i, a.at_ i = b.at_ i) : a = b := by
  cases a; cases b; simp_all; exact funext h3

end Verif.Elem
