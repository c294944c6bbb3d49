import Verif.Spec.Elem
/-!
# What element-wise TensorFlow and ONNX operators mean

A node of domain "tf" is a TensorFlow node, a node of domain "" an ONNX node. An ONNX operator has a meaning only on the element types its
operator set allows, only on operands of equal types, and only on shapes that broadcast. Functions of elements are those of `T` (TensorFlow)
and `K` (ONNX); `ElemLaws` says how they are related. Arithmetic is exact only where the exact result is a value of the type.
-/
namespace Verif.Elem
open Verif Verif.Graph Verif.Cast

/-! ## Elements -/

/-- Less than: numbers and infinities are ordered, nothing else is less than anything. -/
def vlt : Val → Val → Bool
  | .num a, .num b => a < b
  | .negInf, .num _ => true
  | .negInf, .posInf => true
  | .num _, .posInf => true
  | _, _ => false

/-- Equality: everything but NaN equals itself. -/
def veq : Val → Val → Bool
  | .num a, .num b => a = b
  | .posInf, .posInf => true
  | .negInf, .negInf => true
  | .str a, .str b => a = b
  | .cplx a b, .cplx c d => a = c ∧ b = d
  | _, _ => false

/-- Truth values. -/
def bval (b : Bool) : Val := .num (if b then 1 else 0)

/-- Minimum; NaN if one operand is. -/
def vmin : Val → Val → Val
  | .nan, _ => .nan
  | _, .nan => .nan
  | x, y => if vlt y x then y else x

/-- Maximum; NaN if one operand is. -/
def vmax : Val → Val → Val
  | .nan, _ => .nan
  | _, .nan => .nan
  | x, y => if vlt x y then y else x

/-- The sign of a number or infinity. -/
def vsign : Val → Val
  | .num a => .num (if a < 0 then -1 else if a = 0 then 0 else 1)
  | .posInf => .num 1
  | .negInf => .num (-1)
  | v => v

/-- A number or an infinity. -/
def Comparable : Val → Prop
  | .num _ | .posInf | .negInf => True
  | _ => False

/-- NaN. -/
def vnan : Val → Bool
  | .nan => true
  | _ => false

/-- An infinity. -/
def vinf : Val → Bool
  | .posInf | .negInf => true
  | _ => false

/-- Zero. -/
def vzero : Val → Bool
  | .num a => a = 0
  | _ => false

/-! ## Types -/

/-- FLOAT, FLOAT16, DOUBLE. -/
def fl3 (t : DT) : Bool := match t with | .float | .float16 | .double => true | _ => false

/-- Integer types. -/
def int8s (t : DT) : Bool := match t with
  | .int8 | .int16 | .int32 | .int64 | .uint8 | .uint16 | .uint32 | .uint64 => true
  | _ => false

/-- Integer types of at least 32 bits. -/
def int32s (t : DT) : Bool := match t with
  | .int32 | .int64 | .uint32 | .uint64 => true
  | _ => false

/-- Floating and integer types. -/
def numeric (t : DT) : Bool := fl3 t || int8s t

/-- ONNX unary operators of a floating type (in all operator sets from 7 on, or from the one they exist in). -/
def onnxFloatUn : List String := ["Ceil", "Elu", "Exp", "Floor", "Log", "Sigmoid", "Sqrt", "Tanh", "Reciprocal", "Softplus", "Softsign", "Selu",
  "Acos", "Asin", "Atan", "Cos", "Sin", "Tan"]

/-- ONNX unary operators of a floating type added in operator set 9. -/
def onnxFloatUn9 : List String := ["Acosh", "Asinh", "Atanh", "Cosh", "Sinh", "IsNaN"]

/-- The types (of the first operand) an ONNX operator allows in operator set `v`, from 7 on; `bfloat16` is left out
(ONNX operator documentation, "Type Constraints"). -/
def onnxTypes (v : Nat) (op : String) (t : DT) : Bool :=
  if op ∈ onnxFloatUn then fl3 t
  else if op ∈ onnxFloatUn9 then 9 ≤ v && fl3 t
  else if op = "Abs" then numeric t
  else if op = "Neg" then fl3 t || t ∈ [DT.int8, .int16, .int32, .int64]
  else if op = "Relu" then fl3 t || (14 ≤ v && t ∈ [DT.int8, .int16, .int32, .int64])
  else if op = "Sign" then 9 ≤ v && numeric t
  else if op = "Erf" then 9 ≤ v && numeric t
  else if op = "Round" then 11 ≤ v && fl3 t
  else if op = "IsInf" then 10 ≤ v && (t ∈ [DT.float, .double] || (20 ≤ v && t = .float16))
  else if op ∈ ["Not", "And", "Or"] then t = .bool
  else if op ∈ ["Add", "Sub", "Mul", "Div"] then fl3 t || int32s t || (14 ≤ v && int8s t)
  else if op ∈ ["Greater", "Less"] then fl3 t || (9 ≤ v && int8s t)
  else if op ∈ ["GreaterOrEqual", "LessOrEqual"] then 12 ≤ v && numeric t
  else if op = "Equal" then t ∈ [DT.bool, .int32, .int64] || (11 ≤ v && numeric t)
  else if op ∈ ["Min", "Max"] then fl3 t || (12 ≤ v && int8s t)
  else if op = "Pow" then fl3 t || (12 ≤ v && t ∈ [DT.int32, .int64])
  else if op = "Clip" then fl3 t || (12 ≤ v && int8s t)
  else false

/-- Operators with results of type `bool`. -/
def boolOps : List String := ["Greater", "Less", "GreaterOrEqual", "LessOrEqual", "GreaterEqual", "LessEqual", "Equal", "NotEqual", "Not", "And", "Or",
  "LogicalNot", "LogicalAnd", "LogicalOr", "IsNaN", "IsInf", "IsNan", "IsFinite"]

/-- Type of the result. -/
def resType (op : String) (t : DT) : DT := if op ∈ boolOps then .bool else t

/-- Shapes that broadcast. -/
def Compat (a b : List Nat) : Prop := ∀ k, dim a k = dim b k ∨ dim a k = 1 ∨ dim b k = 1

/-! ## Operators -/

/-- ONNX unary operators. -/
def onnxUn : List String := onnxFloatUn ++ onnxFloatUn9 ++ ["Abs", "Neg", "Relu", "Sign", "Erf", "Round", "IsInf", "Not"]

/-- ONNX binary operators. -/
def onnxBin : List String := ["Add", "Sub", "Mul", "Div", "And", "Or", "Greater", "Less", "GreaterOrEqual", "LessOrEqual", "Equal", "Min", "Max", "Pow"]

/-- ONNX operator set `v`, from 7 on. -/
structure OnnxOps (v : Nat) (I : Interp (Ten Val)) (K : Kern Val) (cast : DT → Val → Val) : Prop where
  un : ∀ op ∈ onnxUn, ∀ attr a, onnxTypes v op a.dt = true → I op "" attr [some a] 0 = Ten.map (resType op a.dt) (K.un op a.dt) a
  bin : ∀ op ∈ onnxBin, ∀ attr a b, onnxTypes v op a.dt = true → b.dt = a.dt → Compat a.sh b.sh →
    I op "" attr [some a, some b] 0 = Ten.zip (resType op a.dt) (K.bin op a.dt) a b
  isCast : ∀ attr t a, attr.get "to" = some (.int (code t)) → I "Cast" "" attr [some a] 0 = Ten.map t (cast t) a
  conf : Conforming cast
  isConst : ∀ attr t (n : Int), attr.get "value" = some (.tensor ⟨code t, [], [n]⟩) → I "Const" "" attr [] 0 = Ten.scalar t (.num n)
  isWhere : ∀ attr (c a b : Ten Val), 9 ≤ v → c.dt = .bool → b.dt = a.dt → Compat c.sh (bsh a.sh b.sh) → Compat a.sh b.sh →
    I "Where" "" attr [some c, some a, some b] 0 = Ten.zip3 a.dt (fun c x y => if vzero c then y else x) c a b
  clipAttr : ∀ attr (lo hi : Int) (a : Ten Val), v < 11 → fl3 a.dt = true → attr.get "min" = some (.int lo) → attr.get "max" = some (.int hi) →
    I "Clip" "" attr [some a] 0 = Ten.map a.dt (fun x => vmin (vmax x (.num lo)) (.num hi)) a
  clipIn : ∀ attr (a lo hi : Ten Val), 11 ≤ v → onnxTypes v "Clip" a.dt = true → lo.dt = a.dt → hi.dt = a.dt → lo.sh = [] → hi.sh = [] →
    I "Clip" "" attr [some a, some lo, some hi] 0 =
      Ten.map a.dt (fun x => vmin (vmax x (lo.at_ (fun _ => 0))) (hi.at_ (fun _ => 0))) a
  identity : ∀ attr (a : Ten Val), I "Identity" "" attr [some a] 0 = a

/-- TensorFlow unary operators. -/
def tfUn : List String := ["Abs", "Ceil", "Elu", "Exp", "Floor", "Log", "Neg", "Relu", "Sigmoid", "Sqrt", "Tanh", "Reciprocal", "Softplus", "Softsign",
  "Selu", "Acos", "Asin", "Atan", "Cos", "Sin", "Tan", "Acosh", "Asinh", "Atanh", "Cosh", "Sinh", "Erf", "Round", "Rint", "LogicalNot", "IsNan",
  "IsInf", "IsFinite", "Square", "Rsqrt", "Relu6", "Sign"]

/-- TensorFlow binary operators. -/
def tfBin : List String := ["Add", "AddV2", "Sub", "Mul", "Div", "RealDiv", "TruncateDiv", "LogicalAnd", "LogicalOr", "Minimum", "Maximum", "Pow",
  "FloorDiv", "FloorMod", "SquaredDifference", "DivNoNan", "Greater", "Less", "GreaterEqual", "LessEqual", "Equal", "NotEqual"]

/-- TensorFlow operators. -/
structure TfOps (I : Interp (Ten Val)) (T : Kern Val) : Prop where
  un : ∀ op ∈ tfUn, ∀ attr a, I op "tf" attr [some a] 0 = Ten.map (resType op a.dt) (T.un op a.dt) a
  bin : ∀ op ∈ tfBin, ∀ attr a b, b.dt = a.dt → Compat a.sh b.sh →
    I op "tf" attr [some a, some b] 0 = Ten.zip (resType op a.dt) (T.bin op a.dt) a b
  clip : ∀ attr (a lo hi : Ten Val), lo.dt = a.dt → hi.dt = a.dt →
    I "ClipByValue" "tf" attr [some a, some lo, some hi] 0 = Ten.zip3 a.dt (fun x l h => vmin (vmax x l) h) a lo hi

/-- Unary operators that are the same function in TensorFlow and ONNX. -/
def sameUn : List (String × String) := [("Abs", "Abs"), ("Ceil", "Ceil"), ("Elu", "Elu"), ("Exp", "Exp"), ("Floor", "Floor"), ("Log", "Log"),
  ("Neg", "Neg"), ("Relu", "Relu"), ("Sigmoid", "Sigmoid"), ("Sqrt", "Sqrt"), ("Tanh", "Tanh"), ("Reciprocal", "Reciprocal"),
  ("Softplus", "Softplus"), ("Softsign", "Softsign"), ("Selu", "Selu"), ("Acos", "Acos"), ("Asin", "Asin"), ("Atan", "Atan"), ("Cos", "Cos"),
  ("Sin", "Sin"), ("Tan", "Tan"), ("Acosh", "Acosh"), ("Asinh", "Asinh"), ("Atanh", "Atanh"), ("Cosh", "Cosh"), ("Sinh", "Sinh"), ("Erf", "Erf"),
  ("Round", "Round"), ("Rint", "Round"), ("LogicalNot", "Not"), ("IsNan", "IsNaN"), ("IsInf", "IsInf"), ("Sign", "Sign")]

/-- Binary operators that are the same function. -/
def sameBin : List (String × String) := [("Add", "Add"), ("AddV2", "Add"), ("Sub", "Sub"), ("Mul", "Mul"), ("Div", "Div"), ("RealDiv", "Div"),
  ("TruncateDiv", "Div"), ("LogicalAnd", "And"), ("LogicalOr", "Or"), ("Minimum", "Min"), ("Maximum", "Max"), ("Pow", "Pow"), ("Greater", "Greater"),
  ("Less", "Less"), ("GreaterEqual", "GreaterOrEqual"), ("LessEqual", "LessOrEqual"), ("Equal", "Equal")]

/-- The functions of elements. -/
structure ElemLaws (T K : Kern Val) : Prop where
  same1 : ∀ p ∈ sameUn, ∀ t x, T.un p.1 t x = K.un p.2 t x
  same2 : ∀ p ∈ sameBin, ∀ t x y, T.bin p.1 t x y = K.bin p.2 t x y
  square : ∀ t x, T.un "Square" t x = K.bin "Mul" t x x
  rsqrt : ∀ t x, T.un "Rsqrt" t x = K.un "Reciprocal" t (K.un "Sqrt" t x)
  sqdiff : ∀ t x y, T.bin "SquaredDifference" t x y = K.bin "Mul" t (K.bin "Sub" t x y) (K.bin "Sub" t x y)
  divNoNan : ∀ t x y, T.bin "DivNoNan" t x y = if vzero y then .num 0 else K.bin "Div" t x y
  relu6 : ∀ t x, T.un "Relu6" t x = vmin (vmax x (.num 0)) (.num 6)
  sign : ∀ t x, Comparable x → T.un "Sign" t x = vsign x
  isFinite : ∀ t x, T.un "IsFinite" t x = bval !(vinf x || vnan x)
  fdivFloat : ∀ t x y, fl3 t → T.bin "FloorDiv" t x y = K.un "Floor" t (K.bin "Div" t x y)
  fdivInt : ∀ t (a b : Int), int8s t → b ≠ 0 → HasType t (.num ⌊(a : ℚ) / b⌋) → T.bin "FloorDiv" t (.num a) (.num b) = .num ⌊(a : ℚ) / b⌋
  fmod : ∀ t (a b : ℚ), b ≠ 0 → HasType t (.num (a - b * ⌊a / b⌋)) → T.bin "FloorMod" t (.num a) (.num b) = .num (a - b * ⌊a / b⌋)
  div : ∀ t (a b : ℚ), fl3 t → b ≠ 0 → HasType t (.num (a / b)) → K.bin "Div" t (.num a) (.num b) = .num (a / b)
  divInt : ∀ t (a b : Int), int8s t → b ≠ 0 → HasType t (.num (trunc ((a : ℚ) / b))) → K.bin "Div" t (.num a) (.num b) = .num (trunc ((a : ℚ) / b))
  floor : ∀ t (a : ℚ), fl3 t → HasType t (.num ⌊a⌋) → K.un "Floor" t (.num a) = .num ⌊a⌋
  mul : ∀ t (a b : ℚ), HasType t (.num (a * b)) → K.bin "Mul" t (.num a) (.num b) = .num (a * b)
  sub : ∀ t (a b : ℚ), HasType t (.num (a - b)) → K.bin "Sub" t (.num a) (.num b) = .num (a - b)
  gt : ∀ t x y, K.bin "Greater" t x y = bval (vlt y x)
  lt : ∀ t x y, K.bin "Less" t x y = bval (vlt x y)
  ge : ∀ t x y, K.bin "GreaterOrEqual" t x y = bval (vlt y x || veq x y)
  le : ∀ t x y, K.bin "LessOrEqual" t x y = bval (vlt x y || veq x y)
  eq : ∀ t x y, K.bin "Equal" t x y = bval (veq x y)
  ne : ∀ t x y, T.bin "NotEqual" t x y = bval (!veq x y)
  not : ∀ t b, K.un "Not" t (bval b) = bval (!b)
  or : ∀ t a b, K.bin "Or" t (bval a) (bval b) = bval (a || b)
  nan : ∀ t x, K.un "IsNaN" t x = bval (vnan x)
  inf : ∀ t x, K.un "IsInf" t x = bval (vinf x)
  min : ∀ t x y, K.bin "Min" t x y = vmin x y
  max : ∀ t x y, K.bin "Max" t x y = vmax x y
  comm : ∀ op ∈ ["Add", "Mul"], ∀ t x y, K.bin op t x y = K.bin op t y x

/-! ## Operands -/

/-- A tensor whose elements are values of its type. -/
def Ten.Typed (a : Ten Val) : Prop := ∀ i, HasType a.dt (a.at_ i)

/-- One operand of type `t`, all elements in `P`. -/
def One (t : DT) (P : Val → Prop) (args : List (Option (Ten Val))) : Prop :=
  ∃ a : Ten Val, args = [some a] ∧ a.dt = t ∧ a.Typed ∧ ∀ i, P (a.get i)

/-- Two operands of type `t` whose shapes broadcast, with elements that satisfy `P` wherever they meet. -/
def Two (t : DT) (P : Val → Val → Prop) (args : List (Option (Ten Val))) : Prop :=
  ∃ a b : Ten Val, args = [some a, some b] ∧ a.dt = t ∧ b.dt = t ∧ a.Typed ∧ b.Typed ∧ Compat a.sh b.sh ∧ ∀ i, P (a.get i) (b.get i)

/-! ## Laws -/

theorem Ten.Typed.get {a : Ten Val} (h : a.Typed) (i : Nat → Nat) : HasType a.dt (a.get i) := h _

theorem Compat.symm {a b : List Nat} (h : Compat a b) : Compat b a := by
  intro k
  rcases h k with h | h | h
  · exact Or.inl h.symm
  · exact Or.inr (Or.inr h)
  · exact Or.inr (Or.inl h)

theorem Compat.refl (a : List Nat) : Compat a a := fun _ => Or.inl rfl

theorem Compat.nil (a : List Nat) : Compat a [] := fun k => by simp

theorem Compat.nil' (a : List Nat) : Compat [] a := fun k => by simp

theorem Compat.left {a b : List Nat} (h : Compat a b) : Compat a (bsh a b) := by
  intro k
  rcases h k with h | h | h <;> by_cases h' : dim a k = 1 <;> simp [h']

theorem Compat.right {a b : List Nat} (h : Compat a b) : Compat b (bsh a b) := by
  intro k
  rcases h k with h | h | h <;> by_cases h' : dim a k = 1 <;> simp_all

theorem Compat.comm {a b : List Nat} (h : Compat a b) : bsh a b = bsh b a := by
  apply sh_ext
  · simp [Nat.max_comm]
  · intro k
    rcases h k with h | h | h <;> by_cases h' : dim a k = 1 <;> by_cases h'' : dim b k = 1 <;> simp_all

theorem vle_not_lt {x y : Val} (hx : Comparable x) (hy : Comparable y) : (vlt x y || veq x y) = !vlt y x := by
  cases x <;> cases y <;> simp_all [Comparable, vlt, veq]
  rename_i a b
  by_cases h : b < a
  · simp [h, not_lt.2 h.le, h.ne']
  · rcases lt_or_eq_of_le (not_lt.1 h) with h' | h' <;> simp [h, h']

theorem veq_comm (x y : Val) : veq x y = veq y x := by
  cases x <;> cases y <;> simp [veq, eq_comm]

end Verif.Elem
