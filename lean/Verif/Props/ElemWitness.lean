import Verif.Props.HandlerExamples
import Verif.Props.C17_Cast
import Verif.Spec.ElemOps
import Verif.Props.HandlerSite
/-!
# Operators as `OnnxOps`, `TfOps` and `ElemLaws` describe them, and graphs for the examples
-/
namespace Verif.Graph
open Verif Verif.Elem Verif.Cast

/-- A function of finite elements. -/
def onNums (f : ℚ → ℚ → ℚ) : Val → Val → Val
  | .num a, .num b => .num (f a b)
  | _, _ => .nan

/-- ONNX functions of elements, exact. -/
def exK : Kern Val where
  un := fun op _ x =>
    if op = "Floor" then (match x with | .num a => .num ⌊a⌋ | v => v)
    else if op = "Not" then bval (vzero x)
    else if op = "IsNaN" then bval (vnan x)
    else if op = "IsInf" then bval (vinf x)
    else if op = "Sign" then vsign x
    else x
  bin := fun op t x y =>
    if op = "Div" then onNums (fun a b => if fl3 t then a / b else trunc (a / b)) x y
    else if op = "Mul" then onNums (· * ·) x y
    else if op = "Sub" then onNums (· - ·) x y
    else if op = "Add" then onNums (· + ·) x y
    else if op = "Greater" then bval (vlt y x)
    else if op = "Less" then bval (vlt x y)
    else if op = "GreaterOrEqual" then bval (vlt y x || veq x y)
    else if op = "LessOrEqual" then bval (vlt x y || veq x y)
    else if op = "Equal" then bval (veq x y)
    else if op = "Or" then bval (!vzero x || !vzero y)
    else if op = "Min" then vmin x y
    else if op = "Max" then vmax x y
    else x

/-- The partner of an operator. -/
def partner (l : List (String × String)) (op : String) : String := ((l.find? (fun p => p.1 = op)).map Prod.snd).getD op

/-- TensorFlow functions of elements, exact. -/
def exT : Kern Val where
  un := fun op t x =>
    if op = "Square" then exK.bin "Mul" t x x
    else if op = "Rsqrt" then exK.un "Reciprocal" t (exK.un "Sqrt" t x)
    else if op = "Relu6" then vmin (vmax x (.num 0)) (.num 6)
    else if op = "IsFinite" then bval !(vinf x || vnan x)
    else exK.un (partner sameUn op) t x
  bin := fun op t x y =>
    if op = "SquaredDifference" then exK.bin "Mul" t (exK.bin "Sub" t x y) (exK.bin "Sub" t x y)
    else if op = "DivNoNan" then (if vzero y then .num 0 else exK.bin "Div" t x y)
    else if op = "FloorDiv" then (if fl3 t then exK.un "Floor" t (exK.bin "Div" t x y) else onNums (fun a b => ⌊a / b⌋) x y)
    else if op = "FloorMod" then onNums (fun a b => a - b * ⌊a / b⌋) x y
    else if op = "NotEqual" then bval (!veq x y)
    else exK.bin (partner sameBin op) t x y

/-- `Cast` and constants by the code of the type. -/
def dtOf (c : Int) : DT := (allDT.find? (fun t => (code t : Int) = c)).getD .float

theorem dtOf_code (t : DT) : dtOf (code t) = t := code_find t

/-- A meaning of TensorFlow and ONNX operators. -/
def exInterp (cast : DT → Val → Val) : Interp (Ten Val) := fun op dom attr args _ =>
  if dom = "tf" then
    match args with
    | [some a] => if op = "Identity" then a else Ten.map (resType op a.dt) (exT.un op a.dt) a
    | [some a, some b] => Ten.zip (resType op a.dt) (exT.bin op a.dt) a b
    | [some a, some lo, some hi] => Ten.zip3 a.dt (fun x l h => vmin (vmax x l) h) a lo hi
    | _ => Ten.scalar .float .nan
  else
    match args with
    | [] =>
      match attr.get "value" with
      | some (.tensor ⟨c, [], [n]⟩) => Ten.scalar (dtOf c) (.num n)
      | _ => Ten.scalar .float .nan
    | [some a] =>
      if op = "Identity" then a
      else if op = "Cast" then
        match attr.get "to" with
        | some (.int c) => Ten.map (dtOf c) (cast (dtOf c)) a
        | _ => a
      else if op = "Clip" then
        match attr.get "min", attr.get "max" with
        | some (.int lo), some (.int hi) => Ten.map a.dt (fun x => vmin (vmax x (.num lo)) (.num hi)) a
        | _, _ => a
      else Ten.map (resType op a.dt) (exK.un op a.dt) a
    | [some a, some b] => Ten.zip (resType op a.dt) (exK.bin op a.dt) a b
    | [some a, some b, some c] =>
      if op = "Where" then Ten.zip3 b.dt (fun c x y => if vzero c then y else x) a b c
      else Ten.map a.dt (fun x => vmin (vmax x (b.at_ (fun _ => 0))) (c.at_ (fun _ => 0))) a
    | _ => Ten.scalar .float .nan

theorem exInterp_onnx {cast : DT → Val → Val} (hc : Conforming cast) (v : Nat) : OnnxOps v (exInterp cast) exK cast where
  un := by
    intro op hop attr a _
    have : ∀ op ∈ onnxUn, op ≠ "Identity" ∧ op ≠ "Cast" ∧ op ≠ "Clip" := by decide
    simp [exInterp, this op hop]
  bin := by intro op _ attr a b _ _ _; simp [exInterp]
  isCast := by intro attr t a h; simp [exInterp, h, dtOf_code]
  conf := hc
  isConst := by intro attr t n h; simp [exInterp, h, dtOf_code]
  isWhere := by intro attr c a b _ _ _ _ _; simp [exInterp]
  clipAttr := by intro attr lo hi a _ _ h1 h2; simp [exInterp, h1, h2]
  clipIn := by intro attr a lo hi _ _ _ _ _ _; simp [exInterp]
  identity := by intro attr a; simp [exInterp]

theorem exInterp_tf (cast : DT → Val → Val) : TfOps (exInterp cast) exT where
  un := by
    intro op hop attr a
    have : ∀ op ∈ tfUn, op ≠ "Identity" := by decide
    simp [exInterp, this op hop]
  bin := by intro op _ attr a b _ _; simp [exInterp]
  clip := by intro attr a lo hi _ _; simp [exInterp]

theorem partner_un : ∀ p ∈ sameUn, partner sameUn p.1 = p.2 ∧ p.1 ≠ "Square" ∧ p.1 ≠ "Rsqrt" ∧ p.1 ≠ "Relu6" ∧ p.1 ≠ "IsFinite" := by
  decide +kernel

theorem partner_bin : ∀ p ∈ sameBin, partner sameBin p.1 = p.2 ∧ p.1 ≠ "SquaredDifference" ∧ p.1 ≠ "DivNoNan" ∧ p.1 ≠ "FloorDiv" ∧
    p.1 ≠ "FloorMod" ∧ p.1 ≠ "NotEqual" := by
  decide +kernel

theorem vzero_bval (b : Bool) : vzero (bval b) = !b := by cases b <;> simp [vzero, bval]

set_option maxHeartbeats 2000000 in
theorem exLaws : ElemLaws exT exK where
  same1 := by
    intro p hp t x
    simp [exT, partner_un p hp]
  same2 := by
    intro p hp t x y
    simp [exT, partner_bin p hp]
  square := by intro t x; simp [exT]
  rsqrt := by intro t x; simp [exT]
  sqdiff := by intro t x y; simp [exT]
  divNoNan := by intro t x y; simp [exT]
  relu6 := by intro t x; simp [exT]
  sign := by
    intro t x _
    have : partner sameUn "Sign" = "Sign" := by decide +kernel
    simp [exT, this, exK]
  isFinite := by intro t x; simp [exT]
  fdivFloat := by intro t x y h; simp [exT, h]
  fdivInt := by
    intro t a b h _ _
    have : fl3 t = false := by revert h; cases t <;> simp [int8s, fl3]
    simp [exT, this, onNums]
  fmod := by intro t a b _ _; simp [exT, onNums]
  div := by intro t a b h _ _; simp [exK, onNums, h]
  divInt := by
    intro t a b h _ _
    have : fl3 t = false := by revert h; cases t <;> simp [int8s, fl3]
    simp [exK, this, onNums]
  floor := by intro t a _ _; simp [exK]
  mul := by intro t a b _; simp [exK, onNums]
  sub := by intro t a b _; simp [exK, onNums]
  gt := by intro t x y; simp [exK]
  lt := by intro t x y; simp [exK]
  ge := by intro t x y; simp [exK]
  le := by intro t x y; simp [exK]
  eq := by intro t x y; simp [exK]
  ne := by intro t x y; simp [exT]
  not := by intro t b; simp [exK, vzero_bval]
  or := by intro t a b; simp [exK, vzero_bval]
  nan := by intro t x; simp [exK]
  inf := by intro t x; simp [exK]
  min := by intro t x y; simp [exK]
  max := by intro t x y; simp [exK]
  comm := by
    intro op hop t x y
    simp only [List.mem_cons, List.not_mem_nil, or_false] at hop
    rcases hop with rfl | rfl <;> cases x <;> cases y <;> simp [exK, onNums, add_comm, mul_comm]

/-- All hypotheses about operators can be met together, for every operator set. -/
theorem elem_exists (v : Nat) : ∃ I T K cast, OnnxOps v I K cast ∧ TfOps I T ∧ ElemLaws T K := by
  obtain ⟨cast, hc⟩ := conforming_exists
  exact ⟨_, _, _, cast, exInterp_onnx hc v, exInterp_tf cast, exLaws⟩

/-! ## Graphs -/

/-- `o = Identity(op(x, y))`, `op` a TensorFlow operator, on operands of element type `t`, with result of type `u`. -/
def tfBinScript (op : String) (t u : Nat) : List Edit :=
  [.addGraphInput "px" "x", .addGraphInput "py" "y", .makeNode op ["x", "y"] "nd" ["z"] [] "tf",
   .makeNode "Identity" ["z"] "id" ["o"] [] "", .addGraphOutput "o", .setDtype "x" t, .setDtype "y" t, .setDtype "z" u]

/-- `o = Identity(op(x))`. -/
def tfUnScript (op : String) (t u : Nat) : List Edit :=
  [.addGraphInput "px" "x", .makeNode op ["x"] "nd" ["z"] [] "tf",
   .makeNode "Identity" ["z"] "id" ["o"] [] "", .addGraphOutput "o", .setDtype "x" t, .setDtype "z" u]

/-- A script with a node to convert. -/
macro "site" s:term : term => `(Site.mk (HInv.of_script (s := $s) (by decide) rfl (by decide) (by decide) (by decide) (by decide)) (by decide) (by rfl)
  (by decide) (by decide) (by decide))

/-- What there is to see of the nodes of a graph. -/
def G.view (g : G) : List (String × String × List String × List String) := g.nodeList.map (fun n => (n.op, n.domain, n.input, n.output))

/-- A handler run on a concrete graph, with a meaning of the operators: what becomes of the graph, and for which operands it computes the same. -/
def Shown (v : Nat) (run : G → Ref → Except String G) (s : List Edit) (r : Ref) (view : List (String × String × List String × List String))
    (D : List (Option (Ten Val)) → Prop) : Prop :=
  ∃ g' I T K cast, OnnxOps v I K cast ∧ TfOps I T ∧ ElemLaws T K ∧ run (graphOf s) r = .ok g' ∧ g'.view = view ∧
    ConvStep I D exFresh (graphOf s) r g'

theorem Shown.of {v : Nat} {run : G → Ref → Except String G} {s : List Edit} {r : Ref} {view : List (String × String × List String × List String)}
    {D : List (Option (Ten Val)) → Prop} (g' : G) (h1 : run (graphOf s) r = .ok g') (h2 : g'.view = view)
    (h : ∀ I T K cast, OnnxOps v I K cast → TfOps I T → ElemLaws T K → run (graphOf s) r = .ok g' → ConvStep I D exFresh (graphOf s) r g') : Shown v run s r view D := by
  obtain ⟨I, T, K, cast, a, b, c⟩ := elem_exists v
  exact ⟨g', I, T, K, cast, a, b, c, h1, h2, h I T K cast a b c h1⟩

end Verif.Graph
