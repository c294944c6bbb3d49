import Verif.Props.C61_Upsample
import Verif.Props.C61_Move
import Verif.Props.C53_Examples
import Mathlib.Algebra.BigOperators.Group.Multiset.Defs
/-!
# C61: the hypotheses are met; a reduction the test of the axes lets through wrongly
-/
namespace Verif.Tensor
open Verif Verif.Graph

/-! ## Tensors as values -/

/-- Same tensor, as a relation of equivalence. -/
instance tenSetoid : Setoid (T Int) := ⟨Tensor.Same, ⟨Same.refl, Same.symm, Same.trans⟩⟩

/-- Tensors of integers. -/
abbrev IntTen : Type := Quotient tenSetoid

/-- The tensor a constant stands for. -/
def constTen (W : Graph.Tensor) : T Int := { shape := W.dims, get := fun idx => W.data.getD (nth idx 0) 0 }

/-- The value of a tensor. -/
def val (x : T Int) : IntTen := Quotient.mk tenSetoid x

noncomputable section

/-- Values read as tensors; tensors of rank 1 as lists. -/
def exReading : Reading IntTen Int where
  ten := Quotient.out
  ints := fun q => some ((List.range (nth q.out.shape 0)).map (fun i => q.out.get [i]))
  ext := fun a b h => by rw [← Quotient.out_eq a, ← Quotient.out_eq b]; exact Quotient.sound h

theorem ten_val (x : T Int) : Same (exReading.ten (val x)) x := Quotient.exact (Quotient.out_eq (val x))

def redOf (l : List Int) (x : T Int) : Nat → Bool := fun i => if l = [] then true else (l.map (normAxis x.shape.length)).contains i

/-- The axes a `Squeeze` is told. -/
def sqAxes (attr : Dict String Attr) (d : Option (Option IntTen)) : List Int := match d, attr.get "axes" with
  | some (some b), _ => (exReading.ints b).getD []
  | _, some (.ints l) => l
  | _, _ => []

/-- Axes of a reduction. -/
def rdAxes (attr : Dict String Attr) : List Int := match attr.get "axes" with
  | some (.ints l) => l
  | _ => []

/-- A meaning of the operators: the mean is the sum. -/
def exPool : Interp IntTen := fun op _ attr args _ =>
  match args.head? with
  | some (some a) =>
    if op = "ReduceMean" ∨ op = "ReduceMax" then
      (if attr.get "keepdims" = some (.int 0) then val (reduceDrop Multiset.sum (redOf (rdAxes attr) (exReading.ten a)) (exReading.ten a))
       else val (reduceKeep Multiset.sum (redOf (rdAxes attr) (exReading.ten a)) (exReading.ten a)))
    else if op = "GlobalAveragePool" ∨ op = "GlobalMaxPool" then val (globalPool Multiset.sum (exReading.ten a))
    else if op = "Squeeze" then val (squeeze (fun i => ((sqAxes attr (args[1]?)).map Int.toNat).contains i) (exReading.ten a))
    else a
  | _ =>
    match attr.get "value" with
    | some (.tensor W) => val (constTen W)
    | _ => val ⟨[], fun _ => 0⟩

theorem exPool_ops (v : Nat) : PoolOps v exReading exPool Multiset.sum Multiset.sum where
  const := by
    intro attr W h h7 hd
    simp only [exPool, List.head?_nil, h]
    simp only [exReading]
    have hs := ten_val (constTen W)
    have hs1 : (Quotient.out (val (constTen W))).shape = [W.data.length] := by rw [← hd]; exact hs.1
    congr 1
    rw [hs1]
    apply List.ext_getElem
    · simp [nth]
    · intro i h1 h2
      have hi : i < W.data.length := h2
      have := hs.2 [i] (by
        rw [show (exReading.ten (val (constTen W))).shape = [W.data.length] from hs1]
        refine ⟨rfl, fun j hj => ?_⟩
        have : j = 0 := by simpa using hj
        subst this; exact hi)
      simp only [List.getElem_map, List.getElem_range]
      rw [show (Quotient.out (val (constTen W))).get [i] = _ from this]
      simp [constTen, nth, hi]
  reduce := by
    intro op f hop attr l a h hl _
    have hf : f = Multiset.sum := by rcases hop with ⟨-, h⟩ | ⟨-, h⟩ <;> exact h
    have hop' : op = "ReduceMean" ∨ op = "ReduceMax" := hop.imp And.left And.left
    subst hf
    have hax : redOf (rdAxes attr) (exReading.ten a) = fun i => (l.map (normAxis (exReading.ten a).shape.length)).contains i := by
      funext i; simp [redOf, rdAxes, h, hl]
    refine ⟨fun hk => ?_, fun hk => ?_⟩
    · have : ¬ attr.get "keepdims" = some (.int 0) := by
        rcases hk with hk | ⟨k, hk0, hk⟩ <;> rw [hk] <;> simp [*]
      simp only [exPool, List.head?_cons, if_pos hop', if_neg this, hax]
      exact ten_val _
    · simp only [exPool, List.head?_cons, if_pos hop', if_pos hk, hax]
      exact ten_val _
  reduceAll := by
    intro op f hop attr a h hk
    have hf : f = Multiset.sum := by rcases hop with ⟨-, h⟩ | ⟨-, h⟩ <;> exact h
    have hop' : op = "ReduceMean" ∨ op = "ReduceMax" := hop.imp And.left And.left
    subst hf
    have : ¬ attr.get "keepdims" = some (.int 0) := by
      rcases hk with hk | ⟨k, hk0, hk⟩ <;> rw [hk] <;> simp [*]
    have hax : redOf (rdAxes attr) (exReading.ten a) = fun _ => true := by
      funext i; simp [redOf, rdAxes, h]
    simp only [exPool, List.head?_cons, if_pos hop', if_neg this, hax]
    exact ten_val _
  pool := by
    intro op f hop attr a _
    have hf : f = Multiset.sum := by rcases hop with ⟨-, h⟩ | ⟨-, h⟩ <;> exact h
    subst hf
    have h1 : ¬ (op = "ReduceMean" ∨ op = "ReduceMax") := by rcases hop with ⟨rfl, -⟩ | ⟨rfl, -⟩ <;> decide
    simp only [exPool, List.head?_cons, if_neg h1, if_pos (hop.imp And.left And.left)]
    exact ten_val _
  squeezeAttr := by
    intro attr l a _ h _ _
    simp only [exPool, List.head?_cons]
    rw [if_neg (by decide), if_neg (by decide), if_pos trivial]
    have : sqAxes attr [some a][1]? = l := by simp [sqAxes, h]
    rw [this]
    exact ten_val _
  squeezeIn := by
    intro attr l a b _ h _ _
    simp only [exPool, List.head?_cons]
    rw [if_neg (by decide), if_neg (by decide), if_pos trivial]
    have : sqAxes attr [some a, some b][1]? = l := by simp [sqAxes, h]
    rw [this]
    exact ten_val _

end
end Verif.Tensor

namespace Verif.Graph
open Verif Verif.Tensor

/-! ## A graph -/

/-- `y = relu(reduce_mean(x, [2, 3]))`, and a maximum that keeps its dimensions. -/
def poolScript : List Edit :=
  [.addGraphInput "px" "x", .makeNode "ReduceMean" ["x"] "nm" ["m"] [("axes", .ints [2, 3]), ("keepdims", .int 0)] "",
   .makeNode "Relu" ["m"] "nr" ["y"] [] "", .makeNode "ReduceMax" ["x"] "nx" ["k"] [("axes", .ints [2, 3]), ("keepdims", .int 1)] "",
   .makeNode "Relu" ["k"] "ns" ["z"] [] "",
   .addGraphOutput "y", .addGraphOutput "z", .setDtype "m" 1, .setDtype "k" 1,
   .setShape "x" (some [some 1, some 3, some 2, some 2])]

theorem poolGraph_inv : PoolInv exFresh (graphOf poolScript) where
  inv := HInv.of_script (s := poolScript) (by decide) rfl (by decide) (by decide) (by decide) (by decide)
  unrecorded := by
    intro k y _ hy
    have := exFresh_long k y hy
    have hs : (graphOf poolScript).shapes = [("x", some [some 1, some 3, some 2, some 2])] := by decide
    rw [hs]
    have : y ≠ "x" := by rintro rfl; exact absurd this (by decide)
    exact (if_neg (Ne.symm this)).trans rfl
  shape := by
    intro q hq
    have : q ∈ [0, 1, 2, 3, 4] := hq
    simp only [List.mem_cons, List.not_mem_nil, or_false] at this
    rcases this with rfl | rfl | rfl | rfl | rfl
    · exact fun h => absurd h (by decide)
    · intro _ l hl
      have : l = [2, 3] := by have := hl.symm.trans (show _ = some (.ints [2, 3]) from rfl); simpa using this
      exact ⟨rfl, by rw [this]; decide, ⟨"x", "m", rfl, rfl, by decide, by decide⟩, Or.inr ⟨0, rfl⟩⟩
    · exact fun h => absurd h (by decide)
    · intro _ l hl
      have : l = [2, 3] := by have := hl.symm.trans (show _ = some (.ints [2, 3]) from rfl); simpa using this
      exact ⟨rfl, by rw [this]; decide, ⟨"x", "k", rfl, rfl, by decide, by decide⟩, Or.inr ⟨1, rfl⟩⟩
    · exact fun h => absurd h (by decide)

/-- The graph, optimized for operator set 13. -/
def poolDone : G := match (graphOf poolScript).poolOptimize 13 exFresh 20 with | .ok x => x | .error _ => {}

theorem poolDone_ok : (graphOf poolScript).poolOptimize 13 exFresh 20 = .ok poolDone := by
  have h : ((graphOf poolScript).poolOptimize 13 exFresh 20).toBool = true := by decide +kernel
  unfold poolDone
  cases h' : (graphOf poolScript).poolOptimize 13 exFresh 20 with
  | ok x => rfl
  | error e => rw [h'] at h; cases h

theorem poolDone_view : poolDone.view =
    [("Placeholder", "", [], ["x"]), ("GlobalAveragePool", "", ["x"], ["m"]), ("Relu", "", ["new'''''':0"], ["y"]), ("GlobalMaxPool", "", ["x"], ["k"]),
     ("Relu", "", ["k"], ["z"]), ("Const", "", [], ["new'''''"]), ("Squeeze", "", ["m", "new'''''"], ["new'''''':0"])] := by
  decide +kernel

/-- The theorem applies to the graph: for every operand of rank 4 the optimized graph computes the same. -/
theorem pool_example : SameOn exPool (RanksRight exReading (graphOf poolScript)) (graphOf poolScript) poolDone :=
  (poolOptimize_sameOn exFresh_tensors (exPool_ops 13) poolGraph_inv poolDone_ok).1

/-! ## No axes -/

/-- A mean over the empty list of axes, which in ONNX is a mean over all axes. -/
def noAxesScript : List Edit :=
  [.addGraphInput "px" "x", .makeNode "ReduceMean" ["x"] "nm" ["m"] [("axes", .ints [])] "", .makeNode "Relu" ["m"] "nr" ["y"] [] "",
   .addGraphOutput "y", .setDtype "m" 1, .setShape "x" (some [some 3, some 2])]

theorem noAxes_view : (match (graphOf noAxesScript).poolOptimize 13 exFresh 20 with | .ok x => x.view | .error _ => []) =
    [("Placeholder", "", [], ["x"]), ("GlobalAveragePool", "", ["x"], ["m"]), ("Relu", "", ["m"], ["y"])] := by
  decide +kernel

/-- **Violation.** With a matrix as operand the test `axes == list(range(2, rank))` is met by the empty list of axes. The reduction gives a matrix
with one element, the pooling that takes its place the operand's shape. -/
theorem noAxes_violation {V α : Type} {v : Nat} {R : Reading V α} {I : Interp V} {mean max : Multiset α → α} (P : PoolOps v R I mean max) {a : V}
    (ha : (R.ten a).shape = [3, 2]) :
    (R.ten (I "ReduceMean" "" [("axes", .ints [])] [some a] 0)).shape = [1, 1] ∧ (R.ten (I "GlobalAveragePool" "" [] [some a] 0)).shape = [3, 2] := by
  refine ⟨?_, ?_⟩
  · rw [(P.reduceAll "ReduceMean" mean (Or.inl ⟨rfl, rfl⟩) [("axes", .ints [])] a rfl (Or.inl rfl)).1]
    simp [reduceKeep, ha, List.range_succ]
  · rw [(P.pool "GlobalAveragePool" mean (Or.inl ⟨rfl, rfl⟩) [] a (by rw [ha]; decide)).1]
    simp [globalPool, ha]

/-! ## Upsampling -/

/-- Elements of a constant. -/
def upTen (W : Graph.Tensor) : T Int := { shape := [W.data.length], get := fun idx => W.data.getD (nth idx 0) 0 }

noncomputable section

/-- Scales are whole numbers here. -/
def exFloats (q : IntTen) : Option (List Rat) := (exReading.ints q).map (fun l => l.map (fun z : Int => (z : Rat)))

def exDecode (W : Graph.Tensor) : Option (List Rat) := some (W.data.map (fun z : Int => (z : Rat)))

/-- A meaning of `Upsample`, in operator set `v`. -/
def exUp (v : Nat) : Interp IntTen := fun op _ attr args _ =>
  match args.head? with
  | some (some a) =>
    if op = "Upsample" then
      val (upsample nearest (if v ≤ 8 then (match attr.get "scales" with | some (.tensor W) => (exDecode W).getD [] | _ => [])
        else (match args[1]? with | some (some b) => (exFloats b).getD [] | _ => [])) (exReading.ten a))
    else a
  | _ =>
    match attr.get "value" with
    | some (.tensor W) => val (upTen W)
    | _ => val ⟨[], fun _ => 0⟩

theorem exUp_ops (v : Nat) : UpsampleOps v exReading (exUp v) exFloats exDecode nearest where
  const := by
    intro attr W h
    simp only [exUp, List.head?_nil, h]
    have hs := ten_val (upTen W)
    have : exReading.ints (val (upTen W)) = some W.data := by
      have hs1 : (Quotient.out (val (upTen W))).shape = [W.data.length] := hs.1
      simp only [exReading]
      congr 1
      rw [hs1]
      apply List.ext_getElem
      · simp [nth]
      · intro i h1 h2
        have hi : i < W.data.length := h2
        have := hs.2 [i] (by
          rw [show (exReading.ten (val (upTen W))).shape = [W.data.length] from hs1]
          refine ⟨rfl, fun j hj => ?_⟩
          have : j = 0 := by simpa using hj
          subst this; exact hi)
        simp only [List.getElem_map, List.getElem_range]
        rw [show (Quotient.out (val (upTen W))).get [i] = _ from this]
        simp [upTen, nth, hi]
    rw [exFloats, this]; rfl
  identity := by intro attr a; simp [exUp]
  scalesAttr := by
    intro attr W s a hv h hd
    simp only [exUp, List.head?_cons, if_pos hv, h, hd]
    exact ten_val _
  scalesIn := by
    intro attr s a b hv h
    simp only [exUp, List.head?_cons, if_neg (show ¬ v ≤ 8 by omega)]
    simp only [List.getElem?_cons_succ, List.getElem?_cons_zero, h]
    exact ten_val _

/-- Every element is one. -/
def exOne (W : Graph.Tensor) : Bool := W.data.all (· = 1)

theorem exOne_spec (W : Graph.Tensor) (h : exOne W = true) : ∃ s, exDecode W = some s ∧ ∀ q ∈ s, q = 1 := by
  refine ⟨_, rfl, fun q hq => ?_⟩
  obtain ⟨z, hz, rfl⟩ := List.mem_map.1 hq
  have := List.all_eq_true.1 h z hz
  have : z = 1 := by simpa using this
  rw [this]; rfl

end

/-- `y = upsample(x, [1, 1])`. -/
def upScript : List Edit :=
  [.addGraphInput "px" "x", .makeNode "Const" [] "c" ["c"] [("value", .tensor ⟨1, [2], [1, 1]⟩)] "",
   .makeNode "Upsample" ["x", "c"] "nu" ["y"] [("mode", .str "nearest")] "", .addGraphOutput "y"]

theorem upGraph_inv : UpInv 9 exFresh (graphOf upScript) where
  inv := HInv.of_script (s := upScript) (by decide) rfl (by decide) (by decide) (by decide) (by decide)
  shape := by
    intro q hq
    have : q ∈ [0, 1, 2] := hq
    simp only [List.mem_cons, List.not_mem_nil, or_false] at this
    rcases this with rfl | rfl | rfl
    · exact fun h => absurd h (by decide)
    · exact fun h => absurd h (by decide)
    · exact fun _ => ⟨rfl, "x", ["c"], "y", rfl, rfl, by decide, by decide, by decide, by decide⟩
  consts := by
    intro q hq
    have : q ∈ [0, 1, 2] := hq
    simp only [List.mem_cons, List.not_mem_nil, or_false] at this
    rcases this with rfl | rfl | rfl
    · exact fun h => absurd h (by decide)
    · exact fun _ => ⟨rfl, rfl, rfl, "c", rfl⟩
    · exact fun h => absurd h (by decide)

/-- The theorem applies: the upsampling is gone. -/
theorem up_example : ∃ g', (graphOf upScript).upsampleOptimize 9 exFresh exOne 9 = .ok g' ∧
    g'.view = [("Placeholder", "", [], ["x"]), ("Const", "", [], ["c"]), ("Identity", "", ["x"], ["y"])] ∧
    SameOn (exUp 9) (fun _ => True) (graphOf upScript) g' := by
  have h : ((graphOf upScript).upsampleOptimize 9 exFresh exOne 9).toBool = true := by decide +kernel
  have h2 : (match (graphOf upScript).upsampleOptimize 9 exFresh exOne 9 with | .ok x => x.view | .error _ => []) =
      [("Placeholder", "", [], ["x"]), ("Const", "", [], ["c"]), ("Identity", "", ["x"], ["y"])] := by decide +kernel
  cases h' : (graphOf upScript).upsampleOptimize 9 exFresh exOne 9 with
  | error e => rw [h'] at h; cases h
  | ok x =>
    rw [h'] at h2
    exact ⟨x, rfl, h2, (upsampleOptimize_sameOn exFresh_tensors (exUp_ops 9) nearest_interpolates exOne_spec upGraph_inv h').1⟩

/-! ## Moved dequantizations -/

/-- 6 x 4 to 2 x 3 x 4 with a scale for every one of the last four: axis 2. -/
example : computeNewAxis (some 1) [6, 4] (.reshape [2, 3, 4]) = .ok (some 2) := by decide

/-- The axis may be lost: nothing is done. -/
example : computeNewAxis (some 0) [6, 4] (.reshape [2, 3, 4]) = .ok none := by decide

/-- An inferred dimension behind the axis. -/
example : computeNewAxis (some (-3)) [3, 2, 5] (.reshape [3, -1]) = .ok (some 0) := by decide

example : computeNewAxis (some 1) [6, 4] (.unsqueeze [0, -1]) = .ok (some 2) := by decide

example : computeNewAxis (some (-1)) [6, 4] (.transpose (some [1, 0])) = .ok (some 0) := by decide

/-- A scale for every channel without the attribute `axis`, whose default is 1: the code raises an exception (it compares None with 0). -/
theorem defaultAxis_violation (s : List Nat) (m : Mover) : computeNewAxis none s m = .error "TypeError" := rfl

end Verif.Graph
