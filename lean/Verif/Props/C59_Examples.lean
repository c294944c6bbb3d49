import Verif.Props.C59_Dilations
import Verif.Props.C57_Examples
/-!
# C59: examples, and what goes wrong
-/
namespace Verif.Conv.Ex
open Verif.Tensor Verif.Nn Verif.Emit Verif.Conv

/-! ## The specification on a small image -/

/-- `[0 .. 5]` with blocks of 2: the even elements, then the odd ones; a window of two elements reads elements two apart. -/
example : elems (viaBatch true 0 [2, 1] [(0, 0), (0, 0)] [(0, 0), (0, 0)] (fun x => tfConv sumAcc 0 true .valid (ones 2) (ones 2) x ⟨[2, 1, 1, 1], fun _ => 1⟩)
    (count [1, 6, 1, 1])) = [2, 4, 6, 8] := by decide

/-! ## Cases of the theorems -/

/-- Channels last, constant paddings: 5 x 6 with blocks 2 and 3. -/
def dnode1 : Node := ⟨"NHWC", [1, 1, 1, 1], some [1, 1, 1, 1], "VALID", [], some [-1, 4, 2, 2], some [-1, 3, 1, 1], some [2, 2, 2, 1]⟩
def dmatch1 : DMatch := ⟨false, 0, [], [2, 3], [2, 3], some [(1, 2), (0, 0)], some [(0, 1), (0, 0)], .const false⟩

theorem dmatch1_matched : Matched dmatch1 dnode1 [5, 6] [2, 2] [2, 3] [(1, 2), (0, 0)] [(0, 1), (0, 0)] := by
  have hl : dnode1.last = true := by decide
  refine ⟨rfl, Or.inl rfl, by rw [hl]; rfl, fun l h => ?_, fun l h => ?_, rfl, by decide, rfl, rfl, rfl, by decide, by decide, by decide, fun h => ?_, rfl, rfl⟩
  · injection h with h; rw [← h, hl]; rfl
  · injection h with h; rw [← h, hl]; rfl
  · rcases h with h | h <;> simp [dmatch1] at h

/-- What the rewriter writes. -/
def dnode1' : Node := ⟨"NHWC", [1, 1, 1, 1], some [1, 2, 3, 1], "EXPLICIT", [0, 0, 1, 1, 0, 0, 0, 0], some [-1, 5, 6, 2], some [-1, 5, 3, 1], some [2, 2, 2, 1]⟩
theorem dmatch1_rewrite : rewriteDilations dmatch1 dnode1 (some [-1, 5, 6, 2]) (some [-1, 5, 3, 1]) = some dnode1' := by rfl

/-- It meets the conditions of `dilations_conv`: the conclusion holds for it. -/
example : ∃ y, convertedConv sumAcc 0 dnode1' 2 (count [4, 5, 6, 2]) (count [2, 2, 2, 1]) = .ok (some y) ∧
    Same y (viaBatch dnode1.last 0 [2, 3] [(1, 2), (0, 0)] [(0, 1), (0, 0)]
      (fun x => tfConv sumAcc 0 dnode1.last .valid (ones 2) (ones 2) x (count [2, 2, 2, 1])) (count [4, 5, 6, 2])) := by
  have hl : dnode1.last = true := by decide
  have hl' : dnode1'.last = true := by decide
  refine dilations_conv sumAcc 0 dmatch1_matched dmatch1_rewrite (count [4, 5, 6, 2]) (count [2, 2, 2, 1]) (N := 4) (C := 2) (cin := 2) (cout := 1)
    (by rw [hl]; rfl) rfl (fun pad d hd hs => ?_)
  refine ⟨hd, rfl, rfl, by decide, by decide, by decide, by decide, by decide, ⟨_, rfl, by decide⟩, ⟨_, rfl, ?_⟩, ⟨_, rfl, by decide⟩, fun hp => ?_, Or.inl (by decide),
    fun _ => rfl⟩
  · rw [hl', show true = dnode1.last from hl.symm]
    show Rec _ (tfConv sumAcc 0 dnode1.last pad (ones 2) d (count [4, 5, 6, 2]) (count [2, 2, 2, 1])).shape
    have hs' : (tfConv sumAcc 0 dnode1.last pad (ones 2) d (count [4, 5, 6, 2]) (count [2, 2, 2, 1])).shape = _ := hs
    rw [hs']
    decide
  · exact Or.inl (by decide)

/-- Channels first: there is a block of 1 for the channels. Paddings are computed. -/
def dnode2 : Node := ⟨"NCHW", [1, 1, 1, 1], none, "VALID", [], none, none, some [3, 1, 2, 2]⟩
def dmatch2 : DMatch := ⟨false, 0, [], [1, 2, 2], [1, 2, 2], none, none,
  .op "Pack" [.const true, .op "StridedSlice" [.op "AddV2" [.const false, .op "FloorMod" [.op "Sub" [], .const true]], .const true]]⟩
example : Matched dmatch2 dnode2 [7, 4] [3, 1] [2, 2] [(0, 1), (0, 0)] [(0, 1), (0, 0)] := by
  have hl : dnode2.last = false := by decide
  refine ⟨rfl, Or.inr (Or.inr (Or.inl rfl)), by rw [hl]; rfl, fun l h => ?_, fun l h => ?_, rfl, by decide, rfl, rfl, rfl, by decide, by decide, by decide,
    fun h => ⟨by decide, by decide⟩, rfl, rfl⟩
  · simp [dmatch2] at h
  · simp [dmatch2] at h
example : (rewriteDilations dmatch2 dnode2 none none).map (fun n => (n.padding, n.explicit, n.dilations)) = some ("VALID", [], some [1, 1, 2, 2]) := by decide

/-- One dimension. -/
def dnode3 : Node := ⟨"NHWC", [1, 1, 1, 1], some [1, 1, 1, 1], "VALID", [], none, none, some [1, 3, 2, 5]⟩
def dmatch3 : DMatch := ⟨true, -3, [1], [4], [4], some [(8, 2)], some [(0, 2)], .const false⟩
example : Matched1 dmatch3 dnode3 10 3 4 (8, 2) (0, 2) := by
  refine ⟨rfl, rfl, rfl, fun l h => ?_, fun l h => ?_, by decide, by decide, by decide, by decide, fun h => ?_, rfl, rfl⟩
  · injection h with h; rw [← h]; rfl
  · injection h with h; rw [← h]; rfl
  · rcases h with h | h <;> simp [dmatch3] at h
example : (rewriteDilations dmatch3 dnode3 none none).map (fun n => (n.padding, n.explicit, n.dilations)) =
    some ("EXPLICIT", [0, 0, 0, 0, 8, 0, 0, 0], some [1, 1, 4, 1]) := by decide

/-! ## What the rewriter leaves alone -/

/-- Blocks that differ, a crop at the start, a crop of a whole block, `SAME`. -/
example : rewriteDilations { dmatch1 with block2 := [3, 2] } dnode1 none none = none := by rfl
example : rewriteDilations { dmatch1 with crops := some [(1, 0), (0, 0)] } dnode1 none none = none := by rfl
example : rewriteDilations { dmatch1 with crops := some [(0, 2), (0, 0)] } dnode1 none none = none := by rfl
example : rewriteDilations dmatch1 { dnode1 with padding := "SAME" } none none = none := by rfl
/-- Computed paddings that are not of the form the rewriter knows. -/
example : (PadExpr.op "Add" [.const true, .op "FloorMod" []]).mode = none := by decide
example : (PadExpr.op "Mul" []).mode = none := by decide

/-! ## What goes wrong -/

/-- **Violated**: the strides of the convolution are not looked at. Space-to-batch, a convolution with stride 2 and batch-to-space take the elements 0 and 1; the
rewritten convolution takes 0 and 2. -/
theorem dilations_strides_violated :
    (rewriteDilations ⟨false, 0, [], [2, 1], [2, 1], some [(0, 0), (0, 0)], some [(0, 0), (0, 0)], .const false⟩
      ⟨"NHWC", [1, 2, 1, 1], none, "VALID", [], none, none, some [1, 1, 1, 1]⟩ none none).map (fun n => (n.strides, n.padding, n.explicit, n.dilations)) =
      some ([1, 2, 1, 1], "EXPLICIT", [0, 0, 0, 0, 0, 0, 0, 0], some [1, 2, 1, 1]) ∧
    elems (viaBatch true 0 [2, 1] [(0, 0), (0, 0)] [(0, 0), (0, 0)] (fun x => tfConv sumAcc 0 true .valid [1, 2, 1, 1] (ones 2) x ⟨[1, 1, 1, 1], fun _ => 1⟩)
      (count [1, 4, 1, 1])) = [0, 1] ∧
    elems (tfConv sumAcc 0 true (.explicit [(0, 0), (0, 0), (0, 0), (0, 0)]) [1, 2, 1, 1] [1, 2, 1, 1] (count [1, 4, 1, 1]) ⟨[1, 1, 1, 1], fun _ => 1⟩) = [0, 2] :=
  ⟨by decide, by decide, by decide⟩

/-- **Violated**: dilations the convolution already has are overwritten (they should be multiplied with the blocks): the convolution between the other two operators
may have dilation 2, after the rewriting it has that of the block. -/
theorem dilations_overwritten_violated :
    (rewriteDilations ⟨false, 0, [], [2, 1], [2, 1], some [(0, 0), (0, 0)], some [(0, 0), (0, 0)], .const false⟩
      ⟨"NHWC", [1, 1, 1, 1], some [1, 2, 1, 1], "VALID", [], none, none, some [2, 1, 1, 1]⟩ none none).map (fun n => n.dilations) = some (some [1, 2, 1, 1]) ∧
    elems (viaBatch true 0 [2, 1] [(0, 0), (0, 0)] [(0, 0), (0, 0)] (fun x => tfConv sumAcc 0 true .valid (ones 2) [1, 2, 1, 1] x ⟨[2, 1, 1, 1], fun _ => 1⟩)
      (count [1, 6, 1, 1])) = [4, 6] ∧
    elems (tfConv sumAcc 0 true (.explicit [(0, 0), (0, 0), (0, 0), (0, 0)]) (ones 2) [1, 2, 1, 1] (count [1, 6, 1, 1]) ⟨[2, 1, 1, 1], fun _ => 1⟩) = [2, 4, 6, 8] :=
  ⟨by decide, by decide, by decide⟩

/-- **Violated**: crops larger than the padding give a negative padding; ONNX does not have that. -/
theorem dilations_negative_violated :
    (rewriteDilations ⟨false, 0, [], [2, 1], [2, 1], some [(0, 0), (0, 0)], some [(0, 1), (0, 0)], .const false⟩
      ⟨"NHWC", [1, 1, 1, 1], none, "VALID", [], none, none, some [1, 1, 1, 1]⟩ (some [1, 4, 1, 1]) (some [1, 3, 1, 1])).map
      (fun n => (n.explicit, (convertedConv sumAcc 0 n 2 (count [1, 4, 1, 1]) (count [1, 1, 1, 1])).map Option.isNone)) =
      some ([0, 0, 0, -1, 0, 0, 0, 0], .ok true) ∧
    elems (viaBatch true 0 [2, 1] [(0, 0), (0, 0)] [(0, 1), (0, 0)] (fun x => tfConv sumAcc 0 true .valid (ones 2) (ones 2) x ⟨[1, 1, 1, 1], fun _ => 1⟩)
      (count [1, 4, 1, 1])) = [0, 1, 2] :=
  ⟨by rfl, by decide⟩

/-- **Violated**: for computed paddings the rewriter guesses from the operators that compute them. These may add padding in front all the same: here 2 elements,
nothing is cropped; the rewritten convolution has no padding. -/
theorem dilations_guess_violated :
    (rewriteDilations ⟨false, 0, [], [2, 1], [2, 1], none, none, .op "FloorMod" [.const true, .const true]⟩
      ⟨"NHWC", [1, 1, 1, 1], none, "VALID", [], none, none, some [1, 1, 1, 1]⟩ none none).map (fun n => n.padding) = some "VALID" ∧
    elems (viaBatch true 0 [2, 1] [(2, 0), (0, 0)] [(0, 0), (0, 0)] (fun x => tfConv sumAcc 0 true .valid (ones 2) (ones 2) x ⟨[1, 1, 1, 1], fun _ => 1⟩)
      (count [1, 2, 1, 1])) = [0, 0, 0, 1] ∧
    elems (tfConv sumAcc 0 true .valid (ones 2) [1, 2, 1, 1] (count [1, 2, 1, 1]) ⟨[1, 1, 1, 1], fun _ => 1⟩) = [0, 1] :=
  ⟨by decide, by decide, by decide⟩

end Verif.Conv.Ex
