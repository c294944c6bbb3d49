import Verif.Props.C80_Argmax
/-!
# C80: examples, and what is refused
-/
namespace Verif.Argmax.Ex
open Verif.Tensor Verif.Conv Verif.Emit Verif.Argmax

/-- Two images of 2 x 3 with two channels. -/
def image : T Int := ⟨[2, 2, 3, 2], fun i => (lin [2, 2, 3, 2] i * 7 % 10 : Nat)⟩

/-- The elements. -/
def elems (x : T β) : List β := (allIdx x.shape).map x.get

/-! ## The specification -/

/-- Of equal elements the first: `tf.nn.max_pool_with_argmax([[[[1], [3], [3]]]], [1, 1, 3, 1], 1, "VALID")` takes position 1. -/
example : elems (tfMaxArg firstMax (0, 0) false .valid [1, 1, 3, 1] [1, 1, 1, 1] (⟨[1, 1, 3, 1], fun i => if nth i 2 = 0 then 1 else 3⟩ : T Int)) = [(1, 3)] := by decide
/-- Two channels, two images, the batch not included and included. -/
example : elems (tfMaxArg firstMax (0, 0) false .valid [1, 2, 3, 1] [1, 1, 1, 1] image) = [(4, 8), (7, 9), (2, 8), (5, 9)] := by decide
example : elems (tfMaxArg firstMax (0, 0) true .valid [1, 2, 3, 1] [1, 1, 1, 1] image) = [(4, 8), (7, 9), (14, 8), (17, 9)] := by decide

/-! ## A case of the theorem -/

/-- An unknown number of images. -/
def node1 : ArgNode := ⟨11, [1, 2, 2, 1], [1, 1, 2, 1], "SAME", some true, some [-1, 2, 3, 2], some [-1, 2, 2, 2]⟩

example : Args firstMax (0, 0) node1 .same [1, 2, 2, 1] [1, 1, 2, 1] image [-1, 2, 3, 2] :=
  ⟨Or.inl ⟨rfl, rfl⟩, rfl, rfl, by decide, rfl, rfl, by decide, rfl, rfl, by decide, ⟨_, rfl, by decide⟩, Or.inl (by decide), fun _ => Or.inr (by decide)⟩

/-- What is computed for it. -/
example : (match maxPoolWithArgmax firstMax (0, 0) node1 image with | .ok (some r) => (elems r.1, elems r.2) | _ => ([], [])) =
    ([6, 9, 8, 7, 6, 9, 0, 7, 8, 7, 4, 9, 6, 7, 4, 1], [8, 7, 4, 11, 8, 7, 10, 11, 14, 21, 22, 17, 18, 21, 22, 23]) := by decide +kernel

/-! ## Refused -/

/-- **C80**: before operator set 11 the batch is not included in the positions of an unknown number of images, and the number of channels has to be known. -/
theorem old_refused {n : ArgNode} {s : List Nat} {ind : T Nat} {r : List Int} (hr : n.inShape = some r) (ho : n.opset < 11)
    (h : r.getD 3 0 ≤ 0 ∨ (n.batch.getD true = true ∧ r.getD 0 0 ≠ 1)) : ∃ e, convertIndices n s ind = .error e := by
  unfold convertIndices
  by_cases hc : 0 < r.getD 3 0
  · have hb := h.resolve_left (by omega)
    have e1 : channels n.opset n.inShape (nth s 3) = .ok ⟨[(r.getD 3 0).toNat], fun i => nth i 0⟩ := by
      rw [hr]
      exact if_pos hc
    have e2 : images n (nth s 0) (nth s 1 * nth s 2 * nth s 3) = .error "opset 11 required for MaxPoolWithArgmax with include_batch_in_index" := by
      unfold images
      rw [hr]
      dsimp only [Option.getD_some]
      rw [if_pos (by rw [hb.1]; simpa using hb.2), if_neg (by omega)]
    rw [e1, e2]
    exact ⟨_, rfl⟩
  · have e1 : channels n.opset n.inShape (nth s 3) = .error "opset 11 required for MaxPoolWithArgmax with non-const num channels" := by
      rw [hr]
      unfold channels
      dsimp only [Option.getD_some]
      rw [if_neg hc, if_neg (by omega)]
    rw [e1]
    exact ⟨_, rfl⟩

example : ∃ e, convertIndices { node1 with opset := 10 } [2, 2, 3, 2] ⟨[2, 2, 2, 2], fun _ => 0⟩ = .error e := old_refused rfl (by decide) (Or.inr ⟨rfl, by decide⟩)

end Verif.Argmax.Ex
