import Verif.Props.C79_Patches
import Mathlib.Algebra.Ring.Int.Defs
/-!
# C79: examples, and what goes wrong
-/
namespace Verif.Patches.Ex
open Verif.Tensor Verif.Emit Verif.Conv Verif.Patches

/-- A tensor that counts from 1. -/
def count (s : List Nat) : T Int := ⟨s, fun i => lin s i + 1⟩

/-- The elements. -/
def elems {R : Type} (x : T R) : List R := (allIdx x.shape).map x.get

/-! ## The specification (values of `tf.image.extract_patches`) -/

example : elems (tfPatches .valid [1, 2, 2, 1] [1, 1, 1, 1] [1, 1, 1, 1] (count [1, 3, 3, 1])) = [1, 2, 4, 5, 2, 3, 5, 6, 4, 5, 7, 8, 5, 6, 8, 9] := by decide
example : elems (tfPatches .same [1, 2, 2, 1] [1, 2, 2, 1] [1, 1, 1, 1] (count [1, 3, 3, 1])) = [1, 2, 4, 5, 3, 0, 6, 0, 7, 8, 0, 0, 9, 0, 0, 0] := by decide
/-- The channels are innermost; rate 2. -/
example : elems (tfPatches .valid [1, 1, 2, 1] [1, 1, 1, 1] [1, 1, 2, 1] (count [1, 1, 3, 2])) = [1, 2, 5, 6] := by decide

/-! ## Cases of the theorem -/

/-- Two images with three channels. -/
def node1 : PatchNode := ⟨[1, 2, 3, 1], [1, 2, 1, 1], [1, 1, 2, 1], "SAME", some [2, 5, 4, 3], some [2, 3, 4, 18]⟩

example : Extracts node1 .same [1, 2, 3, 1] [1, 2, 1, 1] [1, 1, 2, 1] (count [2, 5, 4, 3]) :=
  ⟨Or.inl ⟨rfl, rfl⟩, rfl, rfl, by decide, rfl, rfl, by decide, rfl, rfl, by decide, rfl, by decide, by decide, ⟨2, rfl, Or.inl rfl⟩, ⟨2, rfl, Or.inl rfl⟩⟩

/-- Any number of images with one channel. -/
def node2 : PatchNode := ⟨[1, 2, 2, 1], [1, 1, 1, 1], [1, 1, 1, 1], "VALID", some [-1, 3, 3, 1], some [-1, 2, 2, 4]⟩

example : Extracts node2 .valid [1, 2, 2, 1] [1, 1, 1, 1] [1, 1, 1, 1] (count [7, 3, 3, 1]) :=
  ⟨Or.inr ⟨rfl, rfl⟩, rfl, rfl, by decide, rfl, rfl, by decide, rfl, rfl, by decide, rfl, by decide, by decide, ⟨-1, rfl, Or.inr ⟨rfl, rfl⟩⟩, ⟨-1, rfl, Or.inr rfl⟩⟩

/-- What is computed for it. -/
example : (match extractPatches node2 (count [1, 3, 3, 1]) with | .ok (some y) => elems y | _ => []) = [1, 2, 4, 5, 2, 3, 5, 6, 4, 5, 7, 8, 5, 6, 8, 9] := by decide +kernel

/-! ## Refused -/

/-- **C79**: a result that is empty, or of unknown rank, is refused. -/
theorem empty_refused {R : Type} [Semiring R] (n : PatchNode) (x : T R) (h : ∀ o, n.outShape = some o → (0 : Int) ∈ o) : ∃ e, extractPatches n x = .error e := by
  unfold extractPatches
  cases ho : n.outShape with
  | none => exact ⟨_, rfl⟩
  | some o => exact ⟨_, if_pos (h o ho)⟩

example : ∃ e, extractPatches ⟨[1, 2, 2, 1], [1, 1, 1, 1], [1, 1, 1, 1], "VALID", some [1, 1, 1, 1], some [1, 0, 0, 4]⟩ (count [1, 1, 1, 1]) = .error e :=
  empty_refused _ _ (fun o h => by injection h with h; subst h; decide)

/-! ## What goes wrong -/

/-- An unknown number of images with two channels: the target of the reshape contains -2, the model does not load. -/
theorem batch_unknown : extractPatches ⟨[1, 1, 1, 1], [1, 1, 1, 1], [1, 1, 1, 1], "VALID", some [-1, 1, 1, 2], some [-1, 1, 1, 2]⟩ (count [1, 1, 1, 2]) = .ok none := by rfl

/-- Numbers with one that is none. -/
inductive Num
  | num (z : Int)
  | nan
  deriving DecidableEq

instance : Add Num := ⟨fun a b => match a, b with
  | .num a, .num b => .num (a + b)
  | _, _ => .nan⟩
instance : Mul Num := ⟨fun a b => match a, b with
  | .num a, .num b => .num (a * b)
  | _, _ => .nan⟩
instance : Zero Num := ⟨.num 0⟩
instance : One Num := ⟨.num 1⟩

/-- One row of two elements, the second is not a number. -/
def bad : T Num := ⟨[1, 1, 2, 1], fun i => if nth i 2 = 0 then .num 5 else .nan⟩

/-- The patch is the row. -/
example : elems (tfPatches .valid [1, 1, 2, 1] [1, 1, 1, 1] [1, 1, 1, 1] bad) = [.num 5, .nan] := by decide

/-- A NaN (an infinity, too) spreads: the emitted model multiplies it with the zeros of the kernel. The theorem is about elements that a zero cancels. -/
theorem nan_spreads : (match extractPatches ⟨[1, 1, 2, 1], [1, 1, 1, 1], [1, 1, 1, 1], "VALID", some [1, 1, 2, 1], some [1, 1, 1, 2]⟩ bad with | .ok (some y) => elems y | _ => []) =
    [.nan, .nan] := by decide +kernel

end Verif.Patches.Ex
