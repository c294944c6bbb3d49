import Verif.Props.C81_Greedy
import Mathlib.Algebra.Ring.Int.Defs
/-!
# C81: examples
-/
namespace Verif.Greedy.Ex
open Verif.Greedy

/-- The best classes of two sequences of four steps: 0 0 2 0 and 1 1 0 (2 is blank). -/
def best (t b : Nat) : Nat := ([[0, 0, 2, 0], [1, 1, 0, 0]].getD b []).getD t 0

/-- Negative logits, the largest at the best class. -/
def x (t b c : Nat) : Int := if c = best t b then -1 else -2

/-- The lengths: the second sequence ends early. -/
def len (b : Nat) : Nat := if b = 0 then 4 else 3

theorem best_ok : ∀ b, b < 2 → ∀ t, t < len b → IsBest 3 (x t b) (best t b) := by
  have h : ∀ b, b < 2 → ∀ t, t < 4 → best t b < 3 := by decide
  intro b hb t ht
  have ht4 : t < 4 := by unfold len at ht; split at ht <;> omega
  refine ⟨h b hb t ht4, ?_, ?_⟩
  · intro j _
    unfold x
    rw [if_pos rfl]
    split <;> omega
  · intro j hj
    unfold x
    rw [if_pos rfl, if_neg (by omega)]
    omega

/-- Repetitions merged: 0 0 (the two in front are merged, the one behind the blank stays) and 1 0. -/
theorem ex_merge : ctcGreedyDecoder true true 4 2 3 len x = some ⟨[(0, 0), (0, 1), (1, 0), (1, 1)], [0, 0, 1, 0], (2, 2), [4, 3]⟩ := by
  rw [ctc_decodes (by omega) (by decide) best_ok]
  decide

/-- Repetitions kept. -/
theorem ex_keep : ctcGreedyDecoder true false 4 2 3 len x = some ⟨[(0, 0), (0, 1), (0, 2), (1, 0), (1, 1), (1, 2)], [0, 0, 0, 1, 1, 0], (2, 3), [4, 3]⟩ := by
  rw [ctc_decodes (by omega) (by decide) best_ok]
  decide

/-- Only blanks: TensorFlow gives a sparse matrix without elements, the emitted `ReduceMax` reduces over nothing. -/
theorem blanks_violated : ctcGreedyDecoder true true 2 1 1 (fun _ => 2) (fun _ _ _ => (5 : Int)) = none ∧
    tfDecode true 1 1 (fun _ => 2) (fun _ _ _ => (5 : Int)) (fun _ _ => 0) = ⟨[], [], (1, 0), [-10]⟩ := by
  have hb : ∀ b, b < 1 → ∀ t, t < (fun _ : Nat => 2) b → IsBest 1 ((fun _ _ _ => (5 : Int)) t b) ((fun _ _ : Nat => 0) t b) :=
    fun _ _ _ _ => ⟨Nat.one_pos, fun _ _ => le_refl _, fun _ hj => absurd hj (Nat.not_lt_zero _)⟩
  refine ⟨?_, by decide⟩
  rw [ctc_decodes (by omega) (fun _ _ => le_refl _) hb]
  exact if_pos (by decide)

end Verif.Greedy.Ex
