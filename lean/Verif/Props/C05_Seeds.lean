import Mathlib.Tactic.Ring
import Verif.Model.Seeds
/-!
# C05: seeds
-/
namespace Verif.Seeds

/-- Triangular numbers. -/
def tri : Nat → Nat
  | 0 => 0
  | n + 1 => tri n + (n + 1)

theorem two_mul_tri (n : Nat) : 2 * tri n = n * (n + 1) := by
  induction n with
  | zero => rfl
  | succ n ih => simp only [tri, Nat.mul_add, ih]; simp [Nat.add_mul, Nat.mul_add]; omega

theorem tri_mono {a b : Nat} (h : a ≤ b) : tri a ≤ tri b := by
  induction h with
  | refl => exact Nat.le_refl _
  | step _ ih => exact Nat.le_trans ih (by simp [tri])

theorem combine_nat (a b : Nat) (h : a ≠ 0 ∨ b ≠ 0) :
    combineSeeds a b = some ((tri (a + b + 1) : Int) - a) := by
  have h' : (a : Int) ≠ 0 ∨ (b : Int) ≠ 0 := by omega
  have e : ((a : Int) + b + 1) * (a + b + 2) = 2 * (tri (a + b + 1) : Int) := by
    have h2 : (2 * (tri (a + b + 1)) : Int) = (a + b + 1) * (a + b + 1 + 1) := by
      exact_mod_cast two_mul_tri (a + b + 1)
    rw [h2]; ring
  unfold combineSeeds
  rw [if_pos h', e]
  rw [Int.mul_fdiv_cancel_left _ (by decide)]

/-- C05: no seed is produced exactly when no seed was asked for. -/
theorem combine_seeds_none_iff (s s2 : Int) : combineSeeds s s2 = none ↔ s = 0 ∧ s2 = 0 := by
  unfold combineSeeds
  split <;> simp <;> omega

/-- C05: different pairs of non-negative seeds give different combined seeds. -/
theorem combine_seeds_injective (a b c d : Nat) (h : combineSeeds a b = combineSeeds c d) : a = c ∧ b = d := by
  by_cases h0 : a ≠ 0 ∨ b ≠ 0
  · by_cases h1 : c ≠ 0 ∨ d ≠ 0
    · rw [combine_nat a b h0, combine_nat c d h1] at h
      simp only [Option.some.injEq] at h
      have ta : tri (a + b + 1) = tri (a + b) + (a + b + 1) := rfl
      have tc : tri (c + d + 1) = tri (c + d) + (c + d + 1) := rfl
      have hs : a + b = c + d := by
        rcases Nat.lt_trichotomy (a + b) (c + d) with hlt | heq | hgt
        · have := tri_mono (show a + b + 1 ≤ c + d by omega); omega
        · exact heq
        · have := tri_mono (show c + d + 1 ≤ a + b by omega); omega
      rw [hs] at h
      omega
    · have : combineSeeds c d = none := (combine_seeds_none_iff c d).2 (by omega)
      rw [combine_nat a b h0, this] at h; cases h
  · have e : combineSeeds a b = none := (combine_seeds_none_iff a b).2 (by omega)
    rw [e] at h
    have := (combine_seeds_none_iff c d).1 h.symm
    omega

/-- Outside the non-negative seeds the property fails: the different pairs `(-1, -1)` and `(-1, 0)` give the same
combined seed. -/
theorem combine_seeds_negative_collision_violated :
    ∃ a b c d : Int, (a, b) ≠ (c, d) ∧ combineSeeds a b = combineSeeds c d :=
  ⟨-1, -1, -1, 0, by decide, by decide⟩

example : combineSeeds 3 4 = some 33 ∧ combineSeeds 4 3 = some 32 := by decide

end Verif.Seeds
