import Verif.Model.Einsum
import Verif.Props.EmitVec
import Verif.Props.C19_Push2
import Mathlib.Algebra.BigOperators.Ring.Finset
import Mathlib.Algebra.BigOperators.Intervals
/-!
# Sums over the values of letters
-/
namespace Verif.Einsum
open Verif.Tensor

variable {α ι : Type} [CommSemiring α] [DecidableEq ι]

/-- Give letter `d` the value `k`. -/
def upd (σ : ι → Nat) (d : ι) (k : Nat) : ι → Nat := fun e => if e = d then k else σ e

@[simp] theorem upd_self (σ : ι → Nat) (d : ι) (k : Nat) : upd σ d k d = k := by simp [upd]
theorem upd_ne (σ : ι → Nat) {d e : ι} (k : Nat) (h : e ≠ d) : upd σ d k e = σ e := by simp [upd, h]

/-- The sum over all values of the letters `S`. -/
def sumL (dim : ι → Nat) : List ι → ((ι → Nat) → α) → (ι → Nat) → α
  | [], F, σ => F σ
  | d :: S, F, σ => ∑ k ∈ Finset.range (dim d), sumL dim S F (upd σ d k)

/-- `τ` differs from `σ` only in values of the letters `S`, which are in range. -/
def Ext (dim : ι → Nat) (S : List ι) (σ τ : ι → Nat) : Prop := (∀ d, d ∉ S → τ d = σ d) ∧ ∀ d ∈ S, τ d < dim d

theorem Ext.cons {dim : ι → Nat} {d : ι} {S : List ι} {σ τ : ι → Nat} {k : Nat} (hk : k < dim d) (h : Ext dim S (upd σ d k) τ) :
    Ext dim (d :: S) σ τ := by
  refine ⟨fun e he => ?_, fun e he => ?_⟩
  · simp only [List.mem_cons, not_or] at he
    rw [h.1 e he.2, upd_ne _ _ he.1]
  · by_cases hS : e ∈ S
    · exact h.2 e hS
    · rw [h.1 e hS]
      simp only [List.mem_cons, hS, or_false] at he
      subst he
      simpa using hk

theorem sumL_congr {dim : ι → Nat} {S : List ι} {F G : (ι → Nat) → α} {σ : ι → Nat} (h : ∀ τ, Ext dim S σ τ → F τ = G τ) :
    sumL dim S F σ = sumL dim S G σ := by
  induction S generalizing σ with
  | nil => exact h σ ⟨fun _ _ => rfl, by simp⟩
  | cons d S ih =>
    simp only [sumL]
    apply Finset.sum_congr rfl
    intro k hk
    exact ih (fun τ hτ => h τ (hτ.cons (Finset.mem_range.1 hk)))

theorem sumL_append (dim : ι → Nat) (A B : List ι) (F : (ι → Nat) → α) (σ : ι → Nat) :
    sumL dim (A ++ B) F σ = sumL dim A (sumL dim B F) σ := by
  induction A generalizing σ with
  | nil => rfl
  | cons d A ih => simp only [List.cons_append, sumL, ih]

theorem sumL_mul_const (dim : ι → Nat) (S : List ι) (c : α) (F : (ι → Nat) → α) (σ : ι → Nat) :
    sumL dim S (fun τ => c * F τ) σ = c * sumL dim S F σ := by
  induction S generalizing σ with
  | nil => rfl
  | cons d S ih => simp only [sumL, ih, Finset.mul_sum]

theorem sumL_mul_left {dim : ι → Nat} {S : List ι} {F G : (ι → Nat) → α} {σ : ι → Nat} (h : ∀ τ, Ext dim S σ τ → F τ = F σ) :
    sumL dim S (fun τ => F τ * G τ) σ = F σ * sumL dim S G σ := by
  rw [← sumL_mul_const]
  exact sumL_congr (fun τ hτ => by rw [h τ hτ])

theorem upd_comm (σ : ι → Nat) {d e : ι} (h : d ≠ e) (k l : Nat) : upd (upd σ d k) e l = upd (upd σ e l) d k := by
  funext x
  simp only [upd]
  by_cases h1 : x = e
  · subst h1; simp [Ne.symm h]
  · simp [h1]

theorem sumL_perm {dim : ι → Nat} {A B : List ι} (h : A.Perm B) (F : (ι → Nat) → α) (σ : ι → Nat) : sumL dim A F σ = sumL dim B F σ := by
  induction h generalizing σ with
  | nil => rfl
  | cons d _ ih => simp only [sumL, ih]
  | swap d e l =>
    by_cases hde : d = e
    · subst hde; rfl
    · simp only [sumL]
      rw [Finset.sum_comm]
      simp only [upd_comm σ hde]
  | trans _ _ h1 h2 => rw [h1, h2]

theorem sum_range_list (n : Nat) (f : Nat → α) : ((List.range n).map f).sum = ∑ k ∈ Finset.range n, f k := by
  induction n with
  | zero => simp
  | succ n ih => rw [List.range_succ, Finset.sum_range_succ]; simp [ih]

/-- The values that an index gives to the letters `S`, `σ` for the others. -/
def asg (S : List ι) (j : List Nat) (σ : ι → Nat) : ι → Nat := fun c => if c ∈ S then nth j (S.idxOf c) else σ c

theorem sumL_allIdx {dim : ι → Nat} {S : List ι} (hn : S.Nodup) (F : (ι → Nat) → α) (σ : ι → Nat) :
    ((allIdx (S.map dim)).map (fun j => F (asg S j σ))).sum = sumL dim S F σ := by
  induction S generalizing σ with
  | nil =>
    have : asg [] [] σ = σ := by funext c; simp [asg]
    simp [allIdx, sumL, this]
  | cons d S ih =>
    simp only [List.map_cons, allIdx, sumL, List.map_flatMap, List.map_map, Function.comp_def]
    rw [← sum_range_list, List.flatMap_def, List.sum_flatten, List.map_map]
    congr 1
    apply List.map_congr_left
    intro k hk
    rw [Function.comp_apply, ← ih (List.nodup_cons.1 hn).2]
    congr 1
    apply List.map_congr_left
    intro j _
    congr 1
    funext c
    simp only [asg, List.mem_cons]
    by_cases hc : c = d
    · subst hc
      simp [(List.nodup_cons.1 hn).1, nth]
    · simp only [hc, false_or, upd_ne _ _ hc]
      by_cases hS : c ∈ S
      · simp [hS, List.idxOf_cons_ne _ (Ne.symm hc), nth]
      · simp [hS]

theorem sum_range_mul (a b : Nat) (f : Nat → α) :
    ∑ q ∈ Finset.range (a * b), f q = ∑ k ∈ Finset.range a, ∑ r ∈ Finset.range b, f (k * b + r) := by
  induction a with
  | zero => simp
  | succ a ih => rw [Nat.succ_mul, Finset.sum_range_add, ih, Finset.sum_range_succ]

/-- A sum over the values of letters is a sum over the row-major position. -/
theorem sumL_lin {dim : ι → Nat} {S : List ι} (hn : S.Nodup) (f : Nat → α) (σ : ι → Nat) :
    sumL dim S (fun τ => f (lin (S.map dim) (S.map τ))) σ = ∑ r ∈ Finset.range (size (S.map dim)), f r := by
  induction S generalizing σ f with
  | nil => simp [sumL, lin, size]
  | cons d S ih =>
    simp only [sumL, List.map_cons]
    rw [show size (dim d :: S.map dim) = dim d * size (S.map dim) from rfl, sum_range_mul]
    apply Finset.sum_congr rfl
    intro k _
    rw [← ih (List.nodup_cons.1 hn).2 (fun r => f (k * size (S.map dim) + r)) (upd σ d k)]
    apply sumL_congr
    intro τ hτ
    rw [lin, hτ.1 d (List.nodup_cons.1 hn).1, upd_self]

end Verif.Einsum
