import Verif.Props.C62_Rename
import Verif.Props.C16_Transpose
/-!
# Merging transposes
-/
namespace Verif.Einsum
open Verif.Tensor
open Verif.TransposeOpt (fusePerm permIdx_fuse fusePerm_isPerm useless_transpose isUseless)

variable {α : Type} [CommSemiring α]

theorem canonT_congr {a b : T α} (h : Same a b) : canonT a = canonT b := by
  obtain ⟨sa, fa⟩ := a
  obtain ⟨sb, fb⟩ := b
  obtain ⟨h1, h2⟩ := h
  simp only at h1 h2
  subst h1
  unfold canonT
  congr 1
  funext i
  simp only
  split
  · rename_i hi; exact h2 i hi
  · rfl

theorem canonT_same (a : T α) : Same (canonT a) a := ⟨rfl, fun i hi => by
  have : InB a.shape i := hi
  simp [canonT, this]⟩

theorem canonT_canonT (a : T α) : canonT (canonT a) = canonT a := canonT_congr (canonT_same a)

theorem run_canon (v : Nat) (xs : List (T α)) : ∀ {s : Sub} {t : T α}, s.run v xs = some t → canonT t = t := by
  intro s
  have key : ∀ {o : Option (T α)} {t : T α}, o.map canonT = some t → canonT t = t := by
    intro o t h
    obtain ⟨a, _, rfl⟩ := Option.map_eq_some_iff.1 h
    exact canonT_canonT a
  induction s with
  | ident x ih => intro t h; exact ih h
  | inp i => intro t h; exact key h
  | expand a x _ => intro t h; exact key h
  | transpose p x _ => intro t h; exact key h
  | reduceSum a x _ => intro t h; exact key h
  | mul x y _ _ => intro t h; exact key h
  | batchDot _ _ _ _ _ _ x y _ _ => intro t h; exact key h
  | squeeze a x _ => intro t h; exact key h

/-- Two transposes are one. -/
theorem fuse_same (p1 p2 : List Nat) (x : T α) (h1 : IsPerm p1) (h2 : IsPerm p2) (hl : p2.length = p1.length) :
    Same (transpose (p2.map (nth p1)) x) (transpose p2 (transpose p1 x)) := by
  refine ⟨?_, fun idx _ => ?_⟩
  · simp only [transpose, List.map_map]
    apply List.map_congr_left
    intro i hi
    rw [Function.comp_apply, nth_map _ _ _ (by rw [← hl]; exact h2.mem.1 hi)]
  · simp only [transpose]
    rw [permIdx_fuse h1 h2 hl]
    rfl

theorem mergeT_run {v : Nat} {xs : List (T α)} {p2 : List Nat} {x : Sub} {t : T α} (h : (Sub.transpose p2 x).run v xs = some t) :
    (mergeT p2 x).run v xs = some t := by
  cases x with
  | transpose p1 y =>
    simp only [Sub.run] at h
    cases hy : y.run v xs with
    | none => rw [hy] at h; simp at h
    | some a =>
      rw [hy] at h
      simp only [Option.bind_some, transposeT] at h
      by_cases h1 : IsPerm p1 ∧ p1.length = a.shape.length
      · rw [if_pos h1] at h
        simp only [Option.map_some, Option.bind_some] at h
        by_cases h2 : IsPerm p2 ∧ p2.length = (canonT (transpose p1 a)).shape.length
        · rw [transposeT, if_pos h2] at h
          simp only [Option.map_some, Option.some.injEq] at h
          have hl : p2.length = p1.length := by rw [h2.2]; simp [canonT, transpose]
          have e : canonT (transpose (p2.map (nth p1)) a) = t := by
            rw [← h]
            refine canonT_congr ((fuse_same p1 p2 a h1.1 h2.1 hl).trans ?_)
            exact (Same.transpose h2.1 (canonT_same _) (by rw [h2.2])).symm
          have hfp : IsPerm (p2.map (nth p1)) := fusePerm_isPerm h1.1 h2.1 hl
          simp only [mergeT]
          split
          · rename_i he
            rw [hy, ← e]
            congr 1
            conv_lhs => rw [← run_canon v xs hy]
            refine canonT_congr (useless_transpose (p2.map (nth p1)) a ?_ ?_).symm
            · simp [hl, h1.2]
            · simp only [isUseless, decide_eq_true_eq]; exact he
          · simp only [Sub.run, hy, Option.bind_some, transposeT]
            rw [if_pos ⟨hfp, by simp [hl, h1.2]⟩, Option.map_some, e]
        · rw [transposeT, if_neg h2] at h; simp at h
      · rw [if_neg h1] at h; simp at h
  | _ => exact h

/-- Merging the transposes does not change the result. -/
theorem mergeAll_run (v : Nat) (xs : List (T α)) : ∀ (s : Sub) (t : T α), s.run v xs = some t → (mergeAll s).run v xs = some t := by
  intro s
  induction s with
  | inp i => intro t h; exact h
  | ident x ih => intro t h; exact ih t h
  | expand a x ih =>
    intro t h
    cases hx : x.run v xs with
    | none => simp [Sub.run, hx] at h
    | some b => simp only [Sub.run, hx] at h; simp only [mergeAll, Sub.run, ih b hx]; exact h
  | transpose p x ih =>
    intro t h
    cases hx : x.run v xs with
    | none => simp [Sub.run, hx] at h
    | some b =>
      apply mergeT_run
      simp only [Sub.run, hx] at h
      simp only [Sub.run, ih b hx]
      exact h
  | reduceSum a x ih =>
    intro t h
    cases hx : x.run v xs with
    | none => simp [Sub.run, hx] at h
    | some b => simp only [Sub.run, hx] at h; simp only [mergeAll, Sub.run, ih b hx]; exact h
  | squeeze a x ih =>
    intro t h
    cases hx : x.run v xs with
    | none => simp [Sub.run, hx] at h
    | some b => simp only [Sub.run, hx] at h; simp only [mergeAll, Sub.run, ih b hx]; exact h
  | mul x y ihx ihy =>
    intro t h
    cases hx : x.run v xs with
    | none => simp [Sub.run, hx] at h
    | some b =>
      cases hy : y.run v xs with
      | none => simp [Sub.run, hx, hy] at h
      | some c => simp only [Sub.run, hx, hy] at h; simp only [mergeAll, Sub.run, ihx b hx, ihy c hy]; exact h
  | batchDot _ _ _ _ _ _ x y ihx ihy =>
    intro t h
    cases hx : x.run v xs with
    | none => simp [Sub.run, hx] at h
    | some b =>
      cases hy : y.run v xs with
      | none => simp [Sub.run, hx, hy] at h
      | some c => simp only [Sub.run, hx, hy] at h; simp only [mergeAll, Sub.run, ihx b hx, ihy c hy]; exact h

end Verif.Einsum
