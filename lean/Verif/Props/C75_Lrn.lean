import Verif.Props.C75_Blocks
import Verif.Props.C72_Kit
import Mathlib.Tactic.FieldSimp
import Mathlib.Tactic.NormNum
/-!
# C75: local response normalisation, contrast
-/
namespace Verif.Channels
open Verif.Tensor Verif.Conv Verif.Einsum Verif.Emit

/-- **C75.** The converted `LRN` is TensorFlow's, for every radius, where the node has all its attributes (TensorFlow writes them all). -/
theorem lrn_sound {radius : Option Nat} {bias alpha beta : ℝ} {x : T ℝ} (hr : x.shape.length = 4) :
    ∃ z, lrn radius (some bias) (some alpha) (some beta) x = .ok (some z) ∧ Same z (tfLrn (radius.getD 5) bias alpha beta x) := by
  generalize hrr : radius.getD 5 = r
  match hs : x.shape, hr with
  | [n, h, w, c], _ =>
    have h1 : transposeT [0, 3, 1, 2] x = some (transpose [0, 3, 1, 2] x) := if_pos ⟨by decide, by rw [hs]; rfl⟩
    have h2 : ∀ sz a, transposeT [0, 2, 3, 1] (onnxLrn sz bias a beta (transpose [0, 3, 1, 2] x)) = some (transpose [0, 2, 3, 1] (onnxLrn sz bias a beta (transpose [0, 3, 1, 2] x))) :=
      fun _ _ => if_pos ⟨by decide, rfl⟩
    refine ⟨transpose [0, 2, 3, 1] (onnxLrn (r * 2 + 1) bias (((r * 2 + 1 : Nat) : ℝ) * alpha) beta (transpose [0, 3, 1, 2] x)), ?_, ?_, ?_⟩
    · simp only [lrn, Option.getD_some, h1, Option.bind_some, h2, hrr]
    · show [nth x.shape 0, nth x.shape 1, nth x.shape 2, nth x.shape 3] = x.shape
      rw [hs]
      rfl
    · intro i hi
      have hi' : InB [n, h, w, c] i := by
        have e : (transpose [0, 2, 3, 1] (onnxLrn (r * 2 + 1) bias (((r * 2 + 1 : Nat) : ℝ) * alpha) beta (transpose [0, 3, 1, 2] x))).shape = [n, h, w, c] := by
          show [nth x.shape 0, nth x.shape 1, nth x.shape 2, nth x.shape 3] = _
          rw [hs]
          rfl
        rwa [e] at hi
      match i, hi'.1 with
      | [a, y, z, k], _ =>
        show x.get [a, y, z, k] / (bias + ((r * 2 + 1 : Nat) : ℝ) * alpha / ((r * 2 + 1 : Nat) : ℝ) * ((List.range (nth x.shape 3)).map (fun j =>
          if k ≤ j + (r * 2 + 1 - 1) / 2 ∧ j ≤ k + (r * 2 + 1) / 2 then x.get [a, y, z, j] ^ 2 else 0)).sum) ^ beta = _
        have e1 : (r * 2 + 1 - 1) / 2 = r := by omega
        have e2 : (r * 2 + 1) / 2 = r := by omega
        have e3 : ((r * 2 + 1 : Nat) : ℝ) ≠ 0 := by exact_mod_cast Nat.succ_ne_zero (r * 2)
        rw [e1, e2, mul_div_cancel_left₀ alpha e3]
        rfl

/-- Where `alpha` is missing the handler raises. -/
theorem lrn_needs_alpha {radius : Option Nat} {bias beta : Option ℝ} {x : T ℝ} : ∃ e, lrn radius bias none beta x = .error e := ⟨_, rfl⟩

/-- A concrete case of the sum: three channels, radius 1. -/
theorem ex_lrn : (tfLrn 1 1 2 1 ⟨[1, 1, 1, 3], fun i => (nth i 3 : ℝ)⟩).get [0, 0, 0, 2] = 2 / (1 + 2 * (1 + 4)) := by
  simp only [tfLrn, nth]
  norm_num [List.range_succ, nth]

/-! ## Contrast -/

/-- The elements that a reduction takes, from a list of their indices. -/
theorem group_of_list {α : Type} {x : T α} {ax : Nat → Bool} {i : List Nat} (L : List (List Nat)) (hn : L.Nodup)
    (hm : ∀ p, p ∈ L ↔ InB x.shape p ∧ ∀ k, k < x.shape.length → ax k = true ∨ nth p k = nth i k) : group ax x i = ((L.map x.get : List α) : Multiset α) := by
  unfold group
  rw [Multiset.map_coe, Multiset.coe_eq_coe]
  apply List.Perm.map
  rw [List.perm_ext_iff_of_nodup ((TransposeOpt.nodup_allIdx _).filter _) hn]
  intro p
  rw [List.mem_filter, TransposeOpt.mem_allIdx, hm, List.all_eq_true]
  apply and_congr Iff.rfl
  constructor
  · intro h k hk
    have := h k (List.mem_range.2 hk)
    rwa [Bool.or_eq_true, decide_eq_true_eq] at this
  · intro h k hk
    rw [Bool.or_eq_true, decide_eq_true_eq]
    exact h k (List.mem_range.1 hk)

theorem sum_flatMap {β : Type} (l : List β) (f : β → List ℝ) : (l.flatMap f).sum = (l.map (fun b => (f b).sum)).sum := by
  induction l with
  | nil => rfl
  | cons a l ih => rw [List.flatMap_cons, List.sum_append, List.map_cons, List.sum_cons, ih]

theorem length_setAt (i : List Nat) (a k : Nat) : (setAt i a k).length = i.length := by simp [setAt]

/-- The elements that a reduction over two axes takes. -/
theorem group_two {α : Type} {x : T α} {a b : Nat} (ha : a < x.shape.length) (hb : b < x.shape.length) (hab : a ≠ b) {i : List Nat} (hl : i.length = x.shape.length)
    (hi : ∀ k, k < x.shape.length → k ≠ a → k ≠ b → nth i k < nth x.shape k) {ax : Nat → Bool} (hax : ∀ k, k < x.shape.length → (ax k = true ↔ k = a ∨ k = b)) :
    group ax x i = (((List.range (nth x.shape a)).flatMap (fun y => (List.range (nth x.shape b)).map (fun z => x.get (setAt (setAt i a y) b z))) : List α) : Multiset α) := by
  have e : (List.range (nth x.shape a)).flatMap (fun y => (List.range (nth x.shape b)).map (fun z => x.get (setAt (setAt i a y) b z))) =
      ((List.range (nth x.shape a)).flatMap (fun y => (List.range (nth x.shape b)).map (fun z => setAt (setAt i a y) b z))).map x.get := by
    rw [List.map_flatMap]
    simp only [List.map_map]
    rfl
  have hget : ∀ y z k, k < x.shape.length → nth (setAt (setAt i a y) b z) k = if k = b then z else if k = a then y else nth i k := by
    intro y z k hk
    rw [Softmax.nth_setAt _ _ _ _ (by rw [length_setAt, hl]; exact hk), Softmax.nth_setAt _ _ _ _ (by rw [hl]; exact hk)]
  rw [e]
  apply group_of_list
  · rw [List.nodup_flatMap]
    refine ⟨fun y _ => List.Nodup.map_on ?_ List.nodup_range, ?_⟩
    · intro z _ z' _ h
      have := congrArg (fun l => nth l b) h
      rwa [hget _ _ _ hb, hget _ _ _ hb, if_pos rfl, if_pos rfl] at this
    · refine List.Pairwise.imp (R := fun y y' => y ≠ y') ?_ List.nodup_range
      intro y y' hne
      show List.Disjoint _ _
      intro p hp hp'
      obtain ⟨z, _, rfl⟩ := List.mem_map.1 hp
      obtain ⟨z', _, h⟩ := List.mem_map.1 hp'
      have := congrArg (fun l => nth l a) h
      rw [hget _ _ _ ha, hget _ _ _ ha, if_neg hab, if_neg hab, if_pos rfl, if_pos rfl] at this
      exact hne this.symm
  · intro p
    rw [List.mem_flatMap]
    constructor
    · rintro ⟨y, hy, h⟩
      obtain ⟨z, hz, rfl⟩ := List.mem_map.1 h
      have hy := List.mem_range.1 hy
      have hz := List.mem_range.1 hz
      refine ⟨⟨by rw [length_setAt, length_setAt, hl], fun k hk => ?_⟩, fun k hk => ?_⟩
      · rw [hget _ _ _ hk]
        split_ifs with h1 h2
        · rw [h1]; exact hz
        · rw [h2]; exact hy
        · exact hi k hk h2 h1
      · rw [hget _ _ _ hk, hax k hk]
        by_cases h1 : k = b
        · exact Or.inl (Or.inr h1)
        · by_cases h2 : k = a
          · exact Or.inl (Or.inl h2)
          · rw [if_neg h1, if_neg h2]
            exact Or.inr rfl
    · rintro ⟨⟨h1, h2⟩, h3⟩
      refine ⟨nth p a, List.mem_range.2 (h2 a ha), List.mem_map.2 ⟨nth p b, List.mem_range.2 (h2 b hb), ?_⟩⟩
      apply ext_nth
      · rw [length_setAt, length_setAt, hl, h1]
      · intro k hk
        rw [length_setAt, length_setAt, hl] at hk
        rw [hget _ _ _ hk]
        split_ifs with e1 e2
        · rw [e1]
        · rw [e2]
        · rcases h3 k hk with h | h
          · rcases (hax k hk).1 h with h | h
            · exact absurd h e2
            · exact absurd h e1
          · exact h.symm

theorem mem_contrastAxes {r k : Nat} (hr : 3 ≤ r) : k ∈ contrastAxes r ↔ k = r - 3 ∨ k = r - 3 + 1 := by
  obtain ⟨d, rfl⟩ := Nat.exists_eq_add_of_le hr
  have e : contrastAxes (3 + d) = [d, d + 1] := by
    unfold contrastAxes
    rw [show 3 + d - 3 = d by omega, show 3 + d = d + 3 by omega, List.range_add, List.drop_append_of_le_length (by simp), List.drop_of_length_le (by simp)]
    rfl
  rw [e, show 3 + d - 3 = d by omega]
  simp

/-- The mean that is emitted. -/
theorem mean_two {x : T ℝ} (hr : 3 ≤ x.shape.length) {i : List Nat} (hl : i.length = x.shape.length)
    (hi : ∀ k, k < x.shape.length → k ≠ x.shape.length - 3 → k ≠ x.shape.length - 3 + 1 → nth i k < nth x.shape k) :
    mean (group (fun k => (contrastAxes x.shape.length).contains k) x i) =
      ((List.range (nth x.shape (x.shape.length - 3))).map (fun y => ((List.range (nth x.shape (x.shape.length - 3 + 1))).map (fun z =>
        x.get (setAt (setAt i (x.shape.length - 3) y) (x.shape.length - 3 + 1) z))).sum)).sum / ((nth x.shape (x.shape.length - 3) : ℝ) * (nth x.shape (x.shape.length - 3 + 1) : ℝ)) := by
  rw [group_two (a := x.shape.length - 3) (b := x.shape.length - 3 + 1) (by omega) (by omega) (by omega) hl hi (fun k _ => by
    rw [List.contains_iff_mem, mem_contrastAxes hr])]
  unfold mean
  rw [Multiset.sum_coe, Multiset.coe_card, sum_flatMap]
  congr 1
  rw [List.length_flatMap]
  simp

end Verif.Channels
