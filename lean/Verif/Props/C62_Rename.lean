import Verif.Props.C62_Loop
/-!
# Letters
-/
namespace Verif.Einsum
open Verif.Tensor

variable {α ι κ : Type} [CommSemiring α] [DecidableEq ι] [DecidableEq κ]

/-- Renaming the letters does not change a sum over their values. -/
theorem sumL_rename {dim : ι → Nat} {dim' : κ → Nat} {K : List ι} {f : ι → κ} (hf : ∀ a ∈ K, ∀ b ∈ K, f a = f b → a = b)
    {F : (ι → Nat) → α} {F' : (κ → Nat) → α} (hF : ∀ σ σ', (∀ c ∈ K, σ c = σ' (f c)) → F σ = F' σ') (S : List ι) :
    ∀ σ σ', (∀ c ∈ K, σ c = σ' (f c)) → (∀ c ∈ S, c ∈ K ∧ dim c = dim' (f c)) → sumL dim S F σ = sumL dim' (S.map f) F' σ' := by
  induction S with
  | nil => intro σ σ' h _; exact hF σ σ' h
  | cons d S ih =>
    intro σ σ' h hS
    simp only [sumL, List.map_cons, (hS d (by simp)).2]
    apply Finset.sum_congr rfl
    intro k _
    apply ih _ _ _ (fun c hc => hS c (by simp [hc]))
    intro c hc
    unfold upd
    by_cases hcd : c = d
    · simp [hcd]
    · rw [if_neg hcd, if_neg (fun he => hcd (hf c hc d (hS d (by simp)).1 he)), h c hc]

theorem product_rename (f : ι → κ) (ins : List (List ι)) (xs : List (T α)) {σ : ι → Nat} {σ' : κ → Nat} (h : ∀ c ∈ ins.flatten, σ c = σ' (f c)) :
    product ins xs σ = product (ins.map (List.map f)) xs σ' := by
  unfold product
  congr 1
  induction ins generalizing xs with
  | nil => rfl
  | cons t ins ih =>
    cases xs with
    | nil => rfl
    | cons x xs =>
      simp only [List.map_cons, List.zipWith_cons_cons, List.map_map]
      congr 1
      · congr 1
        exact List.map_congr_left (fun d hd => h d (by simp [hd]))
      · exact ih xs (fun d hd => h d (by simp only [List.flatten_cons, List.mem_append]; exact Or.inr hd))

theorem dimOf_eq {dim : ι → Nat} {ins : List (List ι)} {xs : List (T α)} (h : Operands dim ins xs) {c : ι} (hc : c ∈ ins.flatten) :
    dimOf ins xs c = dim c := by
  induction h with
  | nil => simp at hc
  | @cons t x ts ys hx _ ih =>
    simp only [dimOf]
    by_cases ht : c ∈ t
    · rw [if_pos ht, hx]
      have := List.idxOf_lt_length_iff.2 ht
      simp [nth, this]
    · rw [if_neg ht]
      apply ih
      simp only [List.flatten_cons, List.mem_append, ht, false_or] at hc
      exact hc

/-- An element of the result is a sum over the values of the letters. -/
theorem einsum_get {dim : ι → Nat} {ins : List (List ι)} {out : List ι} {xs : List (T α)} (h : Operands dim ins xs) (σ : ι → Nat) :
    (einsum ins out xs).get (out.map σ) = sumL dim (summed ins out) (product ins xs) σ := by
  have hmem : ∀ c, c ∈ summed ins out ↔ c ∈ ins.flatten ∧ c ∉ out := by
    intro c
    simp only [summed, List.mem_dedup, List.mem_filter, decide_eq_true_eq]
  have hnd : (summed ins out).Nodup := List.nodup_dedup _
  rw [← sumL_allIdx hnd]
  simp only [einsum]
  have e : (summed ins out).map (dimOf ins xs) = (summed ins out).map dim := List.map_congr_left (fun c hc => dimOf_eq h ((hmem c).1 hc).1)
  rw [e]
  congr 1
  apply List.map_congr_left
  intro j _
  apply dep_product ins xs
  intro c hc
  unfold valueOf asg
  by_cases hco : c ∈ out
  · have hs : c ∉ summed ins out := fun hs => ((hmem c).1 hs).2 hco
    have hi := List.idxOf_lt_length_iff.2 hco
    rw [if_neg hs, List.idxOf_append_of_mem hco]
    simp [nth, hi, List.getElem?_append_left]
  · have hs : c ∈ summed ins out := (hmem c).2 ⟨hc, hco⟩
    rw [if_pos hs, List.idxOf_append_of_notMem hco]
    simp [nth, List.getElem?_append_right]

theorem einsum_shape {dim : ι → Nat} {ins : List (List ι)} {out : List ι} {xs : List (T α)} (h : Operands dim ins xs) (hk : ∀ c ∈ out, c ∈ ins.flatten) :
    (einsum ins out xs).shape = out.map dim := List.map_congr_left (fun c hc => dimOf_eq h (hk c hc))

/-- An index of the result gives values to the letters of the output. -/
theorem index_map {out : List ι} (ho : out.Nodup) {idx : List Nat} (hl : idx.length = out.length) : out.map (fun c => nth idx (out.idxOf c)) = idx := by
  apply ext_nth (by simp [hl])
  intro i hi
  have hi : i < out.length := by simpa using hi
  simp only [nth, List.getD_eq_getElem?_getD, List.getElem?_map, List.getElem?_eq_getElem hi, Option.map_some, Option.getD_some]
  rw [ho.idxOf_getElem i hi]

end Verif.Einsum
