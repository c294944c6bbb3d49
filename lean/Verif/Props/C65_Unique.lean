import Verif.Props.C65_Count
/-!
# C65: Unique
-/
namespace Verif.Index
open Verif.Tensor Verif.Emit Verif.Seg Verif.Vec Verif.Ragged

variable {β γ : Type}

theorem zipIdx_append_one (l : List β) (a : β) : (l ++ [a]).zipIdx = l.zipIdx ++ [(a, l.length)] := by
  rw [List.zipIdx_append]
  simp

theorem mem_firstSeen [DecidableEq β] (l : List β) (a : β) : a ∈ TfIndex.firstSeen l ↔ a ∈ l := by
  have key : ∀ (l seen : List β), a ∈ l.foldl (fun seen a => if a ∈ seen then seen else seen ++ [a]) seen ↔ a ∈ seen ∨ a ∈ l := by
    intro l
    induction l with
    | nil => simp
    | cons b l ih =>
      intro seen
      rw [List.foldl_cons, ih]
      by_cases h : b ∈ seen
      · simp only [h, if_true, List.mem_cons]
        constructor
        · tauto
        · rintro (h1 | rfl | h1) <;> tauto
      · simp only [h, if_false, List.mem_append, List.mem_singleton, List.mem_cons]
        tauto
  have h := key l []
  simp only [List.not_mem_nil, false_or] at h
  exact h

theorem firstSeen_append_one [DecidableEq β] (l : List β) (a : β) :
    TfIndex.firstSeen (l ++ [a]) = if a ∈ l then TfIndex.firstSeen l else TfIndex.firstSeen l ++ [a] := by
  have h := mem_firstSeen l a
  unfold TfIndex.firstSeen at h ⊢
  rw [List.foldl_append, List.foldl_cons, List.foldl_nil]
  simp only [h]

/-- Keeping what is not in front is the same as going through the list and remembering what was seen. -/
theorem unsorted_eq [DecidableEq β] (l : List β) : (l.zipIdx.filter (fun p => decide (p.1 ∉ l.take p.2))).map Prod.fst = TfIndex.firstSeen l := by
  induction l using List.reverseRecOn with
  | nil => rfl
  | append_singleton l a ih =>
    rw [zipIdx_append_one, List.filter_append, List.map_append, firstSeen_append_one, ← ih]
    have e1 : l.zipIdx.filter (fun p => decide (p.1 ∉ (l ++ [a]).take p.2)) = l.zipIdx.filter (fun p => decide (p.1 ∉ l.take p.2)) := by
      refine List.filter_congr (fun p hp => ?_)
      have := List.mem_zipIdx hp
      rw [List.take_append_of_le_length (by omega)]
    rw [e1]
    by_cases h : a ∈ l
    · simp [h]
    · simp [h]

theorem firstSeen_map [DecidableEq β] [DecidableEq γ] (f : β → γ) (l : List β) (hf : ∀ a ∈ l, ∀ b ∈ l, f a = f b → a = b) :
    TfIndex.firstSeen (l.map f) = (TfIndex.firstSeen l).map f := by
  induction l using List.reverseRecOn with
  | nil => rfl
  | append_singleton l a ih =>
    have ih := ih (fun x hx y hy => hf x (by simp [hx]) y (by simp [hy]))
    rw [List.map_append, List.map_cons, List.map_nil, firstSeen_append_one, firstSeen_append_one, ih]
    have : f a ∈ l.map f ↔ a ∈ l := by
      constructor
      · intro h
        obtain ⟨b, hb, e⟩ := List.mem_map.1 h
        rw [← hf b (by simp [hb]) a (by simp) e]
        exact hb
      · exact List.mem_map_of_mem
    simp only [this]
    split <;> simp

theorem idxOf_map_inj [DecidableEq β] [DecidableEq γ] (f : β → γ) (l : List β) (a : β) (hf : ∀ b ∈ l, f b = f a → b = a) : (l.map f).idxOf (f a) = l.idxOf a := by
  induction l with
  | nil => rfl
  | cons b l ih =>
    rw [List.map_cons, List.idxOf_cons, List.idxOf_cons, ih (fun c hc => hf c (by simp [hc]))]
    have e : (f b == f a) = (b == a) := by
      by_cases h : b = a
      · rw [h]; simp
      · have : f b ≠ f a := fun e => h (hf b (by simp) e)
        rw [beq_eq_false_iff_ne.2 h, beq_eq_false_iff_ne.2 this]
    rw [e]

theorem count_map_inj [DecidableEq β] [DecidableEq γ] (f : β → γ) (l : List β) (a : β) (hf : ∀ b ∈ l, f b = f a → b = a) : (l.map f).count (f a) = l.count a := by
  rw [List.count, List.countP_map, List.count]
  refine List.countP_congr (fun b hb => ?_)
  simp only [Function.comp, beq_iff_eq]
  exact ⟨hf b hb, fun e => by rw [e]⟩

/-- **Unique**: casts that lose nothing of the elements. -/
theorem unique_partial [DecidableEq β] [DecidableEq γ] (cast : β → γ) (back : γ → β) (l : List β) (h : ∀ a ∈ l, back (cast a) = a) :
    uniqueOp cast back l = TfIndex.uniqueWithCounts l := by
  have hinj : ∀ a ∈ l, ∀ b ∈ l, cast a = cast b → a = b := by
    intro a ha b hb e
    rw [← h a ha, ← h b hb, e]
  have hu : ((l.map cast).zipIdx.filter (fun p => decide (p.1 ∉ (l.map cast).take p.2))).map Prod.fst = (TfIndex.firstSeen l).map cast := by
    rw [unsorted_eq, firstSeen_map cast l hinj]
  unfold uniqueOp uniqueUnsorted TfIndex.uniqueWithCounts
  simp only [hu, List.map_map, Prod.mk.injEq]
  refine ⟨?_, ?_, ?_⟩
  · conv => rhs; rw [← List.map_id (TfIndex.firstSeen l)]
    refine List.map_congr_left (fun a ha => ?_)
    exact h a ((mem_firstSeen l a).1 ha)
  · refine List.map_congr_left (fun a ha => ?_)
    simp only [Function.comp]
    rw [idxOf_map_inj cast _ a (fun b hb e => hinj b ((mem_firstSeen l b).1 hb) a ha e)]
  · refine List.map_congr_left (fun a ha => ?_)
    simp only [Function.comp]
    rw [count_map_inj cast l a (fun b hb e => hinj b hb a ((mem_firstSeen l a).1 ha) e)]

example : uniqueOp (id : Int → Int) id [4, 2, 4, 1, 2] = ([4, 2, 1], [0, 1, 0, 2, 1], [2, 2, 1]) := (unique_partial id id _ (fun _ _ => rfl)).trans (by decide)

/-- A cast that merges values (a double becomes a float) makes one element of two. -/
theorem unique_lossy_wrong : uniqueOp (fun a : Int => a / 2) (fun a => a * 2) [2, 3] = ([2], [0, 0], [2]) ∧
    TfIndex.uniqueWithCounts ([2, 3] : List Int) = ([2, 3], [0, 1], [1, 1]) := by decide

end Verif.Index
