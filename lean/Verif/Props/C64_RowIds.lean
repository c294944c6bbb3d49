import Verif.Props.C64_Blocks
/-!
# C64: ragged tensors given by row ids
-/
namespace Verif.Ragged
open Verif.Tensor Verif.Emit Verif.Seg Verif.Vec

/-- Ids from blocks: `c` times the id. -/
def idsOf (bs : List (Nat × Nat)) : List Int := bs.flatMap (fun p => List.replicate p.1 (p.2 : Int))

theorem mem_idsOf {bs : List (Nat × Nat)} (h : ∀ b ∈ bs, 0 < b.1) {a : Int} : a ∈ idsOf bs ↔ a ∈ bs.map (fun p => (p.2 : Int)) := by
  simp only [idsOf, List.mem_flatMap, List.mem_replicate, List.mem_map]
  constructor
  · rintro ⟨p, hp, _, rfl⟩; exact ⟨p, hp, rfl⟩
  · rintro ⟨p, hp, rfl⟩; exact ⟨p, hp, by have := h p hp; omega, rfl⟩

theorem uniqueVal_sorted (l : List Int) : (uniqueVal l).Pairwise (· ≤ ·) := by
  have h : (uniqueVal l).Pairwise (fun a b => decide (a ≤ b) = true) := by
    refine List.pairwise_mergeSort (fun a b c => ?_) (fun a b => ?_) _
    · simp only [decide_eq_true_eq]; omega
    · simp only [Bool.or_eq_true, decide_eq_true_eq]; omega
  exact h.imp (fun h => by simpa using h)

theorem uniqueVal_of {l m : List Int} (hs : m.Pairwise (· < ·)) (h : ∀ a, a ∈ m ↔ a ∈ l) : uniqueVal l = m := by
  have hn : m.Nodup := hs.imp (fun h => by omega)
  have hp : (uniqueVal l).Perm m := (List.perm_ext_iff_of_nodup (uniqueVal_nodup l) hn).2 (fun a => by rw [mem_uniqueVal, h])
  exact hp.eq_of_pairwise (fun a b _ _ h1 h2 => by omega) (uniqueVal_sorted l) (hs.imp (fun h => by omega))

theorem uniqueVal_ids {bs : List (Nat × Nat)} (h : ∀ b ∈ bs, 0 < b.1) (hs : bs.Pairwise (fun a b => a.2 < b.2)) :
    uniqueVal (idsOf bs) = bs.map (fun p => (p.2 : Int)) := by
  refine uniqueVal_of ?_ (fun a => (mem_idsOf h).symm)
  rw [List.pairwise_map]
  exact hs.imp (fun h => by omega)

theorem not_mem_tail {b : Nat × Nat} {bs : List (Nat × Nat)} (h : ∀ c ∈ bs, b.2 < c.2) : ((b.2 : Nat) : Int) ∉ idsOf bs := by
  simp only [idsOf, List.mem_flatMap, List.mem_replicate, not_exists, not_and]
  intro p hp _ e
  have := h p hp
  omega

theorem uniqueCnt_ids {bs : List (Nat × Nat)} (h : ∀ b ∈ bs, 0 < b.1) (hs : bs.Pairwise (fun a b => a.2 < b.2)) :
    uniqueCnt (idsOf bs) = bs.map (fun p => (p.1 : Int)) := by
  unfold uniqueCnt
  rw [uniqueVal_ids h hs, List.map_map]
  clear h
  induction bs with
  | nil => rfl
  | cons b bs ih =>
    rw [List.pairwise_cons] at hs
    have e : idsOf (b :: bs) = List.replicate b.1 (b.2 : Int) ++ idsOf bs := rfl
    rw [List.map_cons, List.map_cons]
    congr 1
    · simp only [Function.comp]
      rw [e, List.count_append, List.count_replicate_self, List.count_eq_zero_of_not_mem (not_mem_tail hs.1)]
      simp
    · rw [← ih hs.2]
      refine List.map_congr_left (fun p hp => ?_)
      simp only [Function.comp]
      rw [e, List.count_append, List.count_replicate, if_neg]
      · simp
      · have := hs.1 p hp
        simp
        omega

theorem uniqueFirst_ids {bs : List (Nat × Nat)} (h : ∀ b ∈ bs, 0 < b.1) (hs : bs.Pairwise (fun a b => a.2 < b.2)) :
    uniqueFirst (idsOf bs) = blockStarts 0 (bs.map (fun p => ((0 : Int), p.1))) := by
  unfold uniqueFirst
  rw [uniqueVal_ids h hs, List.map_map]
  have key : ∀ (bs : List (Nat × Nat)) (o : Nat), (∀ b ∈ bs, 0 < b.1) → bs.Pairwise (fun a b => a.2 < b.2) →
      bs.map (fun p => ((o + (idsOf bs).idxOf (p.2 : Int) : Nat) : Int)) = blockStarts o (bs.map (fun p => ((0 : Int), p.1))) := by
    intro bs
    induction bs with
    | nil => intro o _ _; rfl
    | cons b bs ih =>
      intro o h hs
      rw [List.pairwise_cons] at hs
      have hb := h b (by simp)
      have e : idsOf (b :: bs) = List.replicate b.1 (b.2 : Int) ++ idsOf bs := rfl
      rw [List.map_cons, List.map_cons, blockStarts]
      congr 1
      · obtain ⟨c, hc⟩ : ∃ c, b.1 = c + 1 := ⟨b.1 - 1, by omega⟩
        rw [e, hc, List.replicate_succ, List.cons_append, List.idxOf_cons_self]
        rfl
      · rw [← ih (o + b.1) (fun c hc => h c (by simp [hc])) hs.2]
        refine List.map_congr_left (fun p hp => ?_)
        rw [e, List.idxOf_append_of_notMem]
        · simp only [List.length_replicate]
          push_cast
          omega
        · have := hs.1 p hp
          simp
          omega
  have := key bs 0 h hs
  simpa [Function.comp_def] using this

theorem deltas_ids (v : Int) (bs : List (Nat × Nat)) :
    blockDeltas v (bs.map (fun p => ((0 : Int), p.1))) = ((-v) :: (bs.map (fun p => (p.1 : Int))).map (fun c => 1 - c)).dropLast := by
  induction bs generalizing v with
  | nil => rfl
  | cons b bs ih =>
    rw [List.map_cons, blockDeltas, ih]
    simp only [List.map_cons, List.dropLast_cons_cons]
    congr 1
    · omega
    · congr 2
      omega

/-- The rows with elements. -/
def nonEmptyRows (lens : List Nat) : List (Nat × Nat) := lens.zipIdx.filter (fun p => decide (0 < p.1))

theorem flatMap_filter_of {β γ : Type} (l : List β) (b : β → Bool) (f : β → List γ) (h : ∀ a ∈ l, b a = false → f a = []) :
    (l.filter b).flatMap f = l.flatMap f := by
  induction l with
  | nil => rfl
  | cons a l ih =>
    have := ih (fun c hc => h c (by simp [hc]))
    rw [List.filter_cons]
    by_cases hb : b a
    · simp [hb, this]
    · have ha := h a (by simp) (by simpa using hb)
      simp [hb, this, ha]

theorem rowIds_eq (lens : List Nat) : rowIds lens = idsOf (nonEmptyRows lens) := by
  unfold rowIds idsOf nonEmptyRows
  rw [flatMap_filter_of]
  intro a _ h
  have : a.1 = 0 := by simpa using h
  simp [this]

theorem rows_pos {lens : List Nat} : ∀ b ∈ nonEmptyRows lens, 0 < b.1 := by
  intro b hb
  simpa using (List.mem_filter.1 hb).2

theorem zipIdx_increasing {β : Type} (l : List β) : l.zipIdx.Pairwise (fun a b => a.2 < b.2) := by
  rw [List.pairwise_iff_getElem]
  intro i j hi hj hij
  simp
  omega

theorem rows_increasing (lens : List Nat) : (nonEmptyRows lens).Pairwise (fun a b => a.2 < b.2) := (zipIdx_increasing lens).filter _

theorem ids_length (bs : List (Nat × Nat)) : (idsOf bs).length = (bs.map Prod.fst).sum := by
  simp [idsOf, List.length_flatMap]

theorem max_filter (lens : List Nat) : (lens.filter (fun c => decide (0 < c))).foldr max 0 = lens.foldr max 0 := by
  induction lens with
  | nil => rfl
  | cons a l ih =>
    rw [List.filter_cons]
    by_cases h : 0 < a
    · simp [h, ih]
    · have : a = 0 := by omega
      simp [this, ih]

theorem fst_zipIdx_filter (lens : List Nat) : (nonEmptyRows lens).map Prod.fst = lens.filter (fun c => decide (0 < c)) := by
  unfold nonEmptyRows
  have : lens.filter (fun c => decide (0 < c)) = (lens.zipIdx.map Prod.fst).filter (fun c => decide (0 < c)) := by rw [List.zipIdx_map_fst]
  rw [this, List.filter_map]
  rfl

theorem rowIds_cells (lens : List Nat) : rowIds lens = (cells lens).map (fun p => (p.1 : Int)) := by
  unfold rowIds cells
  rw [List.map_flatMap]
  refine List.flatMap_congr (fun p _ => ?_)
  rw [List.map_map]
  simp [Function.comp_def]

/-- The emitted operators find the column of every element, provided that there is an element. -/
theorem rowIdsToColumns_ok (lens : List Nat) (h : rowIds lens ≠ []) :
    rowIdsToColumns (rowIds lens) = some (((lens.foldr max 0 : Nat) : Int), (cells lens).map (fun p => (p.2 : Int))) := by
  have hp := rows_pos (lens := lens)
  have hs := rows_increasing lens
  have ht : (idsOf (nonEmptyRows lens)).length = total ((nonEmptyRows lens).map (fun p => ((0 : Int), p.1))) := by
    rw [ids_length, total, List.map_map]
    rfl
  have hne : (nonEmptyRows lens).map Prod.fst ≠ [] := by
    intro hc
    have : nonEmptyRows lens = [] := by simpa using hc
    apply h
    rw [rowIds_eq, this]
    rfl
  unfold rowIdsToColumns
  rw [rowIds_eq, uniqueFirst_ids hp hs, uniqueCnt_ids hp hs]
  have hm : reduceMax1 ((nonEmptyRows lens).map (fun p => (p.1 : Int))) = some ((lens.foldr max 0 : Nat) : Int) := by
    have := max_cast ((nonEmptyRows lens).map Prod.fst) hne
    rw [List.map_map] at this
    rw [fst_zipIdx_filter, max_filter] at this
    exact this
  have hd := deltas_ids 0 (nonEmptyRows lens)
  simp only [Int.neg_zero] at hd
  have hrun := running_index ((nonEmptyRows lens).map (fun p => ((0 : Int), p.1))) (by
    intro b hb
    obtain ⟨p, hp', rfl⟩ := List.mem_map.1 hb
    exact hp p hp')
  have hcols : blockNums ((nonEmptyRows lens).map (fun p => ((0 : Int), p.1))) = (cells lens).map (fun p => (p.2 : Int)) := by
    unfold blockNums cells
    rw [List.flatMap_map, List.map_flatMap]
    unfold nonEmptyRows
    rw [flatMap_filter_of]
    · refine List.flatMap_congr (fun p _ => ?_)
      rw [List.map_map]
      refine List.map_congr_left (fun j _ => ?_)
      simp
    · intro a _ ha
      have : a.1 = 0 := by simpa using ha
      simp [this]
  have hf : fill (1 : Int) ((idsOf (nonEmptyRows lens)).length : Int) = some (List.replicate (total ((nonEmptyRows lens).map (fun p => ((0 : Int), p.1)))) 1) := by
    unfold fill
    rw [if_pos (by omega), ht]
    simp
  simp only [Option.bind_eq_bind]
  rw [hm]
  simp only [Option.bind_some]
  rw [hf]
  simp only [Option.bind_some]
  rw [← hd]
  obtain ⟨d, hd', e⟩ := Option.map_eq_some_iff.1 hrun
  rw [hd', Option.bind_some, e, hcols]

theorem ids_rounds {k : Nat} {α : Type} {l : List (Nest α k)} {C : List (List Nat)} {dims : List Int} (hC : C.length = l.length)
    (hne : ∀ r ∈ lens k l, rowIds r ≠ []) :
    ((lens k l).map rowIds).foldlM rowIdsRound (some (castAll C), dims) = some (some (castAll ((lens k l).foldl stepN C)), dims ++ maxes (lens k l)) := by
  induction k generalizing C dims with
  | zero => simp [lens, maxes]
  | succ k ih =>
    obtain ⟨rows, hr⟩ : ∃ rows : List (List (Nest α k)), rows = l := ⟨l, rfl⟩
    have el : lens (k + 1) l = rows.map List.length :: lens k rows.flatten := by rw [hr]; rfl
    rw [el] at hne ⊢
    have hC'' : C.length = rows.length := by rw [hr]; exact hC
    have hn := hne _ (List.mem_cons_self)
    rw [List.map_cons, List.foldlM_cons]
    have er : rowIdsRound (some (castAll C), dims) (rowIds (rows.map List.length)) =
        some (some (castAll (stepN C (rows.map List.length))), dims ++ [(((rows.map List.length).foldr max 0 : Nat) : Int)]) := by
      unfold rowIdsRound
      rw [rowIdsToColumns_ok _ hn]
      simp only [Option.bind_eq_bind, Option.bind_some]
      rw [rowIds_cells, extend_some (by simpa using hC'')]
      rfl
    rw [er]
    simp only [Option.bind_eq_bind, Option.bind_some]
    rw [ih (l := rows.flatten) (C := stepN C (rows.map List.length)) (by rw [stepN_length (by simpa using hC''), List.length_flatten])
      (fun r hr => hne r (List.mem_cons_of_mem _ hr))]
    simp [maxes]

/-- Indices and shape from row ids. -/
theorem rowIdsToIndices_ok {k : Nat} {α : Type} (t : List (Nest α (k + 1))) (hne : ∀ r ∈ lens (k + 1) t, rowIds r ≠ []) :
    rowIdsToIndices t.length ((lens (k + 1) t).map rowIds) =
      some (some (castAll (paths (k + 2) t)), (box (k + 1) t).map (fun a : Nat => (a : Int))) := by
  obtain ⟨rows, hr⟩ : ∃ rows : List (List (Nest α k)), rows = t := ⟨t, rfl⟩
  have el : lens (k + 1) t = rows.map List.length :: lens k rows.flatten := by rw [hr]; rfl
  have hf := places_fold (k + 1) (C := (List.range t.length).map (fun j => [j])) (l := t) (by simp)
  rw [places_top] at hf
  have hlen : rows.length = t.length := by rw [hr]
  unfold box rowIdsToIndices
  rw [el] at hne hf ⊢
  have hn := hne _ (List.mem_cons_self)
  rw [List.map_cons, List.foldlM_cons]
  have er : rowIdsRound (none, [(t.length : Int)]) (rowIds (rows.map List.length)) =
      some (some (castAll (stepN ((List.range t.length).map (fun j => [j])) (rows.map List.length))),
        [(t.length : Int), (((rows.map List.length).foldr max 0 : Nat) : Int)]) := by
    unfold rowIdsRound
    rw [rowIdsToColumns_ok _ hn]
    simp only [Option.bind_eq_bind, Option.bind_some]
    rw [rowIds_cells, extend_none]
    simp [hlen]
  rw [er]
  simp only [Option.bind_eq_bind, Option.bind_some]
  rw [ids_rounds (l := rows.flatten) (C := stepN ((List.range t.length).map (fun j => [j])) (rows.map List.length))
    (by rw [stepN_length (by simp [hlen]), List.length_flatten]) (fun r hr => hne r (List.mem_cons_of_mem _ hr))]
  rw [List.foldl_cons] at hf
  rw [hf]
  simp [maxes]

end Verif.Ragged
