import Verif.Props.C64_Cells
/-!
# C64: ragged tensors: the index matrix
-/
namespace Verif.Ragged
open Verif.Tensor Verif.Emit Verif.Seg Verif.Vec

/-! ## The specification -/

/-- The places of the leaves below a list of nests that are at the places `C`. -/
def placesFrom {α : Type} (k : Nat) (C : List (List Nat)) (l : List (Nest α k)) : List (List Nat) :=
  (C.zip l).flatMap (fun p => (paths k p.2).map (p.1 ++ ·))

/-- One level more. -/
def stepN (C : List (List Nat)) (lens : List Nat) : List (List Nat) := (C.zip lens).flatMap (fun p => (List.range p.2).map (fun j => p.1 ++ [j]))

theorem zip_append' {β γ : Type} {a b : List β} {c d : List γ} (h : a.length = c.length) : (a ++ b).zip (c ++ d) = a.zip c ++ b.zip d :=
  List.zip_append h

theorem placesFrom_cons {α : Type} (k : Nat) (c : List Nat) (C : List (List Nat)) (t : Nest α k) (l : List (Nest α k)) :
    placesFrom k (c :: C) (t :: l) = (paths k t).map (c ++ ·) ++ placesFrom k C l := by simp [placesFrom]

theorem placesFrom_append {α : Type} (k : Nat) {C C' : List (List Nat)} {l l' : List (Nest α k)} (h : C.length = l.length) :
    placesFrom k (C ++ C') (l ++ l') = placesFrom k C l ++ placesFrom k C' l' := by
  unfold placesFrom
  rw [zip_append' h, List.flatMap_append]

theorem placesFrom_row {α : Type} (k : Nat) (c : List Nat) (t : List (Nest α k)) :
    placesFrom k ((List.range t.length).map (fun j => c ++ [j])) t = (paths (k + 1) t).map (c ++ ·) := by
  have e : ((List.range t.length).map (fun j => c ++ [j])).zip t = t.zipIdx.map (fun p => (c ++ [p.2], p.1)) := by
    apply List.ext_getElem (by simp)
    intro i h1 h2
    simp
  unfold placesFrom
  rw [e, List.flatMap_map]
  show _ = (t.zipIdx.flatMap (fun p => (paths k p.1).map (p.2 :: ·))).map (c ++ ·)
  rw [List.map_flatMap]
  refine List.flatMap_congr (fun p _ => ?_)
  rw [List.map_map]
  refine List.map_congr_left (fun q _ => ?_)
  simp

theorem stepN_length {C : List (List Nat)} {lens : List Nat} (h : C.length = lens.length) : (stepN C lens).length = lens.sum := by
  induction lens generalizing C with
  | nil => simp [stepN]
  | cons l lens ih =>
    cases C with
    | nil => simp at h
    | cons c C =>
      have := ih (C := C) (by simpa using h)
      simp only [stepN, List.zip_cons_cons, List.flatMap_cons, List.length_append, List.length_map, List.length_range, List.sum_cons] at this ⊢
      omega

theorem placesFrom_step {α : Type} (k : Nat) {C : List (List Nat)} {l : List (List (Nest α k))} (h : C.length = l.length) :
    placesFrom k (stepN C (l.map List.length)) l.flatten = placesFrom (k + 1) C l := by
  induction l generalizing C with
  | nil =>
    have : C = [] := by simpa using h
    subst this
    simp [stepN, placesFrom]
  | cons t l ih =>
    cases C with
    | nil => simp at h
    | cons c C =>
      rw [placesFrom_cons, ← ih (C := C) (by simpa using h)]
      have e : stepN (c :: C) ((t :: l).map List.length) = (List.range t.length).map (fun j => c ++ [j]) ++ stepN C (l.map List.length) := by simp [stepN]
      rw [e, List.flatten_cons, placesFrom_append k (by simp), placesFrom_row]

/-- Level by level, one gets where the leaves are. -/
theorem places_fold {α : Type} (k : Nat) {C : List (List Nat)} {l : List (Nest α k)} (h : C.length = l.length) :
    (lens k l).foldl stepN C = placesFrom k C l := by
  induction k generalizing C with
  | zero =>
    show C = _
    unfold placesFrom
    have : ∀ (C : List (List Nat)) (l : List (Nest α 0)), C.length = l.length → C = (C.zip l).flatMap (fun p => (paths 0 p.2).map (p.1 ++ ·)) := by
      intro C
      induction C with
      | nil => intro l _; simp
      | cons c C ih =>
        intro l h
        cases l with
        | nil => simp at h
        | cons t l =>
          have := ih l (by simpa using h)
          simp only [List.zip_cons_cons, List.flatMap_cons]
          rw [← this]
          simp [paths]
    exact this C l h
  | succ k ih =>
    show (lens k (List.flatten (l : List (List (Nest α k))))).foldl stepN (stepN C (List.map List.length (l : List (List (Nest α k))))) = _
    have h' : C.length = (l : List (List (Nest α k))).length := h
    rw [ih (C := stepN C _), placesFrom_step k h']
    rw [stepN_length (by simpa using h'), List.length_flatten]

theorem places_top {α : Type} (k : Nat) (t : List (Nest α k)) : placesFrom k ((List.range t.length).map (fun j => [j])) t = paths (k + 1) t := by
  have := placesFrom_row k [] t
  simpa using this

/-! ## The emitted operators -/

theorem splits_length (l : List Nat) : (splits l).length = l.length + 1 := by simp [splits]

theorem lengthsOf_splits (l : List Nat) : lengthsOf (splits l) = some (l.map (fun a : Nat => (a : Int))) := by
  unfold lengthsOf
  rw [zip2_eq (by simp [splits_length])]
  congr 1
  apply List.ext_getElem
  · simp [splits_length]
  · intro i h1 h2
    simp at h2
    have hi : i < l.length := h2
    simp only [splits, List.getElem_zipWith, List.getElem_drop, List.getElem_map, List.getElem_range, List.getElem_dropLast]
    have e : (l.take (1 + i)).sum = (l.take i).sum + l[i] := by
      rw [Nat.add_comm 1 i, List.take_succ_eq_append_getElem hi, List.sum_append]
      simp only [List.sum_cons, List.sum_nil, Nat.add_zero]
    rw [e]
    omega

/-- The index matrix of the level before, as integers. -/
def castAll (m : List (List Nat)) : List (List Int) := m.map (fun p => p.map (fun a : Nat => (a : Int)))

theorem stepN_cells {C : List (List Nat)} {lens : List Nat} (h : C.length = lens.length) :
    stepN C lens = (cells lens).map (fun p => C.getD p.1 [] ++ [p.2]) := by
  unfold stepN cells
  rw [List.map_flatMap]
  have e : C.zip lens = lens.zipIdx.map (fun p => (C.getD p.2 [], p.1)) := by
    apply List.ext_getElem (by simp [h])
    intro i h1 h2
    simp at h1 h2
    simp [List.getD, h1]
  rw [e, List.flatMap_map]
  refine List.flatMap_congr (fun p _ => ?_)
  rw [List.map_map]
  rfl

theorem cells_lt {lens : List Nat} {p : Nat × Nat} (hp : p ∈ cells lens) : p.1 < lens.length ∧ p.2 < lens.getD p.1 0 := by
  unfold cells at hp
  rw [zipIdx_eq_map] at hp
  simp only [List.mem_flatMap, List.mem_map, List.mem_range] at hp
  obtain ⟨a, ⟨i, hi, rfl⟩, j, hj, rfl⟩ := hp
  exact ⟨hi, hj⟩

theorem zip_cols (l : List (Nat × Nat)) (f : Nat × Nat → List Int) :
    hcat (l.map f) (column (l.map (fun p => (p.2 : Int)))) = some (l.map (fun p => f p ++ [(p.2 : Int)])) := by
  unfold hcat column
  rw [if_pos (by simp), List.map_map, List.zipWith_map, List.zipWith_self]
  rfl

theorem extend_some {C : List (List Nat)} {lens : List Nat} (h : C.length = lens.length) :
    extend (some (castAll C)) ((cells lens).map (fun p => (p.1 : Int))) ((cells lens).map (fun p => (p.2 : Int))) = some (castAll (stepN C lens)) := by
  unfold extend
  simp only [Option.bind_eq_bind]
  rw [gather_nat (fun p : Nat × Nat => p.1) [] (by intro p hp; have := (cells_lt hp).1; simp [castAll]; omega)]
  simp only [Option.bind_some]
  rw [zip_cols, stepN_cells h]
  congr 1
  unfold castAll
  rw [List.map_map]
  refine List.map_congr_left (fun p hp => ?_)
  have := (cells_lt hp).1
  have hC : p.1 < C.length := by omega
  simp [List.getD, hC]

theorem extend_none (lens : List Nat) :
    extend none ((cells lens).map (fun p => (p.1 : Int))) ((cells lens).map (fun p => (p.2 : Int))) =
      some (castAll (stepN ((List.range lens.length).map (fun j => [j])) lens)) := by
  unfold extend
  simp only [Option.bind_eq_bind, Option.bind_some]
  have : column ((cells lens).map (fun p => (p.1 : Int))) = (cells lens).map (fun p => [(p.1 : Int)]) := by
    unfold column
    rw [List.map_map]
    rfl
  rw [this, zip_cols, stepN_cells (by simp)]
  congr 1
  unfold castAll
  rw [List.map_map]
  refine List.map_congr_left (fun p hp => ?_)
  have := (cells_lt hp).1
  simp [List.getD, this]

/-- The longest rows, level by level. -/
def maxes (ls : List (List Nat)) : List Int := ls.map (fun l => ((l.foldr max 0 : Nat) : Int))

theorem splits_rounds {k : Nat} {α : Type} {l : List (Nest α k)} {C : List (List Nat)} {dims : List Int} (hC : C.length = l.length) (hd : dims ≠ [])
    (hne : ∀ r ∈ lens k l, r ≠ []) :
    ((lens k l).map splits).foldlM splitsRound (some (castAll C), dims) = some (some (castAll ((lens k l).foldl stepN C)), dims ++ maxes (lens k l)) := by
  induction k generalizing C dims with
  | zero => simp [lens, maxes]
  | succ k ih =>
    have hC' : C.length = (l : List (List (Nest α k))).length := hC
    obtain ⟨rows, hr⟩ : ∃ rows : List (List (Nest α k)), rows = l := ⟨l, rfl⟩
    have el : lens (k + 1) l = rows.map List.length :: lens k rows.flatten := by rw [hr]; rfl
    rw [el] at hne ⊢
    have hC'' : C.length = rows.length := by rw [hr]; exact hC'
    have hn := hne _ (List.mem_cons_self)
    rw [List.map_cons, List.foldlM_cons]
    have er : splitsRound (some (castAll C), dims) (splits (rows.map List.length)) =
        some (some (castAll (stepN C (rows.map List.length))), dims ++ [(((rows.map List.length).foldr max 0 : Nat) : Int)]) := by
      unfold splitsRound
      rw [lengthsOf_splits]
      simp only [Option.bind_eq_bind, Option.bind_some]
      rw [lengthsToIndices_ok _ hn]
      simp only [Option.bind_some]
      rw [if_neg hd, extend_some (by simpa using hC'')]
      rfl
    rw [er]
    simp only [Option.bind_eq_bind, Option.bind_some]
    rw [ih (l := rows.flatten) (C := stepN C (rows.map List.length)) (by rw [stepN_length (by simpa using hC''), List.length_flatten]) (by simp)
      (fun r hr => hne r (List.mem_cons_of_mem _ hr))]
    simp [maxes]

/-- Indices and shape from row splits. -/
theorem splitsToIndices_ok {k : Nat} {α : Type} (t : List (Nest α (k + 1))) (hne : ∀ r ∈ lens (k + 1) t, r ≠ []) :
    splitsToIndices ((lens (k + 1) t).map splits) = some (some (castAll (paths (k + 2) t)), (box (k + 1) t).map (fun a : Nat => (a : Int))) := by
  obtain ⟨rows, hr⟩ : ∃ rows : List (List (Nest α k)), rows = t := ⟨t, rfl⟩
  have el : lens (k + 1) t = rows.map List.length :: lens k rows.flatten := by rw [hr]; rfl
  have hf := places_fold (k + 1) (C := (List.range t.length).map (fun j => [j])) (l := t) (by simp)
  rw [places_top] at hf
  have hlen : rows.length = t.length := by rw [hr]
  unfold box splitsToIndices
  rw [el] at hne hf ⊢
  have hn := hne _ (List.mem_cons_self)
  rw [List.map_cons, List.foldlM_cons]
  have er : splitsRound (none, []) (splits (rows.map List.length)) =
      some (some (castAll (stepN ((List.range t.length).map (fun j => [j])) (rows.map List.length))),
        [(t.length : Int), (((rows.map List.length).foldr max 0 : Nat) : Int)]) := by
    unfold splitsRound
    rw [lengthsOf_splits]
    simp only [Option.bind_eq_bind, Option.bind_some]
    rw [lengthsToIndices_ok _ hn]
    simp only [Option.bind_some]
    rw [extend_none]
    simp [hlen]
  rw [er]
  simp only [Option.bind_eq_bind, Option.bind_some]
  rw [splits_rounds (l := rows.flatten) (C := stepN ((List.range t.length).map (fun j => [j])) (rows.map List.length))
    (by rw [stepN_length (by simp [hlen]), List.length_flatten]) (by simp) (fun r hr => hne r (List.mem_cons_of_mem _ hr))]
  rw [List.foldl_cons] at hf
  rw [hf]
  simp [maxes]

/-- **RaggedTensorToSparse**: the indices are the places of the leaves, the shape is the smallest box around them. -/
theorem raggedToSparse_ok {k : Nat} {α : Type} (t : List (Nest α (k + 1))) (hne : ∀ r ∈ lens (k + 1) t, r ≠ []) :
    raggedToSparse ((lens (k + 1) t).map splits) =
      some ((paths (k + 2) t).map (fun p => p.map (fun a : Nat => (a : Int))), (box (k + 1) t).map (fun a : Nat => (a : Int))) := by
  unfold raggedToSparse
  rw [splitsToIndices_ok t hne]
  rfl

end Verif.Ragged
