import Verif.Model.Ragged
import Verif.Props.C63_Grid
/-!
# C64: ragged tensors: rows and columns of the elements
-/
namespace Verif.Ragged
open Verif.Tensor Verif.Emit Verif.Seg Verif.Vec

/-- Row and column of every element. -/
def cells (lens : List Nat) : List (Nat × Nat) := lens.zipIdx.flatMap (fun p => (List.range p.1).map (fun j => (p.2, j)))

theorem zip2_eq {β γ δ : Type} {f : β → γ → δ} {a : List β} {b : List γ} (h : a.length = b.length) : zip2 f a b = some (List.zipWith f a b) := by
  unfold zip2
  rw [if_pos h]

theorem cumsumExcl_ones (n : Nat) : cumsumExcl (List.replicate n 1) = (List.range n).map (fun k : Nat => (k : Int)) := by
  unfold cumsumExcl
  simp only [List.length_replicate]
  refine List.map_congr_left (fun k hk => ?_)
  rw [List.take_replicate, Nat.min_eq_left (by simp at hk; omega)]
  simp

theorem range_mul (n M : Nat) : List.range (n * M) = (List.range n).flatMap (fun i => (List.range M).map (fun j => i * M + j)) := by
  induction n with
  | zero => simp
  | succ n ih =>
    rw [List.range_succ, List.flatMap_append, ← ih, Nat.succ_mul, List.range_add]
    simp

theorem zipIdx_eq_map (l : List Nat) : l.zipIdx = (List.range l.length).map (fun i => (l.getD i 0, i)) := by
  apply List.ext_getElem (by simp)
  intro i h1 h2
  simp at h1
  simp [List.getD, h1]

theorem filter_lt_range {l M : Nat} (h : l ≤ M) : (List.range M).filter (fun j => decide (j < l)) = List.range l := by
  induction M with
  | zero => simp at h; simp [h]
  | succ M ih =>
    rw [List.range_succ, List.filter_append]
    rcases Nat.lt_or_ge M l with h1 | h1
    · have : l = M + 1 := by omega
      subst this
      rw [List.filter_eq_self.2 (by intro a ha; simp at ha; simp; omega), List.range_succ]
      simp
    · rw [ih h1]
      simp; omega

/-- The positions of the box that belong to an element. -/
theorem kept_eq (lens : List Nat) {M : Nat} (hM : ∀ l ∈ lens, l ≤ M) :
    ((List.range (lens.length * M)).filter (fun k => decide (k % M < lens.getD (k / M) 0))).map (fun k => (k / M, k % M)) = cells lens := by
  unfold cells
  rw [range_mul, List.filter_flatMap, List.map_flatMap, zipIdx_eq_map, List.flatMap_map]
  refine List.flatMap_congr (fun i hi => ?_)
  have hi' : i < lens.length := by simpa using hi
  have hle : lens.getD i 0 ≤ M := by
    rw [List.getD_eq_getElem?_getD, List.getElem?_eq_getElem hi']
    exact hM _ (List.getElem_mem hi')
  rw [List.filter_map, List.map_map]
  have key : ∀ j ∈ List.range M, (i * M + j) / M = i ∧ (i * M + j) % M = j := by
    intro j hj
    have hj : j < M := by simpa using hj
    constructor
    · rw [Nat.add_comm, Nat.add_mul_div_right _ _ (by omega), Nat.div_eq_of_lt hj]; omega
    · rw [Nat.add_comm, Nat.add_mul_mod_self_right, Nat.mod_eq_of_lt hj]
  rw [List.filter_congr (q := fun j => decide (j < lens.getD i 0)), filter_lt_range hle]
  · refine List.map_congr_left (fun j hj => ?_)
    have hj' : j ∈ List.range M := by rw [List.mem_range] at hj ⊢; omega
    simp only [Function.comp, (key j hj').1, (key j hj').2]
  · intro j hj
    simp only [Function.comp, (key j hj).1, (key j hj).2]

theorem compress_map {β γ : Type} (l : List γ) (f : γ → β) (b : γ → Bool) : compress (l.map f) (l.map b) = some ((l.filter b).map f) := by
  unfold compress
  rw [if_pos (by simp)]
  congr 1
  induction l with
  | nil => rfl
  | cons a l ih =>
    simp only [List.map_cons, List.zip_cons_cons, List.filter_cons]
    by_cases h : b a
    · simp [h, ih]
    · simp [h, ih]

theorem gather_nat {β : Type} {l : List β} {γ : Type} {ks : List γ} (f : γ → Nat) (d : β) (h : ∀ k ∈ ks, f k < l.length) :
    gather l (ks.map (fun k => (f k : Int))) = some (ks.map (fun k => l.getD (f k) d)) := by
  unfold gather
  rw [mapM_some (g := fun i => l.getD i.toNat d)]
  · simp
  · intro i hi
    obtain ⟨k, hk, rfl⟩ := List.mem_map.1 hi
    have := h k hk
    rw [if_pos (by omega), posOf_nat]
    simp [List.getD, this]

theorem max_cast (lens : List Nat) (h : lens ≠ []) : reduceMax1 (lens.map (fun a : Nat => (a : Int))) = some ((lens.foldr max 0 : Nat) : Int) := by
  unfold reduceMax1
  rw [List.max?_eq_some_iff]
  constructor
  · obtain ⟨a, ha, e⟩ : ∃ a ∈ lens, a = lens.foldr max 0 := by
      clear * - h
      induction lens with
      | nil => exact absurd rfl h
      | cons a l ih =>
        by_cases hl : l = []
        · subst hl; exact ⟨a, by simp, by simp⟩
        · obtain ⟨b, hb, e⟩ := ih hl
          rcases Nat.le_total a b with h1 | h1
          · exact ⟨b, by simp [hb], by simp only [List.foldr_cons, ← e]; omega⟩
          · exact ⟨a, by simp, by simp only [List.foldr_cons, ← e]; omega⟩
    rw [← e]
    exact List.mem_map.2 ⟨a, ha, rfl⟩
  · intro b hb
    obtain ⟨a, ha, rfl⟩ := List.mem_map.1 hb
    have : a ≤ lens.foldr max 0 := by
      clear * - ha
      induction lens with
      | nil => cases ha
      | cons c l ih =>
        rcases List.mem_cons.1 ha with rfl | h
        · simp only [List.foldr_cons]; omega
        · have := ih h; simp only [List.foldr_cons]; omega
    omega

theorem le_foldr_max {lens : List Nat} {a : Nat} (ha : a ∈ lens) : a ≤ lens.foldr max 0 := by
  induction lens with
  | nil => cases ha
  | cons c l ih =>
    rcases List.mem_cons.1 ha with rfl | h
    · simp only [List.foldr_cons]; omega
    · have := ih h; simp only [List.foldr_cons]; omega

/-- The emitted operators find row and column of every element, provided that there is a row. -/
theorem lengthsToIndices_ok (lens : List Nat) (h : lens ≠ []) :
    lengthsToIndices (lens.map (fun a : Nat => (a : Int))) =
      some ((lens.length : Int), ((lens.foldr max 0 : Nat) : Int), (cells lens).map (fun p => (p.1 : Int)), (cells lens).map (fun p => (p.2 : Int))) := by
  let M := lens.foldr max 0
  have hM : ∀ l ∈ lens, l ≤ M := fun l hl => le_foldr_max hl
  have hk := kept_eq lens hM
  have e0 : fill (1 : Int) ((M : Int) * ((lens.map (fun a : Nat => (a : Int))).length : Int)) = some (List.replicate (lens.length * M) 1) := by
    unfold fill
    rw [if_pos (by exact Int.mul_nonneg (by omega) (by omega))]
    rw [List.length_map, ← Int.natCast_mul, Int.toNat_natCast, Nat.mul_comm]
  have hz : ∀ k ∈ List.range (lens.length * M), M ≠ 0 ∧ k / M < lens.length := by
    intro k hk
    have hk : k < lens.length * M := by simpa using hk
    have h0 : M ≠ 0 := by rintro h; rw [h] at hk; omega
    exact ⟨h0, by rw [Nat.div_lt_iff_lt_mul (by omega)]; exact hk⟩
  have hc : ∀ l : List Nat, l = List.range (lens.length * M) → (l.map (fun k : Nat => (k : Int)) = [] ∨ (M : Int) ≠ 0) := by
    intro l hl
    by_cases h : l = []
    · left; simp [h]
    · right
      obtain ⟨k, hk⟩ := List.exists_mem_of_ne_nil _ h
      have := (hz k (hl ▸ hk)).1
      omega
  have e1 : modBy ((List.range (lens.length * M)).map (fun k : Nat => (k : Int))) M = some ((List.range (lens.length * M)).map (fun k => ((k % M : Nat) : Int))) := by
    unfold modBy
    rw [if_pos (hc _ rfl), List.map_map]
    congr 1
    refine List.map_congr_left (fun k _ => ?_)
    simp only [Function.comp]
    rw [Int.fmod_eq_emod_of_nonneg _ (by omega)]
    simp
  have e2 : divBy ((List.range (lens.length * M)).map (fun k : Nat => (k : Int))) M = some ((List.range (lens.length * M)).map (fun k => ((k / M : Nat) : Int))) := by
    unfold divBy
    rw [if_pos (hc _ rfl), List.map_map]
    congr 1
  have e3 := gather_nat (l := lens.map (fun a : Nat => (a : Int))) (ks := List.range (lens.length * M)) (fun k => k / M) 0
    (by intro k hk; simpa using (hz k hk).2)
  unfold lengthsToIndices
  simp only [max_cast lens h, Option.bind_eq_bind, Option.bind_some]
  rw [e0]
  simp only [Option.bind_some, cumsumExcl_ones]
  rw [e1, e2]
  simp only [Option.bind_some]
  rw [e3]
  simp only [Option.bind_some]
  rw [zip2_eq (by simp)]
  simp only [Option.bind_some]
  rw [List.zipWith_map, List.zipWith_self, compress_map, compress_map]
  simp only [Option.bind_some, List.length_map, Option.some.injEq, Prod.mk.injEq, true_and]
  have hf : (List.range (lens.length * M)).filter (fun k => decide (((k % M : Nat) : Int) < (lens.map (fun a : Nat => (a : Int))).getD (k / M) 0)) =
      (List.range (lens.length * M)).filter (fun k => decide (k % M < lens.getD (k / M) 0)) := by
    refine List.filter_congr (fun k hk => ?_)
    have := (hz k hk).2
    have e : (lens.map (fun a : Nat => (a : Int))).getD (k / M) 0 = ((lens.getD (k / M) 0 : Nat) : Int) := by simp [List.getD, this]
    rw [e]
    simp only [Int.ofNat_lt]
  rw [hf, ← hk, List.map_map, List.map_map]
  exact ⟨rfl, rfl⟩

end Verif.Ragged
