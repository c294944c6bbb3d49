import Verif.Props.C64_Paths
/-!
# C64: ragged tensors: running indices by a sum over steps

Blocks `(a, c)` of `c` consecutive numbers from `a`: the sum over the steps gives the numbers of all blocks, where a step is 1 except at the start of a
block.
-/
namespace Verif.Ragged
open Verif.Tensor Verif.Emit Verif.Seg Verif.Vec

/-- Where the blocks start. -/
def blockStarts (o : Nat) : List (Int × Nat) → List Int
  | [] => []
  | b :: bs => (o : Int) :: blockStarts (o + b.2) bs

/-- The steps at the start of the blocks. `v` is the number before. -/
def blockDeltas (v : Int) : List (Int × Nat) → List Int
  | [] => []
  | b :: bs => (b.1 - v) :: blockDeltas (b.1 + b.2 - 1) bs

/-- All steps. -/
def blockSteps (v : Int) : List (Int × Nat) → List Int
  | [] => []
  | b :: bs => (b.1 - v) :: List.replicate (b.2 - 1) 1 ++ blockSteps (b.1 + b.2 - 1) bs

/-- The numbers. -/
def blockNums (bs : List (Int × Nat)) : List Int := bs.flatMap (fun b => (List.range b.2).map (fun j : Nat => b.1 + j))

/-- How many numbers. -/
def total (bs : List (Int × Nat)) : Nat := (bs.map Prod.snd).sum

/-- Running sums. -/
def cumFrom (v : Int) : List Int → List Int
  | [] => []
  | x :: l => (v + x) :: cumFrom (v + x) l

theorem cumFrom_eq (v : Int) (l : List Int) : cumFrom v l = (List.range l.length).map (fun k => v + (l.take (k + 1)).sum) := by
  induction l generalizing v with
  | nil => rfl
  | cons x l ih =>
    rw [cumFrom, ih, List.length_cons, List.range_succ_eq_map]
    simp [Function.comp_def, Int.add_assoc]

theorem cumsum_eq (l : List Int) : cumsum l = cumFrom 0 l := by
  rw [cumFrom_eq]
  simp [cumsum]

theorem cumFrom_append (v : Int) (a b : List Int) : cumFrom v (a ++ b) = cumFrom v a ++ cumFrom (v + a.sum) b := by
  induction a generalizing v with
  | nil => simp [cumFrom]
  | cons x a ih => simp [cumFrom, ih, Int.add_assoc]

theorem cumFrom_ones (v : Int) (n : Nat) : cumFrom v (List.replicate n 1) = (List.range n).map (fun j : Nat => v + 1 + j) := by
  induction n generalizing v with
  | zero => rfl
  | succ n ih =>
    rw [List.replicate_succ, cumFrom, ih, List.range_succ_eq_map, List.map_cons, List.map_map]
    congr 1
    · simp
    · refine List.map_congr_left (fun j _ => ?_)
      simp only [Function.comp]
      push_cast
      omega

theorem cumFrom_blockSteps (v : Int) (bs : List (Int × Nat)) (h : ∀ b ∈ bs, 0 < b.2) : cumFrom v (blockSteps v bs) = blockNums bs := by
  induction bs generalizing v with
  | nil => rfl
  | cons b bs ih =>
    have hb := h b (by simp)
    have e : v + ((b.1 - v) :: List.replicate (b.2 - 1) 1).sum = b.1 + b.2 - 1 := by
      simp
      omega
    rw [blockSteps, cumFrom_append, e, ih _ (fun c hc => h c (by simp [hc])), blockNums, blockNums, List.flatMap_cons]
    congr 1
    rw [cumFrom, cumFrom_ones]
    obtain ⟨c, hc⟩ : ∃ c, b.2 = c + 1 := ⟨b.2 - 1, by omega⟩
    rw [hc, List.range_succ_eq_map, List.map_cons, List.map_map]
    congr 1
    · simp; omega
    · simp only [Nat.add_sub_cancel]
      refine List.map_congr_left (fun j _ => ?_)
      simp only [Function.comp]
      push_cast
      omega

theorem blockStarts_length (o : Nat) (bs : List (Int × Nat)) : (blockStarts o bs).length = bs.length := by
  induction bs generalizing o with
  | nil => rfl
  | cons b bs ih => simp [blockStarts, ih]

theorem blockDeltas_length (v : Int) (bs : List (Int × Nat)) : (blockDeltas v bs).length = bs.length := by
  induction bs generalizing v with
  | nil => rfl
  | cons b bs ih => simp [blockDeltas, ih]

theorem blockStarts_bounds {o : Nat} {bs : List (Int × Nat)} (h : ∀ b ∈ bs, 0 < b.2) {i : Int} (hi : i ∈ blockStarts o bs) :
    (o : Int) ≤ i ∧ i < o + total bs := by
  induction bs generalizing o with
  | nil => simp [blockStarts] at hi
  | cons b bs ih =>
    have hb := h b (by simp)
    rcases List.mem_cons.1 hi with rfl | hi
    · simp only [total, List.map_cons, List.sum_cons]
      push_cast
      omega
    · have := ih (fun c hc => h c (by simp [hc])) hi
      simp only [total, List.map_cons, List.sum_cons] at this ⊢
      push_cast at this ⊢
      omega

theorem blockStarts_nodup {o : Nat} {bs : List (Int × Nat)} (h : ∀ b ∈ bs, 0 < b.2) : (blockStarts o bs).Nodup := by
  induction bs generalizing o with
  | nil => exact List.nodup_nil
  | cons b bs ih =>
    have hb := h b (by simp)
    have h' : ∀ c ∈ bs, 0 < c.2 := fun c hc => h c (by simp [hc])
    rw [blockStarts, List.nodup_cons]
    refine ⟨fun hm => ?_, ih h'⟩
    have := (blockStarts_bounds h' hm).1
    push_cast at this
    omega

/-- The steps at the starts, ones elsewhere. -/
theorem steps_by_index (v : Int) (o : Nat) (bs : List (Int × Nat)) (h : ∀ b ∈ bs, 0 < b.2) :
    (List.range' o (total bs)).map (fun i : Nat => ((blockDeltas v bs)[((blockStarts o bs).map Int.toNat).idxOf i]?).getD 1) = blockSteps v bs := by
  induction bs generalizing v o with
  | nil => rfl
  | cons b bs ih =>
    have hb := h b (by simp)
    have h' : ∀ c ∈ bs, 0 < c.2 := fun c hc => h c (by simp [hc])
    have et : total (b :: bs) = 1 + (b.2 - 1) + total bs := by simp only [total, List.map_cons, List.sum_cons]; omega
    rw [et, ← List.range'_append_1, ← List.range'_append_1, List.map_append, List.map_append, blockSteps]
    have hgt : ∀ i : Nat, o < i → (((blockStarts o (b :: bs)).map Int.toNat).idxOf i) = ((blockStarts (o + b.2) bs).map Int.toNat).idxOf i + 1 := by
      intro i hi
      rw [blockStarts, List.map_cons, List.idxOf_cons_ne _ (by simp; omega)]
    have hd : ∀ k, (blockDeltas v (b :: bs))[k + 1]? = (blockDeltas (b.1 + b.2 - 1) bs)[k]? := by intro k; rfl
    congr 1
    · show _ = [b.1 - v] ++ List.replicate (b.2 - 1) 1
      congr 1
      · simp [blockStarts, blockDeltas]
      · rw [List.eq_replicate_iff]
        refine ⟨by simp, fun x hx => ?_⟩
        obtain ⟨i, hi, rfl⟩ := List.mem_map.1 hx
        rw [List.mem_range'_1] at hi
        rw [hgt i (by omega), hd, List.idxOf_eq_length, List.getElem?_eq_none]
        · rfl
        · simp [blockDeltas_length, blockStarts_length]
        · intro hm
          obtain ⟨z, hz, e⟩ := List.mem_map.1 hm
          have := (blockStarts_bounds h' hz).1
          push_cast at this
          omega
    · rw [← ih (b.1 + b.2 - 1) (o + b.2) h', show o + (1 + (b.2 - 1)) = o + b.2 by omega]
      refine List.map_congr_left (fun i hi => ?_)
      rw [List.mem_range'_1] at hi
      rw [hgt i (by omega), hd]

theorem posOf_nonneg (d : Nat) {i : Int} (h : 0 ≤ i) : posOf d i = i.toNat := by
  obtain ⟨k, rfl⟩ := Int.eq_ofNat_of_zero_le h
  rw [posOf_nat]
  rfl

theorem scatter_blocks (v : Int) (bs : List (Int × Nat)) (h : ∀ b ∈ bs, 0 < b.2) :
    scatterVec (List.replicate (total bs) 1) (blockStarts 0 bs) (blockDeltas v bs) = some (blockSteps v bs) := by
  have hb : ∀ i ∈ blockStarts 0 bs, 0 ≤ i ∧ i < total bs := by
    intro i hi
    have := blockStarts_bounds h hi
    push_cast at this
    omega
  have hp : (blockStarts 0 bs).map (posOf (List.replicate (total bs) (1 : Int)).length) = (blockStarts 0 bs).map Int.toNat :=
    List.map_congr_left (fun i hi => posOf_nonneg _ (hb i hi).1)
  unfold scatterVec
  rw [hp, if_pos]
  · rw [← steps_by_index v 0 bs h, List.length_replicate, List.range_eq_range']
    congr 1
    refine List.map_congr_left (fun i hi => ?_)
    rw [List.mem_range'_1] at hi
    congr 1
    rw [List.getD_eq_getElem?_getD, List.getElem?_replicate, if_pos (by omega)]
    rfl
  · refine ⟨by rw [blockStarts_length, blockDeltas_length], fun i hi => ?_, ?_⟩
    · have := hb i hi
      simp
      omega
    · rw [List.nodup_map_iff_inj_on (blockStarts_nodup h)]
      intro a ha b hb' e
      have := hb a ha
      have := hb b hb'
      omega

/-- The running index. -/
theorem running_index (bs : List (Int × Nat)) (h : ∀ b ∈ bs, 0 < b.2) :
    (scatterVec (List.replicate (total bs) 1) (blockStarts 0 bs) (blockDeltas 0 bs)).map cumsum = some (blockNums bs) := by
  rw [scatter_blocks 0 bs h, Option.map_some, cumsum_eq, cumFrom_blockSteps 0 bs h]

end Verif.Ragged
