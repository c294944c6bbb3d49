import Verif.Props.C62_Dot
/-!
# The batched product, and the step of the decomposition that emits it
-/
namespace Verif.Einsum
open Verif.Tensor
open Verif.Emit (size_append size_pos lin_append reshape_get reshapeDims reshapeDims_open)

variable {α : Type} [CommSemiring α]

theorem nth_append_left {a b : List Nat} {i : Nat} (h : i < a.length) : nth (a ++ b) i = nth a i := by
  simp [nth, List.getD, List.getElem?_append_left h]

theorem nth_append_right (a b : List Nat) (i : Nat) : nth (a ++ b) (a.length + i) = nth b i := by
  simp [nth, List.getD, List.getElem?_append_right]

theorem range_map_nth_append (C R : List Nat) : (List.range C.length).map (nth (C ++ R)) = C := by
  apply ext_nth (by simp)
  intro i hi
  have hi : i < C.length := by simpa using hi
  rw [nth_map_range, if_pos hi, nth_append_left hi]

theorem drop_map_nth_append (R A : List Nat) :
    ((List.range (R ++ A).length).drop ((R ++ A).length - A.length)).map (nth (R ++ A)) = A := by
  have h : (R ++ A).length - A.length = R.length := by simp
  rw [h, List.length_append, List.range_add, List.drop_append]
  simp only [List.length_range, Nat.sub_self, List.drop_zero]
  rw [List.drop_eq_nil_of_le (by simp), List.nil_append, List.map_map]
  apply ext_nth (by simp)
  intro i hi
  have hi : i < A.length := by simpa using hi
  rw [show (nth (R ++ A) ∘ fun x => R.length + x) = nth A from by funext j; exact nth_append_right R A j, nth_map_range, if_pos hi]

theorem filter_split_length (p q : Nat → Bool) (B : List Nat) (h : ∀ d ∈ B, p d = !q d) : (B.filter p).length + (B.filter q).length = B.length := by
  induction B with
  | nil => simp
  | cons d B ih =>
    have := ih (fun e he => h e (by simp [he]))
    have hd := h d (by simp)
    simp only [List.filter_cons, hd]
    cases q d <;> simp <;> omega

theorem takeDims_eq {x : T α} {ord l L : List Nat} {f : Nat → Nat} (hx : x.shape = ord.map f) (hl : ∀ i ∈ l, i < ord.length) (h : l.map (nth ord) = L) :
    takeDims x l = (L.map f).map Int.ofNat := by
  unfold takeDims
  rw [← h, List.map_map, List.map_map]
  apply List.map_congr_left
  intro i hi
  rw [hx, nth_map _ _ _ (hl i hi)]
  rfl

theorem dims_eq {x : T α} {ord l L : List Nat} {f : Nat → Nat} (hx : x.shape = ord.map f) (hl : ∀ i ∈ l, i < ord.length) (h : l.map (nth ord) = L) :
    l.map (nth x.shape) = L.map f := by
  rw [← h, List.map_map]
  apply List.map_congr_left
  intro i hi
  rw [hx, nth_map _ _ _ (hl i hi)]
  rfl

theorem zipWith_max_self (l : List Int) : List.zipWith max l l = l := by
  induction l with
  | nil => rfl
  | cons a l ih => simp [ih]

theorem posIn_lt {perm l : List Nat} {i : Nat} (h : i ∈ posIn perm l) : i < perm.length := List.mem_range.1 (List.mem_filter.1 h).1

theorem mem_posIn {perm l : List Nat} {i : Nat} (hi : i < perm.length) : i ∈ posIn perm l ↔ nth perm i ∈ l := by
  simp [posIn, hi]

/-- The batched product: the letters of the result are `C`, those of `B` in the first operand, those of `B` in the second operand, and `A` with
length 1. -/
theorem batchDot_al {v : Nat} (hv : 13 ≤ v) {dim : Nat → Nat} {C B A : List Nat} {m1 m2 : Nat → Bool} (h : Blocks dim C B A m1 m2) {x y : T α}
    {F G : (Nat → Nat) → α} (hx : Al dim (C ++ B ++ A) m1 x F) (hy : Al dim (C ++ B ++ A) m2 y G) {l r : List Nat} {batched : Bool}
    (hl : ∀ d ∈ B, l.contains d = m1 d) (hr : ∀ d ∈ B, r.contains d = m2 d) (hlA : ∀ d ∈ A, d ∉ l) (hrA : ∀ d ∈ A, d ∉ r)
    (hb : batched = false → ∀ d ∈ C, m1 d = false) :
    ∃ u, batchDot v (List.range C.length) ((List.range (C ++ B ++ A).length).drop ((C ++ B ++ A).length - A.length)) (posIn (C ++ B ++ A) l)
        (posIn (C ++ B ++ A) r) batched (C ++ B ++ A).length x y = some u ∧
      Al dim (C ++ B.filter m1 ++ B.filter m2 ++ A) (fun d => (m1 d || m2 d) && !A.contains d) u (sumL dim A (fun τ => F τ * G τ)) := by
  have lx : x.shape.length = (C ++ B ++ A).length := by rw [hx.shape, List.length_map]
  have ly : y.shape.length = (C ++ B ++ A).length := by rw [hy.shape, List.length_map]
  have hCm : C.map (dimM dim m2) = C.map (dimM dim m1) := by
    apply List.map_congr_left; intro d hd; simp [dimM, h.common d hd]
  have hnA := notA h.nodup
  have hbl : ∀ i ∈ List.range C.length, i < (C ++ B ++ A).length := by
    intro i hi; have := List.mem_range.1 hi; simp only [List.length_append]; omega
  have hsl : ∀ i ∈ (List.range (C ++ B ++ A).length).drop ((C ++ B ++ A).length - A.length), i < (C ++ B ++ A).length :=
    fun i hi => List.mem_range.1 (List.mem_of_mem_drop hi)
  have eC : (List.range C.length).map (nth (C ++ B ++ A)) = C := by rw [List.append_assoc]; exact range_map_nth_append C (B ++ A)
  have eA := drop_map_nth_append (C ++ B) A
  have hbx : (List.range C.length).map (nth x.shape) = C.map (dimM dim m1) := dims_eq hx.shape hbl eC
  have hby : (List.range C.length).map (nth y.shape) = C.map (dimM dim m1) := by rw [← hCm]; exact dims_eq hy.shape hbl eC
  have hsx := (dims_eq hx.shape hsl eA).trans h.sizeA
  have hsy := (dims_eq hy.shape hsl eA).trans h.symm.sizeA
  obtain ⟨u, hu, hus, hug⟩ := dotProduct_al h hx hy hbx hby hsx hsy hb
  have eL : ((posIn (C ++ B ++ A) l).filter (fun i => !(List.range C.length).contains i)).map (nth (C ++ B ++ A)) = B.filter m1 := by
    rw [List.append_assoc, posIn_rest, List.filter_append, List.filter_congr hl, (List.filter_eq_nil_iff.2 (fun d hd => by simpa using hlA d hd) : A.filter (fun d => l.contains d) = []),
      List.append_nil]
  have eR : ((posIn (C ++ B ++ A) r).filter (fun i => !(List.range C.length).contains i)).map (nth (C ++ B ++ A)) = B.filter m2 := by
    rw [List.append_assoc, posIn_rest, List.filter_append, List.filter_congr hr, (List.filter_eq_nil_iff.2 (fun d hd => by simpa using hrA d hd) : A.filter (fun d => r.contains d) = []),
      List.append_nil]
  have nL := congrArg List.length eL
  have nR := congrArg List.length eR
  rw [List.length_map] at nL nR
  have nB := filter_split_length m1 m2 B h.one
  have eLd : (B.filter m1).map (dimM dim m1) = (B.filter m1).map dim := by
    apply List.map_congr_left; intro d hd; simp [dimM, (List.mem_filter.1 hd).2]
  have eRd : (B.filter m2).map (dimM dim m2) = (B.filter m2).map dim := by
    apply List.map_congr_left; intro d hd; simp [dimM, (List.mem_filter.1 hd).2]
  have hshape : dotShape (List.range C.length) (posIn (C ++ B ++ A) l) (posIn (C ++ B ++ A) r) (C ++ B ++ A).length x y =
      (C.map (dimM dim m1) ++ (B.filter m1).map dim ++ (B.filter m2).map dim ++ List.replicate A.length 1).map Int.ofNat := by
    unfold dotShape
    simp only
    rw [takeDims_eq hx.shape hbl eC, takeDims_eq hy.shape hbl eC, hCm, zipWith_max_self,
      takeDims_eq hx.shape (fun i hi => posIn_lt (List.mem_filter.1 hi).1) eL, takeDims_eq hy.shape (fun i hi => posIn_lt (List.mem_filter.1 hi).1) eR,
      eLd, eRd, nL, nR, List.length_range]
    have : (C ++ B ++ A).length - (C.length + (B.filter m1).length + (B.filter m2).length) = A.length := by
      simp only [List.length_append]; omega
    rw [this]
    simp only [List.map_append, List.map_replicate]
    rfl
  have hone : ∀ k, size (List.replicate k 1) = 1 := by
    intro k; induction k with
    | zero => rfl
    | succ k ih => rw [List.replicate_succ, Emit.size_cons, ih]
  have hpos : ∀ d ∈ C.map (dimM dim m1) ++ (B.filter m1).map dim ++ (B.filter m2).map dim ++ List.replicate A.length 1, 0 < d := by
    intro d hd
    simp only [List.mem_append, List.mem_map, List.mem_replicate] at hd
    rcases hd with ((⟨e, he, rfl⟩ | ⟨e, he, rfl⟩) | ⟨e, he, rfl⟩) | ⟨_, rfl⟩
    · exact h.dimM_pos m1 (by simp [he])
    · exact h.pos e (by simp [(List.mem_filter.1 he).1])
    · exact h.pos e (by simp [(List.mem_filter.1 he).1])
    · exact Nat.one_pos
  have hfull := reshapeDims_full hpos (s := u.shape) (by rw [size_append, hone, Nat.mul_one, hus])
  have hrun : batchDot v (List.range C.length) ((List.range (C ++ B ++ A).length).drop ((C ++ B ++ A).length - A.length)) (posIn (C ++ B ++ A) l)
        (posIn (C ++ B ++ A) r) batched (C ++ B ++ A).length x y =
      some (Tensor.reshape (C.map (dimM dim m1) ++ (B.filter m1).map dim ++ (B.filter m2).map dim ++ List.replicate A.length 1) u) := by
    unfold batchDot
    rw [if_pos, hu]
    · simp only [hshape, reshapeTo, hfull]
      rfl
    · refine ⟨hv, fun a ha => ?_⟩
      rw [lx, ly]
      simp only [List.mem_append] at ha
      rcases ha with ((ha | ha) | ha) | ha
      · exact ⟨hbl a ha, hbl a ha⟩
      · exact ⟨hsl a ha, hsl a ha⟩
      · exact ⟨posIn_lt ha, posIn_lt ha⟩
      · exact ⟨posIn_lt ha, posIn_lt ha⟩
  have eCm : ∀ d ∈ C, ((m1 d || m2 d) && !A.contains d) = m1 d := by
    intro d hd; simp [← h.common d hd, hnA.1 d hd]
  have eBm : ∀ d ∈ B, ((m1 d || m2 d) && !A.contains d) = true := by
    intro d hd; simp only [h.one d hd, List.contains_eq_mem, hnA.2 d hd]; cases m2 d <;> simp
  have eAm : ∀ d ∈ A, ((m1 d || m2 d) && !A.contains d) = false := by
    intro d hd; simp [hd]
  refine ⟨_, hrun, ?_, fun σ hσ => ?_⟩
  · show C.map (dimM dim m1) ++ (B.filter m1).map dim ++ (B.filter m2).map dim ++ List.replicate A.length 1 = _
    simp only [List.map_append]
    congr 1
    · congr 1
      · congr 1
        · apply List.map_congr_left; intro d hd; simp only [dimM, eCm d hd]
        · apply List.map_congr_left; intro d hd; simp only [dimM, eBm d (List.mem_filter.1 hd).1, if_true]
      · apply List.map_congr_left; intro d hd; simp only [dimM, eBm d (List.mem_filter.1 hd).1, if_true]
    · symm
      rw [List.eq_replicate_iff]
      refine ⟨by simp, fun b hb => ?_⟩
      obtain ⟨d, hd, rfl⟩ := List.mem_map.1 hb
      simp only [dimM, eAm d hd]
      rfl
  · have hok : Ok dim (C ++ B) (fun d => m1 d || m2 d) σ := by
      intro d hd hm
      have hA : d ∉ A := fun hA => (List.nodup_append.1 h.nodup).2.2 d hd d hA rfl
      refine hσ d ?_ (by simp only [hm, List.contains_eq_mem, hA]; rfl)
      simp only [List.mem_append, List.mem_filter]
      rcases List.mem_append.1 hd with hc | hB
      · simp [hc]
      · cases h1 : m1 d
        · have : m2 d = true := by simpa [h1] using hm
          simp [hB, this]
        · simp [hB]
    obtain ⟨i, hi, hli, hgi⟩ := hug σ hok
    rw [← hgi]
    apply reshape_get hi
    rw [hli]
    simp only [List.map_append]
    have e1 : C.map (valM (fun d => (m1 d || m2 d) && !A.contains d) σ) = C.map (valM m1 σ) := by
      apply List.map_congr_left; intro d hd; simp only [valM, eCm d hd]
    have e2 : ∀ m, (B.filter m).map (valM (fun d => (m1 d || m2 d) && !A.contains d) σ) = (B.filter m).map σ := by
      intro m; apply List.map_congr_left; intro d hd; simp only [valM, eBm d (List.mem_filter.1 hd).1, if_true]
    have e3 : A.map (valM (fun d => (m1 d || m2 d) && !A.contains d) σ) = List.replicate A.length 0 := by
      rw [List.eq_replicate_iff]
      refine ⟨by simp, fun b hb => ?_⟩
      obtain ⟨d, hd, rfl⟩ := List.mem_map.1 hb
      simp only [valM, eAm d hd]
      rfl
    have hz : ∀ k, lin (List.replicate k 1) (List.replicate k 0) = 0 := by
      intro k; induction k with
      | zero => rfl
      | succ k ih => simp [List.replicate_succ, lin, ih]
    rw [e1, e2, e2, e3, lin_append (by simp), hone, hz, Nat.mul_one, Nat.add_zero]

end Verif.Einsum
