import Verif.Props.C62_Sum
/-!
# Tensors whose axes are letters
-/
namespace Verif.Einsum
open Verif.Tensor
open Verif.TransposeOpt (mem_allIdx nodup_allIdx)

variable {α : Type} [CommSemiring α]

/-- The length of the axis of a letter: 1 if the tensor does not have the letter. -/
def dimM (dim : Nat → Nat) (m : Nat → Bool) (d : Nat) : Nat := if m d then dim d else 1

/-- The index on the axis of a letter: 0 if the tensor does not have the letter. -/
def valM (m : Nat → Bool) (σ : Nat → Nat) (d : Nat) : Nat := if m d then σ d else 0

/-- Values of letters in range. -/
def Ok (dim : Nat → Nat) (ord : List Nat) (m : Nat → Bool) (σ : Nat → Nat) : Prop := ∀ d ∈ ord, m d = true → σ d < dim d

/-- The axes of `t` are the letters `ord`, of those it has `m`, and `F σ` is its element for the values `σ` of the letters. -/
structure Al (dim : Nat → Nat) (ord : List Nat) (m : Nat → Bool) (t : T α) (F : (Nat → Nat) → α) : Prop where
  shape : t.shape = ord.map (dimM dim m)
  get : ∀ σ, Ok dim ord m σ → t.get (ord.map (valM m σ)) = F σ

theorem Ok.inb {dim : Nat → Nat} {ord : List Nat} {m : Nat → Bool} {σ : Nat → Nat} (h : Ok dim ord m σ) :
    InB (ord.map (dimM dim m)) (ord.map (valM m σ)) := by
  refine ⟨by simp, fun i hi => ?_⟩
  simp only [List.length_map] at hi
  rw [nth_map _ _ _ hi, nth_map _ _ _ hi]
  have hm : nth ord i ∈ ord := by rw [nth_eq _ _ hi]; exact List.getElem_mem hi
  unfold dimM valM
  split
  · rename_i hd; exact h _ hm hd
  · exact Nat.one_pos

theorem Al.canon {dim : Nat → Nat} {ord : List Nat} {m : Nat → Bool} {t : T α} {F : (Nat → Nat) → α} (h : Al dim ord m t F) :
    Al dim ord m (canonT t) F := by
  refine ⟨h.shape, fun σ hσ => ?_⟩
  have : InB t.shape (ord.map (valM m σ)) := by rw [h.shape]; exact hσ.inb
  simp only [canonT, this, if_true]
  exact h.get σ hσ

theorem Al.congr {dim : Nat → Nat} {ord : List Nat} {m m' : Nat → Bool} {t : T α} {F F' : (Nat → Nat) → α} (h : Al dim ord m t F)
    (hm : ∀ d ∈ ord, m d = m' d) (hF : ∀ σ, Ok dim ord m' σ → F σ = F' σ) : Al dim ord m' t F' := by
  refine ⟨?_, fun σ hσ => ?_⟩
  · rw [h.shape]
    apply List.map_congr_left
    intro d hd
    simp [dimM, hm d hd]
  · rw [← hF σ hσ, ← h.get σ (fun d hd hmd => hσ d hd (by rw [← hm d hd]; exact hmd))]
    congr 1
    apply List.map_congr_left
    intro d hd
    simp [valM, hm d hd]

theorem Al.ext {dim : Nat → Nat} {ord : List Nat} {m : Nat → Bool} {t : T α} {F F' : (Nat → Nat) → α} (h : Al dim ord m t F)
    (hF : ∀ σ, Ok dim ord m σ → F σ = F' σ) : Al dim ord m t F' := h.congr (fun _ _ => rfl) hF

theorem map_nth_comp (f : Nat → Nat) (perm l : List Nat) (hp : IsPerm perm) (hl : perm.length = l.length) :
    perm.map (nth (l.map f)) = (perm.map (nth l)).map f := by
  rw [List.map_map]
  apply List.map_congr_left
  intro i hi
  have : i < l.length := by rw [← hl]; exact hp.mem.1 hi
  rw [Function.comp_apply, nth_map _ _ _ this]

theorem mem_map_nth {perm l : List Nat} (hp : IsPerm perm) (hl : perm.length = l.length) {d : Nat} (hd : d ∈ l) : d ∈ perm.map (nth l) := by
  obtain ⟨i, hi, rfl⟩ := List.getElem_of_mem hd
  exact List.mem_map.2 ⟨i, hp.mem.2 (by rw [hl]; exact hi), nth_eq _ _ hi⟩

/-- Transposing changes the order of the letters. -/
theorem Al.transpose {dim : Nat → Nat} {ord perm : List Nat} {m : Nat → Bool} {t : T α} {F : (Nat → Nat) → α} (h : Al dim ord m t F)
    (hp : IsPerm perm) (hl : perm.length = ord.length) : Al dim (perm.map (nth ord)) m (Tensor.transpose perm t) F := by
  refine ⟨?_, fun σ hσ => ?_⟩
  · simp only [Tensor.transpose, h.shape]
    exact map_nth_comp _ _ _ hp hl
  · simp only [Tensor.transpose]
    rw [← map_nth_comp _ _ _ hp hl, permIdx_of_nth hp (by simp [hl])]
    exact h.get σ (fun d hd => hσ d (mem_map_nth hp hl hd))

theorem transposeT_al {dim : Nat → Nat} {ord perm : List Nat} {m : Nat → Bool} {t : T α} {F : (Nat → Nat) → α} (h : Al dim ord m t F)
    (hp : IsPerm perm) (hl : perm.length = ord.length) :
    ∃ u, transposeT perm t = some u ∧ Al dim (perm.map (nth ord)) m u F :=
  ⟨_, by simp [transposeT, hp, hl, h.shape], h.transpose hp hl⟩

/-- Element-wise product. -/
theorem mulT_al {dim : Nat → Nat} {ord : List Nat} {m1 m2 : Nat → Bool} {x y : T α} {F G : (Nat → Nat) → α} (hx : Al dim ord m1 x F)
    (hy : Al dim ord m2 y G) : ∃ u, mulT x y = some u ∧ Al dim ord (fun d => m1 d || m2 d) u (fun σ => F σ * G σ) := by
  have lx : x.shape.length = ord.length := by simp [hx.shape]
  have ly : y.shape.length = ord.length := by simp [hy.shape]
  have sx : ∀ i, i < ord.length → nth x.shape i = dimM dim m1 (nth ord i) := fun i hi => by rw [hx.shape, nth_map _ _ _ hi]
  have sy : ∀ i, i < ord.length → nth y.shape i = dimM dim m2 (nth ord i) := fun i hi => by rw [hy.shape, nth_map _ _ _ hi]
  have ex : expandRank ord.length x = x := by simp [expandRank, lx]
  have ey : expandRank ord.length y = y := by simp [expandRank, ly]
  have hf : Emit.Fits x.shape y.shape := by
    intro i hi
    rw [lx] at hi
    rw [sx i hi, sy i hi]
    unfold dimM
    split <;> split <;> simp
  have hz : mulT x y = some { shape := (List.range ord.length).map (fun i => if nth x.shape i = 1 then nth y.shape i else nth x.shape i)
                              get := fun idx => x.get (bidx x.shape idx) * y.get (bidx y.shape idx) } := by
    simp only [mulT, Emit.zipT, lx, ly, Nat.max_self, ex, ey, hf, if_true]
  refine ⟨_, hz, ?_, fun σ hσ => ?_⟩
  · apply ext_nth (by simp)
    intro i hi
    simp only [List.length_map, List.length_range] at hi
    rw [nth_map_range, if_pos hi, nth_map _ _ _ hi, sx i hi, sy i hi]
    unfold dimM
    cases h1 : m1 (nth ord i) <;> cases h2 : m2 (nth ord i) <;> simp [h1, h2] <;> intro h <;> simp [h]
  · have key : ∀ (m : Nat → Bool) (s : List Nat), s = ord.map (dimM dim m) → (∀ d, m d = true → (m1 d || m2 d) = true) →
        bidx s (ord.map (valM (fun d => m1 d || m2 d) σ)) = ord.map (valM m σ) := by
      intro m s hs hm
      apply ext_nth (by simp [bidx, hs])
      intro i hi
      have hi : i < ord.length := by simpa [bidx, hs] using hi
      have hmem : nth ord i ∈ ord := by rw [nth_eq _ _ hi]; exact List.getElem_mem hi
      rw [bidx, nth_map_range, if_pos (by simpa [hs] using hi), nth_map _ _ _ hi, nth_map _ _ _ hi, hs, nth_map _ _ _ hi]
      unfold dimM valM
      cases h1 : m (nth ord i)
      · simp
      · have := hm _ h1
        simp only [this, if_true]
        split
        · rename_i hd
          have := hσ _ hmem this
          omega
        · rfl
    show x.get _ * y.get _ = _
    rw [key m1 _ hx.shape (fun d h => by simp [h]), key m2 _ hy.shape (fun d h => by simp [h])]
    rw [hx.get σ (fun d hd h => hσ d hd (by simp [h])), hy.get σ (fun d hd h => hσ d hd (by simp [h]))]

/-- The indices a reduction adds up. -/
theorem group_sum {dim : Nat → Nat} {ord red : List Nat} {m : Nat → Bool} {t : T α} {F : (Nat → Nat) → α} (h : Al dim ord m t F)
    (hord : ord = List.range ord.length) (hr : red.Nodup) (hrm : ∀ d ∈ red, d ∈ ord ∧ m d = true) (σ : Nat → Nat)
    (hσ : Ok dim ord (fun d => m d && !red.contains d) σ) :
    (group (fun i => red.contains i) t (ord.map (valM (fun d => m d && !red.contains d) σ))).sum = sumL dim red F σ := by
  have hlen : t.shape.length = ord.length := by simp [h.shape]
  have hmem : ∀ d, d < ord.length ↔ d ∈ ord := fun d => by rw [hord]; simp
  have hnth : ∀ i, i < ord.length → nth ord i = i := fun i hi => by rw [hord]; exact nth_range hi
  rw [← sumL_allIdx hr]
  have e1 : ((allIdx (red.map dim)).map (fun j => F (asg red j σ))).sum =
      (((allIdx (red.map dim)).map (fun j => ord.map (valM m (asg red j σ)))).map t.get).sum := by
    rw [List.map_map]
    congr 1
    apply List.map_congr_left
    intro j hj
    rw [Function.comp_apply, h.get]
    intro d hd hmd
    simp only [asg]
    by_cases hdr : d ∈ red
    · rw [if_pos hdr]
      have := ((mem_allIdx _ _).1 hj).2 (red.idxOf d) (by simpa using List.idxOf_lt_length_iff.2 hdr)
      rwa [nth_map _ _ _ (List.idxOf_lt_length_iff.2 hdr), nth_eq red _ (List.idxOf_lt_length_iff.2 hdr), List.getElem_idxOf] at this
    · rw [if_neg hdr]
      exact hσ d hd (by simp [hmd, hdr])
  rw [e1]
  unfold group
  rw [Multiset.map_coe, Multiset.sum_coe]
  apply List.Perm.sum_eq
  apply List.Perm.map
  rw [List.perm_ext_iff_of_nodup ((nodup_allIdx _).filter _)]
  · intro idx
    simp only [List.mem_filter, mem_allIdx, List.mem_map, List.all_eq_true, List.mem_range, Bool.or_eq_true, List.contains_iff_mem, decide_eq_true_eq, hlen]
    constructor
    · rintro ⟨hin, hag⟩
      rw [h.shape] at hin
      have hil : idx.length = ord.length := by simpa using hin.1
      refine ⟨red.map (nth idx), ⟨by simp, fun i hi => ?_⟩, ?_⟩
      · simp only [List.length_map] at hi
        have hri : nth red i ∈ red := by rw [nth_eq _ _ hi]; exact List.getElem_mem hi
        have := hin.2 (nth red i) (by simpa using (hmem _).2 (hrm _ hri).1)
        rw [nth_map _ _ _ hi, nth_map _ _ _ hi]
        rw [nth_map _ _ _ ((hmem _).2 (hrm _ hri).1), hnth _ ((hmem _).2 (hrm _ hri).1)] at this
        simpa [dimM, (hrm _ hri).2] using this
      · apply ext_nth (by simp [hil])
        intro i hi
        simp only [List.length_map] at hi
        rw [nth_map _ _ _ hi, hnth i hi]
        simp only [valM, asg]
        by_cases hir : i ∈ red
        · rw [if_pos (hrm i hir).2, if_pos hir, nth_map _ _ _ (List.idxOf_lt_length_iff.2 hir), nth_eq red _ (List.idxOf_lt_length_iff.2 hir),
            List.getElem_idxOf]
        · have h1 := (hag i hi).resolve_left hir
          rw [nth_map _ _ _ hi, hnth i hi] at h1
          rw [h1]
          simp [valM, hir]
    · rintro ⟨j, hj, rfl⟩
      have hjv : ∀ d ∈ red, nth j (red.idxOf d) < dim d := by
        intro d hd
        have := hj.2 (red.idxOf d) (by simpa using List.idxOf_lt_length_iff.2 hd)
        rwa [nth_map _ _ _ (List.idxOf_lt_length_iff.2 hd), nth_eq red _ (List.idxOf_lt_length_iff.2 hd), List.getElem_idxOf] at this
      refine ⟨?_, fun i hi => ?_⟩
      · rw [h.shape]
        apply Ok.inb
        intro d hd hmd
        simp only [asg]
        by_cases hdr : d ∈ red
        · rw [if_pos hdr]; exact hjv d hdr
        · rw [if_neg hdr]; exact hσ d hd (by simp [hmd, hdr])
      · by_cases hir : i ∈ red
        · exact Or.inl hir
        · right
          rw [nth_map _ _ _ hi, nth_map _ _ _ hi, hnth i hi]
          simp [valM, asg, hir]
  · apply List.Nodup.map_on _ (nodup_allIdx _)
    intro j hj j' hj' he
    have hj := (mem_allIdx _ _).1 hj
    have hj' := (mem_allIdx _ _).1 hj'
    apply ext_nth (by rw [hj.1, hj'.1])
    intro i hi
    have hi : i < red.length := by simpa [hj.1] using hi
    have hri : nth red i ∈ red := by rw [nth_eq _ _ hi]; exact List.getElem_mem hi
    have := congrArg (fun l => nth l (nth red i)) he
    have hl := (hmem _).2 (hrm _ hri).1
    simp only [nth_map _ _ _ hl, hnth _ hl, valM, asg, (hrm _ hri).2, hri, if_true] at this
    rwa [nth_eq red i hi, hr.idxOf_getElem i hi] at this

/-- Reduction. -/
theorem reduceSum_al {v : Nat} {dim : Nat → Nat} {ord red : List Nat} {m : Nat → Bool} {t : T α} {F : (Nat → Nat) → α} (hv : 13 ≤ v) (h : Al dim ord m t F)
    (hord : ord = List.range ord.length) (hr : red.Nodup) (hne : red ≠ []) (hrm : ∀ d ∈ red, d ∈ ord ∧ m d = true) :
    ∃ u, reduceSum v red t = some u ∧ Al dim ord (fun d => m d && !red.contains d) u (sumL dim red F) := by
  have hlen : t.shape.length = ord.length := by simp [h.shape]
  have hmem : ∀ d, d < ord.length ↔ d ∈ ord := fun d => by rw [hord]; simp
  have hnth : ∀ i, i < ord.length → nth ord i = i := fun i hi => by rw [hord]; exact nth_range hi
  have hlt : ∀ a ∈ red, a < t.shape.length := fun a ha => by rw [hlen]; exact (hmem a).2 (hrm a ha).1
  refine ⟨_, by unfold reduceSum; rw [if_pos ⟨hv, hlt⟩], ?_, fun σ hσ => ?_⟩
  · simp only [reduceKeep]
    apply ext_nth (by simp [hlen])
    intro i hi
    have hi : i < ord.length := by simpa [hlen] using hi
    rw [nth_map_range, hlen, if_pos hi, nth_map _ _ _ hi, h.shape, nth_map _ _ _ hi, hnth i hi]
    by_cases hir : i ∈ red
    · simp [dimM, hir]
    · simp [dimM, hir, hne]
  · simp only [reduceKeep]
    have : (fun i => decide (red = []) || red.contains i) = (fun i => red.contains i) := by funext i; simp [hne]
    rw [this]
    exact group_sum h hord hr hrm σ hσ

end Verif.Einsum
