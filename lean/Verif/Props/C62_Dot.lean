import Verif.Props.C62_Perm
/-!
# The product of two aligned tensors
-/
namespace Verif.Einsum
open Verif.Tensor
open Verif.Emit (size_append size_pos lin_append reshape_get reshapeDims reshapeDims_open)

variable {α : Type} [CommSemiring α]

theorem reshapeDims_full {s r : List Nat} (hpos : ∀ d ∈ r, 0 < d) (hs : size r = size s) :
    reshapeDims s (r.map Int.ofNat) = some r := by
  have hcopy : (r.map Int.ofNat).mapIdx (fun i z => if z = 0 then (nth s i : Int) else z) = r.map Int.ofNat := by
    apply List.ext_getElem (by simp)
    intro i h1 h2
    rw [List.getElem_mapIdx, if_neg]
    intro h0
    have hi : i < r.length := by simpa using h2
    have := hpos r[i] (List.getElem_mem hi)
    simp at h0
    omega
  have hr : ∀ k, (r.map Int.ofNat).map (fun z => if z = -1 then size s / k else z.toNat) = r := by
    intro k
    rw [List.map_map]
    conv_rhs => rw [← List.map_id r]
    apply List.map_congr_left
    intro d _
    simp
  have hm : ∀ z ∈ r.map Int.ofNat, 0 < z := by
    intro z hz
    obtain ⟨d, hd, rfl⟩ := List.mem_map.1 hz
    have := hpos d hd
    simpa using this
  unfold reshapeDims
  simp only [hcopy, hr]
  rw [if_pos]
  refine ⟨fun z hz => by have := hm z hz; omega, fun i _ h0 => ?_, ?_, fun h => ?_, hs⟩
  · have := hm _ (List.mem_of_getElem? h0); omega
  · rw [List.count_eq_zero.2]
    · omega
    · intro h; have := hm _ h; omega
  · have := hm _ h; omega

/-- Letters that the tensor does not have do not count. -/
theorem lin_filter (dim σ : Nat → Nat) (m : Nat → Bool) (B : List Nat) :
    lin (B.map (dimM dim m)) (B.map (valM m σ)) = lin ((B.filter m).map dim) ((B.filter m).map σ) ∧
    size (B.map (dimM dim m)) = size ((B.filter m).map dim) := by
  induction B with
  | nil => simp [lin]
  | cons d B ih =>
    cases h : m d
    · simp only [List.map_cons, lin, List.filter_cons, h, valM, dimM]
      refine ⟨by simpa using ih.1, ?_⟩
      have := ih.2
      simp only [Emit.size_cons]
      simpa using this
    · simp only [List.map_cons, lin, List.filter_cons, h, if_true, Emit.size_cons, ih.1, ih.2]
      simp [valM, dimM, h]

/-- Positions from the end of the first block on. -/
theorem posIn_rest (C R l : List Nat) :
    ((posIn (C ++ R) l).filter (fun i => !(List.range C.length).contains i)).map (nth (C ++ R)) = R.filter (fun d => l.contains d) := by
  unfold posIn
  rw [List.length_append, List.range_add, List.filter_append, List.filter_append, List.map_append]
  have h1 : ((List.range C.length).filter (fun i => l.contains (nth (C ++ R) i))).filter (fun i => !(List.range C.length).contains i) = [] := by
    rw [List.filter_eq_nil_iff]
    intro i hi
    have := (List.mem_filter.1 hi).1
    simp [List.mem_range.1 this]
  rw [h1, List.map_nil, List.nil_append, List.filter_filter, List.filter_map, List.map_map]
  have hn : ∀ i, nth (C ++ R) (C.length + i) = nth R i := by
    intro i; simp [nth, List.getD, List.getElem?_append_right]
  have h2 : (List.range R.length).filter ((fun i => (!(List.range C.length).contains i) && l.contains (nth (C ++ R) i)) ∘ fun x => C.length + x) =
      (List.range R.length).filter (fun i => l.contains (nth R i)) := by
    apply List.filter_congr
    intro i _
    simp [hn]
  rw [h2]
  have h3 : (nth (C ++ R) ∘ fun x => C.length + x) = nth R := by funext i; exact hn i
  rw [h3]
  have h4 : R = (List.range R.length).map (nth R) := by
    apply ext_nth (by simp)
    intro i hi
    rw [nth_map_range, if_pos hi]
  conv_rhs => rw [h4, List.filter_map]
  rfl

/-- The blocks of letters of a product: in both or in neither operand `C`, in one `B`, in both and summed over `A`. -/
structure Blocks (dim : Nat → Nat) (C B A : List Nat) (m1 m2 : Nat → Bool) : Prop where
  nodup : (C ++ B ++ A).Nodup
  common : ∀ d ∈ C, m1 d = m2 d
  one : ∀ d ∈ B, m1 d = !m2 d
  sum : ∀ d ∈ A, m1 d = true ∧ m2 d = true
  pos : ∀ d ∈ C ++ B ++ A, 0 < dim d

theorem Blocks.dimM_pos {dim : Nat → Nat} {C B A : List Nat} {m1 m2 : Nat → Bool} (h : Blocks dim C B A m1 m2) (m : Nat → Bool) {d : Nat}
    (hd : d ∈ C ++ B ++ A) : 0 < dimM dim m d := by
  unfold dimM
  split
  · exact h.pos d hd
  · exact Nat.one_pos

theorem Blocks.symm {dim : Nat → Nat} {C B A : List Nat} {m1 m2 : Nat → Bool} (h : Blocks dim C B A m1 m2) : Blocks dim C B A m2 m1 :=
  ⟨h.nodup, fun d hd => (h.common d hd).symm, fun d hd => by rw [h.one d hd]; simp, fun d hd => (h.sum d hd).symm, h.pos⟩

theorem Blocks.sizeA {dim : Nat → Nat} {C B A : List Nat} {m1 m2 : Nat → Bool} (h : Blocks dim C B A m1 m2) :
    A.map (dimM dim m1) = A.map dim := by
  apply List.map_congr_left
  intro d hd
  simp [dimM, (h.sum d hd).1]

/-- An operand as a three-dimensional tensor. -/
theorem reshape3 {dim : Nat → Nat} {C B A : List Nat} {m1 m2 : Nat → Bool} (h : Blocks dim C B A m1 m2) {x : T α} {F : (Nat → Nat) → α}
    (hx : Al dim (C ++ B ++ A) m1 x F) :
    ∃ u, reshapeTo [((size (C.map (dimM dim m1)) : Nat) : Int), -1, ((size (A.map dim) : Nat) : Int)] x = some u ∧
      u.shape = [size (C.map (dimM dim m1)), size ((B.filter m1).map dim), size (A.map dim)] ∧
      ∀ σ, Ok dim (C ++ B ++ A) m1 σ →
        u.get [lin (C.map (dimM dim m1)) (C.map (valM m1 σ)), lin ((B.filter m1).map dim) ((B.filter m1).map σ), lin (A.map dim) (A.map σ)] = F σ := by
  have hpos : ∀ d ∈ [size (C.map (dimM dim m1))] ++ [size (A.map dim)], 0 < d := by
    intro d hd
    simp only [List.cons_append, List.nil_append, List.mem_cons, List.not_mem_nil, or_false] at hd
    rcases hd with rfl | rfl
    · apply size_pos; intro e he
      obtain ⟨c, hc, rfl⟩ := List.mem_map.1 he
      exact h.dimM_pos m1 (by simp [hc])
    · apply size_pos; intro e he
      obtain ⟨c, hc, rfl⟩ := List.mem_map.1 he
      exact h.pos c (by simp [hc])
  have hs : size x.shape = size ([size (C.map (dimM dim m1))] ++ size ((B.filter m1).map dim) :: [size (A.map dim)]) := by
    rw [hx.shape, List.map_append, List.map_append, size_append, size_append, h.sizeA, (lin_filter dim (fun _ => 0) m1 B).2]
    simp [size, Nat.mul_assoc]
  have hr := reshapeDims_open hpos hs
  simp only [List.map_cons, List.map_nil, List.cons_append, List.nil_append] at hr
  refine ⟨Tensor.reshape [size (C.map (dimM dim m1)), size ((B.filter m1).map dim), size (A.map dim)] x, by
    unfold reshapeTo
    rw [show [((size (C.map (dimM dim m1)) : Nat) : Int), -1, ((size (A.map dim) : Nat) : Int)] =
      [Int.ofNat (size (C.map (dimM dim m1))), -1, Int.ofNat (size (A.map dim))] from rfl, hr]
    rfl, rfl, fun σ hσ => ?_⟩
  rw [← hx.get σ hσ]
  apply reshape_get (by rw [hx.shape]; exact hσ.inb)
  rw [hx.shape]
  simp only [List.map_append]
  rw [lin_append (by simp), lin_append (by simp), h.sizeA, (lin_filter dim σ m1 B).1, (lin_filter dim σ m1 B).2]
  have : A.map (valM m1 σ) = A.map σ := by
    apply List.map_congr_left
    intro d hd
    simp [valM, (h.sum d hd).1]
  rw [this]
  simp only [lin, size, List.foldr]
  ring

/-- An operand without common letters as a matrix. -/
theorem reshape2 {dim : Nat → Nat} {C B A : List Nat} {m1 m2 : Nat → Bool} (h : Blocks dim C B A m1 m2) {x : T α} {F : (Nat → Nat) → α}
    (hx : Al dim (C ++ B ++ A) m1 x F) (hC : ∀ d ∈ C, m1 d = false) :
    ∃ u, reshapeTo [-1, ((size (A.map dim) : Nat) : Int)] x = some u ∧
      u.shape = [size ((B.filter m1).map dim), size (A.map dim)] ∧
      ∀ σ, Ok dim (C ++ B ++ A) m1 σ →
        u.get [lin ((B.filter m1).map dim) ((B.filter m1).map σ), lin (A.map dim) (A.map σ)] = F σ := by
  have hCf : C.filter m1 = [] := by
    rw [List.filter_eq_nil_iff]; intro d hd; simp [hC d hd]
  have hpos : ∀ d ∈ ([] : List Nat) ++ [size (A.map dim)], 0 < d := by
    intro d hd
    simp only [List.nil_append, List.mem_cons, List.not_mem_nil, or_false] at hd
    subst hd
    apply size_pos; intro e he
    obtain ⟨c, hc, rfl⟩ := List.mem_map.1 he
    exact h.pos c (by simp [hc])
  have hs : size x.shape = size ([] ++ size ((B.filter m1).map dim) :: [size (A.map dim)]) := by
    rw [hx.shape, List.map_append, List.map_append, size_append, size_append, h.sizeA, (lin_filter dim (fun _ => 0) m1 B).2,
      (lin_filter dim (fun _ => 0) m1 C).2, hCf]
    simp [size]
  have hr := reshapeDims_open hpos hs
  simp only [List.map_cons, List.map_nil, List.nil_append] at hr
  refine ⟨Tensor.reshape [size ((B.filter m1).map dim), size (A.map dim)] x, by
    unfold reshapeTo
    rw [show [-1, ((size (A.map dim) : Nat) : Int)] = [-1, Int.ofNat (size (A.map dim))] from rfl, hr]
    rfl, rfl, fun σ hσ => ?_⟩
  rw [← hx.get σ hσ]
  apply reshape_get (by rw [hx.shape]; exact hσ.inb)
  rw [hx.shape]
  simp only [List.map_append]
  rw [lin_append (by simp), lin_append (by simp), h.sizeA, (lin_filter dim σ m1 B).1, (lin_filter dim σ m1 B).2, (lin_filter dim σ m1 C).1, hCf]
  have : A.map (valM m1 σ) = A.map σ := by
    apply List.map_congr_left
    intro d hd
    simp [valM, (h.sum d hd).1]
  rw [this]
  simp only [lin, size, List.foldr, List.map_nil]
  ring

/-- Extending the values to the letters that are summed over. -/
theorem Ok.extend {dim : Nat → Nat} {C B A : List Nat} {m1 m2 m : Nat → Bool} (h : Blocks dim C B A m1 m2)
    (hm : ∀ d, d ∈ C ++ B → (m d = true → (m1 d || m2 d) = true)) {σ τ : Nat → Nat} (hσ : Ok dim (C ++ B) (fun d => m1 d || m2 d) σ) (hτ : Ext dim A σ τ) :
    Ok dim (C ++ B ++ A) m τ := by
  intro d hd hmd
  rcases List.mem_append.1 hd with hd | hd
  · have hA : d ∉ A := fun hA => (List.nodup_append.1 h.nodup).2.2 d hd d hA rfl
    rw [hτ.1 d hA]
    exact hσ d hd (hm d hd hmd)
  · exact hτ.2 d hd

/-- The sum of products that the inner product computes. -/
theorem dot_sum {dim : Nat → Nat} {C B A : List Nat} {m1 m2 : Nat → Bool} (h : Blocks dim C B A m1 m2) {F G : (Nat → Nat) → α} {σ : Nat → Nat}
    (f g : Nat → α) (hf : ∀ τ, Ext dim A σ τ → f (lin (A.map dim) (A.map τ)) = F τ) (hg : ∀ τ, Ext dim A σ τ → g (lin (A.map dim) (A.map τ)) = G τ) :
    ((List.range (size (A.map dim))).map (fun r => f r * g r)).sum = sumL dim A (fun τ => F τ * G τ) σ := by
  rw [sum_range_list, ← sumL_lin (List.nodup_append.1 h.nodup).2.1 (fun r => f r * g r) σ]
  apply sumL_congr
  intro τ hτ
  rw [hf τ hτ, hg τ hτ]

theorem map_ext_out {dim : Nat → Nat} {A L : List Nat} {σ τ : Nat → Nat} (hτ : Ext dim A σ τ) (hd : ∀ d ∈ L, d ∉ A) :
    L.map τ = L.map σ := by
  apply List.map_congr_left
  intro d hdL
  exact hτ.1 d (hd d hdL)

theorem mapV_ext_out {dim : Nat → Nat} {A L : List Nat} {σ τ : Nat → Nat} (hτ : Ext dim A σ τ) (hd : ∀ d ∈ L, d ∉ A) (m : Nat → Bool) :
    L.map (valM m τ) = L.map (valM m σ) := by
  apply List.map_congr_left
  intro d hdL
  simp [valM, hτ.1 d (hd d hdL)]

theorem notA {C B A : List Nat} (h : (C ++ B ++ A).Nodup) : (∀ d ∈ C, d ∉ A) ∧ ∀ d ∈ B, d ∉ A :=
  ⟨fun d hd hA => (List.nodup_append.1 h).2.2 d (by simp [hd]) d hA rfl, fun d hd hA => (List.nodup_append.1 h).2.2 d (by simp [hd]) d hA rfl⟩

/-- The product before the last reshape: row-major, its axes are those of `C`, of `B` in the first operand and of `B` in the second operand. -/
theorem dotProduct_al {dim : Nat → Nat} {C B A : List Nat} {m1 m2 : Nat → Bool} (h : Blocks dim C B A m1 m2) {x y : T α} {F G : (Nat → Nat) → α}
    (hx : Al dim (C ++ B ++ A) m1 x F) (hy : Al dim (C ++ B ++ A) m2 y G) {batched : Bool} {batch sum : List Nat}
    (hbx : batch.map (nth x.shape) = C.map (dimM dim m1)) (hby : batch.map (nth y.shape) = C.map (dimM dim m1))
    (hsx : sum.map (nth x.shape) = A.map dim) (hsy : sum.map (nth y.shape) = A.map dim)
    (hb : batched = false → ∀ d ∈ C, m1 d = false) :
    ∃ u, dotProduct batch sum batched x y = some u ∧
      size u.shape = size (C.map (dimM dim m1) ++ (B.filter m1).map dim ++ (B.filter m2).map dim) ∧
      ∀ σ, Ok dim (C ++ B) (fun d => m1 d || m2 d) σ → ∃ i, InB u.shape i ∧
        lin u.shape i = lin (C.map (dimM dim m1) ++ (B.filter m1).map dim ++ (B.filter m2).map dim)
          (C.map (valM m1 σ) ++ (B.filter m1).map σ ++ (B.filter m2).map σ) ∧
        u.get i = sumL dim A (fun τ => F τ * G τ) σ := by
  have hCm : C.map (dimM dim m2) = C.map (dimM dim m1) := by
    apply List.map_congr_left; intro d hd; simp [dimM, h.common d hd]
  have hVm : ∀ σ, C.map (valM m2 σ) = C.map (valM m1 σ) := by
    intro σ; apply List.map_congr_left; intro d hd; simp [valM, h.common d hd]
  have hnA := notA h.nodup
  have px : prodDims x sum = ((size (A.map dim) : Nat) : Int) := by simp [prodDims, hsx]
  have py : prodDims y sum = ((size (A.map dim) : Nat) : Int) := by simp [prodDims, hsy]
  have qx : prodDims x batch = ((size (C.map (dimM dim m1)) : Nat) : Int) := by simp [prodDims, hbx]
  have qy : prodDims y batch = ((size (C.map (dimM dim m1)) : Nat) : Int) := by simp [prodDims, hby]
  have hokC : ∀ {σ : Nat → Nat}, Ok dim (C ++ B) (fun d => m1 d || m2 d) σ → InB (C.map (dimM dim m1)) (C.map (valM m1 σ)) := by
    intro σ hσ
    exact Ok.inb (fun d hd hm => hσ d (by simp [hd]) (by simp [hm]))
  have hokB : ∀ {σ : Nat → Nat} (m : Nat → Bool), (∀ d, m d = true → (m1 d || m2 d) = true) → Ok dim (C ++ B) (fun d => m1 d || m2 d) σ →
      InB ((B.filter m).map dim) ((B.filter m).map σ) := by
    intro σ m hmm hσ
    refine ⟨by simp, fun i hi => ?_⟩
    have hi : i < (B.filter m).length := by simpa using hi
    rw [nth_map _ _ _ hi, nth_map _ _ _ hi]
    have := List.mem_filter.1 (nth_mem hi)
    exact hσ _ (by simp [this.1]) (hmm _ this.2)
  have hLt : ∀ {s i : List Nat}, InB s i → lin s i < size s := fun h => TransposeOpt.lin_lt h
  cases batched with
  | true =>
    obtain ⟨u, hu, hus, hug⟩ := reshape3 h hx
    obtain ⟨w, hw, hws, hwg⟩ := reshape3 h.symm hy
    rw [hCm] at hw hws hwg
    have htr : transposeT [0, 2, 1] w = some (Tensor.transpose [0, 2, 1] w) := by
      unfold transposeT
      rw [if_pos ⟨by decide, by rw [hws]; rfl⟩]
    have hts : (Tensor.transpose [0, 2, 1] w).shape = [size (C.map (dimM dim m1)), size (A.map dim), size ((B.filter m2).map dim)] := by
      simp [Tensor.transpose, hws, nth]
    have hmm : matmul3 u (Tensor.transpose [0, 2, 1] w) = some
        { shape := [if size (C.map (dimM dim m1)) = 1 then size (C.map (dimM dim m1)) else size (C.map (dimM dim m1)),
            size ((B.filter m1).map dim), size ((B.filter m2).map dim)]
          get := fun i => ((List.range (size (A.map dim))).map (fun r =>
               u.get [if size (C.map (dimM dim m1)) = 1 then 0 else nth i 0, nth i 1, r] *
               (Tensor.transpose [0, 2, 1] w).get [if size (C.map (dimM dim m1)) = 1 then 0 else nth i 0, r, nth i 2])).sum } := by
      unfold matmul3
      simp only [hus, hts]
      simp
    refine ⟨_, by unfold dotProduct; simp only [if_true, px, py, qx, qy, hu, hw, htr, hmm]; rfl, ?_, fun σ hσ => ?_⟩
    · rw [size_append, size_append]
      simp only [Emit.size_cons, ite_self]
      simp [size, Nat.mul_assoc]
    · refine ⟨[lin (C.map (dimM dim m1)) (C.map (valM m1 σ)), lin ((B.filter m1).map dim) ((B.filter m1).map σ),
        lin ((B.filter m2).map dim) ((B.filter m2).map σ)], ⟨by simp, ?_⟩, ?_, ?_⟩
      · intro i hi
        simp only [List.length_cons, List.length_nil] at hi
        have h0 := hLt (hokC hσ)
        have h1 := hLt (hokB m1 (fun d hd => by simp [hd]) hσ)
        have h2 := hLt (hokB m2 (fun d hd => by simp [hd]) hσ)
        match i, hi with
        | 0, _ => simpa [nth] using h0
        | 1, _ => simpa [nth] using h1
        | 2, _ => simpa [nth] using h2
      · rw [lin_append (by simp), lin_append (by simp)]
        simp only [lin, size, List.foldr, ite_self]
        ring
      · have h0 : (if size (C.map (dimM dim m1)) = 1 then 0 else lin (C.map (dimM dim m1)) (C.map (valM m1 σ))) =
            lin (C.map (dimM dim m1)) (C.map (valM m1 σ)) := by
          split
          · have := hLt (hokC hσ); omega
          · rfl
        simp only [nth, List.getD_cons_zero, List.getD_cons_succ]
        simp only [h0]
        apply dot_sum h (fun r => u.get [lin (C.map (dimM dim m1)) (C.map (valM m1 σ)), lin ((B.filter m1).map dim) ((B.filter m1).map σ), r])
          (fun r => (Tensor.transpose [0, 2, 1] w).get [lin (C.map (dimM dim m1)) (C.map (valM m1 σ)), r, lin ((B.filter m2).map dim) ((B.filter m2).map σ)])
        · intro τ hτ
          have := hug τ (Ok.extend h (fun d _ hd => by simp [hd]) hσ hτ)
          rw [mapV_ext_out hτ hnA.1, map_ext_out hτ (fun d hd => hnA.2 d (List.mem_filter.1 hd).1)] at this
          exact this
        · intro τ hτ
          have := hwg τ (Ok.extend h (fun d _ hd => by simp [hd]) hσ hτ)
          rw [mapV_ext_out hτ hnA.1, map_ext_out hτ (fun d hd => hnA.2 d (List.mem_filter.1 hd).1), hVm] at this
          rw [← this]
          simp only [Tensor.transpose]
          congr 1
  | false =>
    have hC1 := hb rfl
    obtain ⟨u, hu, hus, hug⟩ := reshape2 h hx hC1
    obtain ⟨w, hw, hws, hwg⟩ := reshape2 h.symm hy (fun d hd => by rw [← h.common d hd]; exact hC1 d hd)
    have hmm : gemmT u w = some
        { shape := [size ((B.filter m1).map dim), size ((B.filter m2).map dim)]
          get := fun i => ((List.range (size (A.map dim))).map (fun r => u.get [nth i 0, r] * w.get [nth i 1, r])).sum } := by
      unfold gemmT
      simp only [hus, hws]
      simp
    have hCf : C.filter m1 = [] := by
      rw [List.filter_eq_nil_iff]; intro d hd; simp [hC1 d hd]
    refine ⟨_, by unfold dotProduct; simp only [px, py, hu, hw, hmm]; rfl, ?_, fun σ hσ => ?_⟩
    · rw [size_append, size_append, (lin_filter dim (fun _ => 0) m1 C).2, hCf]
      simp [size]
    · refine ⟨[lin ((B.filter m1).map dim) ((B.filter m1).map σ), lin ((B.filter m2).map dim) ((B.filter m2).map σ)], ⟨by simp, ?_⟩, ?_, ?_⟩
      · intro i hi
        simp only [List.length_cons, List.length_nil] at hi
        have h1 := hLt (hokB m1 (fun d hd => by simp [hd]) hσ)
        have h2 := hLt (hokB m2 (fun d hd => by simp [hd]) hσ)
        match i, hi with
        | 0, _ => simpa [nth] using h1
        | 1, _ => simpa [nth] using h2
      · rw [lin_append (by simp), lin_append (by simp), (lin_filter dim σ m1 C).1, hCf]
        simp only [lin, size, List.foldr, List.map_nil]
        ring
      · simp only [nth, List.getD_cons_zero, List.getD_cons_succ]
        apply dot_sum h (fun r => u.get [lin ((B.filter m1).map dim) ((B.filter m1).map σ), r])
          (fun r => w.get [lin ((B.filter m2).map dim) ((B.filter m2).map σ), r])
        · intro τ hτ
          have := hug τ (Ok.extend h (fun d _ hd => by simp [hd]) hσ hτ)
          rw [map_ext_out hτ (fun d hd => hnA.2 d (List.mem_filter.1 hd).1)] at this
          exact this
        · intro τ hτ
          have := hwg τ (Ok.extend h (fun d _ hd => by simp [hd]) hσ hτ)
          rw [map_ext_out hτ (fun d hd => hnA.2 d (List.mem_filter.1 hd).1)] at this
          exact this

end Verif.Einsum
