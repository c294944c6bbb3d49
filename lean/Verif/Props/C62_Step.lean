import Verif.Props.C62_Batch
/-!
# One step of the decomposition
-/
namespace Verif.Einsum
open Verif.Tensor

variable {α : Type} [CommSemiring α]

/-- The letters of a row. -/
def maskR (r : List Int) (d : Nat) : Bool := decide (0 ≤ rget r d)

/-- Rows have an entry for every letter. -/
def RowOk (n : Nat) (r : List Int) : Prop := r.length = n ∧ ∀ d, -1 ≤ rget r d

theorem RowOk.ne {n : Nat} {r : List Int} (h : RowOk n r) (d : Nat) : rget r d ≠ -1 ↔ maskR r d = true := by
  have := h.2 d
  simp only [maskR, decide_eq_true_eq]
  omega

theorem RowOk.eq {n : Nat} {r : List Int} (h : RowOk n r) (d : Nat) : rget r d = -1 ↔ maskR r d = false := by
  have := h.2 d
  simp only [maskR, decide_eq_false_iff_not]
  omega

/-- Running `s` gives the tensor with all letters as axes, of which it has those of the row `r`, and whose elements are `F`. -/
structure Res (n v : Nat) (dim : Nat → Nat) (xs : List (T α)) (s : Sub) (r : List Int) (F : (Nat → Nat) → α) : Prop where
  row : RowOk n r
  run : ∃ t, s.run v xs = some t ∧ Al dim (List.range n) (maskR r) t F

theorem map_range_nth (l : List Nat) : (List.range l.length).map (nth l) = l := by
  apply ext_nth (by simp)
  intro i hi
  have hi : i < l.length := by simpa using hi
  rw [nth_map_range, if_pos hi]

theorem mkTranspose_run {v : Nat} {dim : Nat → Nat} {xs : List (T α)} {ord perm : List Nat} {m : Nat → Bool} {s : Sub} {F : (Nat → Nat) → α}
    (hp : IsPerm perm) (hl : perm.length = ord.length) (h : ∃ t, s.run v xs = some t ∧ Al dim ord m t F) :
    ∃ t, (mkTranspose perm s).run v xs = some t ∧ Al dim (perm.map (nth ord)) m t F := by
  obtain ⟨t, ht, ha⟩ := h
  unfold mkTranspose
  split
  · rename_i he
    refine ⟨t, ht, ?_⟩
    rw [he, hl, map_range_nth]
    exact ha
  · obtain ⟨u, hu, hau⟩ := transposeT_al ha hp hl
    exact ⟨canonT u, by simp only [Sub.run, ht, Option.bind_some, hu, Option.map_some], hau.canon⟩

/-! ## Operands -/

theorem rget_permRow {perm : List Nat} {r : List Int} {d : Nat} (hd : d < perm.length) : rget (permRow perm r) d = rget r (nth perm d) := by
  simp [permRow, rget, nth, hd]

theorem permRow_ok {n : Nat} {perm : List Nat} {r : List Int} (h : RowOk n r) (hl : perm.length = n) : RowOk n (permRow perm r) := by
  refine ⟨by simp [permRow, hl], fun d => ?_⟩
  by_cases hd : d < perm.length
  · rw [rget_permRow hd]; exact h.2 _
  · simp [rget, permRow, hd]

theorem nrow_ok (n : Nat) (term : List Nat) : RowOk n (nrow n term) := by
  refine ⟨by simp, fun d => ?_⟩
  by_cases hd : d < n
  · rw [rget_nrow hd]; split <;> omega
  · simp [rget, nrow, hd]

theorem maskR_nrow {n d : Nat} {term : List Nat} (hd : d < n) : maskR (nrow n term) d = maskT term d := by
  have h1 := (nrow_ok n term).ne d
  rw [rget_nrow_iff hd] at h1
  rw [Bool.eq_iff_iff, ← h1]
  simp [maskT]

theorem align_res {n v i : Nat} {dim : Nat → Nat} {xs : List (T α)} {term : List Nat} {x : T α} (hv : 13 ≤ v) (hn : term.Nodup) (hlt : ∀ d ∈ term, d < n)
    (hx : xs[i]? = some x) (hs : x.shape = term.map dim) :
    Res n v dim xs (align i (nrow n term)).1 (align i (nrow n term)).2 (fun σ => x.get (term.map σ)) ∧
    ∀ d, d < n → maskR (align i (nrow n term)).2 d = maskT term d := by
  have hpp := present_perm hn hlt
  have hpn : (present (nrow n term)).Nodup := hpp.nodup_iff.2 hn
  have hperm : IsPerm (alignPerm (nrow n term)) := by rw [alignPerm_nrow hn hlt]; exact swap_isPerm hpn hpp.symm hlt
  have hlen : (alignPerm (nrow n term)).length = n := by rw [alignPerm_nrow hn hlt]; simp
  have hmask : ∀ d, d < n → maskR (align i (nrow n term)).2 d = maskT term d := by
    intro d hd
    unfold align
    simp only
    split
    · exact maskR_nrow hd
    · unfold maskR
      rw [rget_permRow (by rw [hlen]; exact hd), alignPerm_nrow hn hlt]
      have hlt' := (swap_swap hpn hpp.symm hlt hd).1
      have : maskT term (nth (swap n term (present (nrow n term))) d) = maskT term d := by
        rw [nth_swap hd]
        by_cases h : d ∈ term
        · have hk : term.idxOf d < (present (nrow n term)).length := by rw [hpp.length_eq]; exact List.idxOf_lt_length_iff.2 h
          rw [if_pos h]
          simp [maskT, h, hpp.mem_iff.1 (nth_mem hk)]
        · rw [if_neg h]
      rw [← this, ← maskR_nrow hlt']
      rfl
  have hrow : RowOk n (align i (nrow n term)).2 := by
    unfold align
    simp only
    split
    · exact nrow_ok n term
    · exact permRow_ok (nrow_ok n term) hlen
  refine ⟨⟨hrow, ?_⟩, hmask⟩
  have hin : Al dim term (maskT term) (canonT x) (fun σ => x.get (term.map σ)) := by
    apply Al.canon
    refine ⟨?_, fun σ _ => ?_⟩
    · rw [hs]; apply List.map_congr_left; intro d hd; simp [dimM, maskT, hd]
    · congr 1; apply List.map_congr_left; intro d hd; simp [valM, maskT, hd]
  obtain ⟨u, hu, hau⟩ := unsqueeze_al (t := canonT x) hn hlt (by rw [← hs]; rfl)
  have hau' : Al dim (swap n (present (nrow n term)) term) (maskT term) u (fun σ => x.get (term.map σ)) := by
    refine hau.ext (fun σ hσ => ?_)
    have := hin.get σ (fun d hd hm => hσ d ?_ hm)
    · rw [← this]; congr 1; apply List.map_congr_left; intro d hd; simp [valM, maskT, hd]
    · have hd' := hpp.mem_iff.2 hd
      rw [show swap n (present (nrow n term)) term = (List.range n).map (nth (swap n (present (nrow n term)) term)) from by
        conv_lhs => rw [← map_range_nth (swap n (present (nrow n term)) term), swap_length]]
      have := swap_swap hpn hpp.symm hlt (hlt d hd)
      exact List.mem_map.2 ⟨_, List.mem_range.2 this.1, this.2⟩
  have hrun : ∃ t, (Sub.expand (absent (nrow n term)) (.ident (.inp i))).run v xs = some t ∧
      Al dim (swap n (present (nrow n term)) term) (maskT term) t (fun σ => x.get (term.map σ)) := by
    refine ⟨canonT u, ?_, hau'.canon⟩
    simp only [Sub.run, hx, Option.map_some, Option.bind_some]
    rw [if_pos (by omega), hu]
    rfl
  obtain ⟨t, ht, hat⟩ := mkTranspose_run hperm (by rw [hlen]; simp) hrun
  refine ⟨t, ht, ?_⟩
  rw [alignPerm_nrow hn hlt, map_swap_swap hpn hpp.symm hlt] at hat
  exact hat.congr (fun d hd => (hmask d (List.mem_range.1 hd)).symm) (fun _ _ => rfl)

/-! ## Reductions -/

theorem rget_dropRow {axes : List Nat} {r : List Int} {d : Nat} (hd : d < r.length) : rget (dropRow axes r) d = if d ∈ axes then -1 else rget r d := by
  simp only [dropRow]
  rw [rget, List.getD_eq_getElem?_getD, List.getElem?_map, List.getElem?_range hd]
  rfl

theorem mkReduce_res {n v : Nat} {dim : Nat → Nat} {xs : List (T α)} {p : Sub × List Int} {F : (Nat → Nat) → α} {red : List Nat} (hv : 13 ≤ v)
    (h : Res n v dim xs p.1 p.2 F) (hr : red.Nodup) (hrm : ∀ d ∈ red, d < n ∧ maskR p.2 d = true) :
    Res n v dim xs (mkReduce red p).1 (mkReduce red p).2 (sumL dim red F) ∧
    ∀ d, d < n → maskR (mkReduce red p).2 d = (maskR p.2 d && !red.contains d) := by
  unfold mkReduce
  split
  · rename_i he
    subst he
    exact ⟨h, fun d _ => by simp⟩
  · rename_i hne
    have hmask : ∀ d, d < n → maskR (dropRow red p.2) d = (maskR p.2 d && !red.contains d) := by
      intro d hd
      unfold maskR
      rw [rget_dropRow (by rw [h.row.1]; exact hd)]
      by_cases hdr : d ∈ red
      · simp [hdr]
      · simp [hdr]
    refine ⟨⟨⟨by simp [dropRow, h.row.1], fun d => ?_⟩, ?_⟩, hmask⟩
    · by_cases hd : d < p.2.length
      · rw [rget_dropRow hd]
        split
        · omega
        · exact h.row.2 d
      · simp [dropRow, rget, hd]
    · obtain ⟨t, ht, ha⟩ := h.run
      obtain ⟨u, hu, hau⟩ := reduceSum_al hv ha (by simp) hr hne (fun d hd => ⟨List.mem_range.2 (hrm d hd).1, (hrm d hd).2⟩)
      refine ⟨canonT u, ?_, ?_⟩
      · simp only [Sub.run, ht, Option.bind_some]
        rw [if_pos (by omega), hu]
        rfl
      · exact hau.canon.congr (fun d hd => (hmask d (List.mem_range.1 hd)).symm) (fun _ _ => rfl)

/-! ## Products -/

section sets
variable (n : Nat) (m0 m1 u : Nat → Bool)

/-- Letters in both or neither, not summed over. -/
def Cset : List Nat := (List.range n).filter (fun d => (m0 d == m1 d) && !(m0 d && m1 d && !u d))
/-- Letters in one of the two. -/
def Bset : List Nat := (List.range n).filter (fun d => m0 d != m1 d)
/-- Letters in both that occur nowhere else. -/
def Aset : List Nat := (List.range n).filter (fun d => m0 d && m1 d && !u d)
/-- Letters of the left operand. -/
def Lset : List Nat := (List.range n).filter (fun d => if m0 d && m1 d then u d else m0 d)
/-- Letters of the right operand. -/
def Rset : List Nat := (List.range n).filter (fun d => if m0 d && m1 d then u d else m1 d)

theorem sets_common : commonOf n (Lset n m0 m1 u) (Rset n m0 m1 u) (Aset n m0 m1 u) = Cset n m0 m1 u := by
  unfold commonOf Cset
  apply List.filter_congr
  intro d hd
  simp only [Lset, Rset, Aset, List.contains_eq_mem, List.mem_filter, hd, true_and]
  cases m0 d <;> cases m1 d <;> cases u d <;> rfl

theorem perm_sets : (Cset n m0 m1 u ++ Bset n m0 m1 ++ Aset n m0 m1 u).Perm (List.range n) := by
  have hnd : (Cset n m0 m1 u ++ Bset n m0 m1 ++ Aset n m0 m1 u).Nodup := by
    rw [List.nodup_append, List.nodup_append]
    refine ⟨⟨List.nodup_range.filter _, List.nodup_range.filter _, ?_⟩, List.nodup_range.filter _, ?_⟩
    · intro a ha b hb hab
      subst hab
      simp only [Cset, Bset, List.mem_filter] at ha hb
      have h1 := ha.2; have h2 := hb.2
      revert h1 h2
      cases m0 a <;> cases m1 a <;> cases u a <;> simp
    · intro a ha b hb hab
      subst hab
      simp only [List.mem_append, Cset, Bset, Aset, List.mem_filter] at ha hb
      have h2 := hb.2
      rcases ha with ha | ha <;> have h1 := ha.2 <;> revert h1 h2 <;> cases m0 a <;> cases m1 a <;> cases u a <;> simp
  rw [List.perm_ext_iff_of_nodup hnd List.nodup_range]
  intro d
  simp only [List.mem_append, Cset, Bset, Aset, List.mem_filter]
  constructor
  · rintro ((h | h) | h) <;> exact h.1
  · intro h
    cases h0 : m0 d <;> cases h1 : m1 d <;> cases h2 : u d <;> simp [h]

theorem sets_perm : dotPerm n (Cset n m0 m1 u) (Aset n m0 m1 u) = Cset n m0 m1 u ++ Bset n m0 m1 ++ Aset n m0 m1 u := by
  unfold dotPerm
  have hkey : ∀ i ∈ List.range n, (if i ∈ Cset n m0 m1 u then -1 else if i ∈ Aset n m0 m1 u then 1 else 0 : Int) =
      if m0 i != m1 i then 0 else if m0 i && m1 i && !u i then 1 else -1 := by
    intro i hi
    simp only [Cset, Aset, List.mem_filter, hi, true_and]
    cases m0 i <;> cases m1 i <;> cases u i <;> rfl
  have e : sortPairs ((List.range n).map (fun i => ((if i ∈ Cset n m0 m1 u then -1 else if i ∈ Aset n m0 m1 u then 1 else 0 : Int), i))) =
      (Cset n m0 m1 u ++ Bset n m0 m1 ++ Aset n m0 m1 u).map (fun i => ((if m0 i != m1 i then 0 else if m0 i && m1 i && !u i then 1 else -1 : Int), i)) := by
    apply sortPairs_eq
    · have : (List.range n).map (fun i => ((if i ∈ Cset n m0 m1 u then -1 else if i ∈ Aset n m0 m1 u then 1 else 0 : Int), i)) =
          (List.range n).map (fun i => ((if m0 i != m1 i then 0 else if m0 i && m1 i && !u i then 1 else -1 : Int), i)) := by
        apply List.map_congr_left
        intro i hi
        rw [hkey i hi]
      rw [this]
      exact (perm_sets n m0 m1 u).symm.map _
    · have hs : ∀ p : Nat → Bool, ((List.range n).filter p).Pairwise (· < ·) := fun p => List.pairwise_lt_range.filter p
      rw [List.pairwise_map, List.pairwise_append, List.pairwise_append]
      have hC : ∀ i ∈ Cset n m0 m1 u, (if m0 i != m1 i then 0 else if m0 i && m1 i && !u i then 1 else -1 : Int) = -1 := by
        intro i hi
        have := (List.mem_filter.1 hi).2
        revert this
        cases m0 i <;> cases m1 i <;> cases u i <;> simp
      have hB : ∀ i ∈ Bset n m0 m1, (if m0 i != m1 i then 0 else if m0 i && m1 i && !u i then 1 else -1 : Int) = 0 := by
        intro i hi
        have := (List.mem_filter.1 hi).2
        revert this
        cases m0 i <;> cases m1 i <;> cases u i <;> simp
      have hA : ∀ i ∈ Aset n m0 m1 u, (if m0 i != m1 i then 0 else if m0 i && m1 i && !u i then 1 else -1 : Int) = 1 := by
        intro i hi
        have := (List.mem_filter.1 hi).2
        revert this
        cases m0 i <;> cases m1 i <;> cases u i <;> simp
      refine ⟨⟨?_, ?_, ?_⟩, ?_, ?_⟩
      · refine (hs _).imp_of_mem (fun ha hb h => ?_)
        rw [hC _ ha, hC _ hb]
        right; exact ⟨rfl, Nat.le_of_lt h⟩
      · refine (hs _).imp_of_mem (fun ha hb h => ?_)
        rw [hB _ ha, hB _ hb]
        right; exact ⟨rfl, Nat.le_of_lt h⟩
      · intro a ha b hb
        left; rw [hC a ha, hB b hb]; omega
      · refine (hs _).imp_of_mem (fun ha hb h => ?_)
        rw [hA _ ha, hA _ hb]
        right; exact ⟨rfl, Nat.le_of_lt h⟩
      · intro a ha b hb
        left
        rw [hA b hb]
        rcases List.mem_append.1 ha with h | h
        · rw [hC a h]; omega
        · rw [hB a h]; omega
  rw [e, List.map_map]
  simp [Function.comp_def]

theorem sets_ordered : orderedAxes n (Lset n m0 m1 u) (Rset n m0 m1 u) (Cset n m0 m1 u) =
    Cset n m0 m1 u ++ (Bset n m0 m1).filter m0 ++ (Bset n m0 m1).filter m1 ++ Aset n m0 m1 u := by
  unfold orderedAxes
  congr 1
  · congr 1
    · congr 1
      unfold Lset Bset
      rw [List.filter_filter, List.filter_filter]
      apply List.filter_congr
      intro d hd
      simp only [Rset, List.contains_eq_mem, List.mem_filter, hd, true_and]
      cases m0 d <;> cases m1 d <;> cases u d <;> rfl
    · unfold Bset
      conv_lhs => rw [Rset]
      rw [List.filter_filter, List.filter_filter]
      apply List.filter_congr
      intro d hd
      simp only [Lset, List.contains_eq_mem, List.mem_filter, hd, true_and]
      cases m0 d <;> cases m1 d <;> cases u d <;> rfl
  · unfold Aset
    apply List.filter_congr
    intro d hd
    simp only [Lset, Rset, Cset, List.contains_eq_mem, List.mem_filter, hd, true_and]
    cases m0 d <;> cases m1 d <;> cases u d <;> rfl

theorem perm_ordered : (Cset n m0 m1 u ++ (Bset n m0 m1).filter m0 ++ (Bset n m0 m1).filter m1 ++ Aset n m0 m1 u).Perm (List.range n) := by
  refine List.Perm.trans ?_ (perm_sets n m0 m1 u)
  rw [List.append_assoc (Cset n m0 m1 u)]
  apply List.Perm.append_right
  apply List.Perm.append_left
  have : (Bset n m0 m1).filter m1 = (Bset n m0 m1).filter (fun d => !m0 d) := by
    apply List.filter_congr
    intro d hd
    have := (List.mem_filter.1 hd).2
    revert this
    cases m0 d <;> cases m1 d <;> simp
  rw [this]
  exact List.filter_append_perm m0 _

end sets

/-- The inverse of a permutation. -/
theorem revPerm_eq {ord : List Nat} {n : Nat} (h : ord.Perm (List.range n)) : revPerm ord = (List.range n).map (fun j => ord.idxOf j) := by
  have hn : ord.Nodup := h.nodup_iff.2 List.nodup_range
  unfold revPerm
  have e : sortPairs (ord.mapIdx (fun (i : Nat) (a : Nat) => ((a : Int), i))) = (List.range n).map (fun j : Nat => ((j : Int), ord.idxOf j)) := by
    apply sortPairs_eq
    · have h1 : ord.mapIdx (fun (i : Nat) (a : Nat) => ((a : Int), i)) = ord.map (fun j : Nat => ((j : Int), ord.idxOf j)) := by
        apply List.ext_getElem (by simp)
        intro i h1 h2
        rw [List.getElem_mapIdx, List.getElem_map, hn.idxOf_getElem]
      rw [h1]
      exact h.map _
    · rw [List.pairwise_map]
      refine List.pairwise_lt_range.imp (fun h => ?_)
      left
      simpa using h
  rw [e, List.map_map]
  simp [Function.comp_def]

theorem revPerm_spec {ord : List Nat} {n : Nat} (h : ord.Perm (List.range n)) :
    IsPerm (revPerm ord) ∧ (revPerm ord).length = ord.length ∧ (revPerm ord).map (nth ord) = List.range n ∧
    ∀ d, d < n → nth (revPerm ord) d = ord.idxOf d := by
  have hn : ord.Nodup := h.nodup_iff.2 List.nodup_range
  have hl : ord.length = n := by rw [h.length_eq]; simp
  have hm : ∀ d, d < n → d ∈ ord := fun d hd => h.mem_iff.2 (List.mem_range.2 hd)
  rw [revPerm_eq h]
  refine ⟨?_, by simp [hl], ?_, fun d hd => by simp [hd]⟩
  · apply isPerm_of_nodup
    · apply List.Nodup.map_on _ List.nodup_range
      intro x hx y hy hxy
      rw [← nth_idxOf (hm x (List.mem_range.1 hx)), ← nth_idxOf (hm y (List.mem_range.1 hy)), hxy]
    · intro x hx
      obtain ⟨j, hj, rfl⟩ := List.mem_map.1 hx
      simp only [List.length_map, List.length_range]
      rw [← hl]
      exact List.idxOf_lt_length_iff.2 (hm j (List.mem_range.1 hj))
  · rw [List.map_map]
    conv_rhs => rw [← List.map_id (List.range n)]
    apply List.map_congr_left
    intro j hj
    exact nth_idxOf (hm j (List.mem_range.1 hj))

theorem inBoth_eq (r0 r1 : List Int) (d : Nat) : inBoth r0 r1 d = (maskR r0 d && maskR r1 d) := by
  simp only [inBoth, maskR]
  rw [Bool.eq_iff_iff]
  simp only [decide_eq_true_eq, Bool.and_eq_true]
  omega

theorem leftOf_eq (n : Nat) (later : List (List Int)) (r0 r1 : List Int) :
    leftOf n later r0 r1 = Lset n (maskR r0) (maskR r1) (usedLater later) := by
  unfold leftOf Lset
  apply List.filter_congr
  intro d _
  rw [inBoth_eq]
  rfl

theorem rightOf_eq (n : Nat) (later : List (List Int)) (r0 r1 : List Int) :
    rightOf n later r0 r1 = Rset n (maskR r0) (maskR r1) (usedLater later) := by
  unfold rightOf Rset
  apply List.filter_congr
  intro d _
  rw [inBoth_eq]
  rfl

theorem axesOf_eq (n : Nat) (later : List (List Int)) (r0 r1 : List Int) :
    axesOf n later r0 r1 = Aset n (maskR r0) (maskR r1) (usedLater later) := by
  unfold axesOf Aset
  apply List.filter_congr
  intro d _
  rw [inBoth_eq]

/-- The product step. -/
theorem dotStep_res {n v : Nat} {dim : Nat → Nat} {xs : List (T α)} {s0 s1 : Sub} {r0 r1 : List Int} {F G : (Nat → Nat) → α} (u : Nat → Bool) (hv : 13 ≤ v)
    (hpos : ∀ d, d < n → 0 < dim d) (h0 : Res n v dim xs s0 r0 F) (h1 : Res n v dim xs s1 r1 G) :
    let p := dotStep n (Lset n (maskR r0) (maskR r1) u) (Rset n (maskR r0) (maskR r1) u) (Aset n (maskR r0) (maskR r1) u) s0 s1 r0 r1
    Res n v dim xs p.1 p.2 (sumL dim (Aset n (maskR r0) (maskR r1) u) (fun τ => F τ * G τ)) ∧
    ∀ d, d < n → maskR p.2 d = ((maskR r0 d || maskR r1 d) && !(Aset n (maskR r0) (maskR r1) u).contains d) := by
  intro p
  have hp : p = dotStep n (Lset n (maskR r0) (maskR r1) u) (Rset n (maskR r0) (maskR r1) u) (Aset n (maskR r0) (maskR r1) u) s0 s1 r0 r1 := rfl
  clear_value p
  unfold dotStep at hp
  simp only [sets_common, sets_perm, sets_ordered] at hp
  have hperm := perm_sets n (maskR r0) (maskR r1) u
  have hordp := perm_ordered n (maskR r0) (maskR r1) u
  obtain ⟨hrv1, hrv2, hrv3, hrv4⟩ := revPerm_spec hordp
  have hCe := fun d => show d ∈ Cset n (maskR r0) (maskR r1) u ↔ _ from List.mem_filter
  have hBe := fun d => show d ∈ Bset n (maskR r0) (maskR r1) ↔ _ from List.mem_filter
  have hAe := fun d => show d ∈ Aset n (maskR r0) (maskR r1) u ↔ _ from List.mem_filter
  have hLe := fun d => show d ∈ Lset n (maskR r0) (maskR r1) u ↔ _ from List.mem_filter
  have hRe := fun d => show d ∈ Rset n (maskR r0) (maskR r1) u ↔ _ from List.mem_filter
  have eL : (Cset n (maskR r0) (maskR r1) u ++ Bset n (maskR r0) (maskR r1) ++ Aset n (maskR r0) (maskR r1) u).length = n := by
    rw [hperm.length_eq, List.length_range]
  have eLB := filter_split_length (maskR r0) (maskR r1) (Bset n (maskR r0) (maskR r1)) (fun d hd => by
    have := ((hBe d).1 hd).2
    revert this
    cases maskR r0 d <;> cases maskR r1 d <;> simp)
  generalize hC : Cset n (maskR r0) (maskR r1) u = C at *
  generalize hB : Bset n (maskR r0) (maskR r1) = B at *
  generalize hA : Aset n (maskR r0) (maskR r1) u = A at *
  generalize hLs : Lset n (maskR r0) (maskR r1) u = L at *
  generalize hRs : Rset n (maskR r0) (maskR r1) u = R at *
  have hiP : IsPerm (C ++ B ++ A) := by unfold IsPerm; rw [eL]; exact hperm
  have hnd : (C ++ B ++ A).Nodup := hperm.nodup_iff.2 List.nodup_range
  have hmemlt : ∀ d ∈ C ++ B ++ A, d < n := fun d hd => List.mem_range.1 (hperm.mem_iff.1 hd)
  have hmap : (C ++ B ++ A).map (nth (List.range n)) = C ++ B ++ A := by
    conv_rhs => rw [← List.map_id (C ++ B ++ A)]
    apply List.map_congr_left
    intro d hd
    exact nth_range (hmemlt d hd)
  obtain ⟨x, hx, hax⟩ := mkTranspose_run hiP (by rw [eL]; simp) h0.run
  obtain ⟨y, hy, hay⟩ := mkTranspose_run hiP (by rw [eL]; simp) h1.run
  rw [hmap] at hax hay
  have hbl : Blocks dim C B A (maskR r0) (maskR r1) := by
    refine ⟨hnd, ?_, ?_, ?_, fun d hd => hpos d (hmemlt d hd)⟩
    · intro d hd
      have := ((hCe d).1 hd).2
      revert this
      cases maskR r0 d <;> cases maskR r1 d <;> simp
    · intro d hd
      have := ((hBe d).1 hd).2
      revert this
      cases maskR r0 d <;> cases maskR r1 d <;> simp
    · intro d hd
      have := ((hAe d).1 hd).2
      revert this
      cases maskR r0 d <;> cases maskR r1 d <;> simp
  have hnA := notA hnd
  have posC : ∀ d ∈ C, (C ++ B ++ A).idxOf d = C.idxOf d ∧ C.idxOf d < C.length := by
    intro d hd
    rw [List.append_assoc, List.idxOf_append_of_mem hd]
    exact ⟨rfl, List.idxOf_lt_length_iff.2 hd⟩
  obtain ⟨w, hw, haw⟩ := batchDot_al (l := L) (r := R)
    (batched := (List.range C.length).any (fun k => decide (rget (permRow (C ++ B ++ A) r1) k ≠ -1))) hv hbl hax hay (by
      intro d hd
      have h2 := (hBe d).1 hd
      rw [List.contains_eq_mem]
      simp only [hLe]
      revert h2
      cases maskR r0 d <;> cases maskR r1 d <;> simp +contextual) (by
      intro d hd
      have h2 := (hBe d).1 hd
      rw [List.contains_eq_mem]
      simp only [hRe]
      revert h2
      cases maskR r0 d <;> cases maskR r1 d <;> simp +contextual) (by
      intro d hd
      have h2 := (hAe d).1 hd
      rw [hLe]
      revert h2
      cases maskR r0 d <;> cases maskR r1 d <;> cases u d <;> simp) (by
      intro d hd
      have h2 := (hAe d).1 hd
      rw [hRe]
      revert h2
      cases maskR r0 d <;> cases maskR r1 d <;> cases u d <;> simp) (by
      intro hf d hd
      rw [List.any_eq_false] at hf
      have hp := posC d hd
      have := hf _ (List.mem_range.2 hp.2)
      rw [rget_permRow (by rw [eL, ← eL]; simp only [List.length_append]; omega), ← hp.1, nth_idxOf (by simp [hd])] at this
      simp only [decide_eq_true_eq, ne_eq, not_not] at this
      rw [hbl.common d hd]
      exact (h1.row.eq d).1 this)
  rw [eL] at hw
  have hrun := mkTranspose_run (v := v) (xs := xs) (s := Sub.batchDot (List.range C.length) ((List.range n).drop (n - A.length)) (posIn (C ++ B ++ A) L) (posIn (C ++ B ++ A) R)
      ((List.range C.length).any (fun k => decide (rget (permRow (C ++ B ++ A) r1) k ≠ -1))) n
      (mkTranspose (C ++ B ++ A) s0) (mkTranspose (C ++ B ++ A) s1)) hrv1 hrv2
    ⟨canonT w, by simp only [Sub.run, hx, hy, Option.bind_some, hw, Option.map_some], haw.canon⟩
  rw [hrv3] at hrun
  have hlr : (revPerm (C ++ B.filter (maskR r0) ++ B.filter (maskR r1) ++ A)).length = n := by
    rw [hrv2]; simp only [List.length_append] at eL ⊢; omega
  have hdr : ∀ d, d < n → rget (dotRow ((List.range n).drop (n - A.length)) (posIn (C ++ B ++ A) R) (permRow (C ++ B ++ A) r0) (permRow (C ++ B ++ A) r1)) d =
      if d ∈ (List.range n).drop (n - A.length) ∧ d ∉ posIn (C ++ B ++ A) R then -1 else max (rget r0 (nth (C ++ B ++ A) d)) (rget r1 (nth (C ++ B ++ A) d)) := by
    intro d hd
    have hd' : d < (permRow (C ++ B ++ A) r1).length := by rw [permRow, List.length_map, eL]; exact hd
    rw [dotRow, rget, List.getD_eq_getElem?_getD, List.getElem?_map, List.getElem?_range hd', ← rget_permRow (by rw [eL]; exact hd),
      ← rget_permRow (by rw [eL]; exact hd)]
    rfl
  have hok : RowOk n p.2 := by
    rw [hp]
    apply permRow_ok _ hlr
    refine ⟨by simp only [dotRow, permRow, List.length_map, List.length_range]; exact eL, fun d => ?_⟩
    by_cases hd : d < n
    · rw [hdr d hd]
      split
      · omega
      · have := h0.row.2 (nth (C ++ B ++ A) d); omega
    · have : ¬ d < (permRow (C ++ B ++ A) r1).length := by rw [permRow, List.length_map, eL]; exact hd
      rw [rget, dotRow, List.getD_eq_getElem?_getD, List.getElem?_eq_none (by simpa using this)]
      simp
  have hmask : ∀ d, d < n → maskR p.2 d = ((maskR r0 d || maskR r1 d) && !A.contains d) := by
    intro d hd
    rw [hp]
    simp only [maskR]
    rw [rget_permRow (by rw [hlr]; exact hd), hrv4 d hd]
    have hdm : d ∈ C ++ B.filter (maskR r0) ++ B.filter (maskR r1) ++ A := hordp.mem_iff.2 (List.mem_range.2 hd)
    have hlt : (C ++ B.filter (maskR r0) ++ B.filter (maskR r1) ++ A).idxOf d < n := by
      have := List.idxOf_lt_length_iff.2 hdm
      simp only [List.length_append] at this eL
      omega
    rw [hdr _ hlt]
    have hdrop : ∀ k, k < n → (k ∈ (List.range n).drop (n - A.length) ↔ C.length + B.length ≤ k) := by
      intro k hk
      simp only [List.length_append] at eL
      rw [List.mem_drop_iff_getElem]
      simp only [List.getElem_range, List.length_range]
      constructor
      · rintro ⟨i, h1, h2⟩; omega
      · intro h; exact ⟨k - (n - A.length), by omega, by omega⟩
    have hCB : ∀ a ∈ C, a ∉ B := fun a ha hb =>
      (List.nodup_append.1 (List.nodup_append.1 hnd).1).2.2 a ha a hb rfl
    generalize hkk : (C ++ B.filter (maskR r0) ++ B.filter (maskR r1) ++ A).idxOf d = kk at hlt
    have hcB : d ∈ B → C.length ≤ kk → kk < C.length + B.length →
        decide (0 ≤ if kk ∈ (List.range n).drop (n - A.length) ∧ kk ∉ posIn (C ++ B ++ A) R then -1
          else max (rget r0 (nth (C ++ B ++ A) kk)) (rget r1 (nth (C ++ B ++ A) kk))) =
        ((decide (0 ≤ rget r0 d) || decide (0 ≤ rget r1 d)) && !A.contains d) := by
      intro hdB h1 h2
      rw [if_neg (by rw [hdrop _ hlt]; omega)]
      have hk : nth (C ++ B ++ A) kk ∈ B := by
        obtain ⟨j, rfl⟩ := Nat.exists_eq_add_of_le h1
        rw [List.append_assoc, nth_append_right, nth_append_left (by omega)]
        exact nth_mem (by omega)
      have k1 := ((hBe _).1 hk).2
      have k2 := ((hBe _).1 hdB).2
      have k3 := hnA.2 d hdB
      simp only [List.contains_eq_mem, k3, decide_false, Bool.not_false, Bool.and_true]
      simp only [maskR, bne_iff_ne, ne_eq, decide_eq_decide] at k1 k2
      rw [Bool.eq_iff_iff]
      simp only [decide_eq_true_eq, Bool.or_eq_true]
      omega
    subst hkk
    rcases List.mem_append.1 hdm with h | hdA
    · rcases List.mem_append.1 h with h | hdR
      · rcases List.mem_append.1 h with hdC | hdL
        · have e : (C ++ B.filter (maskR r0) ++ B.filter (maskR r1) ++ A).idxOf d = C.idxOf d := by
            rw [List.append_assoc, List.append_assoc, List.idxOf_append_of_mem hdC]
          have hk := List.idxOf_lt_length_iff.2 hdC
          rw [e]
          rw [e] at hlt
          rw [if_neg (by rw [hdrop _ hlt]; omega), ← (posC d hdC).1, nth_idxOf (by simp [hdC])]
          rw [Bool.eq_iff_iff]
          simp only [List.contains_eq_mem, hnA.1 d hdC, decide_false, Bool.not_false, Bool.and_true, Bool.or_eq_true, decide_eq_true_eq]
          omega
        · have hdB := (List.mem_filter.1 hdL).1
          refine hcB hdB ?_ ?_
          · rw [List.append_assoc, List.append_assoc, List.idxOf_append_of_notMem (fun hc => hCB d hc hdB)]; omega
          · rw [List.append_assoc, List.idxOf_append_of_mem h]
            have := List.idxOf_lt_length_iff.2 h
            simp only [List.length_append] at this; omega
      · have hdB := (List.mem_filter.1 hdR).1
        refine hcB hdB ?_ ?_
        · rw [List.append_assoc, List.append_assoc, List.idxOf_append_of_notMem (fun hc => hCB d hc hdB)]; omega
        · rw [List.idxOf_append_of_mem h]
          have := List.idxOf_lt_length_iff.2 h
          simp only [List.length_append] at this; omega
    · have e : C.length + B.length ≤ (C ++ B.filter (maskR r0) ++ B.filter (maskR r1) ++ A).idxOf d := by
        rw [List.idxOf_append_of_notMem]
        · simp only [List.length_append]; omega
        · intro hm
          exact (List.nodup_append.1 (hordp.nodup_iff.2 List.nodup_range)).2.2 d hm d hdA rfl
      have hnp : (C ++ B.filter (maskR r0) ++ B.filter (maskR r1) ++ A).idxOf d ∉ posIn (C ++ B ++ A) R := by
        rw [mem_posIn (by rw [eL]; exact hlt)]
        have hkA : nth (C ++ B ++ A) ((C ++ B.filter (maskR r0) ++ B.filter (maskR r1) ++ A).idxOf d) ∈ A := by
          generalize (C ++ B.filter (maskR r0) ++ B.filter (maskR r1) ++ A).idxOf d = k at e hlt
          obtain ⟨j, rfl⟩ := Nat.exists_eq_add_of_le e
          rw [show C.length + B.length = (C ++ B).length from by simp, nth_append_right]
          apply nth_mem
          simp only [List.length_append] at eL
          omega
        rw [hRe]
        have h2 := (hAe _).1 hkA
        revert h2
        generalize nth (C ++ B ++ A) _ = k
        cases maskR r0 k <;> cases maskR r1 k <;> cases u k <;> simp
      rw [if_pos ⟨(hdrop _ hlt).2 e, hnp⟩]
      simp [hdA]
  refine ⟨⟨hok, ?_⟩, hmask⟩
  obtain ⟨t, ht, hat⟩ := hrun
  refine ⟨t, by rw [hp]; exact ht, ?_⟩
  exact hat.congr (fun d hd => (hmask d (List.mem_range.1 hd)).symm) (fun _ _ => rfl)

end Verif.Einsum
