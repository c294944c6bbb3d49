import Verif.Props.C62_Align
/-!
# The permutations of the decomposition
-/
namespace Verif.Einsum
open Verif.Tensor

/-! ## Sorting -/

theorem sortPairs_eq {l l' : List (Int × Nat)} (h : l.Perm l') (hs : l'.Pairwise (fun a b => a.1 < b.1 ∨ a.1 = b.1 ∧ a.2 ≤ b.2)) :
    sortPairs l = l' := by
  have hs' : (sortPairs l).Pairwise (fun a b : Int × Nat => a.1 < b.1 ∨ a.1 = b.1 ∧ a.2 ≤ b.2) := by
    have : Std.Total (fun a b : Int × Nat => a.1 < b.1 ∨ a.1 = b.1 ∧ a.2 ≤ b.2) := ⟨fun a b => by omega⟩
    have : IsTrans (Int × Nat) (fun a b : Int × Nat => a.1 < b.1 ∨ a.1 = b.1 ∧ a.2 ≤ b.2) := ⟨fun a b c => by omega⟩
    exact List.pairwise_insertionSort _ l
  have hp : (sortPairs l).Perm l' := (List.perm_insertionSort _ l).trans h
  refine List.Perm.eq_of_pairwise (fun a b _ _ h1 h2 => ?_) hs' hs hp
  apply Prod.ext <;> omega

/-! ## Exchanging two lists -/

/-- `a[k]` becomes `b[k]`, all others stay. -/
def swap (n : Nat) (a b : List Nat) : List Nat := (List.range n).map (fun j => if j ∈ a then nth b (a.idxOf j) else j)

@[simp] theorem swap_length (n : Nat) (a b : List Nat) : (swap n a b).length = n := by simp [swap]

theorem nth_swap {n : Nat} {a b : List Nat} {j : Nat} (hj : j < n) : nth (swap n a b) j = if j ∈ a then nth b (a.idxOf j) else j := by
  simp [swap, hj]

theorem nth_mem {l : List Nat} {i : Nat} (h : i < l.length) : nth l i ∈ l := by rw [nth_eq _ _ h]; exact List.getElem_mem h

theorem nth_idxOf {l : List Nat} {d : Nat} (h : d ∈ l) : nth l (l.idxOf d) = d := by
  rw [nth_eq _ _ (List.idxOf_lt_length_iff.2 h)]; exact List.getElem_idxOf _

theorem idxOf_nth {l : List Nat} (hl : l.Nodup) {i : Nat} (h : i < l.length) : l.idxOf (nth l i) = i := by
  rw [nth_eq _ _ h]; exact hl.idxOf_getElem i h

theorem swap_swap {n : Nat} {a b : List Nat} (hb : b.Nodup) (hp : a.Perm b) (hlt : ∀ d ∈ a, d < n) {j : Nat} (hj : j < n) :
    nth (swap n a b) j < n ∧ nth (swap n b a) (nth (swap n a b) j) = j := by
  rw [nth_swap hj]
  by_cases h : j ∈ a
  · have hi : a.idxOf j < b.length := by rw [← hp.length_eq]; exact List.idxOf_lt_length_iff.2 h
    have hm : nth b (a.idxOf j) ∈ b := nth_mem hi
    rw [if_pos h]
    have hlt' : nth b (a.idxOf j) < n := hlt _ (hp.mem_iff.2 hm)
    refine ⟨hlt', ?_⟩
    rw [nth_swap hlt', if_pos hm, idxOf_nth hb hi, nth_idxOf h]
  · rw [if_neg h]
    refine ⟨hj, ?_⟩
    rw [nth_swap hj, if_neg (fun hb => h (hp.mem_iff.2 hb))]

theorem swap_isPerm {n : Nat} {a b : List Nat} (hb : b.Nodup) (hp : a.Perm b) (hlt : ∀ d ∈ a, d < n) : IsPerm (swap n a b) := by
  apply isPerm_of_nodup
  · have : swap n a b = (List.range n).map (fun j => nth (swap n a b) j) := by
      apply ext_nth (by simp)
      intro i hi
      simp only [swap_length] at hi
      rw [nth_map_range, if_pos hi]
    rw [this]
    apply List.Nodup.map_on _ List.nodup_range
    intro x hx y hy hxy
    have h1 := (swap_swap hb hp hlt (List.mem_range.1 hx)).2
    have h2 := (swap_swap hb hp hlt (List.mem_range.1 hy)).2
    rw [← h1, ← h2, hxy]
  · intro x hx
    obtain ⟨i, hi, rfl⟩ := List.getElem_of_mem hx
    have hi' : i < n := by simpa using hi
    rw [swap_length, ← nth_eq _ _ hi]
    exact (swap_swap hb hp hlt hi').1

/-! ## Rows -/

/-- The row of a term of letters that are numbers. -/
def nrow (n : Nat) (term : List Nat) : List Int := (List.range n).map (fun d => if d ∈ term then (term.idxOf d : Int) else -1)

@[simp] theorem nrow_length (n : Nat) (term : List Nat) : (nrow n term).length = n := by simp [nrow]

theorem rget_nrow {n d : Nat} {term : List Nat} (hd : d < n) : rget (nrow n term) d = if d ∈ term then (term.idxOf d : Int) else -1 := by
  simp [nrow, rget, hd]

theorem rget_nrow_iff {n d : Nat} {term : List Nat} (hd : d < n) : rget (nrow n term) d ≠ -1 ↔ d ∈ term := by
  rw [rget_nrow hd]
  split
  · rename_i h; simp only [h, iff_true]; omega
  · rename_i h; simp [h]

theorem present_nrow (n : Nat) (term : List Nat) : present (nrow n term) = (List.range n).filter (fun i => decide (i ∈ term)) := by
  unfold present
  rw [nrow_length]
  apply List.filter_congr
  intro d hd
  simp only [rget_nrow_iff (List.mem_range.1 hd)]

theorem absent_nrow (n : Nat) (term : List Nat) : absent (nrow n term) = (List.range n).filter (fun i => decide (i ∉ term)) := by
  unfold absent
  rw [nrow_length]
  apply List.filter_congr
  intro d hd
  have := rget_nrow_iff (term := term) (List.mem_range.1 hd)
  simp [← this]

theorem present_perm {n : Nat} {term : List Nat} (hn : term.Nodup) (hlt : ∀ d ∈ term, d < n) : (present (nrow n term)).Perm term := by
  rw [present_nrow, List.perm_ext_iff_of_nodup (List.nodup_range.filter _) hn]
  intro d
  simp only [List.mem_filter, List.mem_range, decide_eq_true_eq]
  exact ⟨fun h => h.2, fun h => ⟨hlt d h, h⟩⟩

theorem byPos_nrow {n : Nat} {term : List Nat} (hn : term.Nodup) (hlt : ∀ d ∈ term, d < n) : byPos (nrow n term) = term := by
  unfold byPos
  have e : sortPairs ((present (nrow n term)).map (fun i => (rget (nrow n term) i, i))) = term.map (fun d => ((term.idxOf d : Int), d)) := by
    apply sortPairs_eq
    · have h1 : (present (nrow n term)).map (fun i => (rget (nrow n term) i, i)) = (present (nrow n term)).map (fun d => ((term.idxOf d : Int), d)) := by
        apply List.map_congr_left
        intro d hd
        rw [present_nrow] at hd
        simp only [List.mem_filter, List.mem_range, decide_eq_true_eq] at hd
        rw [rget_nrow hd.1, if_pos hd.2]
      rw [h1]
      exact (present_perm hn hlt).map _
    · rw [List.pairwise_map, List.pairwise_iff_getElem]
      intro i j hi hj hij
      rw [hn.idxOf_getElem i hi, hn.idxOf_getElem j hj]
      left
      simpa using hij
  rw [e, List.map_map]
  simp [Function.comp_def]

theorem alignPerm_nrow {n : Nat} {term : List Nat} (hn : term.Nodup) (hlt : ∀ d ∈ term, d < n) :
    alignPerm (nrow n term) = swap n term (present (nrow n term)) := by
  unfold alignPerm swap
  rw [byPos_nrow hn hlt, nrow_length]

theorem outPerm_nrow {n : Nat} {term : List Nat} (hn : term.Nodup) (hlt : ∀ d ∈ term, d < n) :
    outPerm (nrow n term) = swap n (present (nrow n term)) term := by
  unfold outPerm swap
  rw [byPos_nrow hn hlt, nrow_length]

/-! ## Operands and output -/

section values
variable {α : Type} [CommSemiring α]

/-- The letters of a term. -/
def maskT (term : List Nat) : Nat → Bool := fun d => decide (d ∈ term)

theorem kept_absent (n : Nat) (term : List Nat) : keptAxes n (fun i => (absent (nrow n term)).contains i) = present (nrow n term) := by
  unfold keptAxes
  rw [present_nrow]
  apply List.filter_congr
  intro d hd
  simp only [absent_nrow, List.contains_eq_mem, List.mem_filter, hd, true_and, decide_not, Bool.not_eq_true', decide_eq_false_iff_not,
    Bool.decide_eq_true, Bool.not_not]

theorem absent_contains {n d : Nat} {term : List Nat} (hd : d < n) : (absent (nrow n term)).contains d = !decide (d ∈ term) := by
  simp [absent_nrow, hd]

theorem absent_length {n : Nat} {term : List Nat} (hn : term.Nodup) (hlt : ∀ d ∈ term, d < n) : term.length + (absent (nrow n term)).length = n := by
  rw [← (present_perm hn hlt).length_eq, present_nrow, absent_nrow]
  have := List.length_eq_length_filter_add (l := List.range n) (fun i => decide (i ∈ term))
  simp only [List.length_range] at this
  simpa using this.symm

theorem swap_map (f : Nat → Nat) {n : Nat} {a b : List Nat} (i : Nat) (hi : i < n) : nth ((swap n a b).map f) i = f (nth (swap n a b) i) :=
  nth_map _ _ _ (by simpa using hi)

/-- Unsqueezing an operand. -/
theorem unsqueeze_al {n : Nat} {dim : Nat → Nat} {term : List Nat} {t : T α} (hn : term.Nodup) (hlt : ∀ d ∈ term, d < n) (ht : t.shape = term.map dim) :
    ∃ u, unsqueezeT (absent (nrow n term)) t = some u ∧
      Al dim (swap n (present (nrow n term)) term) (maskT term) u (fun σ => t.get (term.map σ)) := by
  have hlen : t.shape.length + (absent (nrow n term)).length = n := by rw [ht, List.length_map]; exact absent_length hn hlt
  have hc : (absent (nrow n term)).Nodup ∧ ∀ a ∈ absent (nrow n term), a < t.shape.length + (absent (nrow n term)).length := by
    rw [hlen, absent_nrow]
    exact ⟨List.nodup_range.filter _, fun a ha => List.mem_range.1 (List.mem_filter.1 ha).1⟩
  have hpp := present_perm hn hlt
  have hpm : ∀ {d}, d ∈ present (nrow n term) ↔ d ∈ term := fun {d} => hpp.mem_iff
  refine ⟨_, by unfold unsqueezeT; rw [if_pos hc], ?_, fun σ hσ => ?_⟩
  · simp only [unsqueeze, hlen, kept_absent]
    apply ext_nth (by simp)
    intro i hi
    have hi : i < n := by simpa using hi
    rw [nth_map_range, if_pos hi, swap_map _ i hi, nth_swap hi, absent_contains hi]
    by_cases h : i ∈ term
    · have hk : (present (nrow n term)).idxOf i < term.length := by rw [← hpp.length_eq]; exact List.idxOf_lt_length_iff.2 (hpm.2 h)
      simp only [h, decide_true, Bool.not_true, hpm, if_true, ht, nth_map _ _ _ hk, dimM, maskT, nth_mem hk]
      simp
    · simp [h, hpm, dimM, maskT]
  · simp only [unsqueeze, hlen, kept_absent]
    congr 1
    apply ext_nth (by simp [hpp.length_eq])
    intro k hk
    have hk : k < (present (nrow n term)).length := by simpa using hk
    have hk' : k < term.length := by rw [← hpp.length_eq]; exact hk
    have hm : nth (present (nrow n term)) k ∈ present (nrow n term) := nth_mem hk
    have hln := hlt _ (hpm.1 hm)
    rw [nth_map _ _ _ hk, swap_map _ _ hln, nth_swap hln, if_pos hm, idxOf_nth (hpp.nodup_iff.2 hn) hk, nth_map _ _ _ hk']
    simp [valM, maskT, nth_mem hk']

theorem map_swap_swap {n : Nat} {a b : List Nat} (hb : b.Nodup) (hp : a.Perm b) (hlt : ∀ d ∈ a, d < n) :
    (swap n a b).map (nth (swap n b a)) = List.range n := by
  apply ext_nth (by simp)
  intro i hi
  have hi : i < n := by simpa using hi
  rw [swap_map _ _ hi, (swap_swap hb hp hlt hi).2, nth_range hi]

/-- Squeezing the result. -/
theorem squeeze_al {n : Nat} {dim : Nat → Nat} {out : List Nat} {t : T α} {F : (Nat → Nat) → α} (hn : out.Nodup) (hlt : ∀ d ∈ out, d < n)
    (h : Al dim (swap n (present (nrow n out)) out) (maskT out) t F) :
    ∃ u, squeezeT (absent (nrow n out)) t = some u ∧ Al dim out (maskT out) u F := by
  have hpp := present_perm hn hlt
  have hpm : ∀ {d}, d ∈ present (nrow n out) ↔ d ∈ out := fun {d} => hpp.mem_iff
  have hlen : t.shape.length = n := by simp [h.shape]
  have hsh : ∀ i, i < n → nth t.shape i = dimM dim (maskT out) (if i ∈ out then nth out ((present (nrow n out)).idxOf i) else i) := by
    intro i hi
    rw [h.shape, swap_map _ _ hi, nth_swap hi]
    simp only [hpm]
  have hc : (absent (nrow n out)).Nodup ∧ ∀ a ∈ absent (nrow n out), a < t.shape.length ∧ nth t.shape a = 1 := by
    refine ⟨by rw [absent_nrow]; exact List.nodup_range.filter _, fun a ha => ?_⟩
    rw [absent_nrow] at ha
    simp only [List.mem_filter, List.mem_range, decide_eq_true_eq] at ha
    refine ⟨by rw [hlen]; exact ha.1, ?_⟩
    rw [hsh a ha.1, if_neg ha.2]
    simp [dimM, maskT, ha.2]
  refine ⟨_, by unfold squeezeT; rw [if_pos hc], ?_, fun σ hσ => ?_⟩
  · simp only [squeeze, hlen, kept_absent]
    apply ext_nth (by simp [hpp.length_eq])
    intro k hk
    have hk : k < (present (nrow n out)).length := by simpa using hk
    have hk' : k < out.length := by rw [← hpp.length_eq]; exact hk
    have hm : nth (present (nrow n out)) k ∈ present (nrow n out) := nth_mem hk
    rw [nth_map _ _ _ hk, hsh _ (hlt _ (hpm.1 hm)), if_pos (hpm.1 hm), idxOf_nth (hpp.nodup_iff.2 hn) hk, nth_map _ _ _ hk']
  · simp only [squeeze, hlen, kept_absent]
    have hok : Ok dim (swap n (present (nrow n out)) out) (maskT out) σ := by
      intro d _ hd
      exact hσ d (by simpa [maskT] using hd) hd
    rw [← h.get σ hok]
    congr 1
    apply ext_nth (by simp)
    intro i hi
    have hi : i < n := by simpa using hi
    rw [nth_map_range, if_pos hi, swap_map _ _ hi, nth_swap hi, absent_contains hi]
    by_cases hio : i ∈ out
    · have hk : (present (nrow n out)).idxOf i < out.length := by rw [← hpp.length_eq]; exact List.idxOf_lt_length_iff.2 (hpm.2 hio)
      simp only [hio, decide_true, Bool.not_true, hpm, if_true, nth_map _ _ _ hk]
      simp
    · simp [hio, hpm, valM, maskT]

end values
end Verif.Einsum
