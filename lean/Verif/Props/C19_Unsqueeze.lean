import Verif.Props.C19_Push
/-!
# C19: moving a transpose across Unsqueeze
-/
namespace Verif.TransposeOpt
open Verif.Tensor

theorem push_unsqueeze_set {α : Type} (n : Nat) (perm newPerm : List Nat) (ax ax' : Nat → Bool) (x : T α)
    (hp : IsPerm perm) (hl : x.shape.length = perm.length) (hnp : IsPerm newPerm) (hnl : newPerm.length = n)
    (hk : (keptAxes n ax).length = perm.length) (hk' : (keptAxes n ax').length = perm.length)
    (hax : ∀ i, i < n → ax' (nth newPerm i) = ax i)
    (hval : ∀ i, i < n → ax i = false →
      nth newPerm i = nth (keptAxes n ax') (nth perm ((keptAxes n ax).idxOf i))) :
    Same (unsqueeze n ax (transpose perm x)) (transpose newPerm (unsqueeze n ax' x)) := by
  refine ⟨?_, fun idx _ => ?_⟩
  · apply ext_nth (by simp [unsqueeze, transpose, hnl])
    intro i hi
    simp only [unsqueeze, transpose, List.length_map, List.length_range] at hi
    simp only [unsqueeze, transpose]
    have hi' : i < newPerm.length := by rw [hnl]; exact hi
    have hlt : nth newPerm i < n := hnl ▸ hnp.nth_lt hi'
    rw [nth_map_range, if_pos hi, nth_map _ newPerm _ hi', nth_map_range, if_pos hlt, hax i hi]
    cases hc : ax i with
    | true => rfl
    | false =>
      simp only [Bool.false_eq_true, if_false]
      have hm : i ∈ keptAxes n ax := mem_keptAxes.2 ⟨hi, hc⟩
      have hki : (keptAxes n ax).idxOf i < perm.length := hk ▸ List.idxOf_lt_length_iff.2 hm
      rw [nth_map _ _ _ hki, hval i hi hc, idxOf_nth_of_nodup (nodup_keptAxes _ _) (hk'.symm ▸ hp.nth_lt hki)]
  · simp only [unsqueeze, transpose]
    congr 1
    apply ext_nth (by simp [hk'])
    intro j hj
    simp only [permIdx_length] at hj
    have hij := hp.idxOf_lt hj
    have hjk : perm.idxOf j < (keptAxes n ax).length := hk.symm ▸ hij
    have hpm : nth (keptAxes n ax) (perm.idxOf j) ∈ keptAxes n ax := nth_mem hjk
    obtain ⟨hpn, hpf⟩ := mem_keptAxes.1 hpm
    have hkm : nth (keptAxes n ax') j ∈ keptAxes n ax' := nth_mem (hk'.symm ▸ hj)
    rw [nth_permIdx hj, nth_map _ _ _ hjk, nth_map _ _ _ (hk'.symm ▸ hj), nth_permIdx (hnl.symm ▸ (mem_keptAxes.1 hkm).1)]
    congr 1
    have hpn' : nth (keptAxes n ax) (perm.idxOf j) < newPerm.length := by rw [hnl]; exact hpn
    rw [← hnp.idxOf_nth hpn']
    congr 1
    rw [hval _ hpn hpf, idxOf_nth_of_nodup (nodup_keptAxes _ _) hjk, hp.nth_idxOf hj]

theorem pairLE_trans (a b c : Nat × Nat) (h1 : pairLE a b = true) (h2 : pairLE b c = true) : pairLE a c = true := by
  simp only [pairLE, Bool.or_eq_true, Bool.and_eq_true, decide_eq_true_eq] at *
  omega

theorem pairLE_total (a b : Nat × Nat) : (pairLE a b || pairLE b a) = true := by
  simp only [pairLE, Bool.or_eq_true, Bool.and_eq_true, decide_eq_true_eq] at *
  omega

theorem nodup_zipIdx (l : List Nat) : l.zipIdx.Nodup := by
  have h : (l.zipIdx.map (·.2)).Nodup := by
    rw [List.zipIdx_map_snd]; exact List.nodup_range'
  exact List.Nodup.of_map _ h

instance : IsTrans (Nat × Nat) (fun p q => pairLE p q = true) := ⟨pairLE_trans⟩
instance : Std.Total (fun p q : Nat × Nat => pairLE p q = true) :=
  ⟨fun a b => by simpa using pairLE_total a b⟩

/-- The new axes are distinct and in range. -/
theorem unsqueezeNewAxes_spec (pre : List Nat) (L : Nat) (hpre : ∀ a ∈ pre, a ≤ L) :
    (unsqueezeNewAxes pre).Nodup ∧ (unsqueezeNewAxes pre).length = pre.length ∧
      ∀ a ∈ unsqueezeNewAxes pre, a < L + pre.length := by
  have hsort : (pre.zipIdx.insertionSort (fun p q => pairLE p q = true)).Pairwise (fun a b => pairLE a b = true) :=
    List.pairwise_insertionSort (fun p q => pairLE p q = true) _
  have hperm : (pre.zipIdx.insertionSort (fun p q => pairLE p q = true)).Perm pre.zipIdx := List.perm_insertionSort _ _
  have hlen : (pre.zipIdx.insertionSort (fun p q => pairLE p q = true)).length = pre.length := by simp
  have hmem : ∀ q ∈ pre.zipIdx, (pre.zipIdx.insertionSort (fun p q => pairLE p q = true)).idxOf q < (pre.zipIdx.insertionSort (fun p q => pairLE p q = true)).length :=
    fun q hq => List.idxOf_lt_length_iff.2 (hperm.mem_iff.2 hq)
  have hstrict : ∀ q ∈ pre.zipIdx, ∀ r ∈ pre.zipIdx,
      (pre.zipIdx.insertionSort (fun p q => pairLE p q = true)).idxOf q < (pre.zipIdx.insertionSort (fun p q => pairLE p q = true)).idxOf r →
      q.1 + (pre.zipIdx.insertionSort (fun p q => pairLE p q = true)).idxOf q < r.1 + (pre.zipIdx.insertionSort (fun p q => pairLE p q = true)).idxOf r := by
    intro q hq r hr hlt
    have h := List.pairwise_iff_getElem.1 hsort _ _ (hmem q hq) (hmem r hr) hlt
    rw [List.getElem_idxOf, List.getElem_idxOf] at h
    simp only [pairLE, Bool.or_eq_true, Bool.and_eq_true, decide_eq_true_eq] at h
    omega
  refine ⟨?_, by simp [unsqueezeNewAxes], ?_⟩
  · apply List.Nodup.map_on _ (nodup_zipIdx pre)
    intro q hq r hr hqr
    rcases Nat.lt_trichotomy ((pre.zipIdx.insertionSort (fun p q => pairLE p q = true)).idxOf q) ((pre.zipIdx.insertionSort (fun p q => pairLE p q = true)).idxOf r) with h | h | h
    · have := hstrict q hq r hr h; omega
    · have e : (pre.zipIdx.insertionSort (fun p q => pairLE p q = true))[(pre.zipIdx.insertionSort (fun p q => pairLE p q = true)).idxOf q]'(hmem q hq) =
          (pre.zipIdx.insertionSort (fun p q => pairLE p q = true))[(pre.zipIdx.insertionSort (fun p q => pairLE p q = true)).idxOf r]'(hmem r hr) := by
        simp only [h]
      rwa [List.getElem_idxOf, List.getElem_idxOf] at e
    · have := hstrict r hr q hq h; omega
  · intro a ha
    simp only [unsqueezeNewAxes, List.mem_map] at ha
    obtain ⟨q, hq, rfl⟩ := ha
    have h1 : q.1 ∈ pre := by
      have := List.mem_map_of_mem (f := (·.1)) hq
      rwa [List.zipIdx_map_fst] at this
    have h2 := hpre _ h1
    have h3 := hmem q hq
    rw [hlen] at h3
    omega

theorem unsqueezePermLoop_length (perm axes newAxes shift todo : List Nat) (a b : Nat) :
    (unsqueezePermLoop perm axes newAxes shift todo a b).length = todo.length := by
  induction todo generalizing a b with
  | nil => rfl
  | cons i todo ih => unfold unsqueezePermLoop; split <;> simp [ih]

/-- What the `new_perm` loop computes. -/
theorem unsqueezePermLoop_spec (perm axes newAxes shift : List Nat) (n k a b : Nat)
    (ha : a = ((List.range k).filter (fun i => i ∉ axes)).length)
    (hb : b = ((List.range k).filter (fun i => i ∈ axes)).length)
    (todo : List Nat) (htodo : todo = List.range' k (n - k)) (p : Nat) (hkp : k ≤ p) (hp : p < n) :
    nth (unsqueezePermLoop perm axes newAxes shift todo a b) (p - k) =
      if p ∈ axes then nth newAxes ((List.range p).filter (fun i => i ∈ axes)).length
      else nth shift (nth perm ((List.range p).filter (fun i => i ∉ axes)).length) := by
  induction todo generalizing k a b with
  | nil =>
    have := congrArg List.length htodo
    simp at this; omega
  | cons i todo ih =>
    obtain ⟨m, hm⟩ : ∃ m, n - k = m + 1 := ⟨n - k - 1, by
      have := congrArg List.length htodo
      simp at this; omega⟩
    rw [hm, List.range'_succ] at htodo
    simp only [List.cons.injEq] at htodo
    obtain ⟨rfl, htodo⟩ := htodo
    have htodo' : todo = List.range' (i + 1) (n - (i + 1)) := by
      rw [htodo]; congr 1; omega
    by_cases hpi : p = i
    · subst hpi
      unfold unsqueezePermLoop
      split
      · rename_i h; simp [h, hb, nth]
      · rename_i h; simp [h, ha, nth]
    · have hp1 : p - i = (p - (i + 1)) + 1 := by omega
      have hcons : ∀ (v : Nat) (l : List Nat) (q : Nat), nth (v :: l) (q + 1) = nth l q := by
        intro v l q; simp [nth]
      unfold unsqueezePermLoop
      split
      · rename_i h
        rw [hp1, hcons]
        apply ih (i + 1) a (b + 1) _ _ htodo' (by omega)
        · rw [List.range_succ, List.filter_append]; simp [h, ha]
        · rw [List.range_succ, List.filter_append]; simp [h, hb]
      · rename_i h
        rw [hp1, hcons]
        apply ih (i + 1) (a + 1) b _ _ htodo' (by omega)
        · rw [List.range_succ, List.filter_append]; simp [h, ha]
        · rw [List.range_succ, List.filter_append]; simp [h, hb]

/-- A list without repetition has as many elements as the set of its elements below a bound. -/
theorem length_filter_mem {l : List Nat} {n : Nat} (hn : l.Nodup) (hl : ∀ a ∈ l, a < n) :
    ((List.range n).filter (fun i => i ∈ l)).length = l.length := by
  apply List.Perm.length_eq
  apply (List.perm_ext_iff_of_nodup (List.nodup_range.filter _) hn).2
  intro a
  simp only [List.mem_filter, List.mem_range, decide_eq_true_eq]
  exact ⟨fun h => h.2, fun h => ⟨hl a h, h⟩⟩

theorem length_filter_not {n : Nat} (q : Nat → Bool) :
    ((List.range n).filter q).length + ((List.range n).filter (fun i => !q i)).length = n := by
  induction n with
  | zero => rfl
  | succ n ih =>
    rw [List.range_succ, List.filter_append, List.filter_append]
    cases h : q n <;> simp [h] <;> omega

/-- **C19, Unsqueeze**: for every list of distinct valid axes the handler's new axes and new permutation give the same
tensor. -/
theorem push_unsqueeze {α : Type} (perm : List Nat) (axes : List Int) (x : T α)
    (hp : IsPerm perm) (hl : x.shape.length = perm.length)
    (hax : ∀ a ∈ axes, ValidAxis (perm.length + axes.length) a)
    (hnd : (axes.map (normAxis (perm.length + axes.length))).Nodup) :
    Same (unsqueeze (perm.length + axes.length) (axisSet (perm.length + axes.length) axes) (transpose perm x))
      (transpose (unsqueezeNewAttr perm axes).2
        (unsqueeze (perm.length + axes.length) (unsqueezeNewAttr perm axes).1.contains x)) := by
  generalize hN : perm.length + axes.length = N at *
  -- the sorted axes
  have hmod : ∀ a ∈ axes, (a % ((N : Nat) : Int)).toNat = normAxis N a := by
    intro a ha
    have hv := hax a ha
    unfold ValidAxis at hv
    unfold normAxis
    split
    · have : a % (N : Int) = a + N := by
        rw [← Int.add_emod_right]; exact Int.emod_eq_of_lt (by omega) (by omega)
      rw [this]
    · rw [Int.emod_eq_of_lt (by omega) (by omega)]
  have hU : unsqueezeAxes perm axes = (axes.map (normAxis N)).insertionSort (· ≤ ·) := by
    unfold unsqueezeAxes
    rw [hN, List.map_congr_left hmod]
  generalize hA : unsqueezeAxes perm axes = A
  have hAperm : A.Perm (axes.map (normAxis N)) := by rw [← hA, hU]; exact List.perm_insertionSort _ _
  have hAnd : A.Nodup := hAperm.nodup_iff.2 hnd
  have hAlen : A.length = axes.length := by simpa using hAperm.length_eq
  have hAlt : ∀ a ∈ A, a < N := by
    intro a ha
    have := hAperm.mem_iff.1 ha
    rw [List.mem_map] at this
    obtain ⟨b, hb, rfl⟩ := this
    exact normAxis_lt (hax b hb)
  have hAset : ∀ i, axisSet N axes i = decide (i ∈ A) := by
    intro i
    rw [Bool.eq_iff_iff, decide_eq_true_eq, axisSet_iff, hAperm.mem_iff, List.mem_map]
  -- the new axes
  generalize hNA : unsqueezeNewAxes (prePermAxes perm A) = NA
  have hprelen : (prePermAxes perm A).length = A.length := by simp [prePermAxes]
  obtain ⟨hNAnd, hNAlen, hNAlt⟩ := unsqueezeNewAxes_spec (prePermAxes perm A) perm.length (by
    intro a ha
    simp only [prePermAxes, List.mem_map] at ha
    obtain ⟨b, _, rfl⟩ := ha
    split
    · rename_i h; exact (hp.nth_lt h).le
    · exact le_rfl)
  rw [hNA] at hNAnd hNAlen hNAlt
  rw [hprelen] at hNAlen hNAlt
  rw [hAlen, hN] at hNAlt
  rw [hAlen] at hNAlen
  -- the loop
  generalize hL : unsqueezePermLoop perm A NA (shiftMap N NA) (List.range N) 0 0 = Lp
  have hLlen : Lp.length = N := by rw [← hL, unsqueezePermLoop_length]; simp
  have hattr : unsqueezeNewAttr perm axes = (NA.insertionSort (· ≤ ·), Lp) := by
    unfold unsqueezeNewAttr
    simp only [hN, hA, hNA, hL]
  rw [hattr]
  have hc1 : (NA.insertionSort (· ≤ ·)).contains = fun i => decide (i ∈ NA) := by
    funext i
    rw [Bool.eq_iff_iff]; simp [List.mem_insertionSort]
  simp only [hc1]
  have hkept : keptAxes N (axisSet N axes) = (List.range N).filter (fun i => i ∉ A) := by
    unfold keptAxes
    apply List.filter_congr
    intro i _
    rw [hAset]; simp
  have hkept' : keptAxes N (fun i => decide (i ∈ NA)) = shiftMap N NA := by
    unfold keptAxes shiftMap
    apply List.filter_congr
    intro i _
    simp
  have hklen : (keptAxes N (axisSet N axes)).length = perm.length := by
    have h1 := length_filter_not (n := N) (fun i => decide (i ∈ A))
    have h2 := length_filter_mem hAnd hAlt
    rw [hkept]
    simp only [decide_not]
    omega
  have hklen' : (keptAxes N (fun i => decide (i ∈ NA))).length = perm.length := by
    have h1 := length_filter_not (n := N) (fun i => decide (i ∈ NA))
    have h2 := length_filter_mem hNAnd hNAlt
    unfold keptAxes
    simp only at h1 ⊢
    omega
  have hval : ∀ p, p < N → nth Lp p = if p ∈ A then nth NA (((List.range N).filter (fun i => i ∈ A)).idxOf p)
      else nth (keptAxes N (fun i => decide (i ∈ NA))) (nth perm ((keptAxes N (axisSet N axes)).idxOf p)) := by
    intro p hpN
    have h := unsqueezePermLoop_spec perm A NA (shiftMap N NA) N 0 0 0 (by simp) (by simp) (List.range N)
      (by rw [List.range_eq_range']; simp) p (by omega) hpN
    rw [Nat.sub_zero, hL] at h
    rw [h, hkept', hkept]
    by_cases hpA : p ∈ A
    · rw [if_pos hpA, if_pos hpA, idxOf_kept hpN (by simpa using hpA)]
    · rw [if_neg hpA, if_neg hpA, idxOf_kept hpN (by simpa using hpA)]
  have hAi : ∀ p, p < N → p ∈ A → ((List.range N).filter (fun i => i ∈ A)).idxOf p < NA.length := by
    intro p hpN hpA
    rw [hNAlen, ← hAlen, ← length_filter_mem hAnd hAlt]
    exact List.idxOf_lt_length_iff.2 (by simp [hpN, hpA])
  have hki : ∀ p, p < N → p ∉ A → (keptAxes N (axisSet N axes)).idxOf p < perm.length := by
    intro p hpN hpA
    rw [← hklen]
    exact List.idxOf_lt_length_iff.2 (by rw [hkept]; simp [hpN, hpA])
  have hin : ∀ p, p < N → (nth Lp p ∈ NA ↔ p ∈ A) := by
    intro p hpN
    rw [hval p hpN]
    by_cases hpA : p ∈ A
    · rw [if_pos hpA]
      exact iff_of_true (nth_mem (hAi p hpN hpA)) hpA
    · rw [if_neg hpA]
      refine iff_of_false ?_ hpA
      have := nth_mem (l := keptAxes N (fun i => decide (i ∈ NA))) (hklen'.symm ▸ hp.nth_lt (hki p hpN hpA))
      have := (mem_keptAxes.1 this).2
      simpa using this
  have hLp : IsPerm Lp := by
    apply isPerm_of_nodup
    · rw [← map_nth_range Lp]
      apply List.Nodup.map_on _ List.nodup_range
      intro p hpm q hqm hpq
      rw [List.mem_range, hLlen] at hpm hqm
      have hA2 : p ∈ A ↔ q ∈ A := by rw [← hin p hpm, ← hin q hqm, hpq]
      rw [hval p hpm, hval q hqm] at hpq
      by_cases hpA : p ∈ A
      · have hqA := hA2.1 hpA
        rw [if_pos hpA, if_pos hqA] at hpq
        have := congrArg NA.idxOf hpq
        rw [idxOf_nth_of_nodup hNAnd (hAi p hpm hpA), idxOf_nth_of_nodup hNAnd (hAi q hqm hqA)] at this
        have := congrArg (nth ((List.range N).filter (fun i => i ∈ A))) this
        rwa [nth_idxOf_of_mem (by simp [hpm, hpA]), nth_idxOf_of_mem (by simp [hqm, hqA])] at this
      · have hqA : q ∉ A := fun h => hpA (hA2.2 h)
        rw [if_neg hpA, if_neg hqA] at hpq
        have := congrArg (keptAxes N (fun i => decide (i ∈ NA))).idxOf hpq
        rw [idxOf_nth_of_nodup (nodup_keptAxes _ _) (hklen'.symm ▸ hp.nth_lt (hki p hpm hpA)),
          idxOf_nth_of_nodup (nodup_keptAxes _ _) (hklen'.symm ▸ hp.nth_lt (hki q hqm hqA))] at this
        have := congrArg perm.idxOf this
        rw [hp.idxOf_nth (hki p hpm hpA), hp.idxOf_nth (hki q hqm hqA)] at this
        have := congrArg (nth (keptAxes N (axisSet N axes))) this
        rwa [nth_idxOf_of_mem (by rw [hkept]; simp [hpm, hpA]), nth_idxOf_of_mem (by rw [hkept]; simp [hqm, hqA])] at this
    · intro a ha
      rw [hLlen]
      rw [← map_nth_range Lp, List.mem_map] at ha
      obtain ⟨p, hpm, rfl⟩ := ha
      rw [List.mem_range, hLlen] at hpm
      rw [hval p hpm]
      split
      · rename_i hpA; exact hNAlt _ (nth_mem (hAi p hpm hpA))
      · rename_i hpA
        have := nth_mem (l := keptAxes N (fun i => decide (i ∈ NA))) (hklen'.symm ▸ hp.nth_lt (hki p hpm hpA))
        exact (mem_keptAxes.1 this).1
  apply push_unsqueeze_set N perm Lp _ _ x hp hl hLp hLlen hklen hklen'
  · intro i hi
    rw [Bool.eq_iff_iff, decide_eq_true_eq, hin i hi, hAset, decide_eq_true_eq]
  · intro i hi hf
    rw [hval i hi, if_neg]
    rw [hAset] at hf
    simpa using hf

/-- The example of the comment in the code: `a1bc` (unsqueeze of `abc = transpose(acb)` at axis 1). -/
example : unsqueezeNewAttr [0, 2, 1] [1] = ([2], [0, 2, 3, 1]) := by decide
example : unsqueezeNewAttr [0, 3, 1, 2] [-1, 0] = ([0, 5], [0, 1, 4, 2, 3, 5]) := by decide

end Verif.TransposeOpt
