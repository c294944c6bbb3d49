import Verif.Model.Segment
import Verif.Spec.TfSegment
import Verif.Props.EmitKit
import Mathlib.Data.Finset.Image
import Mathlib.Data.Finset.Range
import Mathlib.Data.Finset.Card
import Mathlib.Data.Finset.SDiff
import Mathlib.Data.List.Count
/-!
# C63: segment reductions: the grid of positions
-/
namespace Verif.Seg
open Verif.Tensor Verif.Emit

/-! ## `TopK` and `Unique` -/

theorem topkIdx_perm (l : List Int) : (topkIdx l).Perm (List.range l.length) := List.mergeSort_perm _ _

theorem topkIdx_length (l : List Int) : (topkIdx l).length = l.length := by simpa using (topkIdx_perm l).length_eq

theorem topkVal_length (l : List Int) : (topkVal l).length = l.length := by simp [topkVal, topkIdx_length]

theorem topkVal_perm (l : List Int) : (topkVal l).Perm l := by
  have h := (topkIdx_perm l).map (fun i => l.getD i 0)
  refine h.trans (List.Perm.of_eq ?_)
  apply List.ext_getElem (by simp)
  intro i h1 h2
  simp [List.getD, h2]

theorem topkVal_sorted (l : List Int) : (topkVal l).Pairwise (· ≤ ·) := by
  have h : (topkIdx l).Pairwise (fun i j => decide (l.getD i 0 ≤ l.getD j 0) = true) := by
    refine List.pairwise_mergeSort (fun a b c => ?_) (fun a b => ?_) _
    · simp only [decide_eq_true_eq]; omega
    · simp only [Bool.or_eq_true, decide_eq_true_eq]; omega
  unfold topkVal
  rw [List.pairwise_map]
  exact h.imp (fun h => by simpa using h)

theorem mem_uniqueVal {l : List Int} {a : Int} : a ∈ uniqueVal l ↔ a ∈ l := by
  unfold uniqueVal
  rw [List.mem_mergeSort, List.mem_dedup]

theorem uniqueVal_nodup (l : List Int) : (uniqueVal l).Nodup := by
  unfold uniqueVal
  exact (List.mergeSort_perm _ _).nodup_iff.2 (List.nodup_dedup l)

/-- The number of occurrences of the value of every element. -/
theorem gather_cnt (l : List Int) : gatherVec (uniqueCnt l) (uniqueInv l) = some (l.map (fun a => (l.count a : Int))) := by
  have hlen : (uniqueCnt l).length = (uniqueVal l).length := by simp [uniqueCnt]
  have hb : ∀ a ∈ l, (uniqueVal l).idxOf a < (uniqueVal l).length := fun a ha => List.idxOf_lt_length_of_mem (mem_uniqueVal.2 ha)
  unfold gatherVec
  rw [if_pos]
  · simp only [uniqueInv, List.map_map, Option.some.injEq]
    refine List.map_congr_left (fun a ha => ?_)
    have h := hb a ha
    have h' : (uniqueVal l).idxOf a < (uniqueCnt l).length := by omega
    simp only [Function.comp]
    have : posOf (uniqueCnt l).length ((uniqueVal l).idxOf a : Int) = (uniqueVal l).idxOf a := by
      unfold posOf
      rw [if_neg (by omega)]
      simp
    rw [this, List.getD_eq_getElem?_getD, List.getElem?_eq_getElem h']
    simp [uniqueCnt]
  · intro i hi
    simp only [uniqueInv, List.mem_map] at hi
    obtain ⟨a, ha, rfl⟩ := hi
    have := hb a ha
    omega

/-! ## Different places -/

/-- In a list in increasing order the positions of one value are next to each other, so modulo their number they differ. -/
theorem mod_count_inj {l : List Int} (hs : l.Pairwise (· ≤ ·)) {i j : Nat} (hi : i < l.length) (hj : j < l.length) (hij : l[i] = l[j])
    (hm : i % l.count l[i] = j % l.count l[i]) : i = j := by
  wlog h : i ≤ j generalizing i j
  · exact (this hj hi hij.symm (by rw [← hij]; exact hm.symm) (by omega)).symm
  by_contra hne
  have hlt : i < j := by omega
  have hmono : ∀ a b (ha : a < l.length) (hb : b < l.length), a ≤ b → l[a] ≤ l[b] := by
    intro a b ha hb hab
    rcases Nat.lt_or_ge a b with h | h
    · exact List.pairwise_iff_getElem.1 hs a b ha hb h
    · have : a = b := by omega
      subst this
      exact le_refl _
  have hrep : (l.drop i).take (j - i + 1) = List.replicate (j - i + 1) l[i] := by
    rw [List.eq_replicate_iff]
    refine ⟨by simp; omega, fun b hb => ?_⟩
    obtain ⟨k, hk, rfl⟩ := List.getElem_of_mem hb
    simp only [List.length_take, List.length_drop] at hk
    simp only [List.getElem_take, List.getElem_drop]
    have h1 := hmono i (i + k) hi (by omega) (by omega)
    have h2 := hmono (i + k) j (by omega) hj (by omega)
    rw [← hij] at h2
    omega
  have hcnt : j - i + 1 ≤ l.count l[i] := by
    have hsub : ((l.drop i).take (j - i + 1)).Sublist l := (List.take_sublist _ _).trans (List.drop_sublist _ _)
    have := hsub.count_le l[i]
    rw [hrep, List.count_replicate_self] at this
    exact this
  have hd : l.count l[i] ∣ j - i := Nat.dvd_of_mod_eq_zero (Nat.sub_mod_eq_zero_of_mod_eq hm.symm)
  have := Nat.le_of_dvd (by omega) hd
  omega

/-! ## `ScatterND` -/

theorem mapM_some {β γ : Type} {f : β → Option γ} {g : β → γ} {l : List β} (h : ∀ a ∈ l, f a = some (g a)) : l.mapM f = some (l.map g) := by
  induction l with
  | nil => rfl
  | cons a l ih =>
    rw [List.mapM_cons, h a (by simp), ih (fun b hb => h b (by simp [hb]))]
    rfl

theorem posOf_nat (d k : Nat) : posOf d (k : Int) = k := by
  unfold posOf
  rw [if_neg (by omega)]
  simp

theorem placeOf_pair {a b : Nat} {m n : Nat} (ha : a < m) (hb : b < n) : placeOf [m, n] [(a : Int), (b : Int)] = some [a, b] := by
  unfold placeOf
  rw [if_pos]
  · simp [posOf_nat]
  · refine ⟨rfl, fun p hp => ?_⟩
    simp only [List.zip_cons_cons, List.zip_nil_right, List.mem_cons, List.not_mem_nil, or_false] at hp
    rcases hp with rfl | rfl <;> simp <;> omega

/-- The place in the grid of the `k`-th smallest id. -/
def placeAt (S : List Int) (k : Nat) : List Nat := [(S.getD k 0).toNat, k % S.count (S.getD k 0)]

theorem count_pos {S : List Int} {k : Nat} (hk : k < S.length) : 0 < S.count (S.getD k 0) := by
  rw [List.count_pos_iff, List.getD_eq_getElem?_getD, List.getElem?_eq_getElem hk]
  exact List.getElem_mem hk

theorem placeAt_inj {S : List Int} (hs : S.Pairwise (· ≤ ·)) (h0 : ∀ a ∈ S, 0 ≤ a) {i j : Nat} (hi : i < S.length) (hj : j < S.length)
    (h : placeAt S i = placeAt S j) : i = j := by
  have gi : S.getD i 0 = S[i] := by simp [List.getD, hi]
  have gj : S.getD j 0 = S[j] := by simp [List.getD, hj]
  simp only [placeAt, List.cons.injEq, and_true, gi, gj] at h
  have e : S[i] = S[j] := by
    have a := h0 _ (List.getElem_mem hi)
    have b := h0 _ (List.getElem_mem hj)
    omega
  exact mod_count_inj hs hi hj e (by rw [h.2, e])

/-- The rows of the index matrix. -/
theorem index_rows {S : List Int} {n : Nat} (hn : S.length = n) :
    List.zipWith (fun a b => [a, b]) S (List.zipWith Int.fmod ((List.range n).map Int.ofNat) (S.map (fun a => (S.count a : Int)))) =
      (List.range n).map (fun k => [S.getD k 0, ((k % S.count (S.getD k 0) : Nat) : Int)]) := by
  apply List.ext_getElem (by simp [hn])
  intro k h1 h2
  have hk : k < S.length := by simpa [hn] using h2
  have gk : S.getD k 0 = S[k] := by simp [List.getD, hk]
  simp only [List.getElem_zipWith, List.getElem_map, List.getElem_range, gk, List.cons.injEq, and_true, true_and]
  rw [Int.fmod_eq_emod_of_nonneg _ (by omega)]
  simp

/-- What the grid holds. -/
structure GridOk (num : Nat) (ids : List Int) (g : T Int) : Prop where
  shape : ∃ m, g.shape = [num, m]
  cells : ∀ i, InB g.shape i → g.get i = -1 ∨ ∃ k : Nat, k < ids.length ∧ g.get i = k
  row : ∀ s, s < num → ∃ r, Multiset.map (fun c => g.get [s, c]) (Multiset.range (nth g.shape 1)) =
    Multiset.map (fun k : Nat => (k : Int)) ((Multiset.range ids.length).filter (fun i => ids[i]? = some (s : Int))) + Multiset.replicate r (-1)
  /-- a row that has no cells left is a longest one -/
  pos : 0 < nth g.shape 1

theorem idxOf_map_range {β : Type} [BEq β] [LawfulBEq β] {f : Nat → β} {n k : Nat} (hk : k < n) (hinj : ∀ i j, i < n → j < n → f i = f j → i = j) :
    ((List.range n).map f).idxOf (f k) = k := by
  have hm : f k ∈ (List.range n).map f := List.mem_map.2 ⟨k, List.mem_range.2 hk, rfl⟩
  have hl := List.idxOf_lt_length_of_mem hm
  have := List.getElem_idxOf hl
  simp only [List.getElem_map, List.getElem_range] at this
  exact hinj _ _ (by simpa using hl) hk this

theorem grid_ok {α : Type} {i : SegIn α} {num : Nat} (hne : i.ids ≠ []) (hb : ∀ a ∈ i.ids, 0 ≤ a ∧ a < (num : Int)) :
    ∃ g, grid (num : Int) i = some g ∧ GridOk num i.ids g := by
  set ids := i.ids with hids
  set S := topkVal ids with hS
  set n := ids.length with hn
  have hSl : S.length = n := topkVal_length ids
  have hmem : ∀ a, a ∈ S ↔ a ∈ ids := fun a => (topkVal_perm ids).mem_iff
  have hcne : uniqueCnt S ≠ [] := by
    obtain ⟨a, ha⟩ := List.exists_mem_of_ne_nil _ hne
    have : a ∈ uniqueVal S := mem_uniqueVal.2 ((hmem a).2 ha)
    simp only [uniqueCnt, ne_eq, List.map_eq_nil_iff]
    exact List.ne_nil_of_mem this
  obtain ⟨mz, hmz⟩ : ∃ m, (uniqueCnt S).max? = some m := by
    cases h : (uniqueCnt S).max? with
    | none => exact absurd (List.max?_eq_none_iff.1 h) hcne
    | some m => exact ⟨m, rfl⟩
  have hmax : ∀ a ∈ S, (S.count a : Int) ≤ mz := by
    intro a ha
    exact (List.max?_eq_some_iff.1 hmz).2 _ (List.mem_map.2 ⟨a, mem_uniqueVal.2 ha, rfl⟩)
  have hmz0 : 0 ≤ mz := by
    obtain ⟨a, ha⟩ := List.exists_mem_of_ne_nil _ hne
    have := hmax a ((hmem a).2 ha)
    omega
  obtain ⟨M, rfl⟩ : ∃ M : Nat, mz = M := ⟨mz.toNat, by omega⟩
  have hgetS : ∀ k, k < n → S.getD k 0 ∈ S := fun k hk => by
    rw [List.getD_eq_getElem?_getD, List.getElem?_eq_getElem (by omega)]
    exact List.getElem_mem _
  have hS0 : ∀ a ∈ S, 0 ≤ a ∧ a < (num : Int) := fun a ha => hb a ((hmem a).1 ha)
  -- the places
  have hplace : ((List.range n).map (fun k => [S.getD k 0, ((k % S.count (S.getD k 0) : Nat) : Int)])).mapM (placeOf [num, M]) =
      some ((List.range n).map (placeAt S)) := by
    have : ∀ a ∈ (List.range n).map (fun k => [S.getD k 0, ((k % S.count (S.getD k 0) : Nat) : Int)]),
        placeOf [num, M] a = some (a.map Int.toNat) := by
      intro a ha
      obtain ⟨k, hk, rfl⟩ := List.mem_map.1 ha
      have hk := List.mem_range.1 hk
      obtain ⟨h0, h1⟩ := hS0 _ (hgetS k hk)
      obtain ⟨z, hz⟩ : ∃ z : Nat, S.getD k 0 = z := ⟨(S.getD k 0).toNat, by omega⟩
      have hc := count_pos (S := S) (k := k) (by omega)
      have hc2 := hmax _ (hgetS k hk)
      have hlt := Nat.mod_lt k hc
      rw [hz] at h1 hc hc2 hlt ⊢
      rw [placeOf_pair (by omega) (by omega)]
      simp only [List.map_cons, List.map_nil, Int.toNat_natCast]
    rw [mapM_some this]
    simp only [List.map_map, Function.comp_def, List.map_cons, List.map_nil, Int.toNat_natCast]
    rfl
  have hinj : ∀ a b, a < n → b < n → placeAt S a = placeAt S b → a = b := fun a b ha hb' h =>
    placeAt_inj (topkVal_sorted ids) (fun a ha => (hS0 a ha).1) (by rw [hSl]; exact ha) (by rw [hSl]; exact hb') h
  have hnodup : ((List.range n).map (placeAt S)).Nodup := by
    rw [List.nodup_map_iff_inj_on List.nodup_range]
    intro a ha b hb' h
    exact hinj a b (List.mem_range.1 ha) (List.mem_range.1 hb') h
  refine ⟨⟨[num, M], fun i => (((topkIdx ids).map Int.ofNat)[((List.range n).map (placeAt S)).idxOf i]?).getD (-1)⟩, ?_, ?_⟩
  · unfold grid
    simp only [← hids, ← hS, reduceMax1, hmz, Option.bind_eq_bind, Option.bind_some, gather_cnt S]
    have hmod : modVec (rangeVec (ids.length : Int)) (S.map (fun a => (S.count a : Int))) =
        some (List.zipWith Int.fmod ((List.range n).map Int.ofNat) (S.map (fun a => (S.count a : Int)))) := by
      unfold modVec rangeVec
      rw [if_pos]
      · simp [← hn]
      · refine ⟨by simp [hSl, ← hn], fun d hd => ?_⟩
        obtain ⟨a, ha, rfl⟩ := List.mem_map.1 hd
        have := List.count_pos_iff.2 ha
        omega
    rw [hmod]
    simp only [Option.bind_some, index_rows hSl]
    have hc : constOfShape (-1 : Int) [(num : Int), (M : Int)] = some ⟨[num, M], fun _ => -1⟩ := by
      unfold constOfShape
      rw [if_pos]
      · simp
      · simp
    rw [hc]
    simp only [Option.bind_some, scatterND, hplace]
    rw [if_pos ⟨by simp [topkIdx_length, hn], hnodup⟩]
  · have hcell : ∀ k, k < n → (((topkIdx ids).map Int.ofNat)[((List.range n).map (placeAt S)).idxOf (placeAt S k)]?).getD (-1) =
        ((topkIdx ids).getD k 0 : Int) := by
      intro k hk
      rw [idxOf_map_range hk hinj]
      have : k < (topkIdx ids).length := by rw [topkIdx_length]; exact hk
      simp [this]
    have hout : ∀ p, p ∉ (List.range n).map (placeAt S) →
        (((topkIdx ids).map Int.ofNat)[((List.range n).map (placeAt S)).idxOf p]?).getD (-1) = -1 := by
      intro p hp
      rw [List.idxOf_eq_length hp, List.getElem?_eq_none (by simp [topkIdx_length, hn])]
      rfl
    have hidx : ∀ k, k < n → (topkIdx ids).getD k 0 < n := by
      intro k hk
      have h : (topkIdx ids).getD k 0 ∈ topkIdx ids := by
        rw [List.getD_eq_getElem?_getD, List.getElem?_eq_getElem (by rw [topkIdx_length]; exact hk)]
        exact List.getElem_mem _
      exact List.mem_range.1 ((topkIdx_perm ids).mem_iff.1 h)
    refine ⟨⟨M, rfl⟩, ?_, ?_, ?_⟩
    · intro p _
      by_cases hp : p ∈ (List.range n).map (placeAt S)
      · obtain ⟨k, hk, rfl⟩ := List.mem_map.1 hp
        have hk := List.mem_range.1 hk
        exact Or.inr ⟨_, hidx k hk, hcell k hk⟩
      · exact Or.inl (hout p hp)
    · intro s hs
      set A := (Finset.range n).filter (fun k => S.getD k 0 = (s : Int)) with hA
      have hAmem : ∀ k, k ∈ A ↔ k < n ∧ S.getD k 0 = (s : Int) := fun k => by simp [hA]
      set φ : Nat → Nat := fun k => k % S.count (s : Int) with hφ
      have hpl : ∀ k ∈ A, placeAt S k = [s, φ k] := fun k hk => by
        have := ((hAmem k).1 hk).2
        simp only [placeAt, this, hφ, Int.toNat_natCast]
      have hφM : ∀ k ∈ A, φ k < M := fun k hk => by
        obtain ⟨h1, h2⟩ := (hAmem k).1 hk
        have hc := count_pos (S := S) (k := k) (by omega)
        have := hmax _ (hgetS k h1)
        rw [h2] at hc this
        have := Nat.mod_lt k hc
        simp only [hφ]
        omega
      have hφinj : Set.InjOn φ A := fun a ha b hb' h => by
        refine hinj a b ((hAmem a).1 ha).1 ((hAmem b).1 hb').1 ?_
        rw [hpl a ha, hpl b hb', h]
      have hsub : A.image φ ⊆ Finset.range M := fun c hc => by
        obtain ⟨k, hk, rfl⟩ := Finset.mem_image.1 hc
        exact Finset.mem_range.2 (hφM k hk)
      set G : Nat → Int := fun c => (((topkIdx ids).map Int.ofNat)[((List.range n).map (placeAt S)).idxOf [s, c]]?).getD (-1) with hG
      have hsplit : Multiset.range M = (A.image φ).val + (Finset.range M \ A.image φ).val := by
        have h := Finset.sdiff_union_of_subset hsub
        have hd := disjoint_sdiff_self_left (x := A.image φ) (y := Finset.range M)
        have h2 : (Finset.range M).val = ((Finset.range M \ A.image φ).disjUnion (A.image φ) hd).val := by
          rw [Finset.disjUnion_eq_union, h]
        rw [Finset.disjUnion_val] at h2
        rw [Multiset.add_comm]
        exact h2
      refine ⟨(Finset.range M \ A.image φ).card, ?_⟩
      change Multiset.map G (Multiset.range M) = _
      rw [hsplit, Multiset.map_add]
      congr 1
      · rw [Finset.image_val_of_injOn hφinj, Multiset.map_map]
        have h1 : Multiset.map (G ∘ φ) A.val = Multiset.map (fun k => ((topkIdx ids).getD k 0 : Int)) A.val := by
          refine Multiset.map_congr rfl (fun k hk => ?_)
          have hk : k ∈ A := hk
          simp only [Function.comp, hG]
          rw [← hpl k hk]
          exact hcell k ((hAmem k).1 hk).1
        rw [h1]
        have h2 : (Multiset.range n).filter (fun i => ids[i]? = some (s : Int)) = Multiset.map (fun k => (topkIdx ids).getD k 0) A.val := by
          have hp : (Multiset.range n : Multiset Nat) = Multiset.map (fun k => (topkIdx ids).getD k 0) (Multiset.range n) := by
            have : (topkIdx ids) = (List.range n).map (fun k => (topkIdx ids).getD k 0) := by
              apply List.ext_getElem (by simp [topkIdx_length, hn])
              intro k h1 h2
              simp [h1]
            have h3 : ((topkIdx ids : List Nat) : Multiset Nat) = ((List.range n : List Nat) : Multiset Nat) := Multiset.coe_eq_coe.2 (topkIdx_perm ids)
            rw [this] at h3
            exact h3.symm
          rw [hp, Multiset.filter_map]
          congr 1
          change _ = (Multiset.range n).filter (fun k => S.getD k 0 = (s : Int))
          refine Multiset.filter_congr (fun k hk => ?_)
          have hk : k < n := Multiset.mem_range.1 hk
          have hik := hidx k hk
          have e1 : ids[(topkIdx ids).getD k 0]? = some (ids.getD ((topkIdx ids).getD k 0) 0) := by
            rw [List.getD_eq_getElem?_getD (i := (topkIdx ids).getD k 0), List.getElem?_eq_getElem hik]
            rfl
          have e2 : S.getD k 0 = ids.getD ((topkIdx ids).getD k 0) 0 := by
            have hk' : k < (topkIdx ids).length := by rw [topkIdx_length]; exact hk
            simp only [hS, topkVal, List.getD_eq_getElem?_getD, List.getElem?_map, List.getElem?_eq_getElem hk', Option.map_some, Option.getD_some]
          simp only [Function.comp, e1, e2, Option.some.injEq]
        rw [h2, Multiset.map_map]
        rfl
      · have : Multiset.map G (Finset.range M \ A.image φ).val = Multiset.map (fun _ => (-1 : Int)) (Finset.range M \ A.image φ).val := by
          refine Multiset.map_congr rfl (fun c hc => ?_)
          have hc : c ∈ Finset.range M \ A.image φ := hc
          refine hout _ (fun hm => ?_)
          obtain ⟨k, hk, he⟩ := List.mem_map.1 hm
          have hk := List.mem_range.1 hk
          have hkA : k ∈ A := by
            refine (hAmem k).2 ⟨hk, ?_⟩
            have h0 := (hS0 _ (hgetS k hk)).1
            simp only [placeAt, List.cons.injEq] at he
            omega
          rw [hpl k hkA] at he
          simp only [List.cons.injEq, and_true, true_and] at he
          exact (Finset.mem_sdiff.1 hc).2 (Finset.mem_image.2 ⟨k, hkA, he⟩)
        rw [this, Multiset.map_const']
        rfl
    · obtain ⟨a, ha⟩ := List.exists_mem_of_ne_nil _ hne
      have ha := (hmem a).2 ha
      have := hmax a ha
      have := List.count_pos_iff.2 ha
      change 0 < M
      omega

end Verif.Seg
