import Verif.Props.C65_Sets
import Verif.Props.C65_Stitch
/-!
# C65: DenseToDenseSetOperation
-/
namespace Verif.Index
open Verif.Tensor Verif.Emit Verif.Seg Verif.Vec Verif.Ragged
open TfIndex (SetOp InSet IsSetResult)

theorem concatLast_ok {a b : T Int} {s : List Nat} {da db : Nat} (ha : a.shape = s ++ [da]) (hb : b.shape = s ++ [db]) :
    ∃ c, concatLast a b = some c ∧ c.shape = s ++ [da + db] ∧ ∀ p, InB s p → ∀ v, InSet c p v ↔ InSet a p v ∨ InSet b p v := by
  have hl : a.shape.length - 1 = s.length := by simp [ha]
  have hok : ConcatOk s.length [a, b] := by
    refine ⟨by simp [ha], fun y hy => ?_⟩
    rw [List.mem_singleton] at hy
    subst hy
    refine ⟨by simp [ha, hb], fun i hi hne => ?_⟩
    have hi : i < s.length := by simp [ha] at hi; omega
    simp [nth, List.getD, ha, hb, List.getElem?_append_left hi]
  have hna : nth a.shape s.length = da := by simp [ha, nth, List.getD]
  have hnb : nth b.shape s.length = db := by simp [hb, nth, List.getD]
  have hsh : (concat 0 s.length [a, b]).shape = s ++ [da + db] := by
    show setAt a.shape s.length ([nth a.shape s.length, nth b.shape s.length].sum) = _
    rw [hna, hnb, ha]
    simp [setAt]
  refine ⟨concat 0 s.length [a, b], ?_, hsh, fun p hp v => ?_⟩
  · unfold concatLast
    rw [hl, if_pos hok]
  · have hpl := hp.1
    have hg : ∀ k, (concat 0 s.length [a, b]).get (p ++ [k]) = if k < da then a.get (p ++ [k]) else if k - da < db then b.get (p ++ [k - da]) else 0 := by
      intro k
      show concatGet 0 s.length [a, b] (p ++ [k]) = _
      have e1 : nth (p ++ [k]) s.length = k := by simp [nth, List.getD, ← hpl]
      have e2 : setAt (p ++ [k]) s.length (k - da) = p ++ [k - da] := by simp [setAt, ← hpl]
      simp only [concatGet, e1, hna, e2, hnb]
      have e3 : nth (p ++ [k - da]) s.length = k - da := by simp [nth, List.getD, ← hpl]
      rw [e3]
    unfold InSet
    rw [hsh, ha, hb]
    simp only [List.getLastD_concat]
    constructor
    · rintro ⟨k, hk, e⟩
      rw [hg] at e
      by_cases h : k < da
      · rw [if_pos h] at e
        exact Or.inl ⟨k, h, e⟩
      · rw [if_neg h, if_pos (by omega)] at e
        exact Or.inr ⟨k - da, by omega, e⟩
    · rintro (⟨k, hk, e⟩ | ⟨k, hk, e⟩)
      · exact ⟨k, by omega, by rw [hg, if_pos hk]; exact e⟩
      · exact ⟨da + k, by omega, by rw [hg, if_neg (by omega), if_pos (by omega), Nat.add_sub_cancel_left]; exact e⟩

theorem count_unique (l : List (List Int)) (r : List Int) : (uniqueRows l).count r = if r ∈ l then 1 else 0 := by
  split
  · next h => exact List.count_eq_one_of_mem (uniqueRows_nodup l) (mem_uniqueRows.2 h)
  · next h => exact List.count_eq_zero.2 (fun h' => h (mem_uniqueRows.1 h'))

theorem compress_cnt (c : List (List Int)) (n : Int) :
    compress (uniqueRows c) ((uniqueRowsCnt c).map (fun k => decide (k = n))) = some ((uniqueRows c).filter (fun r => decide ((c.count r : Int) = n))) := by
  unfold uniqueRowsCnt
  rw [List.map_map]
  have := compress_map (uniqueRows c) id (fun r => decide ((c.count r : Int) = n))
  simpa [Function.comp_def] using this

theorem mem_compress_cnt {c : List (List Int)} {n : Int} {r : List Int} :
    r ∈ (uniqueRows c).filter (fun r => decide ((c.count r : Int) = n)) ↔ r ∈ c ∧ (c.count r : Int) = n := by
  rw [List.mem_filter, mem_uniqueRows]
  simp

/-- The rows of the result are those of the sets. -/
theorem setRows_ok (op : SetOp) {a b : T Int} {s : List Nat} {da db : Nat} (ha : a.shape = s ++ [da]) (hb : b.shape = s ++ [db]) {S : List Nat → List Int}
    (h1 : ∀ p, (S p).Pairwise (· < ·)) (h2 : ∀ p, InB s p → ∀ v, v ∈ S p ↔ op.Keeps (InSet a p v) (InSet b p v)) : setRows op a b = some (setList s S) := by
  have hA : ∀ r, r ∈ indexRows a → ∃ p v, InB s p ∧ r = p.map Int.ofNat ++ [v] := fun r hr => by
    obtain ⟨p, v, hp, _, e⟩ := (mem_indexRows ha).1 hr; exact ⟨p, v, hp, e⟩
  have hB : ∀ r, r ∈ indexRows b → ∃ p v, InB s p ∧ r = p.map Int.ofNat ++ [v] := fun r hr => by
    obtain ⟨p, v, hp, _, e⟩ := (mem_indexRows hb).1 hr; exact ⟨p, v, hp, e⟩
  have hext : ∀ l : List (List Int), l.Pairwise (· < ·) → (∀ r ∈ l, ∃ p v, InB s p ∧ r = p.map Int.ofNat ++ [v]) →
      (∀ p v, InB s p → (p.map Int.ofNat ++ [v] ∈ l ↔ op.Keeps (InSet a p v) (InSet b p v))) → l = setList s S := by
    intro l hl hr hk
    refine sorted_ext hl (setList_sorted h1) (fun r => ⟨fun h => ?_, fun h => ?_⟩)
    · obtain ⟨p, v, hp, rfl⟩ := hr r h
      rw [mem_setList' hp, h2 p hp]
      exact (hk p v hp).1 h
    · obtain ⟨p, v, hp, hv, rfl⟩ := mem_setList.1 h
      rw [hk p v hp, ← h2 p hp]
      exact hv
  have hf : ∀ c n, ((uniqueRows c).filter (fun r => decide ((c.count r : Int) = n))).Pairwise (· < ·) := fun c n => (uniqueRows_sorted c).filter _
  cases op with
  | union =>
    obtain ⟨c, e, hc, hm⟩ := concatLast_ok ha hb
    show (concatLast a b).map (fun c => uniqueRows (indexRows c)) = _
    rw [e, Option.map_some]
    congr 1
    refine hext _ (uniqueRows_sorted _) (fun r hr => ?_) (fun p v hp => ?_)
    · obtain ⟨p, v, hp, _, e⟩ := (mem_indexRows hc).1 (mem_uniqueRows.1 hr); exact ⟨p, v, hp, e⟩
    · rw [mem_uniqueRows, mem_indexRows' hc hp, hm p hp]
      rfl
  | intersection =>
    simp only [setRows]
    rw [compress_cnt]
    congr 1
    refine hext _ (hf _ _) (fun r hr => ?_) (fun p v hp => ?_)
    · have := (mem_compress_cnt.1 hr).1
      simp only [List.mem_append, mem_uniqueRows] at this
      rcases this with h | h
      · exact hA r h
      · exact hB r h
    · rw [mem_compress_cnt]
      simp only [List.mem_append, mem_uniqueRows, List.count_append, count_unique, SetOp.Keeps]
      rw [← mem_indexRows' ha hp, ← mem_indexRows' hb hp]
      by_cases h3 : p.map Int.ofNat ++ [v] ∈ indexRows a <;> by_cases h4 : p.map Int.ofNat ++ [v] ∈ indexRows b <;> simp [h3, h4]
  | aMinusB =>
    simp only [setRows]
    rw [compress_cnt]
    congr 1
    refine hext _ (hf _ _) (fun r hr => ?_) (fun p v hp => ?_)
    · have := (mem_compress_cnt.1 hr).1
      simp only [List.mem_append, mem_uniqueRows] at this
      rcases this with (h | h) | h
      · exact hA r h
      · exact hB r h
      · exact hB r h
    · rw [mem_compress_cnt]
      simp only [List.mem_append, mem_uniqueRows, List.count_append, count_unique, SetOp.Keeps]
      rw [← mem_indexRows' ha hp, ← mem_indexRows' hb hp]
      by_cases h3 : p.map Int.ofNat ++ [v] ∈ indexRows a <;> by_cases h4 : p.map Int.ofNat ++ [v] ∈ indexRows b <;> simp [h3, h4]
  | bMinusA =>
    simp only [setRows]
    rw [compress_cnt]
    congr 1
    refine hext _ (hf _ _) (fun r hr => ?_) (fun p v hp => ?_)
    · have := (mem_compress_cnt.1 hr).1
      simp only [List.mem_append, mem_uniqueRows] at this
      rcases this with (h | h) | h
      · exact hB r h
      · exact hA r h
      · exact hA r h
    · rw [mem_compress_cnt]
      simp only [List.mem_append, mem_uniqueRows, List.count_append, count_unique, SetOp.Keeps]
      rw [← mem_indexRows' ha hp, ← mem_indexRows' hb hp]
      by_cases h3 : p.map Int.ofNat ++ [v] ∈ indexRows a <;> by_cases h4 : p.map Int.ofNat ++ [v] ∈ indexRows b <;> simp [h3, h4]

/-- The sets with elements. -/
def blocksOf (s : List Nat) (S : List Nat → List Int) : List (Nat × List Int) :=
  ((allIdx s).filter (fun p => decide (0 < (S p).length))).map (fun p => ((S p).length, p.map Int.ofNat))

theorem setList_prefix (s : List Nat) (S : List Nat → List Int) : (setList s S).map List.dropLast = rowBlocks (blocksOf s S) := by
  unfold setList rowBlocks blocksOf
  rw [List.map_flatMap, List.flatMap_map, flatMap_filter_of]
  · refine List.flatMap_congr (fun p _ => ?_)
    rw [List.map_map]
    simp [Function.comp_def]
  · intro p _ h
    have : (S p).length = 0 := by simpa using h
    simp [this]

theorem hcat_flatMap {γ : Type} (l : List γ) (f g : γ → List (List Int)) (h : ∀ a, (f a).length = (g a).length) :
    hcat (l.flatMap f) (l.flatMap g) = some (l.flatMap (fun a => List.zipWith (· ++ ·) (f a) (g a))) := by
  have key : (l.flatMap f).length = (l.flatMap g).length ∧ List.zipWith (· ++ ·) (l.flatMap f) (l.flatMap g) = l.flatMap (fun a => List.zipWith (· ++ ·) (f a) (g a)) := by
    induction l with
    | nil => exact ⟨rfl, rfl⟩
    | cons a l ih =>
      refine ⟨by simp [h a, ih.1], ?_⟩
      rw [List.flatMap_cons, List.flatMap_cons, List.flatMap_cons, List.zipWith_append (h a), ih.2]
  unfold hcat
  rw [if_pos key.1, key.2]

/-- **DenseToDenseSetOperation**, provided that some set of the result is not empty. -/
theorem setOperation_ok (op : SetOp) (a b : T Int) (s : List Nat) (da db : Nat) (ha : a.shape = s ++ [da]) (hb : b.shape = s ++ [db])
    (hne : ∃ p v, InB s p ∧ op.Keeps (InSet a p v) (InSet b p v)) :
    ∃ ix vals shape, setOperation op a b = some (ix, vals, shape) ∧ IsSetResult op s a b ix vals shape := by
  classical
  let row := fun (x : T Int) (d : Nat) (p : List Nat) => (List.range d).map (fun k => x.get (p ++ [k]))
  let S : List Nat → List Int := fun p => uniqueVal ((row a da p ++ row b db p).filter (fun v => decide (op.Keeps (InSet a p v) (InSet b p v))))
  have hrow : ∀ (x : T Int) d p v, x.shape = s ++ [d] → (v ∈ row x d p ↔ InSet x p v) := by
    intro x d p v hx
    simp only [row, InSet, hx, List.getLastD_concat, List.mem_map, List.mem_range]
  have h1 : ∀ p, (S p).Pairwise (· < ·) := by
    intro p
    have h3 := uniqueVal_sorted ((row a da p ++ row b db p).filter (fun v => decide (op.Keeps (InSet a p v) (InSet b p v))))
    have h4 : (S p).Pairwise (· ≠ ·) := uniqueVal_nodup _
    exact (List.Pairwise.and h3 h4).imp (fun ⟨h, h'⟩ => by omega)
  have h2 : ∀ p, InB s p → ∀ v, v ∈ S p ↔ op.Keeps (InSet a p v) (InSet b p v) := by
    intro p _ v
    simp only [S]
    rw [mem_uniqueVal, List.mem_filter, List.mem_append, hrow a da p v ha, hrow b db p v hb]
    simp only [decide_eq_true_eq, and_iff_right_iff_imp]
    cases op <;> simp only [SetOp.Keeps] <;> tauto
  have hrows := setRows_ok op ha hb h1 h2
  have hpos : ∀ c ∈ blocksOf s S, 0 < c.1 := by
    intro c hc
    obtain ⟨p, hp, rfl⟩ := List.mem_map.1 hc
    simpa using (List.mem_filter.1 hp).2
  have hsort : (blocksOf s S).Pairwise (fun c d => c.2 < d.2) := by
    unfold blocksOf
    rw [List.pairwise_map]
    exact (allIdx_sorted s).filter _
  have hbne : blocksOf s S ≠ [] := by
    obtain ⟨p, v, hp, hv⟩ := hne
    have hv := (h2 p hp v).2 hv
    have hpos : 0 < (S p).length := List.length_pos_of_mem hv
    intro h
    unfold blocksOf at h
    rw [List.map_eq_nil_iff, List.filter_eq_nil_iff] at h
    exact h p (allIdx_mem_iff.2 hp) (by simpa using hpos)
  have hcnt := uniqueRowsCnt_blocks hpos hsort
  have hlast := lastIndex_blocks hbne hpos hsort
  have hmax : reduceMax1 (uniqueRowsCnt (rowBlocks (blocksOf s S))) = some ((((allIdx s).map (fun p => (S p).length)).foldr max 0 : Nat) : Int) := by
    have e : (blocksOf s S).map Prod.fst = (((allIdx s).map (fun p => (S p).length)).filter (fun c => decide (0 < c))) := by
      unfold blocksOf
      rw [List.map_map, List.filter_map]
      rfl
    have := max_cast ((blocksOf s S).map Prod.fst) (by simpa using hbne)
    rw [hcnt, ← max_filter, ← e, ← this, List.map_map]
    rfl
  have hlast2 : (blocksOf s S).flatMap (fun b => (List.range b.1).map (fun j : Nat => (j : Int))) =
      (allIdx s).flatMap (fun p => (List.range (S p).length).map (fun j : Nat => (j : Int))) := by
    unfold blocksOf
    rw [List.flatMap_map, flatMap_filter_of]
    intro p _ h
    have : (S p).length = 0 := by simpa using h
    simp [this]
  have hpre : (setList s S).map List.dropLast = (allIdx s).flatMap (fun p => List.replicate (S p).length (p.map Int.ofNat)) := by
    unfold setList
    rw [List.map_flatMap]
    refine List.flatMap_congr (fun p _ => ?_)
    rw [List.map_map]
    simp [Function.comp_def]
  have hcat' : hcat ((setList s S).map List.dropLast) (column ((allIdx s).flatMap (fun p => (List.range (S p).length).map (fun j : Nat => (j : Int))))) =
      some ((allIdx s).flatMap (fun p => (List.range (S p).length).map (fun k => (p ++ [k]).map Int.ofNat))) := by
    rw [hpre]
    unfold column
    rw [List.map_flatMap, hcat_flatMap _ _ _ (by simp)]
    congr 1
    refine List.flatMap_congr (fun p _ => ?_)
    apply List.ext_getElem (by simp)
    intro k h3 h4
    simp
  refine ⟨_, _, _, ?_, S, h1, h2, rfl, rfl, rfl⟩
  unfold setOperation
  simp only [hrows, Option.bind_eq_bind, Option.bind_some]
  rw [setList_prefix, hlast]
  simp only [Option.bind_some, hmax, hlast2]
  rw [← setList_prefix, hcat']
  simp only [Option.bind_some, Option.some.injEq, Prod.mk.injEq, true_and]
  refine ⟨?_, ?_⟩
  · unfold setList
    rw [List.map_flatMap]
    refine List.flatMap_congr (fun p _ => ?_)
    rw [List.map_map]
    simp [Function.comp_def]
  · rw [ha, List.dropLast_concat]
    rfl

end Verif.Index
