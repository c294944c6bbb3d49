import Verif.Props.C65_Stitch
/-!
# C65: OneHot and the scatter operators
-/
namespace Verif.Index
open Verif.Tensor Verif.Emit Verif.Seg Verif.Vec Verif.Ragged

variable {β : Type}

theorem inB_erase {a d : Nat} {s i : List Nat} (ha : a ≤ s.length) (h : InB (s.insertIdx a d) i) : InB s (i.eraseIdx a) ∧ nth i a < d := by
  induction a generalizing s i with
  | zero =>
    rw [List.insertIdx_zero] at h
    obtain ⟨k, j, rfl, hk, hj⟩ := inB_cons' h
    exact ⟨by simpa using hj, by simpa [nth] using hk⟩
  | succ a ih =>
    cases s with
    | nil => simp at ha
    | cons c s =>
      rw [List.insertIdx_succ_cons] at h
      obtain ⟨k, j, rfl, hk, hj⟩ := inB_cons' h
      obtain ⟨h1, h2⟩ := ih (by simpa using ha) hj
      refine ⟨?_, by simpa [nth] using h2⟩
      rw [List.eraseIdx_cons_succ]
      exact inB_cons.2 ⟨hk, h1⟩

theorem oneHot_same {axis depth : Nat} {off on : β} {ix : T Int} (ha : axis ≤ ix.shape.length) (h0 : ∀ j, InB ix.shape j → 0 ≤ ix.get j) :
    Same (oneHot axis depth off on ix) (TfIndex.oneHot axis depth off on ix) := by
  refine ⟨rfl, fun i hi => ?_⟩
  obtain ⟨h1, h2⟩ := inB_erase ha hi
  have := h0 _ h1
  show (if _ then on else off) = if _ then on else off
  have hiff : (-(depth : Int) ≤ ix.get (i.eraseIdx axis) ∧ ix.get (i.eraseIdx axis) < depth ∧ posOf depth (ix.get (i.eraseIdx axis)) = nth i axis) ↔
      ix.get (i.eraseIdx axis) = (nth i axis : Int) := by
    unfold posOf
    rw [if_neg (by omega)]
    omega
  simp only [hiff]

/-- **OneHot** from opset 9, for indices that are not negative. `axis` is -1 or from 0 to the rank. -/
theorem oneHotNew_ok (axis : Int) (depth : Nat) (on off : β) (ix : T Int) (h : -1 ≤ axis ∧ axis ≤ ix.shape.length) (h0 : ∀ j, InB ix.shape j → 0 ≤ ix.get j) :
    ∃ y, oneHotNew axis depth on off ix = some y ∧
      Same y (TfIndex.oneHot (if axis = -1 then ix.shape.length else axis.toNat) depth off on ix) := by
  unfold oneHotNew
  by_cases hs : ix.shape = []
  · rw [if_pos hs]
    have ha : (if axis = 0 then (-1 : Int) else axis) = -1 := by
      rw [hs] at h
      simp at h
      split <;> omega
    have hb : (if axis = -1 then ix.shape.length else axis.toNat) = 0 := by
      rw [hs] at h ⊢
      simp at h ⊢
      omega
    rw [ha, hb]
    refine ⟨_, rfl, ?_, ?_⟩
    · simp [oneHot, TfIndex.oneHot, hs]
    · intro i hi
      have hi : InB [depth] i := by simpa [oneHot] using hi
      have hi2 : InB (([1] : List Nat).insertIdx 1 depth) (0 :: i) := by
        show InB [1, depth] (0 :: i)
        exact inB_cons.2 ⟨by omega, hi⟩
      have := (oneHot_same (axis := 1) (depth := depth) (off := off) (on := on) (ix := (⟨[1], fun _ => ix.get []⟩ : T Int)) (by simp)
        (fun j _ => h0 [] (by rw [hs]; exact inB_nil.2 rfl))).2 (0 :: i) hi2
      refine this.trans ?_
      obtain ⟨k, j, rfl, hk, hj⟩ := inB_cons' hi
      rw [inB_nil.1 hj]
      simp [TfIndex.oneHot, nth]
  · rw [if_neg hs]
    have ha : oneHotAxis ix.shape.length axis = some (if axis = -1 then ix.shape.length else axis.toNat) := by
      unfold oneHotAxis
      rw [if_pos (by omega)]
      congr 1
      split <;> split <;> omega
    rw [ha]
    refine ⟨_, rfl, oneHot_same ?_ h0⟩
    split <;> omega

theorem eyeTable_get [DecidableEq β] [Zero β] [One β] (h01 : (0 : β) ≠ 1) {depth : Nat} {on off : β} (hv : ¬ (on = 0 ∧ off = 1)) (i : List Nat) :
    (eyeTable depth on off).get i = if nth i 0 = nth i 1 then on else off := by
  unfold eyeTable
  by_cases ho : on = 0
  · have hoff : off ≠ 1 := fun h => hv ⟨ho, h⟩
    simp only [ho, ne_eq, not_true_eq_false, if_false]
    by_cases h : nth i 0 = nth i 1
    · simp [h, Ne.symm h01]
    · simp [h, hoff]
  · simp only [ho, ne_eq, not_false_eq_true, if_true]
    by_cases h : nth i 0 = nth i 1
    · simp [h, ho]
    · simp [h, h01]

/-- **OneHot** before opset 9 and for other types than float: a vector of indices in range, and values other than 0 for on and 1 for off. -/
theorem oneHotOld_partial [DecidableEq β] [Zero β] [One β] (h01 : (0 : β) ≠ 1) (axis : Int) (depth n : Nat) (on off : β) (hv : ¬ (on = 0 ∧ off = 1)) (ix : T Int)
    (hs : ix.shape = [n]) (h : -1 ≤ axis ∧ axis ≤ 1) (hix : ∀ k, k < n → 0 ≤ ix.get [k] ∧ ix.get [k] < depth) :
    ∃ y, oneHotOld axis depth on off ix = some y ∧ Same y (TfIndex.oneHot (if axis = 0 then 0 else 1) depth off on ix) := by
  have hg : gather0 (eyeTable depth on off) ix = some (gatherOn 0 ix (eyeTable depth on off)) := by
    unfold gather0
    rw [if_pos]
    refine ⟨by simp [eyeTable], fun i hi => ?_⟩
    have := mem_allIdx hi
    rw [hs] at this
    obtain ⟨k, j, rfl, hk, hj⟩ := inB_cons' this
    rw [inB_nil.1 hj]
    have := hix k hk
    simp only [eyeTable, nth, List.getD_cons_zero]
    omega
  have hget : ∀ k c, k < n → (gatherOn 0 ix (eyeTable depth on off)).get [k, c] = if ix.get [k] = (c : Int) then on else off := by
    intro k c hk
    have := hix k hk
    show (eyeTable depth on off).get _ = _
    rw [eyeTable_get h01 hv]
    have e : nth (eyeTable depth on off).shape 0 = depth := rfl
    rw [e]
    simp only [hs, List.take_zero, List.nil_append, List.drop_zero, List.length_singleton, List.take_succ_cons, Nat.zero_add, List.drop_succ_cons]
    have hp : posOf depth (ix.get [k]) = (ix.get [k]).toNat := by
      unfold posOf
      rw [if_neg (by omega)]
    rw [hp]
    simp only [nth, List.singleton_append, List.getD_cons_zero, List.getD_cons_succ]
    have : (ix.get [k]).toNat = c ↔ ix.get [k] = (c : Int) := by omega
    simp only [this]
  have hsh : (gatherOn 0 ix (eyeTable depth on off)).shape = [n, depth] := by simp [gatherOn, eyeTable, hs]
  unfold oneHotOld
  rw [if_pos (by simp [hs]), hg]
  refine ⟨_, rfl, ?_⟩
  simp only
  by_cases ha : axis = 0
  · rw [if_pos ha, if_pos ha]
    have e : (transpose [1, 0] (gatherOn 0 ix (eyeTable depth on off))).shape = [depth, n] := by simp [transpose, hsh, nth]
    refine ⟨by rw [e]; simp [TfIndex.oneHot, hs], fun i hi => ?_⟩
    rw [e] at hi
    obtain ⟨c, j, rfl, hc, hj⟩ := inB_cons' hi
    obtain ⟨k, j, rfl, hk, hj⟩ := inB_cons' hj
    rw [inB_nil.1 hj]
    have e2 : (transpose [1, 0] (gatherOn 0 ix (eyeTable depth on off))).get [c, k] = (gatherOn 0 ix (eyeTable depth on off)).get [k, c] := rfl
    rw [e2, hget k c hk]
    simp [TfIndex.oneHot, nth]
  · rw [if_neg ha, if_neg ha]
    refine ⟨by rw [hsh]; simp [TfIndex.oneHot, hs], fun i hi => ?_⟩
    rw [hsh] at hi
    obtain ⟨k, j, rfl, hk, hj⟩ := inB_cons' hi
    obtain ⟨c, j, rfl, hc, hj⟩ := inB_cons' hj
    rw [inB_nil.1 hj, hget k c hk]
    simp [TfIndex.oneHot, nth]

/-! ## Scatter -/

theorem places_ok {s : List Nat} {ix : List (List Nat)} (h : ∀ p ∈ ix, InB s p) : (ix.map (fun p => p.map Int.ofNat)).mapM (placeOf s) = some ix := by
  rw [List.mapM_map]
  have := mapM_some (f := placeOf s ∘ fun p : List Nat => p.map Int.ofNat) (g := id) (l := ix) (fun p hp => placeOf_cast (h p hp))
  simpa using this

/-- The rows that address a place. -/
theorem hits_eq {ix : List (List Nat)} (q : List Nat) :
    (ix.zipIdx.filter (fun p => decide (p.1 = q))).map Prod.snd = (List.range ix.length).filter (fun k => decide (ix[k]? = some q)) := by
  have e : ix.zipIdx = (List.range ix.length).map (fun k => (ix.getD k [], k)) := by
    apply List.ext_getElem (by simp)
    intro k h1 h2
    have : k < ix.length := by simpa using h1
    simp [List.getD, this]
  rw [e, List.filter_map, List.map_map]
  have : ∀ l : List Nat, l.map (Prod.snd ∘ fun k => (ix.getD k [], k)) = l := fun l => by simp [Function.comp_def]
  rw [this]
  refine List.filter_congr (fun k hk => ?_)
  have hk : k < ix.length := by simpa using hk
  simp [List.getD, hk]

/-- **TensorScatterAdd**, **-Max**, **-Min**: also with places that are addressed several times. -/
theorem tensorScatter_ok (f : β → β → β) (d : Nat) (x : T β) (ix : List (List Nat)) (upd : T β) (hd : d ≤ x.shape.length) (hix : ∀ p ∈ ix, InB (x.shape.take d) p)
    (hs : upd.shape = ix.length :: x.shape.drop d) :
    ∃ y, tensorScatter f d x (ix.map (fun p => p.map Int.ofNat)) upd = some y ∧ Same y (TfIndex.scatterNd f d x ix upd) := by
  refine ⟨TfIndex.scatterNd f d x ix upd, ?_, rfl, fun _ _ => rfl⟩
  unfold tensorScatter scatterReduce
  rw [places_ok hix]
  simp only
  rw [if_pos ⟨hd, hs⟩]
  unfold TfIndex.scatterNd
  simp only [hits_eq]

/-- **TensorScatterSub.** -/
theorem tensorScatterSub_ok (add sub : β → β → β) (neg : β → β) (hsub : ∀ a b, sub a b = add a (neg b)) (d : Nat) (x : T β) (ix : List (List Nat)) (upd : T β)
    (hd : d ≤ x.shape.length) (hix : ∀ p ∈ ix, InB (x.shape.take d) p) (hs : upd.shape = ix.length :: x.shape.drop d) :
    ∃ y, tensorScatterSub add neg d x (ix.map (fun p => p.map Int.ofNat)) upd = some y ∧ Same y (TfIndex.scatterNd sub d x ix upd) := by
  obtain ⟨y, h1, h2⟩ := tensorScatter_ok add d x ix ⟨upd.shape, fun i => neg (upd.get i)⟩ hd hix hs
  refine ⟨y, h1, h2.1, fun i hi => ?_⟩
  rw [h2.2 i hi]
  simp only [TfIndex.scatterNd, hsub]

theorem hits_nodup {ix : List (List Nat)} (hn : ix.Nodup) (q : List Nat) :
    (List.range ix.length).filter (fun k => decide (ix[k]? = some q)) = if q ∈ ix then [ix.idxOf q] else [] := by
  by_cases h : q ∈ ix
  · rw [if_pos h]
    have hlt := List.idxOf_lt_length_of_mem h
    have hiff : ∀ k, ix[k]? = some q ↔ k = ix.idxOf q := by
      intro k
      constructor
      · intro hk
        obtain ⟨hk, e⟩ := List.getElem?_eq_some_iff.1 hk
        subst e
        rw [hn.idxOf_getElem]
      · rintro rfl
        rw [List.getElem?_eq_getElem hlt, List.getElem_idxOf hlt]
    simp only [hiff]
    have hc : ((List.range ix.length).filter (fun k => decide (k = ix.idxOf q))) = [ix.idxOf q] := by
      have h1 := List.filter_eq (l := List.range ix.length) (ix.idxOf q)
      have h2 : (List.range ix.length).count (ix.idxOf q) = 1 := List.count_eq_one_of_mem List.nodup_range (by simpa using hlt)
      rw [h2] at h1
      simpa [eq_comm] using h1
    exact hc
  · rw [if_neg h, List.filter_eq_nil_iff]
    intro k _ hk
    have hk : ix[k]? = some q := by simpa using hk
    exact h (List.mem_of_getElem? hk)

/-- **TensorScatterUpdate**: no place may be addressed twice. -/
theorem tensorScatterUpdate_partial (d : Nat) (x : T β) (ix : List (List Nat)) (upd : T β) (hd : d ≤ x.shape.length) (hix : ∀ p ∈ ix, InB (x.shape.take d) p)
    (hs : upd.shape = ix.length :: x.shape.drop d) (hn : ix.Nodup) :
    ∃ y, tensorScatterUpdate d x (ix.map (fun p => p.map Int.ofNat)) upd = some y ∧ Same y (TfIndex.scatterNd (fun _ b => b) d x ix upd) := by
  refine ⟨⟨x.shape, fun i => if i.take d ∈ ix then upd.get (ix.idxOf (i.take d) :: i.drop d) else x.get i⟩, ?_, rfl, fun i _ => ?_⟩
  · unfold tensorScatterUpdate scatterSlices
    rw [places_ok hix]
    simp only
    rw [if_pos ⟨hd, hs, hn⟩]
  · simp only [TfIndex.scatterNd, hits_eq, hits_nodup hn]
    split <;> rfl

/-- **ScatterNd**: no place may be addressed twice. -/
theorem scatterNd_partial (zero : β) (add : β → β → β) (h0 : ∀ a, add zero a = a) (d : Nat) (shape : List Nat) (ix : List (List Nat)) (upd : T β)
    (hd : d ≤ shape.length) (hix : ∀ p ∈ ix, InB (shape.take d) p) (hs : upd.shape = ix.length :: shape.drop d) (hn : ix.Nodup) :
    ∃ y, scatterNdOp zero d (shape.map Int.ofNat) (ix.map (fun p => p.map Int.ofNat)) upd = some y ∧
      Same y (TfIndex.scatterNd add d ⟨shape, fun _ => zero⟩ ix upd) := by
  obtain ⟨y, h1, h2⟩ := tensorScatterUpdate_partial d ⟨shape, fun _ => zero⟩ ix upd hd hix hs hn
  refine ⟨y, ?_, h2.1, fun i hi => ?_⟩
  · unfold scatterNdOp
    have := constOfShape_nat zero shape
    rw [show (shape.map Int.ofNat) = shape.map (fun a : Nat => (a : Int)) from rfl, this]
    exact h1
  · rw [h2.2 i hi]
    simp only [TfIndex.scatterNd, hits_eq, hits_nodup hn]
    split
    · simp [h0]
    · rfl

/-- **SparseToDense** for a matrix of indices and different places. -/
theorem sparseToDense_partial (ix : List (List Nat)) (shape : List Nat) (vals : List β) (default : β) (hix : ∀ p ∈ ix, InB shape p) (hn : ix.Nodup)
    (hl : ix.length = vals.length) :
    ∃ y, sparseToDense (ix.map (fun p => p.map Int.ofNat)) shape vals default = some y ∧ y.shape = shape ∧
      ∀ i, InB shape i → (∀ k : Nat, ix[k]? = some i → vals[k]? = some (y.get i)) ∧ (i ∉ ix → y.get i = default) := by
  refine ⟨⟨shape, fun i => (vals[ix.idxOf i]?).getD default⟩, ?_, rfl, fun i _ => ⟨fun k hk => ?_, fun h => ?_⟩⟩
  · unfold sparseToDense scatterND
    rw [places_ok hix]
    simp only
    rw [if_pos ⟨hl, hn⟩]
  · obtain ⟨hk, e⟩ := List.getElem?_eq_some_iff.1 hk
    subst e
    simp only [hn.idxOf_getElem]
    rw [List.getElem?_eq_getElem (by omega)]
    rfl
  · simp only
    rw [List.idxOf_eq_length h, List.getElem?_eq_none (by omega)]
    rfl

end Verif.Index
