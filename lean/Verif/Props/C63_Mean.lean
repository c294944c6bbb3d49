import Verif.Props.C63_Segment
import Mathlib.Algebra.Field.Basic
import Mathlib.Algebra.CharZero.Defs
import Mathlib.Data.Nat.Cast.Basic
/-!
# C63: segment means
-/
namespace Verif.Seg
open Verif.Tensor Verif.Emit

variable {α : Type}

theorem card_members (data : T α) (ids : List Int) (s : Nat) (j : List Nat) : (members data ids s j).card = ids.count (s : Int) := by
  unfold members
  rw [Multiset.card_map]
  have h1 : ids = (List.range ids.length).map (fun k => ids.getD k 0) := by
    apply List.ext_getElem (by simp)
    intro k h1 h2
    simp [h1]
  have h2 : ids.count (s : Int) = (List.range ids.length).countP (fun k => decide (ids[k]? = some (s : Int))) := by
    conv_lhs => rw [h1]
    rw [List.count, List.countP_map]
    refine List.countP_congr (fun k hk => ?_)
    have hk := List.mem_range.1 hk
    simp [hk]
  rw [h2, List.countP_eq_length_filter]
  rfl

/-- The counts that are scattered. -/
theorem counts_ok {i : SegIn α} {n : Nat} (hb : ∀ a ∈ i.ids, 0 ≤ a ∧ a < (n : Int)) {c : Option Int} (hc : ∀ z, c = some z → z = n) :
    countsOf c (n : Int) i = some ((List.range n).map (fun s : Nat => (i.ids.count (s : Int) : Int))) := by
  unfold countsOf
  have hz : zerosOf c (n : Int) = some (List.replicate n 0) := by
    unfold zerosOf
    cases c with
    | none => simp
    | some z => simp [hc z rfl]
  simp only [hz, Option.bind_some]
  set S := topkVal i.ids with hS
  have hmem : ∀ a, a ∈ S ↔ a ∈ i.ids := fun a => (topkVal_perm i.ids).mem_iff
  have hval : ∀ a ∈ uniqueVal S, 0 ≤ a ∧ a < (n : Int) := fun a ha => hb a ((hmem a).1 (mem_uniqueVal.1 ha))
  have hpos : (uniqueVal S).map (posOf n) = (uniqueVal S).map Int.toNat := by
    refine List.map_congr_left (fun a ha => ?_)
    have := (hval a ha).1
    rw [posOf, if_neg (by omega)]
  unfold scatterVec
  rw [List.length_replicate, hpos, if_pos]
  · congr 1
    refine List.map_congr_left (fun s hs => ?_)
    have hs := List.mem_range.1 hs
    have hcnt : ∀ a, S.count a = i.ids.count a := fun a => (topkVal_perm i.ids).count_eq a
    by_cases hm : (s : Int) ∈ uniqueVal S
    · obtain ⟨k, hk, e⟩ := List.getElem_of_mem hm
      have hnd : ((uniqueVal S).map Int.toNat).Nodup := by
        rw [List.nodup_map_iff_inj_on (uniqueVal_nodup S)]
        intro a ha b hb' h
        have := (hval a ha).1
        have := (hval b hb').1
        omega
      have hk' : k < ((uniqueVal S).map Int.toNat).length := by simpa using hk
      have e2 : ((uniqueVal S).map Int.toNat)[k] = s := by simp [e]
      have hix : ((uniqueVal S).map Int.toNat).idxOf s = k := by
        conv_lhs => rw [← e2]
        exact List.Nodup.idxOf_getElem hnd k hk'
      rw [hix, List.getElem?_eq_getElem (by simpa [uniqueCnt] using hk)]
      simp [uniqueCnt, e, hcnt]
    · have hno : s ∉ (uniqueVal S).map Int.toNat := by
        intro h
        obtain ⟨a, ha, e⟩ := List.mem_map.1 h
        have := (hval a ha).1
        have : a = (s : Int) := by omega
        rw [this] at ha
        exact hm ha
      rw [List.idxOf_eq_length hno, List.getElem?_eq_none (by simp [uniqueCnt])]
      have : i.ids.count (s : Int) = 0 := List.count_eq_zero.2 (fun h => hm (mem_uniqueVal.2 ((hmem _).2 h)))
      rw [this]
      simp [hs]
  · refine ⟨by simp [uniqueCnt], fun a ha => by have := hval a ha; omega, ?_⟩
    rw [List.nodup_map_iff_inj_on (uniqueVal_nodup S)]
    intro a ha b hb' h
    have := (hval a ha).1
    have := (hval b hb').1
    omega

theorem bidx_self {s i : List Nat} (h : InB s i) : bidx s i = i := by
  apply List.ext_getElem (by simp [bidx, h.1])
  intro k h1 h2
  have hk : k < s.length := by simpa [bidx] using h1
  have hb := h.2 k hk
  have e : nth i k = i[k] := by simp [nth, List.getD, h2]
  simp only [bidx, List.getElem_map, List.getElem_range]
  split
  · omega
  · exact e

/-- The column the rows are divided by. -/
def colT (z : α) (scale : List α) (m : Nat) : T α := ⟨scale.length :: List.replicate m 1, fun i => scale.getD (nth i 0) z⟩

theorem zip_col {f : α → α → α} {z : α} {x : T α} {scale : List α} {rest : List Nat} (hx : x.shape = scale.length :: rest) {col : T α}
    (hc : col.shape = scale.length :: List.replicate rest.length 1)
    (hg : ∀ k, k < scale.length → col.get (k :: List.replicate rest.length 0) = scale.getD k z) :
    ∃ r, zipT f x col = some r ∧ Same r ⟨x.shape, fun i => f (x.get i) (scale.getD (nth i 0) z)⟩ := by
  have hlen : max x.shape.length col.shape.length = rest.length + 1 := by simp [hx, hc]
  unfold zipT
  simp only [hlen]
  rw [Verif.TransposeOpt.expandRank_self _ x (by simp [hx]), Verif.TransposeOpt.expandRank_self _ col (by simp [hc]), if_pos]
  swap
  · intro i hi
    rw [hx, hc]
    cases i with
    | zero => exact Or.inl rfl
    | succ i =>
      right; right
      rw [hx] at hi
      have : i < rest.length := by simpa using hi
      simp [nth, List.getD, this]
  have hshape : ((List.range (rest.length + 1)).map (fun i => if nth x.shape i = 1 then nth col.shape i else nth x.shape i)) = x.shape := by
    apply List.ext_getElem (by simp [hx])
    intro k h1 h2
    have hk : k < rest.length + 1 := by simpa using h1
    simp only [List.getElem_map, List.getElem_range]
    have e : nth x.shape k = x.shape[k] := by simp [nth, List.getD, h2]
    split
    · rename_i h
      rw [← e, h, hc]
      cases k with
      | zero => rw [hx] at h; simpa [nth] using h
      | succ k =>
        have : k < rest.length := by omega
        simp [nth, List.getD, this]
    · exact e
  refine ⟨_, rfl, hshape, fun i hi => ?_⟩
  simp only [hshape] at hi
  change f (x.get (bidx x.shape i)) (col.get (bidx col.shape i)) = f (x.get i) (scale.getD (nth i 0) z)
  rw [bidx_self hi]
  congr 1
  rw [hx] at hi
  obtain ⟨k, j, rfl, hk, hj⟩ := inB_cons' hi
  have hb : bidx col.shape (k :: j) = k :: List.replicate rest.length 0 := by
    rw [hc]
    apply List.ext_getElem (by simp [bidx])
    intro m h1 h2
    have hm : m < rest.length + 1 := by simpa [bidx] using h1
    simp only [bidx, List.getElem_map, List.getElem_range]
    cases m with
    | zero =>
      simp only [nth, List.getD_cons_zero, List.getElem_cons_zero]
      split
      · omega
      · rfl
    | succ m =>
      have : m < rest.length := by omega
      simp [nth, List.getD, this]
  rw [hb, hg k hk]
  rfl

theorem divRows_ok {N : Num α} {rank : Option Nat} {x : T α} {scale : List α} {rest : List Nat} (hx : x.shape = scale.length :: rest)
    (hr : ∀ r, rank = some r → r = rest.length + 1) :
    ∃ r, divRows N rank x scale = some r ∧ Same r ⟨x.shape, fun i => N.div (x.get i) (scale.getD (nth i 0) N.zero)⟩ := by
  unfold divRows
  cases rank with
  | none =>
    refine zip_col hx ?_ ?_
    · simp [Tensor.reshape, hx]
    · intro k hk
      simp only [hx, List.length_cons, Nat.add_sub_cancel]
      have hl : lin (scale.length :: List.replicate rest.length 1) (k :: List.replicate rest.length 0) = k := by
        have h0 : ∀ m, lin (List.replicate m 1) (List.replicate m 0) = 0 := by
          intro m
          induction m with
          | zero => rfl
          | succ m ih => simp [List.replicate_succ, lin, ih]
        have h1 : ∀ m, size (List.replicate m 1) = 1 := by
          intro m
          induction m with
          | zero => rfl
          | succ m ih => simpa [List.replicate_succ, size] using ih
        simp [lin, h0, h1]
      simp [Tensor.reshape, hl, delin, size, nth]
  | some r =>
    have hr := hr r rfl
    subst hr
    by_cases h1 : rest.length + 1 ≠ 1
    · simp only [if_pos h1]
      refine zip_col hx ?_ ?_
      · simp
      · intro k hk
        simp [nth]
    · simp only [if_neg h1]
      have h0 : rest.length = 0 := by omega
      refine zip_col hx ?_ ?_
      · simp [h0]
      · intro k hk
        simp [nth]

/-- What a mean does with a sum `a` and the scale `c` of its segment. -/
theorem mean_ok [AddCommMonoid α] {N : Num α} (hN : N.sum = Multiset.sum) (h0 : N.zero = 0) {t : SegType} {b : Base} (hb : t.base = b) {k : Kind}
    (hk : k ≠ .other) {rank : Option Nat} {c : Option Int} {i : SegIn α} {rows : T α} {n : Nat} (h : Valid t i rows n)
    (hr : ∀ r, rank = some r → r = rows.shape.length) (hred : reducer N b k = .ok (N.sum, N.zero)) {sc : Nat → α}
    (hsc : scaling N t k (if t.hasNum then c else none) (n : Int) i = some (some ((List.range n).map (fun s : Nat => sc (i.ids.count (s : Int)))))) :
    ∃ p r, segment N t k (some 1) rank c = .ok p ∧ p i = some r ∧ Same r (tfSegment (fun m => N.div m.sum (sc m.card)) n rows i.ids) := by
  obtain ⟨d, g, r, h1, h2, h3, h4, h5⟩ := reduction_ok (f := Multiset.sum) (e := 0) h (fun s _ j _ r => by
    rw [Multiset.sum_add, Multiset.sum_replicate, nsmul_zero, add_zero])
  have hrs : r.shape = ((List.range n).map (fun s : Nat => sc (i.ids.count (s : Int)))).length :: rows.shape.tail := by
    rw [h5.1]; simp [tfSegment]
  obtain ⟨q, hq, hqs⟩ := divRows_ok (N := N) (rank := rank) hrs (fun r e => by
    rw [hr r e]
    conv_lhs => rw [h.shape]
    rfl)
  refine ⟨emitted N t k rank (if t.hasNum then c else none) Multiset.sum 0, q, ?_, ?_, ?_, ?_⟩
  · unfold segment
    rw [if_neg (by simp), if_neg hk, hb, hred, hN, h0]
  · simp [emitted, h1, h2, h3, h4, hsc, hq]
  · rw [hqs.1, h5.1]; rfl
  · intro p hp
    rw [hqs.2 p hp]
    have hp' : InB r.shape p := by rw [hqs.1] at hp; exact hp
    simp only
    rw [h5.2 p hp']
    rw [h5.1] at hp'
    obtain ⟨s, j, rfl, hs, _⟩ := inB_cons' hp'
    simp only [tfSegment, nth, List.getD_cons_zero, card_members]
    congr 1
    simp [hs]

/-- `SegmentMean` and the sparse means: the number of segments is not given and none is empty. -/
theorem segment_mean_partial [Field α] [CharZero α] {N : Num α} (hN : N.sum = Multiset.sum) (h0 : N.zero = 0) (hi : ∀ z : Int, N.ofInt z = z)
    (hd : ∀ a b, b ≠ 0 → N.div a b = a / b) {t : SegType} (ht : t.base = .mean) (hn : t.hasNum = false) {k : Kind} (hk : k ≠ .other)
    {rank : Option Nat} {c : Option Int} {i : SegIn α} {rows : T α} {n : Nat} (h : Valid t i rows n)
    (hr : ∀ r, rank = some r → r = rows.shape.length) (hgap : NoGap i.ids n) :
    ∃ p r, segment N t k (some 1) rank c = .ok p ∧ p i = some r ∧ Same r (tfSegment (fun m => m.sum / (m.card : α)) n rows i.ids) := by
  obtain ⟨p, r, h1, h2, h3⟩ := mean_ok hN h0 ht hk (c := c) h hr rfl (sc := fun m => (m : α)) (by
    simp only [scaling, ht, hn, Bool.false_eq_true, if_false]
    rw [counts_ok h.range (by simp)]
    simp [atLeastOne, hn, Function.comp_def, hi])
  refine ⟨p, r, h1, h2, h3.1, fun q hq => ?_⟩
  rw [h3.2 q hq]
  rw [h3.1] at hq
  obtain ⟨s, j, rfl, hs, _⟩ := inB_cons' hq
  refine hd _ _ ?_
  have := members_ne_zero (data := rows) hgap hs j
  simpa [tfSegment, nth] using this

/-- `SparseSegmentMeanWithNumSegments`: an empty segment gives 0. -/
theorem segment_mean_num [Field α] [CharZero α] {N : Num α} (hN : N.sum = Multiset.sum) (h0 : N.zero = 0) (hi : ∀ z : Int, N.ofInt z = z)
    (hd : ∀ a b, b ≠ 0 → N.div a b = a / b) (hmax : ∀ m : Nat, N.max2 (m : α) N.one = if m = 0 then 1 else (m : α)) {t : SegType}
    (ht : t.base = .mean) (hn : t.hasNum = true) {rank : Option Nat} {c : Option Int} {i : SegIn α} {rows : T α} {n : Nat} (h : Valid t i rows n)
    (hr : ∀ r, rank = some r → r = rows.shape.length) (hc : ∀ z, c = some z → z = i.num) :
    ∃ p r, segment N t (.float true) (some 1) rank c = .ok p ∧ p i = some r ∧
      Same r (tfSegment (fun m => if m.card = 0 then 0 else m.sum / (m.card : α)) n rows i.ids) := by
  obtain ⟨p, r, h1, h2, h3⟩ := mean_ok hN h0 ht (k := .float true) (by simp) (c := c) h hr rfl (sc := fun m => if m = 0 then 1 else (m : α)) (by
    simp only [scaling, ht, hn, if_true]
    rw [counts_ok h.range (by rw [← h.given hn]; exact hc)]
    simp [atLeastOne, hn, Function.comp_def, hi, hmax])
  refine ⟨p, r, h1, h2, h3.1, fun q hq => ?_⟩
  rw [h3.2 q hq]
  simp only [tfSegment]
  by_cases hm : (members rows i.ids (nth q 0) q.tail).card = 0
  · rw [if_pos hm, if_pos hm, Multiset.card_eq_zero.1 hm, Multiset.sum_zero, hd _ _ one_ne_zero, zero_div]
  · rw [if_neg hm, if_neg hm, hd _ _ (by simpa using hm)]

/-- `SparseSegmentSqrtN`: the number of segments is not given and none is empty. `rt` is the square root. -/
theorem segment_sqrtN_partial [Field α] [CharZero α] {N : Num α} (hN : N.sum = Multiset.sum) (h0 : N.zero = 0) (hi : ∀ z : Int, N.ofInt z = z)
    (hd : ∀ a b, b ≠ 0 → N.div a b = a / b) {rt : α → α} (hrt : ∀ a, N.sqrt a = rt a) (hne : ∀ a, a ≠ 0 → rt a ≠ 0) {t : SegType}
    (ht : t.base = .sqrtN) (hn : t.hasNum = false) {k : Kind} (hk : k ≠ .other)
    {rank : Option Nat} {c : Option Int} {i : SegIn α} {rows : T α} {n : Nat} (h : Valid t i rows n)
    (hr : ∀ r, rank = some r → r = rows.shape.length) (hgap : NoGap i.ids n) :
    ∃ p r, segment N t k (some 1) rank c = .ok p ∧ p i = some r ∧ Same r (tfSegment (fun m => m.sum / rt (m.card : α)) n rows i.ids) := by
  obtain ⟨p, r, h1, h2, h3⟩ := mean_ok hN h0 ht hk (c := c) h hr rfl (sc := fun m => rt (m : α)) (by
    simp only [scaling, ht, hn, Bool.false_eq_true, if_false]
    rw [counts_ok h.range (by simp)]
    simp [atLeastOne, hn, Function.comp_def, hi, hrt])
  refine ⟨p, r, h1, h2, h3.1, fun q hq => ?_⟩
  rw [h3.2 q hq]
  rw [h3.1] at hq
  obtain ⟨s, j, rfl, hs, _⟩ := inB_cons' hq
  refine hd _ _ (hne _ ?_)
  have := members_ne_zero (data := rows) hgap hs j
  simpa [tfSegment, nth] using this

/-- `SparseSegmentSqrtNWithNumSegments`: an empty segment gives 0. -/
theorem segment_sqrtN_num [Field α] [CharZero α] {N : Num α} (hN : N.sum = Multiset.sum) (h0 : N.zero = 0) (hi : ∀ z : Int, N.ofInt z = z)
    (hd : ∀ a b, b ≠ 0 → N.div a b = a / b) {rt : α → α} (hrt : ∀ a, N.sqrt a = rt a) (hne : ∀ a, a ≠ 0 → rt a ≠ 0)
    (hmax : ∀ m : Nat, N.max2 (rt (m : α)) N.one = if m = 0 then 1 else rt (m : α)) {t : SegType}
    (ht : t.base = .sqrtN) (hn : t.hasNum = true) {rank : Option Nat} {c : Option Int} {i : SegIn α} {rows : T α} {n : Nat} (h : Valid t i rows n)
    (hr : ∀ r, rank = some r → r = rows.shape.length) (hc : ∀ z, c = some z → z = i.num) :
    ∃ p r, segment N t (.float true) (some 1) rank c = .ok p ∧ p i = some r ∧
      Same r (tfSegment (fun m => if m.card = 0 then 0 else m.sum / rt (m.card : α)) n rows i.ids) := by
  obtain ⟨p, r, h1, h2, h3⟩ := mean_ok hN h0 ht (k := .float true) (by simp) (c := c) h hr rfl (sc := fun m => if m = 0 then 1 else rt (m : α)) (by
    simp only [scaling, ht, hn, if_true]
    rw [counts_ok h.range (by rw [← h.given hn]; exact hc)]
    simp [atLeastOne, hn, Function.comp_def, hi, hrt, hmax])
  refine ⟨p, r, h1, h2, h3.1, fun q hq => ?_⟩
  rw [h3.2 q hq]
  simp only [tfSegment]
  by_cases hm : (members rows i.ids (nth q 0) q.tail).card = 0
  · rw [if_pos hm, if_pos hm, Multiset.card_eq_zero.1 hm, Multiset.sum_zero, hd _ _ one_ne_zero, zero_div]
  · rw [if_neg hm, if_neg hm, hd _ _ (hne _ (by simpa using hm))]

end Verif.Seg
