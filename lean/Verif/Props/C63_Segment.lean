import Verif.Props.C63_Grid
import Mathlib.Algebra.BigOperators.Group.Multiset.Basic
import Mathlib.Algebra.Field.Basic
import Mathlib.Data.Multiset.Lattice
/-!
# C63: segment reductions compute what TensorFlow computes
-/
namespace Verif.Seg
open Verif.Tensor Verif.Emit

variable {α : Type}

/-! ## The reduction of the grid -/

theorem inB_pair_cons {m n : Nat} {rest j : List Nat} {s c : Nat} (hs : s < m) (hc : c < n) (hj : InB rest j) : InB (m :: n :: rest) (s :: c :: j) :=
  inB_cons.2 ⟨hs, inB_cons.2 ⟨hc, hj⟩⟩

theorem constOfShape_nat (c : α) (s : List Nat) : constOfShape c (s.map Int.ofNat) = some ⟨s, fun _ => c⟩ := by
  unfold constOfShape
  rw [if_pos]
  · simp [Function.comp_def]
  · intro d hd
    obtain ⟨k, _, rfl⟩ := List.mem_map.1 hd
    simp

/-- The rows and, behind them, a row of neutral elements. -/
theorem withId_ok {e : α} {data : T α} {n : Nat} {rest : List Nat} (hs : data.shape = n :: rest) :
    ∃ a, concat0 e data (unsqueeze0 ⟨rest, fun _ => e⟩) = some a ∧ a.shape = (n + 1) :: rest ∧
      (∀ k j, k < n → a.get (k :: j) = data.get (k :: j)) ∧ ∀ j, a.get (n :: j) = e := by
  refine ⟨concat e 0 [data, unsqueeze0 ⟨rest, fun _ => e⟩], ?_, ?_, ?_, ?_⟩
  · unfold concat0
    rw [if_pos]
    refine ⟨by rw [hs]; simp, fun y hy => ?_⟩
    simp only [List.mem_singleton] at hy
    subst hy
    refine ⟨by simp [unsqueeze0, hs], fun i hi hi0 => ?_⟩
    cases i with
    | zero => exact absurd rfl hi0
    | succ i => simp [unsqueeze0, hs, nth]
  · simp [concat, hs, unsqueeze0, nth, setAt]
  · intro k j hk
    simp [concat, concatGet, hs, nth, hk]
  · intro j
    simp [concat, concatGet, hs, nth, unsqueeze0, setAt]

theorem reduceGrid_ok {f : Multiset α → α} {e : α} {data : T α} {g : T Int} {num : Nat} {ids : List Int} {rest : List Nat}
    (hs : data.shape = ids.length :: rest) (hg : GridOk num ids g)
    (hf : ∀ s, s < num → ∀ j, InB rest j → ∀ r, f (members data ids s j + Multiset.replicate r e) = f (members data ids s j)) :
    ∃ r, reduceGrid f e data g = some r ∧ Same r (tfSegment f num data ids) := by
  obtain ⟨M, hM⟩ := hg.shape
  obtain ⟨a, ha, has, hal, har⟩ := withId_ok (e := e) hs
  have hgather : gather0 a g = some (gatherOn 0 g a) := by
    unfold gather0
    rw [if_pos]
    refine ⟨by rw [has]; simp, fun i hi => ?_⟩
    rw [has]
    simp only [nth, List.getD_cons_zero]
    rcases hg.cells i (mem_allIdx hi) with h | ⟨k, hk, h⟩ <;> rw [h] <;> constructor <;> omega
  have hgs : (gatherOn 0 g a).shape = num :: M :: rest := by simp [gatherOn, hM, has]
  refine ⟨⟨nth (num :: M :: rest) 0 :: (num :: M :: rest).drop 2, fun i => f (Multiset.map (fun c => (gatherOn 0 g a).get (nth i 0 :: c :: i.drop 1))
    (Multiset.range (nth (num :: M :: rest) 1)))⟩, ?_, ?_, ?_⟩
  · unfold reduceGrid
    rw [hs]
    simp only [List.tail_cons, constOfShape_nat, Option.bind_eq_bind, Option.bind_some, ha, hgather]
    unfold reduceAxis1
    rw [if_pos (by rw [hgs]; simp), hgs]
  · simp [tfSegment, hs, nth]
  · intro i hi
    simp only [nth, List.getD_cons_zero, List.drop_succ_cons, List.drop_zero] at hi
    obtain ⟨s, j, rfl, hs', hj⟩ := inB_cons' hi
    simp only [tfSegment, nth, List.getD_cons_zero, List.getD_cons_succ, List.drop_succ_cons, List.drop_zero, List.tail_cons]
    obtain ⟨r, hr⟩ := hg.row s hs'
    rw [hM] at hr
    simp only [nth, List.getD_cons_succ, List.getD_cons_zero] at hr
    have hget : ∀ c, (gatherOn 0 g a).get (s :: c :: j) = a.get (posOf (ids.length + 1) (g.get [s, c]) :: j) := by
      intro c
      simp [gatherOn, hM, has, nth]
    simp only [hget]
    have h1 : Multiset.map (fun c => a.get (posOf (ids.length + 1) (g.get [s, c]) :: j)) (Multiset.range M) =
        Multiset.map (fun z : Int => a.get (posOf (ids.length + 1) z :: j)) (Multiset.map (fun c => g.get [s, c]) (Multiset.range M)) := by
      rw [Multiset.map_map]; rfl
    rw [h1, hr, Multiset.map_add, Multiset.map_map, Multiset.map_replicate]
    have h2 : a.get (posOf (ids.length + 1) (-1) :: j) = e := by
      have : posOf (ids.length + 1) (-1) = ids.length := by unfold posOf; rw [if_pos (by omega)]; omega
      rw [this, har]
    have h3 : Multiset.map ((fun z : Int => a.get (posOf (ids.length + 1) z :: j)) ∘ fun k : Nat => (k : Int))
        ((Multiset.range ids.length).filter (fun i => ids[i]? = some (s : Int))) = members data ids s j := by
      unfold members
      refine Multiset.map_congr rfl (fun k hk => ?_)
      have hk : k < ids.length := Multiset.mem_range.1 (Multiset.mem_of_mem_filter hk)
      simp only [Function.comp, posOf_nat]
      exact hal k j hk
    rw [h2, h3]
    exact hf s hs' j hj r

/-! ## Inputs -/

/-- The inputs fit the operator: `rows` are the rows that are reduced, `n` is the number of segments. -/
structure Valid (t : SegType) (i : SegIn α) (rows : T α) (n : Nat) : Prop where
  sparse : t.sparse = true → ∃ ix : List Nat, i.indices = ix.map Int.ofNat ∧ i.data.shape ≠ [] ∧ (∀ k ∈ ix, k < nth i.data.shape 0) ∧ rows = tfRows i.data ix
  dense : t.sparse = false → rows = i.data
  rank : rows.shape ≠ []
  count : nth rows.shape 0 = i.ids.length
  nonempty : i.ids ≠ []
  /-- every id is the number of a segment -/
  range : ∀ a ∈ i.ids, 0 ≤ a ∧ a < (n : Int)
  given : t.hasNum = true → i.num = n
  /-- the ids are in increasing order if the number is not given -/
  counted : t.hasNum = false → i.ids.Pairwise (· ≤ ·) ∧ n = lastPlusOne i.ids

theorem Valid.shape {t : SegType} {i : SegIn α} {rows : T α} {n : Nat} (h : Valid t i rows n) : rows.shape = i.ids.length :: rows.shape.tail := by
  have h1 := h.rank
  have h2 := h.count
  cases hs : rows.shape with
  | nil => exact absurd hs h1
  | cons d s =>
    rw [hs] at h2
    simpa [nth] using h2

theorem Valid.data {t : SegType} {i : SegIn α} {rows : T α} {n : Nat} (h : Valid t i rows n) : ∃ d, dataOf t i = some d ∧ Same d rows := by
  unfold dataOf
  cases hsp : t.sparse with
  | false => exact ⟨i.data, rfl, by rw [h.dense hsp]; exact Same.refl _⟩
  | true =>
    obtain ⟨ix, e, hne, hlt, rfl⟩ := h.sparse hsp
    cases hs : i.data.shape with
    | nil => exact absurd hs hne
    | cons d s =>
      refine ⟨gatherOn 0 (vecT (ix.map Int.ofNat)) i.data, ?_, ?_, ?_⟩
      · simp only [if_true, gather0, e]
        rw [if_pos]
        refine ⟨hne, fun p hp => ?_⟩
        obtain ⟨k, j, rfl, hk, hj⟩ := inB_cons' (mem_allIdx hp)
        rw [inB_nil] at hj
        subst hj
        have hk' : k < ix.length := by simpa using hk
        rw [vecT_get _ _ hk]
        simp only [List.getElem_map]
        have := hlt _ (List.getElem_mem hk')
        simp only [Int.ofNat_eq_natCast]
        omega
      · simp [gatherOn, tfRows, hs]
      · intro p hp
        simp only [gatherOn, hs, vecT_shape, List.length_map, List.take_zero, List.nil_append, List.drop_succ_cons, List.drop_zero] at hp
        obtain ⟨k, j, rfl, hk, hj⟩ := inB_cons' hp
        have hg : (vecT (ix.map Int.ofNat)).get [k] = (ix[k] : Int) := by
          rw [vecT_get _ _ (by simpa using hk)]
          simp
        simp [gatherOn, tfRows, nth, hg, posOf_nat, hk]

theorem max_sorted {l : List Int} (hs : l.Pairwise (· ≤ ·)) (hne : l ≠ []) : l.max? = some (l.getLast hne) := by
  rw [List.max?_eq_some_iff]
  refine ⟨List.getLast_mem hne, fun b hb => ?_⟩
  obtain ⟨k, hk, rfl⟩ := List.getElem_of_mem hb
  rw [List.getLast_eq_getElem]
  rcases Nat.lt_or_ge k (l.length - 1) with h | h
  · exact List.pairwise_iff_getElem.1 hs k (l.length - 1) hk (by omega) h
  · have : k = l.length - 1 := by omega
    subst this
    exact le_refl _

theorem Valid.num {t : SegType} {i : SegIn α} {rows : T α} {n : Nat} (h : Valid t i rows n) : numOf t i = some (n : Int) := by
  unfold numOf
  cases ht : t.hasNum with
  | true => simp [h.given ht]
  | false =>
    obtain ⟨hs, hn⟩ := h.counted ht
    simp only [Bool.false_eq_true, if_false, reduceMax1, max_sorted hs h.nonempty, Option.map_some, Option.some.injEq]
    have h0 := (h.range _ (List.getLast_mem h.nonempty)).1
    have e : lastPlusOne i.ids = (i.ids.getLast h.nonempty + 1).toNat := by
      rw [lastPlusOne, List.getLastD_eq_getLast?, List.getLast?_eq_some_getLast h.nonempty]
      rfl
    omega

theorem members_congr {d rows : T α} {ids : List Int} (h : Same d rows) {rest : List Nat} (hs : rows.shape = ids.length :: rest) {s : Nat}
    {j : List Nat} (hj : InB rest j) : members d ids s j = members rows ids s j := by
  unfold members
  refine Multiset.map_congr rfl (fun k hk => ?_)
  have hk : k < ids.length := Multiset.mem_range.1 (Multiset.mem_of_mem_filter hk)
  exact h.2 _ (by rw [h.1, hs]; exact inB_cons.2 ⟨hk, hj⟩)

/-- The operators up to the reduction. -/
theorem reduction_ok {t : SegType} {i : SegIn α} {rows : T α} {n : Nat} (h : Valid t i rows n) {f : Multiset α → α} {e : α}
    (hf : ∀ s, s < n → ∀ j, InB rows.shape.tail j → ∀ r, f (members rows i.ids s j + Multiset.replicate r e) = f (members rows i.ids s j)) :
    ∃ d g r, dataOf t i = some d ∧ numOf t i = some (n : Int) ∧ grid (n : Int) i = some g ∧ reduceGrid f e d g = some r ∧
      Same r (tfSegment f n rows i.ids) := by
  obtain ⟨d, hd, hsame⟩ := h.data
  obtain ⟨g, hg, hgo⟩ := grid_ok (i := i) (num := n) h.nonempty h.range
  have hds : d.shape = i.ids.length :: rows.shape.tail := by rw [hsame.1]; exact h.shape
  obtain ⟨r, hr, hrs⟩ := reduceGrid_ok (f := f) (e := e) hds hgo (fun s hs j hj r => by
    rw [members_congr hsame h.shape hj]; exact hf s hs j hj r)
  refine ⟨d, g, r, hd, h.num, hg, hr, ?_, ?_⟩
  · rw [hrs.1]; simp [tfSegment, hsame.1]
  · intro p hp
    rw [hrs.2 p hp]
    rw [hrs.1] at hp
    simp only [tfSegment, hds, List.tail_cons] at hp ⊢
    obtain ⟨s, j, rfl, _, hj⟩ := inB_cons' hp
    simp only [List.tail_cons]
    rw [members_congr hsame h.shape hj]

/-! ## Sums, products, maxima, minima -/

/-- `(Unsorted|Sparse)SegmentSum(WithNumSegments)`: every row of the result is the sum of the rows of its segment. -/
theorem segment_sum [AddCommMonoid α] {N : Num α} (hN : N.sum = Multiset.sum) (h0 : N.zero = 0) {t : SegType} (ht : t.base = .sum) {k : Kind}
    (hk : k ≠ .other) {rank : Option Nat} {c : Option Int} {i : SegIn α} {rows : T α} {n : Nat} (h : Valid t i rows n) :
    ∃ p r, segment N t k (some 1) rank c = .ok p ∧ p i = some r ∧ Same r (tfSegment Multiset.sum n rows i.ids) := by
  obtain ⟨d, g, r, h1, h2, h3, h4, h5⟩ := reduction_ok (f := Multiset.sum) (e := 0) h (fun s _ j _ r => by
    rw [Multiset.sum_add, Multiset.sum_replicate, nsmul_zero, add_zero])
  refine ⟨emitted N t k rank (if t.hasNum then c else none) Multiset.sum 0, r, ?_, ?_, h5⟩
  · unfold segment
    rw [if_neg (by simp), if_neg hk]
    simp only [ht, reducer, hN, h0]
  · simp [emitted, h1, h2, h3, h4, scaling, ht]

/-- `(Unsorted)SegmentProd`. -/
theorem segment_prod [CommMonoid α] {N : Num α} (hN : N.prod = Multiset.prod) (h1' : N.one = 1) {t : SegType} (ht : t.base = .prod) {k : Kind}
    (hk : k ≠ .other) {rank : Option Nat} {c : Option Int} {i : SegIn α} {rows : T α} {n : Nat} (h : Valid t i rows n) :
    ∃ p r, segment N t k (some 1) rank c = .ok p ∧ p i = some r ∧ Same r (tfSegment Multiset.prod n rows i.ids) := by
  obtain ⟨d, g, r, h1, h2, h3, h4, h5⟩ := reduction_ok (f := Multiset.prod) (e := 1) h (fun s _ j _ r => by
    rw [Multiset.prod_add, Multiset.prod_replicate, one_pow, mul_one])
  refine ⟨emitted N t k rank (if t.hasNum then c else none) Multiset.prod 1, r, ?_, ?_, h5⟩
  · unfold segment
    rw [if_neg (by simp), if_neg hk]
    simp only [ht, reducer, hN, h1']
  · simp [emitted, h1, h2, h3, h4, scaling, ht]

/-- No segment is empty. -/
def NoGap (ids : List Int) (n : Nat) : Prop := ∀ s, s < n → (s : Int) ∈ ids

theorem members_ne_zero {data : T α} {ids : List Int} {n : Nat} (h : NoGap ids n) {s : Nat} (hs : s < n) (j : List Nat) : members data ids s j ≠ 0 := by
  obtain ⟨k, hk, e⟩ := List.getElem_of_mem (h s hs)
  intro h0
  have : data.get (k :: j) ∈ members data ids s j := by
    unfold members
    refine Multiset.mem_map.2 ⟨k, Multiset.mem_filter.2 ⟨Multiset.mem_range.2 hk, ?_⟩, rfl⟩
    rw [List.getElem?_eq_getElem hk, e]
  rw [h0] at this
  exact Multiset.notMem_zero _ this

/-- `(Unsorted)SegmentMax` of floats: `mx` is the maximum of a multiset with at least one element, and minus infinity does not change it. What TensorFlow
gives for an empty segment is another number, so there must be none. -/
theorem segment_max_partial {N : Num α} {mx : Multiset α → α} (hN : ∀ m r, m ≠ 0 → N.max (m + Multiset.replicate r N.ninf) = mx m) {t : SegType}
    (ht : t.base = .max) {b : Bool} {rank : Option Nat} {c : Option Int} {i : SegIn α} {rows : T α} {n : Nat} (h : Valid t i rows n)
    (hgap : NoGap i.ids n) :
    ∃ p r, segment N t (.float b) (some 1) rank c = .ok p ∧ p i = some r ∧ Same r (tfSegment mx n rows i.ids) := by
  have hmx : ∀ m : Multiset α, m ≠ 0 → N.max m = mx m := fun m hm => by simpa using hN m 0 hm
  obtain ⟨d, g, r, h1, h2, h3, h4, h5⟩ := reduction_ok (f := N.max) (e := N.ninf) h (fun s hs j _ r => by
    have := members_ne_zero (data := rows) hgap hs j
    rw [hN _ r this, hmx _ this])
  refine ⟨emitted N t (.float b) rank (if t.hasNum then c else none) N.max N.ninf, r, ?_, ?_, h5.1, fun p hp => ?_⟩
  · unfold segment
    rw [if_neg (by simp), if_neg (by simp)]
    simp only [ht, reducer]
    rw [if_neg (by simp)]
  · simp [emitted, h1, h2, h3, h4, scaling, ht]
  · rw [h5.2 p hp]
    rw [h5.1] at hp
    obtain ⟨s, j, rfl, hs, _⟩ := inB_cons' hp
    exact hmx _ (members_ne_zero hgap hs _)

/-- `(Unsorted)SegmentMin` of floats. -/
theorem segment_min_partial {N : Num α} {mn : Multiset α → α} (hN : ∀ m r, m ≠ 0 → N.min (m + Multiset.replicate r N.pinf) = mn m) {t : SegType}
    (ht : t.base = .min) {b : Bool} {rank : Option Nat} {c : Option Int} {i : SegIn α} {rows : T α} {n : Nat} (h : Valid t i rows n)
    (hgap : NoGap i.ids n) :
    ∃ p r, segment N t (.float b) (some 1) rank c = .ok p ∧ p i = some r ∧ Same r (tfSegment mn n rows i.ids) := by
  have hmx : ∀ m : Multiset α, m ≠ 0 → N.min m = mn m := fun m hm => by simpa using hN m 0 hm
  obtain ⟨d, g, r, h1, h2, h3, h4, h5⟩ := reduction_ok (f := N.min) (e := N.pinf) h (fun s hs j _ r => by
    have := members_ne_zero (data := rows) hgap hs j
    rw [hN _ r this, hmx _ this])
  refine ⟨emitted N t (.float b) rank (if t.hasNum then c else none) N.min N.pinf, r, ?_, ?_, h5.1, fun p hp => ?_⟩
  · unfold segment
    rw [if_neg (by simp), if_neg (by simp)]
    simp only [ht, reducer]
    rw [if_neg (by simp)]
  · simp [emitted, h1, h2, h3, h4, scaling, ht]
  · rw [h5.2 p hp]
    rw [h5.1] at hp
    obtain ⟨s, j, rfl, hs, _⟩ := inB_cons' hp
    exact hmx _ (members_ne_zero hgap hs _)

end Verif.Seg
