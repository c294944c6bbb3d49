import Verif.Props.C64_Gather
/-!
# C64: ragged tensors: `RaggedRange`
-/
namespace Verif.Ragged
open Verif.Tensor Verif.Emit Verif.Seg Verif.Vec

/-- A number, or one number for each of the `n` rows. -/
def Arg.Fits (n : Nat) : Arg → Prop
  | .scalar _ => True
  | .vec l => l.length = n

/-- The number of row `i`. -/
def Arg.at (i : Nat) : Arg → Int
  | .scalar a => a
  | .vec l => l.getD i 0

/-- It has one number for each row. -/
def Arg.IsVec : Arg → Prop
  | .scalar _ => False
  | .vec _ => True

theorem map_range_getD {β γ : Type} (l : List β) (d : β) (f : β → γ) {n : Nat} (h : l.length = n) : l.map f = (List.range n).map (fun i => f (l.getD i d)) := by
  subst h
  apply List.ext_getElem (by simp)
  intro k h1 h2
  simp at h1
  simp [List.getD, h1]

theorem Arg.zip_vec {n : Nat} {a b : Arg} (ha : a.Fits n) (hb : b.Fits n) (hv : a.IsVec ∨ b.IsVec) (f : Int → Int → Int) :
    a.zip f b = some (.vec ((List.range n).map (fun i => f (a.at i) (b.at i)))) := by
  cases a with
  | scalar x =>
    cases b with
    | scalar y => rcases hv with h | h <;> exact absurd h (by simp [Arg.IsVec])
    | vec m =>
      simp only [Arg.zip, Arg.at]
      rw [map_range_getD m 0 (f x) hb]
  | vec l =>
    cases b with
    | scalar y =>
      simp only [Arg.zip, Arg.at]
      rw [map_range_getD l 0 (fun a => f a y) ha]
    | vec m =>
      have h1 : l.length = n := ha
      have h2 : m.length = n := hb
      simp only [Arg.zip, Arg.at]
      rw [zip2_eq (by omega), Option.map_some]
      congr 2
      apply List.ext_getElem (by simp; omega)
      intro k h3 h4
      simp at h4
      simp [List.getD, show k < l.length by omega, show k < m.length by omega]

theorem Arg.expand_eq {n : Nat} {a : Arg} (ha : a.Fits n) : a.expand n = (List.range n).map a.at := by
  cases a with
  | scalar x => simp [Arg.expand, Arg.at, List.map_const']
  | vec l =>
    have h := map_range_getD l 0 id ha
    simp only [List.map_id, id] at h
    exact h

/-! ## The number of elements -/

theorem ceilDiv_neg (a d : Int) : ceilDiv (-a) (-d) = ceilDiv a d := by
  unfold ceilDiv
  rw [Int.neg_tdiv_neg]
  congr 1
  simp [Int.mul_neg]

/-- The emitted number of elements is the right one for a positive step, except if the limit is before the start by less than a step. -/
theorem ceilDiv_pos {a d : Int} (hd : 0 < d) (h : ¬ (a < 0 ∧ -a < d)) : max (ceilDiv a d) 0 = (((a + d - 1) / d).toNat : Int) := by
  unfold ceilDiv
  rcases Int.lt_or_le a 0 with ha | ha
  · have hle : d ≤ -a := by omega
    have e : Int.tdiv a d = -((-a) / d) := by
      rw [← Int.tdiv_eq_ediv_of_nonneg (by omega), Int.neg_tdiv]
      omega
    have hq : 1 ≤ (-a) / d := (Int.le_ediv_iff_mul_le hd).2 (by omega)
    have hr : (a + d - 1) / d < 0 := Int.ediv_neg_of_neg_of_pos (by omega) hd
    rw [e]
    split <;> omega
  · rw [Int.tdiv_eq_ediv_of_nonneg ha]
    have hm := Int.mul_ediv_add_emod a d
    have hmod := Int.emod_nonneg a (show d ≠ 0 by omega)
    have hmod' := Int.emod_lt_of_pos a hd
    have hq := Int.ediv_nonneg ha (show 0 ≤ d by omega)
    have e : (a + d - 1) / d = a / d + (if a / d * d = a then 0 else 1) := by
      rw [Int.mul_comm] at hm
      split
      · rename_i h0
        have : a % d = 0 := by omega
        rw [show a + d - 1 = (d - 1) + (a / d) * d by omega, Int.add_mul_ediv_right _ _ (by omega), Int.ediv_eq_zero_of_lt (by omega) (by omega)]
        omega
      · rename_i h0
        have : 0 < a % d := by omega
        rw [show a + d - 1 = (a % d - 1) + (a / d + 1) * d by rw [Int.add_mul]; omega, Int.add_mul_ediv_right _ _ (by omega),
          Int.ediv_eq_zero_of_lt (by omega) (by omega)]
        omega
    rw [e]
    split <;> omega

/-- The case that the emitted operators get wrong: the limit lies on the other side of the start, by less than a step. -/
def ShortOpposite (start limit delta : Int) : Prop := (limit < start ∧ start - limit < delta) ∨ (start < limit ∧ limit - start < -delta)

/-- The emitted number of elements. -/
theorem length_ok {start limit delta : Int} (hd : delta ≠ 0) (h : ¬ ShortOpposite start limit delta) :
    max (ceilDiv (limit - start) delta) 0 = ((rangeOf start limit delta).length : Int) := by
  unfold rangeOf
  unfold ShortOpposite at h
  simp only [List.length_map, List.length_range]
  rcases Int.lt_or_le 0 delta with hp | hp
  · rw [if_pos hp, ceilDiv_pos hp (by omega)]
  · rw [if_neg (by omega), ← ceilDiv_neg, ceilDiv_pos (by omega) (by omega)]
    congr 3
    omega

/-! ## The conversion -/

/-- The rows. -/
def rangeRows (n : Nat) (s l d : Arg) : List (List Int) := (List.range n).map (fun i => rangeOf (s.at i) (l.at i) (d.at i))

theorem cells_range (n : Nat) (L : Nat → Nat) :
    cells ((List.range n).map L) = (List.range n).flatMap (fun i => (List.range (L i)).map (fun j => (i, j))) := by
  unfold cells
  rw [zipIdx_eq_map, List.length_map, List.length_range, List.flatMap_map]
  refine List.flatMap_congr (fun i hi => ?_)
  have hi : i < n := by simpa using hi
  simp [List.getD, hi]

theorem Arg.nonzero_of {n : Nat} {a : Arg} (hn : n ≠ 0) (ha : a.Fits n) (h : ∀ i, i < n → a.at i ≠ 0) : a.nonzero := by
  cases a with
  | scalar x => exact h 0 (by omega)
  | vec l =>
    intro x hx
    obtain ⟨k, hk, rfl⟩ := List.getElem_of_mem hx
    have hl : l.length = n := ha
    have := h k (by omega)
    simpa [Arg.at, List.getD, hk] using this

theorem zip2_self {γ : Type} (l : List γ) (f g : γ → Int) (o : Int → Int → Int) : zip2 o (l.map f) (l.map g) = some (l.map (fun p => o (f p) (g p))) := by
  rw [zip2_eq (by simp), List.zipWith_map, List.zipWith_self]

/-- **RaggedRange** for integers. -/
theorem raggedRange_ok {n : Nat} (hn : n ≠ 0) {s l d : Arg} (hs : s.Fits n) (hl : l.Fits n) (hd : d.Fits n) (hv : s.IsVec ∨ l.IsVec ∨ d.IsVec)
    (h0 : ∀ i, i < n → d.at i ≠ 0) (hgood : ∀ i, i < n → ¬ ShortOpposite (s.at i) (l.at i) (d.at i)) :
    raggedRange s l d = some (splits ((rangeRows n s l d).map List.length), (rangeRows n s l d).flatten) := by
  let L : Nat → Nat := fun i => (rangeOf (s.at i) (l.at i) (d.at i)).length
  have eL : (rangeRows n s l d).map List.length = (List.range n).map L := by simp [rangeRows, L, Function.comp_def]
  have hquo : ∃ q, rangeCounts s l d = some q ∧
      q = .vec ((List.range n).map (fun i => ceilDiv (l.at i - s.at i) (d.at i))) := by
    have hnz := Arg.nonzero_of hn hd h0
    unfold rangeCounts
    by_cases hls : l.IsVec ∨ s.IsVec
    · rw [Arg.zip_vec hl hs hls, Option.bind_some, if_pos hnz, Arg.zip_vec (by simp [Arg.Fits]) hd (Or.inl (by simp [Arg.IsVec]))]
      refine ⟨_, rfl, ?_⟩
      congr 1
      refine List.map_congr_left (fun i hi => ?_)
      have hi : i < n := by simpa using hi
      congr 1
      simp [Arg.at, List.getD, hi]
    · have hdv : d.IsVec := by
        rcases hv with h | h | h
        · exact absurd (Or.inr h) hls
        · exact absurd (Or.inl h) hls
        · exact h
      cases l with
      | vec _ => exact absurd (Or.inl trivial) hls
      | scalar x =>
        cases s with
        | vec _ => exact absurd (Or.inr trivial) hls
        | scalar y =>
          have ez : (Arg.scalar x).zip (fun a b => a - b) (.scalar y) = some (.scalar (x - y)) := rfl
          rw [ez, Option.bind_some, if_pos hnz, Arg.zip_vec (by simp [Arg.Fits]) hd (Or.inr hdv)]
          exact ⟨_, rfl, rfl⟩
  obtain ⟨q, hq, rfl⟩ := hquo
  have hlens : ((List.range n).map (fun i => ceilDiv (l.at i - s.at i) (d.at i))).map (fun z => max z 0) = ((List.range n).map L).map (fun a : Nat => (a : Int)) := by
    rw [List.map_map, List.map_map]
    refine List.map_congr_left (fun i hi => ?_)
    have hi : i < n := by simpa using hi
    exact length_ok (h0 i hi) (hgood i hi)
  have hne : (List.range n).map L ≠ [] := by simp [hn]
  have hcl : ∀ p ∈ cells ((List.range n).map L), p.1 < n := by
    intro p hp
    have := (cells_lt hp).1
    simpa using this
  have hgat : ∀ a : Arg, a.Fits n → gather (a.expand n) ((cells ((List.range n).map L)).map (fun p => (p.1 : Int))) =
      some ((cells ((List.range n).map L)).map (fun p => a.at p.1)) := by
    intro a ha
    rw [Arg.expand_eq ha, gather_nat (fun p : Nat × Nat => p.1) 0 (by intro p hp; simpa using hcl p hp)]
    congr 1
    refine List.map_congr_left (fun p hp => ?_)
    have := hcl p hp
    simp [List.getD, this]
  have e0 : 0 :: cumsum (((List.range n).map L).map (fun a : Nat => (a : Int))) = splits ((List.range n).map L) := by
    rw [← cumsum_splits, cumsum_eq, cumsum_eq, cumFrom]
    rfl
  have hvals : (cells ((List.range n).map L)).map (fun p => s.at p.1 + (p.2 : Int) * d.at p.1) = (rangeRows n s l d).flatten := by
    rw [cells_range, List.map_flatMap, rangeRows, List.flatten_eq_flatMap, List.flatMap_map]
    refine List.flatMap_congr (fun i _ => ?_)
    rw [List.map_map]
    simp only [id, L, rangeOf, List.length_map, List.length_range]
    rfl
  unfold raggedRange
  simp only [Option.bind_eq_bind]
  rw [hq, Option.bind_some]
  simp only [Arg.asVec, Option.bind_some]
  rw [hlens, lengthsToIndices_ok _ hne, Option.bind_some]
  simp only [List.length_map, List.length_range, Int.toNat_natCast]
  rw [hgat s hs, Option.bind_some, hgat d hd, Option.bind_some, zip2_self, Option.bind_some, zip2_self, Option.bind_some, e0, hvals, eL]

/-! ## Where it does not hold -/

theorem rangeOf_short {s l d : Int} (h : ShortOpposite s l d) : rangeOf s l d = [] := by
  unfold ShortOpposite at h
  unfold rangeOf
  rcases h with ⟨h1, h2⟩ | ⟨h1, h2⟩
  · rw [if_pos (by omega)]
    have : (l - s + d - 1) / d ≤ 0 := by
      rw [Int.ediv_eq_zero_of_lt (by omega) (by omega)]
    simp [Int.toNat_of_nonpos this]
  · rw [if_neg (by omega)]
    have : (s - l - d - 1) / -d ≤ 0 := by
      rw [Int.ediv_eq_zero_of_lt (by omega) (by omega)]
    simp only [Int.toNat_of_nonpos this]
    rfl

/-- In the short opposite case a row that has to be empty gets one element, the start. -/
theorem raggedRange_wrong {s l d : Int} (h : ShortOpposite s l d) :
    raggedRange (.vec [s]) (.vec [l]) (.vec [d]) = some ([0, 1], [s]) ∧ rangeOf s l d = [] := by
  refine ⟨?_, rangeOf_short h⟩
  have hc : max (ceilDiv (l - s) d) 0 = 1 := by
    unfold ceilDiv
    have e : Int.tdiv (l - s) d = 0 := by
      unfold ShortOpposite at h
      rcases h with ⟨h1, h2⟩ | ⟨h1, h2⟩
      · rw [show l - s = -(s - l) by omega, Int.neg_tdiv, Int.tdiv_eq_zero_of_lt (by omega) (by omega)]
        rfl
      · rw [show d = -(-d) by omega, Int.tdiv_neg, Int.tdiv_eq_zero_of_lt (by omega) (by omega)]
        rfl
    rw [e]
    unfold ShortOpposite at h
    rw [if_neg (by omega)]
    rfl
  have hd : d ≠ 0 := by unfold ShortOpposite at h; omega
  have hl := lengthsToIndices_ok [1] (by simp)
  unfold raggedRange rangeCounts
  simp only [Arg.zip, zip2, List.length_cons, List.length_nil, if_true, Option.map_some, Option.bind_eq_bind, Option.bind_some, List.zipWith_cons_cons,
    List.zipWith_nil_left, Arg.asVec, List.map_cons, List.map_nil]
  rw [if_pos (by intro a ha; simp at ha; omega)]
  simp only [Option.bind_some, List.map_cons, List.map_nil, hc]
  have hl' : lengthsToIndices [1] = some (1, 1, [0], [0]) := hl
  rw [hl']
  simp [Arg.expand, gather, posOf, cumsum]

/-- With three numbers, which are one row for TensorFlow, nothing is computed. -/
theorem raggedRange_scalars (s l d : Int) : raggedRange (.scalar s) (.scalar l) (.scalar d) = none := by
  unfold raggedRange rangeCounts
  simp only [Arg.zip, Option.bind_eq_bind, Option.bind_some]
  split <;> rfl

/-- With no rows, nothing is computed. -/
theorem raggedRange_no_rows : raggedRange (.vec []) (.vec []) (.vec []) = none := rfl

end Verif.Ragged
