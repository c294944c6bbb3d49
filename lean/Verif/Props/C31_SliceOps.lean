import Verif.Model.SliceOps
/-!
# C31, C32, C33, C35: TF slicing
-/
namespace Verif.SliceOps
open Verif.Tensor

/-! ## Facts about the operators -/

theorem slice_shape {α : Type} (fill : α) (axes : List Int) (specs : List SliceSpec) (x : T α) :
    (slice fill axes specs x).shape = (List.range x.shape.length).map (fun i =>
      sliceRule.outDim (((axes.zip specs).find? (fun p => normAxis x.shape.length p.1 = i)).map (·.2)) (nth x.shape i)) := rfl

/-- Where `Slice` reads along one axis. -/
def sliceSrc (p : Option SliceSpec) (d o : Nat) : Nat :=
  match p with | none => o | some s => (s.first d + o * s.step).toNat

theorem slice_get {α : Type} (fill : α) (axes : List Int) (specs : List SliceSpec) (x : T α) (idx : List Nat) :
    (slice fill axes specs x).get idx = x.get ((List.range x.shape.length).map (fun i =>
      sliceSrc (((axes.zip specs).find? (fun p => normAxis x.shape.length p.1 = i)).map (·.2)) (nth x.shape i) (nth idx i))) := by
  have hs : ∀ (p : Option SliceSpec) (d o : Nat), sliceRule.src p d o = some (sliceSrc p d o) := by
    intro p d o; cases p <;> rfl
  unfold slice axisOp
  simp only [hs]
  rw [if_pos (by intro i _; rfl)]
  rfl

theorem idxOf_range {n i : Nat} (h : i < n) : (List.range n).idxOf i = i := by
  have := (List.nodup_range (n := n)).idxOf_getElem i (by simpa using h)
  simpa using this

theorem squeeze_none {α : Type} (ax : Nat → Bool) (y : T α) (h : ∀ i, i < y.shape.length → ax i = false) :
    Same y (squeeze ax y) := by
  have hk : keptAxes y.shape.length ax = List.range y.shape.length := by
    unfold keptAxes
    rw [List.filter_eq_self]
    intro i hi
    rw [h i (List.mem_range.1 hi)]; rfl
  refine ⟨?_, fun idx hi => ?_⟩
  · simp only [squeeze, hk]
    apply ext_nth (by simp)
    intro i hi
    rw [nth_map_range, if_pos hi]
  · simp only [squeeze, hk]
    congr 1
    apply ext_nth
    · simp [hi.1]
    · intro i hi'
      rw [hi.1] at hi'
      rw [nth_map_range, if_pos hi', h i hi', idxOf_range hi']
      simp

theorem slice_nil {α : Type} (fill : α) (x : T α) : Same x (slice fill [] [] x) := by
  refine ⟨?_, fun idx hi => ?_⟩
  · rw [slice_shape]
    apply ext_nth (by simp)
    intro i hi
    rw [nth_map_range, if_pos hi]; rfl
  · rw [slice_get]
    congr 1
    apply ext_nth
    · simp [hi.1]
    · intro i hi'
      rw [hi.1] at hi'
      rw [nth_map_range, if_pos hi']; rfl

/-! ## C31: specification of `tf.strided_slice` with unit strides and without new axes -/

/-- TensorFlow's reading of a position: from the back if negative, clamped to `0..d`. -/
def tfPos (d p : Int) : Int := max 0 (min d (if p < 0 then p + d else p))

/-- The axis entry `j` of the `n` entries stands for: entries after an ellipsis are aligned to the last axes. -/
def axisOf (rank n ellipsis j : Nat) : Nat := if (List.range j).any (bit ellipsis) then j + rank - n else j

/-- The entry that slices axis `i`, if there is one. -/
def entryOf (rank n ellipsis i : Nat) : Option Nat :=
  (List.range n).find? (fun j => !bit ellipsis j && decide (axisOf rank n ellipsis j = i))

/-- First position taken on an axis of length `d`. -/
def tfFirst (m : Masks) (B : List Int) (d : Int) : Option Nat → Int
  | none => 0
  | some j =>
    if bit m.shrink j then (if B.getD j 0 < 0 then B.getD j 0 + d else B.getD j 0)
    else if bit m.begin_ j then 0 else tfPos d (B.getD j 0)

/-- End of the positions taken. -/
def tfEnd (m : Masks) (B E : List Int) (d : Int) : Option Nat → Int
  | none => d
  | some j =>
    if bit m.shrink j then (if B.getD j 0 < 0 then B.getD j 0 + d else B.getD j 0) + 1
    else if bit m.end_ j then d else tfPos d (E.getD j 0)

/-- Axes that disappear. -/
def tfGone (m : Masks) : Option Nat → Bool
  | none => false
  | some j => bit m.shrink j

/-- `tf.strided_slice(x, B, E, ones, masks)`. -/
def tfStridedSlice {α : Type} (m : Masks) (B E : List Int) (x : T α) : T α :=
  let r := x.shape.length
  let e := entryOf r B.length m.ellipsis
  let kept := (List.range r).filter (fun i => !tfGone m (e i))
  { shape := kept.map (fun i => (tfEnd m B E (nth x.shape i) (e i) - tfFirst m B (nth x.shape i) (e i)).toNat)
    get := fun idx => x.get ((List.range r).map (fun i =>
      (tfFirst m B (nth x.shape i) (e i)).toNat + if tfGone m (e i) then 0 else nth idx (kept.idxOf i))) }

/-! ## The loop -/

def startOf (m : Masks) (B : List Int) (j : Nat) : Int :=
  if bit m.shrink j then B.getD j 0 else if bit m.begin_ j then 0 else B.getD j 0

def stopOf (m : Masks) (M : Int) (B E : List Int) (j : Nat) : Int :=
  if bit m.shrink j then (if B.getD j 0 ≠ -1 then B.getD j 0 + 1 else M)
  else if bit m.end_ j then M else if B.getD j 0 < 0 ∧ E.getD j 0 = 0 then M else E.getD j 0

def gapAt (rank n : Nat) (m : Masks) (k : Nat) : Int := if (List.range k).any (bit m.ellipsis) then (rank : Int) - n else 0

/-- The entries that are not an ellipsis, below `k`. -/
def entries (m : Masks) (k : Nat) : List Nat := (List.range k).filter (fun j => !bit m.ellipsis j)

def outAt (rank n : Nat) (m : Masks) (M : Int) (B E : List Int) (k : Nat) : Emitted :=
  { axes := (entries m k).map (fun (j : Nat) => (j : Int) + gapAt rank n m j)
    starts := (entries m k).map (startOf m B)
    ends := (entries m k).map (stopOf m M B E)
    squeeze := ((entries m k).filter (fun j => bit m.shrink j)).map (fun (j : Nat) => (j : Int) + gapAt rank n m j) }

theorem drop_cons_getD {l : List Int} {k : Nat} {b : Int} {bs : List Int} (h : l.drop k = b :: bs) :
    l.getD k 0 = b ∧ l.drop (k + 1) = bs := by
  have hk : k < l.length := by
    rcases Nat.lt_or_ge k l.length with h' | h'
    · exact h'
    · rw [List.drop_eq_nil_of_le h'] at h; cases h
  rw [List.drop_eq_getElem_cons hk] at h
  cases h
  exact ⟨by simp [List.getD, hk], rfl⟩

theorem headD_drop (l : List Int) (k : Nat) : (l.drop k).headD 0 = l.getD k 0 := by
  rw [List.headD_eq_head?_getD, List.head?_drop]; rfl

theorem loop_spec (m : Masks) (M : Int) (rank : Nat) (B E S : List Int) (hS : ∀ k, k < B.length → S.getD k 0 = 1) (k : Nat)
    (hk : k ≤ B.length) :
    loop m M rank B.length k (B.drop k) (E.drop k) (S.drop k) ⟨outAt rank B.length m M B E k, gapAt rank B.length m k⟩ =
      .ok ⟨outAt rank B.length m M B E B.length, gapAt rank B.length m B.length⟩ := by
  generalize hd : B.length - k = d
  induction d generalizing k with
  | zero =>
    have : k = B.length := by omega
    subst this
    rw [List.drop_eq_nil_of_le (Nat.le_refl _)]
    rfl
  | succ d ih =>
    have hlt : k < B.length := by omega
    obtain ⟨b, bs, hb⟩ : ∃ b bs, B.drop k = b :: bs := ⟨_, _, List.drop_eq_getElem_cons hlt⟩
    obtain ⟨hb1, hb2⟩ := drop_cons_getD hb
    have hb1' : B[k]?.getD 0 = b := hb1
    rw [hb]
    unfold loop
    rw [headD_drop, hS k hlt, List.tail_drop, List.tail_drop, headD_drop]
    rw [if_neg (by decide), ← hb2]
    have hent : entries m (k + 1) = if bit m.ellipsis k then entries m k else entries m k ++ [k] := by
      unfold entries
      rw [List.range_succ, List.filter_append]
      cases he : bit m.ellipsis k <;> simp [he]
    have hany : (List.range (k + 1)).any (bit m.ellipsis) = ((List.range k).any (bit m.ellipsis) || bit m.ellipsis k) := by
      rw [List.range_succ, List.any_append]; simp
    cases he : bit m.ellipsis k with
    | true =>
      rw [if_pos rfl]
      have hg : gapAt rank B.length m (k + 1) = (rank : Int) - B.length := by
        unfold gapAt; rw [hany, he]; simp
      have ho : outAt rank B.length m M B E (k + 1) = outAt rank B.length m M B E k := by
        unfold outAt; rw [hent, he]; rfl
      have := ih (k + 1) (by omega) (by omega)
      rw [hg, ho] at this
      exact this
    | false =>
      rw [if_neg (by decide)]
      have hg : gapAt rank B.length m (k + 1) = gapAt rank B.length m k := by
        unfold gapAt; rw [hany, he]; simp
      have := ih (k + 1) (by omega) (by omega)
      rw [hg] at this
      rw [← this]
      congr 1
      unfold stepAxis
      have hent' : entries m (k + 1) = entries m k ++ [k] := by rw [hent, he]; rfl
      cases hs : bit m.shrink k with
      | true =>
        simp only [if_true]
        unfold outAt
        rw [hent']
        simp [List.filter_append, hs, startOf, stopOf, hb1']
      | false =>
        simp only [Bool.false_eq_true, if_false]
        unfold outAt
        rw [hent']
        simp [List.filter_append, hs, startOf, stopOf, hb1']

theorem stridedSlice_spec (m : Masks) (M : Int) (rank : Nat) (B E S : List Int) (hS : ∀ k, k < B.length → S.getD k 0 = 1) :
    stridedSlice m 0 M rank B E S = .ok (outAt rank B.length m M B E B.length) := by
  have := loop_spec m M rank B E S hS 0 (by omega)
  unfold stridedSlice
  rw [if_neg (by simp)]
  simp only [List.drop_zero] at this
  have h0 : (⟨outAt rank B.length m M B E 0, gapAt rank B.length m 0⟩ : LoopState) = ⟨⟨[], [], [], []⟩, 0⟩ := rfl
  rw [h0] at this
  rw [this]
  rfl

/-! ## The axes -/

/-- TensorFlow's conditions on the entries: at most one ellipsis, not more entries than axes. -/
structure ValidSpec (m : Masks) (n rank : Nat) : Prop where
  one : ∀ i j, i < n → j < n → bit m.ellipsis i = true → bit m.ellipsis j = true → i = j
  fits : n ≤ rank ∨ (n = rank + 1 ∧ ∃ i, i < n ∧ bit m.ellipsis i = true)

theorem axis_cast {m : Masks} {n rank j : Nat} (hv : ValidSpec m n rank) (hj : j < n) :
    (j : Int) + gapAt rank n m j = (axisOf rank n m.ellipsis j : Nat) ∧ axisOf rank n m.ellipsis j < rank ∨ bit m.ellipsis j = true := by
  by_cases he : bit m.ellipsis j = true
  · exact Or.inr he
  left
  unfold gapAt axisOf
  by_cases ha : (List.range j).any (bit m.ellipsis) = true
  · rw [if_pos ha, if_pos ha]
    obtain ⟨i, hi, hb⟩ := List.any_eq_true.1 ha
    rw [List.mem_range] at hi
    rcases hv.fits with h | ⟨h, _⟩ <;> constructor <;> omega
  · rw [if_neg ha, if_neg ha]
    refine ⟨by simp, ?_⟩
    rcases hv.fits with h | ⟨h, i, hi, hb⟩
    · omega
    · -- the ellipsis is not before `j`, nor at `j`
      have : ¬ i < j := fun hlt => ha (List.any_eq_true.2 ⟨i, List.mem_range.2 hlt, hb⟩)
      have : i ≠ j := fun e => he (e ▸ hb)
      omega

theorem axisOf_inj {m : Masks} {n rank i j : Nat} (hv : ValidSpec m n rank) (_ : i < n) (_ : j < n)
    (hei : bit m.ellipsis i = false) (hej : bit m.ellipsis j = false)
    (h : axisOf rank n m.ellipsis i = axisOf rank n m.ellipsis j) : i = j := by
  unfold axisOf at h
  by_cases hai : (List.range i).any (bit m.ellipsis) = true <;> by_cases haj : (List.range j).any (bit m.ellipsis) = true
  · rw [if_pos hai, if_pos haj] at h
    obtain ⟨a, ha, hb⟩ := List.any_eq_true.1 hai
    rw [List.mem_range] at ha
    obtain ⟨a', ha', hb'⟩ := List.any_eq_true.1 haj
    rw [List.mem_range] at ha'
    rcases hv.fits with h' | ⟨h', _⟩ <;> omega
  · rw [if_pos hai, if_neg haj] at h
    obtain ⟨a, ha, hb⟩ := List.any_eq_true.1 hai
    rw [List.mem_range] at ha
    have h1 : ¬ a < j := fun hlt => haj (List.any_eq_true.2 ⟨a, List.mem_range.2 hlt, hb⟩)
    have h2 : a ≠ j := fun e => by rw [e, hej] at hb; cases hb
    rcases hv.fits with h' | ⟨h', _⟩ <;> omega
  · rw [if_neg hai, if_pos haj] at h
    obtain ⟨a, ha, hb⟩ := List.any_eq_true.1 haj
    rw [List.mem_range] at ha
    have h1 : ¬ a < i := fun hlt => hai (List.any_eq_true.2 ⟨a, List.mem_range.2 hlt, hb⟩)
    have h2 : a ≠ i := fun e => by rw [e, hei] at hb; cases hb
    rcases hv.fits with h' | ⟨h', _⟩ <;> omega
  · rw [if_neg hai, if_neg haj] at h
    exact h

theorem entryOf_some {m : Masks} {n rank i j : Nat} (h : entryOf rank n m.ellipsis i = some j) :
    j < n ∧ bit m.ellipsis j = false ∧ axisOf rank n m.ellipsis j = i := by
  unfold entryOf at h
  have h1 := List.find?_some h
  have h2 := List.mem_of_find?_eq_some h
  simp only [Bool.and_eq_true, Bool.not_eq_true', decide_eq_true_eq] at h1
  exact ⟨List.mem_range.1 h2, h1.1, h1.2⟩

theorem entryOf_axis {m : Masks} {n rank j : Nat} (hv : ValidSpec m n rank) (hj : j < n) (he : bit m.ellipsis j = false) :
    entryOf rank n m.ellipsis (axisOf rank n m.ellipsis j) = some j := by
  cases h : entryOf rank n m.ellipsis (axisOf rank n m.ellipsis j) with
  | none =>
    unfold entryOf at h
    rw [List.find?_eq_none] at h
    have := h j (List.mem_range.2 hj)
    simp [he] at this
  | some k =>
    obtain ⟨h1, h2, h3⟩ := entryOf_some h
    rw [axisOf_inj hv h1 hj h2 he h3]

theorem mem_entries {m : Masks} {n j : Nat} : j ∈ entries m n ↔ j < n ∧ bit m.ellipsis j = false := by
  unfold entries; simp

theorem normAxis_cast (rank a : Nat) : normAxis rank (a : Int) = a := by
  unfold normAxis; rw [if_neg (by omega)]; simp

theorem find?_congr' {β : Type} {p q : β → Bool} {l : List β} (h : ∀ a ∈ l, p a = q a) : l.find? p = l.find? q := by
  induction l with
  | nil => rfl
  | cons a l ih =>
    simp only [List.find?_cons]
    rw [h a (List.mem_cons_self ..), ih (fun b hb => h b (List.mem_cons_of_mem _ hb))]

/-- The parameter of axis `i` in the emitted `Slice`. -/
theorem emitted_param (m : Masks) (M : Int) (rank : Nat) (B E : List Int) (hv : ValidSpec m B.length rank) (i : Nat) :
    let o := outAt rank B.length m M B E B.length
    ((o.axes.zip ((o.starts.zip o.ends).map (fun p => (⟨p.1, p.2, 1⟩ : SliceSpec)))).find?
        (fun p => decide (normAxis rank p.1 = i))).map (·.2) =
      (entryOf rank B.length m.ellipsis i).map (fun j => ⟨startOf m B j, stopOf m M B E j, 1⟩) := by
  intro o
  have hzip : o.axes.zip ((o.starts.zip o.ends).map (fun p => (⟨p.1, p.2, 1⟩ : SliceSpec))) =
      (entries m B.length).map (fun (j : Nat) => ((j : Int) + gapAt rank B.length m j, (⟨startOf m B j, stopOf m M B E j, 1⟩ : SliceSpec))) := by
    simp only [o, outAt]
    generalize entries m B.length = l
    induction l with
    | nil => rfl
    | cons a l ih => simp [ih]
  rw [hzip, List.find?_map, Option.map_map]
  have hf : (entries m B.length).find? ((fun p => decide (normAxis rank p.1 = i)) ∘
      (fun (j : Nat) => ((j : Int) + gapAt rank B.length m j, (⟨startOf m B j, stopOf m M B E j, 1⟩ : SliceSpec)))) =
      entryOf rank B.length m.ellipsis i := by
    unfold entries entryOf
    rw [List.find?_filter]
    apply find?_congr'
    intro j hj
    rw [List.mem_range] at hj
    simp only [Function.comp]
    by_cases he : bit m.ellipsis j = true
    · simp [he]
    · rcases axis_cast hv hj with ⟨h1, h2⟩ | h
      · simp [h1, normAxis_cast]
      · exact absurd h he
  rw [hf]
  rfl

theorem emitted_squeeze (m : Masks) (M : Int) (rank : Nat) (B E : List Int) (hv : ValidSpec m B.length rank) (i : Nat) :
    (outAt rank B.length m M B E B.length).squeeze.any (fun a => decide (normAxis rank a = i)) =
      tfGone m (entryOf rank B.length m.ellipsis i) := by
  rw [Bool.eq_iff_iff, List.any_eq_true]
  simp only [outAt]
  constructor
  · rintro ⟨a, ha, hn⟩
    obtain ⟨j, hj, rfl⟩ := List.mem_map.1 ha
    obtain ⟨hj1, hj2⟩ := List.mem_filter.1 hj
    obtain ⟨hlt, he⟩ := mem_entries.1 hj1
    rcases axis_cast hv hlt with ⟨h1, h2⟩ | h
    · rw [h1, normAxis_cast] at hn
      have hn : axisOf rank B.length m.ellipsis j = i := by simpa using hn
      rw [← hn, entryOf_axis hv hlt he]
      exact hj2
    · rw [he] at h; cases h
  · intro h
    cases hent : entryOf rank B.length m.ellipsis i with
    | none => rw [hent] at h; cases h
    | some j =>
      rw [hent] at h
      obtain ⟨h1, h2, h3⟩ := entryOf_some hent
      refine ⟨_, List.mem_map.2 ⟨j, List.mem_filter.2 ⟨mem_entries.2 ⟨h1, h2⟩, h⟩, rfl⟩, ?_⟩
      rcases axis_cast hv h1 with ⟨h4, _⟩ | h4
      · rw [h4, normAxis_cast, h3]; simp
      · rw [h2] at h4; cases h4

/-! ## One axis -/

/-- What makes the emitted slice of one axis TensorFlow's. -/
structure GoodEntry (m : Masks) (M : Int) (B E : List Int) (d : Nat) (j : Nat) : Prop where
  /-- TensorFlow refuses to take an element outside the axis -/
  shrink : bit m.shrink j = true → -(d : Int) ≤ B.getD j 0 ∧ B.getD j 0 < d
  /-- the case the converter gets wrong -/
  zero : ¬(bit m.shrink j = false ∧ bit m.end_ j = false ∧ B.getD j 0 < 0 ∧ E.getD j 0 = 0)
  size : (d : Int) ≤ M

theorem axis_slice (m : Masks) (M : Int) (B E : List Int) (d j : Nat) (h : GoodEntry m M B E d j) :
    let s : SliceSpec := ⟨startOf m B j, stopOf m M B E j, 1⟩
    s.first d = tfFirst m B d (some j) ∧ s.count d = (tfEnd m B E d (some j) - tfFirst m B d (some j)).toNat := by
  obtain ⟨hsh, hz, hM⟩ := h
  have hb : ∀ p : Int, clampPos d 0 d p = tfPos d p := fun p => rfl
  have hcount : ∀ a b : Int, ((a - b + 1 - 1) / 1).toNat = (a - b).toNat := by
    intro a b; rw [Int.ediv_one]; congr 1; omega
  simp only [SliceSpec.first, SliceSpec.count, SliceSpec.last, show (0 : Int) < 1 by decide, if_true, hcount, hb, startOf,
    stopOf, tfFirst, tfEnd]
  generalize hB : B.getD j 0 = b at *
  generalize hE : E.getD j 0 = e at *
  cases hs : bit m.shrink j with
  | true =>
    have hr := hsh hs
    simp only [if_true]
    unfold tfPos
    constructor
    · split <;> omega
    · by_cases hb1 : b = -1
      · subst hb1
        simp only [ne_eq, not_true_eq_false, if_false]
        split <;> omega
      · simp only [ne_eq, hb1, not_false_eq_true, if_true]
        repeat' split
        all_goals omega
  | false =>
    simp only [Bool.false_eq_true, if_false]
    have hzero : tfPos (d : Int) 0 = 0 := by unfold tfPos; simp
    have hMM : tfPos (d : Int) M = d := by unfold tfPos; rw [if_neg (by omega)]; omega
    have hfirst : tfPos (d : Int) (if bit m.begin_ j = true then 0 else b) = if bit m.begin_ j = true then 0 else tfPos d b := by
      split
      · exact hzero
      · rfl
    refine ⟨hfirst, ?_⟩
    rw [hfirst]
    cases he : bit m.end_ j with
    | true => simp only [if_true]; rw [hMM]
    | false =>
      simp only [Bool.false_eq_true, if_false]
      rw [if_neg (fun hc => hz ⟨hs, he, hc.1, hc.2⟩)]

/-- **C31**: the nodes emitted for a constant unit-stride `StridedSlice` (without new axes) compute TensorFlow's slice,
for every rank, every begin and end, every combination of masks, ellipsis anywhere.
Missing: entries `begin < 0, end = 0` without an end mask (see `strided_slice_negative_zero_violated`). -/
theorem strided_slice_partial {α : Type} (fill : α) (m : Masks) (M : Int) (B E S : List Int) (x : T α)
    (hS : ∀ k, k < B.length → S.getD k 0 = 1) (hv : ValidSpec m B.length x.shape.length)
    (hgood : ∀ i j, i < x.shape.length → entryOf x.shape.length B.length m.ellipsis i = some j → GoodEntry m M B E (nth x.shape i) j) :
    ∃ o, stridedSlice m 0 M x.shape.length B E S = .ok o ∧ Same (o.run fill x) (tfStridedSlice m B E x) := by
  refine ⟨_, stridedSlice_spec m M x.shape.length B E S hS, ?_⟩
  generalize ho : outAt x.shape.length B.length m M B E B.length = o
  have hparam := emitted_param m M x.shape.length B E hv
  have hsq := emitted_squeeze m M x.shape.length B E hv
  rw [ho] at hparam hsq
  simp only at hparam
  -- the slice
  let y := slice fill o.axes ((o.starts.zip o.ends).map (fun p => ⟨p.1, p.2, 1⟩)) x
  have hylen : y.shape.length = x.shape.length := by simp only [y]; rw [slice_shape]; simp
  have hyshape : ∀ i, i < x.shape.length → nth y.shape i =
      (tfEnd m B E (nth x.shape i) (entryOf x.shape.length B.length m.ellipsis i) -
        tfFirst m B (nth x.shape i) (entryOf x.shape.length B.length m.ellipsis i)).toNat := by
    intro i hi
    simp only [y]
    rw [slice_shape, nth_map_range, if_pos hi, hparam i]
    cases he : entryOf x.shape.length B.length m.ellipsis i with
    | none => simp [sliceRule, tfEnd, tfFirst]
    | some j =>
      have := (axis_slice m M B E (nth x.shape i) j (hgood i j hi he)).2
      simp only [Option.map_some, sliceRule]
      exact this
  have hysrc : ∀ i o', i < x.shape.length →
      sliceSrc (((o.axes.zip ((o.starts.zip o.ends).map (fun p => (⟨p.1, p.2, 1⟩ : SliceSpec)))).find?
        (fun p => decide (normAxis x.shape.length p.1 = i))).map (·.2)) (nth x.shape i) o' =
      (tfFirst m B (nth x.shape i) (entryOf x.shape.length B.length m.ellipsis i)).toNat + o' := by
    intro i o' hi
    rw [hparam i]
    cases he : entryOf x.shape.length B.length m.ellipsis i with
    | none => simp [sliceSrc, tfFirst]
    | some j =>
      have hg := hgood i j hi he
      have h1 := (axis_slice m M B E (nth x.shape i) j hg).1
      simp only [Option.map_some, sliceSrc, Int.mul_one]
      rw [h1]
      have hnn : 0 ≤ tfFirst m B (nth x.shape i) (some j) := by
        simp only [tfFirst]
        cases hs : bit m.shrink j with
        | true =>
          have := hg.shrink hs
          simp only [if_true]; split <;> omega
        | false =>
          simp only [Bool.false_eq_true, if_false]
          split
          · omega
          · unfold tfPos; omega
      omega
  -- slice then squeeze gives TensorFlow's slice
  have hmain : Same (squeeze (fun i => o.squeeze.any (fun a => decide (normAxis y.shape.length a = i))) y) (tfStridedSlice m B E x) := by
    have hax : (fun i => o.squeeze.any (fun a => decide (normAxis y.shape.length a = i))) =
        fun i => tfGone m (entryOf x.shape.length B.length m.ellipsis i) := by
      funext i; rw [hylen]; exact hsq i
    rw [hax]
    have hk : keptAxes y.shape.length (fun i => tfGone m (entryOf x.shape.length B.length m.ellipsis i)) =
        (List.range x.shape.length).filter (fun i => !tfGone m (entryOf x.shape.length B.length m.ellipsis i)) := by
      rw [hylen]; rfl
    refine ⟨?_, fun idx hi => ?_⟩
    · simp only [squeeze, hk, tfStridedSlice]
      apply List.map_congr_left
      intro i hi
      exact hyshape i (List.mem_range.1 (List.mem_filter.1 hi).1)
    · simp only [squeeze, hk, tfStridedSlice]
      simp only [y]
      rw [slice_get]
      congr 1
      apply List.map_congr_left
      intro i hi
      rw [List.mem_range] at hi
      rw [hysrc i _ hi]
      congr 1
      have hyl : (slice fill o.axes ((o.starts.zip o.ends).map (fun p => (⟨p.1, p.2, 1⟩ : SliceSpec))) x).shape.length = x.shape.length := hylen
      rw [hyl, nth_map_range, if_pos hi]
  -- the shortcuts
  unfold Emitted.run
  simp only
  have hy' : Same (if o.axes = [] then x else y) y := by
    split
    · rename_i h
      have hz : ((o.starts.zip o.ends).map (fun p => (⟨p.1, p.2, 1⟩ : SliceSpec))) = [] := by
        subst ho
        simp only [outAt, List.map_eq_nil_iff] at h
        simp only [outAt, h]; rfl
      simp only [y]
      rw [h, hz]
      exact slice_nil fill x
    · exact Same.refl y
  by_cases hs : o.squeeze = []
  · rw [if_pos hs]
    refine hy'.trans ?_
    refine (squeeze_none (fun i => o.squeeze.any (fun a => decide (normAxis y.shape.length a = i))) y ?_).trans hmain
    intro i _; rw [hs]; rfl
  · rw [if_neg hs]
    have hne : o.axes ≠ [] := by
      subst ho
      intro h
      apply hs
      simp only [outAt, List.map_eq_nil_iff] at h ⊢
      rw [h]; rfl
    rw [if_neg hne]
    exact hmain

/-! ### Instance and counterexample -/

/-- `x[1, ..., -2:]` on shape `[2, 3, 4]`: begin `[1, 0, -2]`, ellipsis at entry 1, shrink at entry 0, open end at entry 2. -/
example : ∃ o, stridedSlice ⟨0, 4, 2, 1⟩ 0 (2 ^ 31 - 1) 3 [1, 0, -2] [2, 0, 0] [1, 1, 1] = .ok o ∧
    Same (o.run 0 (⟨[2, 3, 4], fun i => 100 * nth i 0 + 10 * nth i 1 + nth i 2⟩ : T Nat))
      (tfStridedSlice ⟨0, 4, 2, 1⟩ [1, 0, -2] [2, 0, 0] ⟨[2, 3, 4], fun i => 100 * nth i 0 + 10 * nth i 1 + nth i 2⟩) := by
  refine strided_slice_partial 0 _ _ _ _ _ ⟨[2, 3, 4], _⟩ (by decide) ⟨?_, Or.inl (by decide)⟩ ?_
  · show ∀ i j, i < 3 → j < 3 → bit 2 i = true → bit 2 j = true → i = j
    have : ∀ i, i < 3 → bit 2 i = true → i = 1 := by decide
    intro i j hi hj h1 h2
    rw [this i hi h1, this j hj h2]
  · intro i j hi he
    have hi : i < 3 := hi
    have : i = 0 ∨ i = 1 ∨ i = 2 := by omega
    rcases this with rfl | rfl | rfl
    · have : j = 0 := by simpa using (Option.some.inj (he.symm.trans (show _ = some 0 from rfl)))
      subst this
      exact ⟨by decide, by decide, by decide⟩
    · cases (he.symm.trans (show _ = none from rfl))
    · have : j = 2 := by simpa using (Option.some.inj (he.symm.trans (show _ = some 2 from rfl)))
      subst this
      exact ⟨by decide, by decide, by decide⟩

/-- C31 fails for `begin < 0`, `end = 0` without an end mask: TensorFlow's result is empty, the emitted nodes return the
last `-begin` elements, for every length. -/
theorem strided_slice_negative_zero_violated {α : Type} (fill : α) (b : Int) (d : Nat) (M : Int) (x : T α)
    (hx : x.shape = [d]) (hb : b < 0) (hbd : -(d : Int) ≤ b) (hM : (d : Int) ≤ M) :
    (tfStridedSlice ⟨0, 0, 0, 0⟩ [b] [0] x).shape = [0] ∧
    ∃ o, stridedSlice ⟨0, 0, 0, 0⟩ 0 M 1 [b] [0] [1] = .ok o ∧ (o.run fill x).shape = [(-b).toNat] := by
  constructor
  · simp [tfStridedSlice, hx, entryOf, bit, axisOf, tfGone, tfEnd, tfFirst, tfPos, nth]
  · refine ⟨⟨[0], [b], [M], []⟩, ?_, ?_⟩
    · simp [stridedSlice, loop, bit, stepAxis, hb, Except.map]
    · simp only [Emitted.run, if_true]
      rw [if_neg (by simp), slice_shape, hx]
      simp [normAxis, sliceRule, SliceSpec.count, SliceSpec.last, SliceSpec.first, clampPos, nth, hb]
      omega

/-! ## C32: `tf.slice` -/

/-- `tf.slice(x, begin, size)`: along axis `i`, `size[i]` elements from `begin[i]`; `-1` means all the rest. -/
def tfSlice {α : Type} (B S : List Int) (x : T α) : T α :=
  { shape := (List.range x.shape.length).map (fun i =>
      if S.getD i 0 = -1 then nth x.shape i - (B.getD i 0).toNat else (S.getD i 0).toNat)
    get := fun idx => x.get ((List.range x.shape.length).map (fun i => (B.getD i 0).toNat + nth idx i)) }

/-- What TensorFlow accepts: one entry per axis, inside the axis. -/
structure SliceOk (B S : List Int) (shape : List Nat) : Prop where
  lenB : B.length = shape.length
  lenS : S.length = shape.length
  first : ∀ i, i < shape.length → 0 ≤ B.getD i 0 ∧ B.getD i 0 ≤ nth shape i
  size : ∀ i, i < shape.length → S.getD i 0 = -1 ∨ (0 ≤ S.getD i 0 ∧ B.getD i 0 + S.getD i 0 ≤ nth shape i)

theorem find?_zip_range {γ : Type} (n i : Nat) (l : List γ) (hl : l.length = n) (hi : i < n) :
    ((((List.range n).map (fun (j : Nat) => (j : Int))).zip l).find? (fun p => decide (normAxis n p.1 = i))).map (·.2) =
      some (l[i]'(hl ▸ hi)) := by
  have key : ∀ (k m : Nat) (l : List γ) (hl : l.length = m) (hki : k ≤ i) (him : i < k + m),
      ((((List.range' k m).map (fun (j : Nat) => (j : Int))).zip l).find? (fun p => decide (normAxis n p.1 = i))).map (·.2) =
        l[i - k]? := by
    intro k m
    induction m generalizing k with
    | zero => intro l hl hki him; omega
    | succ m ih =>
      intro l hl hki him
      cases l with
      | nil => cases hl
      | cons a l =>
        simp only [List.range'_succ, List.map_cons, List.zip_cons_cons, List.find?_cons]
        rw [show normAxis n (k : Int) = k from normAxis_cast n k]
        by_cases hk : k = i
        · subst hk; simp
        · simp only [hk, decide_false]
          rw [ih (k + 1) l (by simpa using hl) (by omega) (by omega)]
          rw [show i - k = (i - (k + 1)) + 1 by omega]
          rfl
  have := key 0 n l hl (Nat.zero_le _) (by omega)
  rw [List.range_eq_range', this]
  simp [hl, hi]

/-- What the emitted `Slice` needs to be TensorFlow's: ends that select the same range. -/
theorem runSlice_same {α : Type} (fill : α) (B S En : List Int) (x : T α) (hok : SliceOk B S x.shape)
    (hlen : En.length = x.shape.length)
    (hE : ∀ i, i < x.shape.length →
      if S.getD i 0 = -1 then (nth x.shape i : Int) ≤ En.getD i 0 else En.getD i 0 = B.getD i 0 + S.getD i 0) :
    Same (runSlice fill B En x) (tfSlice B S x) := by
  obtain ⟨hB, hS, hf, hs⟩ := hok
  have hp : ∀ i, i < x.shape.length →
      ((((List.range B.length).map (fun (j : Nat) => (j : Int))).zip ((B.zip En).map (fun p => (⟨p.1, p.2, 1⟩ : SliceSpec)))).find?
        (fun p => decide (normAxis x.shape.length p.1 = i))).map (·.2) = some ⟨B.getD i 0, En.getD i 0, 1⟩ := by
    intro i hi
    rw [hB]
    rw [find?_zip_range x.shape.length i _ (by simp [hB, hlen]) hi]
    simp [hB, hlen, hi]
  have hax : ∀ i, i < x.shape.length →
      (⟨B.getD i 0, En.getD i 0, 1⟩ : SliceSpec).first (nth x.shape i) = B.getD i 0 ∧
      (⟨B.getD i 0, En.getD i 0, 1⟩ : SliceSpec).count (nth x.shape i) =
        if S.getD i 0 = -1 then nth x.shape i - (B.getD i 0).toNat else (S.getD i 0).toNat := by
    intro i hi
    have h1 := hf i hi
    have h2 := hs i hi
    have h3 := hE i hi
    generalize B.getD i 0 = b at *
    generalize S.getD i 0 = s at *
    generalize En.getD i 0 = e at *
    generalize nth x.shape i = d at *
    simp only [SliceSpec.first, SliceSpec.count, SliceSpec.last, show (0 : Int) < 1 by decide, if_true, clampPos, Int.ediv_one]
    constructor
    · rw [if_neg (by omega)]; omega
    · by_cases hm : s = -1
      · rw [if_pos hm] at h3 ⊢
        rw [if_neg (by omega), if_neg (by omega)]; omega
      · rw [if_neg hm] at h3 ⊢
        rw [if_neg (by omega), if_neg (by omega)]; omega
  refine ⟨?_, fun idx hi => ?_⟩
  · unfold runSlice
    rw [slice_shape]
    apply List.map_congr_left
    intro i hi
    rw [List.mem_range] at hi
    rw [hp i hi]
    exact (hax i hi).2
  · unfold runSlice
    rw [slice_get]
    show x.get _ = x.get _
    congr 1
    apply List.map_congr_left
    intro i hi
    rw [List.mem_range] at hi
    rw [hp i hi]
    simp only [sliceSrc, (hax i hi).1]
    have := hf i hi
    omega

/-- **C32**, constant `begin` and `size`: the emitted `Slice` is TensorFlow's, for every rank, begin and size. -/
theorem slice_static {α : Type} (fill : α) (B S : List Int) (x : T α) (hok : SliceOk B S x.shape)
    (hd : ∀ i, i < x.shape.length → (nth x.shape i : Int) ≤ 2 ^ 63 - 1) :
    Same (runSlice fill B (sliceEnds B S) x) (tfSlice B S x) := by
  have hl : (sliceEnds B S).length = x.shape.length := by simp [sliceEnds, hok.lenB, hok.lenS]
  refine runSlice_same fill B S _ x hok hl (fun i hi => ?_)
  have hg : (sliceEnds B S).getD i 0 = if S.getD i 0 = -1 then 2 ^ 63 - 1 else B.getD i 0 + S.getD i 0 := by
    have h1 : i < B.length := by rw [hok.lenB]; exact hi
    have h2 : i < S.length := by rw [hok.lenS]; exact hi
    simp [sliceEnds, h1, h2]
  rw [hg]
  split
  · exact hd i hi
  · rfl

/-- The wrap-around does nothing to integers in range. -/
theorem wrap_id {bits : Nat} {i : Int} (hb : 0 < bits) (h1 : -2 ^ (bits - 1) ≤ i) (h2 : i < 2 ^ (bits - 1)) : wrap bits i = i := by
  unfold wrap
  have : (2 : Int) ^ bits = 2 * 2 ^ (bits - 1) := by
    conv_lhs => rw [show bits = (bits - 1) + 1 by omega]
    rw [Int.pow_succ]; omega
  rw [Int.emod_eq_of_lt (by omega) (by omega)]
  omega

/-- **C32**, `begin` or `size` computed at run time: TensorFlow's slice, as long as every `-1` comes with a begin of at most 1.
Missing: `-1` with a larger begin (see `slice_dynamic_violated`). -/
theorem slice_dynamic_partial {α : Type} (fill : α) (bits : Nat) (hbits : 2 ≤ bits) (B S : List Int) (x : T α)
    (hok : SliceOk B S x.shape) (hd : ∀ i, i < x.shape.length → (nth x.shape i : Int) < 2 ^ (bits - 1) - 1)
    (hone : ∀ i, i < x.shape.length → S.getD i 0 = -1 → B.getD i 0 ≤ 1) :
    Same (runSlice fill B (dynamicEnds bits B S) x) (tfSlice B S x) := by
  have hl : (dynamicEnds bits B S).length = x.shape.length := by simp [dynamicEnds, hok.lenB, hok.lenS]
  refine runSlice_same fill B S _ x hok hl (fun i hi => ?_)
  have hg : (dynamicEnds bits B S).getD i 0 =
      wrap bits (B.getD i 0 + wrap bits (S.getD i 0 + wrap bits ((2 ^ (bits - 1) - 1) * (if S.getD i 0 = -1 then 1 else 0)))) := by
    have h1 : i < B.length := by rw [hok.lenB]; exact hi
    have h2 : i < S.length := by rw [hok.lenS]; exact hi
    simp [dynamicEnds, h1, h2]
  have h1 := hok.first i hi
  have h2 := hok.size i hi
  have h3 := hd i hi
  have h4 := hone i hi
  rw [hg]
  generalize B.getD i 0 = b at *
  generalize S.getD i 0 = s at *
  generalize nth x.shape i = d at *
  have hpos : (2 : Int) ^ (bits - 1) = 2 * 2 ^ (bits - 2) := by
    rw [show bits - 1 = (bits - 2) + 1 by omega, Int.pow_succ]; omega
  have hp2 : (0 : Int) < 2 ^ (bits - 2) := Int.pow_pos (by decide)
  generalize hP : (2 : Int) ^ (bits - 1) = P at *
  have hw : ∀ j : Int, -P ≤ j → j < P → wrap bits j = j := fun j a b => wrap_id (by omega) (by rw [hP]; exact a) (by rw [hP]; exact b)
  by_cases hs : s = -1
  · have hb := h4 hs
    subst hs
    simp only [if_true, Int.mul_one]
    rw [hw (P - 1) (by omega) (by omega), hw (-1 + (P - 1)) (by omega) (by omega), hw _ (by omega) (by omega)]
    omega
  · rcases h2 with h2 | h2
    · exact absurd h2 hs
    simp only [hs, if_false, Int.mul_zero]
    rw [hw 0 (by omega) (by omega), Int.add_zero, hw s (by omega) (by omega), hw _ (by omega) (by omega)]

/-- C32 fails when `begin` or `size` is computed at run time: with `size = -1` and `begin ≥ 2` the computed end wraps around to
a negative number, and the result is empty instead of the rest of the axis — for 32- and 64-bit integers and any
axis shorter than a quarter of the range. -/
theorem slice_dynamic_violated {α : Type} (fill : α) (bits : Nat) (hbits : 4 ≤ bits) (b : Int) (d : Nat) (x : T α)
    (hx : x.shape = [d]) (hb : 2 ≤ b) (hbd : b < d) (hd : (d : Int) < 2 ^ (bits - 2)) :
    (tfSlice [b] [-1] x).shape = [(d - b).toNat] ∧ 0 < (d - b).toNat ∧
    (runSlice fill [b] (dynamicEnds bits [b] [-1]) x).shape = [0] := by
  refine ⟨?_, by omega, ?_⟩
  · simp [tfSlice, hx, nth]; omega
  · have hpos : (2 : Int) ^ (bits - 1) = 2 * 2 ^ (bits - 2) := by
      rw [show bits - 1 = (bits - 2) + 1 by omega, Int.pow_succ]; omega
    have hbb : (2 : Int) ^ bits = 2 * 2 ^ (bits - 1) := by
      conv_lhs => rw [show bits = (bits - 1) + 1 by omega]
      rw [Int.pow_succ]; omega
    have he : dynamicEnds bits [b] [-1] = [b - 2 - 2 ^ (bits - 1)] := by
      simp only [dynamicEnds, List.zip_cons_cons, List.zip_nil_right, List.map_cons, List.map_nil, if_true, Int.mul_one]
      rw [wrap_id (i := 2 ^ (bits - 1) - 1) (by omega) (by omega) (by omega),
        wrap_id (i := -1 + (2 ^ (bits - 1) - 1)) (by omega) (by omega) (by omega)]
      unfold wrap
      congr 1
      have : b + (-1 + (2 ^ (bits - 1) - 1)) + 2 ^ (bits - 1) = (b - 2) + 2 ^ bits * 1 := by omega
      rw [this, Int.add_mul_emod_self_left, Int.emod_eq_of_lt (by omega) (by omega)]
    rw [he]
    unfold runSlice
    rw [slice_shape, hx]
    simp [normAxis, sliceRule, SliceSpec.count, SliceSpec.last, SliceSpec.first, clampPos, nth]
    rw [if_pos (by omega), if_neg (by omega)]
    omega

example : ∃ x : T Nat, x.shape = [5, 7] ∧ Same (runSlice 0 [1, 2] (sliceEnds [1, 2] [-1, 3]) x) (tfSlice [1, 2] [-1, 3] x) := by
  refine ⟨⟨[5, 7], fun i => 10 * nth i 0 + nth i 1⟩, rfl, slice_static 0 _ _ _ ⟨rfl, rfl, ?_, ?_⟩ ?_⟩
  · show ∀ i, i < 2 → _
    intro i hi
    have : i = 0 ∨ i = 1 := by omega
    rcases this with rfl | rfl <;> decide
  · show ∀ i, i < 2 → _
    intro i hi
    have : i = 0 ∨ i = 1 := by omega
    rcases this with rfl | rfl <;> decide
  · show ∀ i, i < 2 → _
    intro i hi
    have : i = 0 ∨ i = 1 := by omega
    rcases this with rfl | rfl <;> decide

/-- The hypotheses of `slice_dynamic_partial` are met by `tf.slice(x, [1], [-1])` with 32-bit integers. -/
example : Same (runSlice 0 [1] (dynamicEnds 32 [1] [-1]) (⟨[5], fun i => nth i 0⟩ : T Nat)) (tfSlice [1] [-1] ⟨[5], fun i => nth i 0⟩) := by
  refine slice_dynamic_partial 0 32 (by decide) _ _ _ ⟨rfl, rfl, ?_, ?_⟩ ?_ ?_
  all_goals
    show ∀ i, i < 1 → _
    intro i hi
    obtain rfl : i = 0 := by omega
    decide

/-! ## C33: `tf.roll` -/

/-- The total shift of axis `i` (TensorFlow adds up the shifts of an axis given more than once). -/
def totalShift (ps : List (Nat × Int)) (i : Nat) : Int := ((ps.filter (fun p => decide (p.1 = i))).map (·.2)).sum

/-- `tf.roll`: element `idx` comes from `(idx[i] - shift of axis i) mod length of axis i`. -/
def tfRoll {α : Type} (ps : List (Nat × Int)) (x : T α) : T α :=
  { shape := x.shape
    get := fun idx => x.get ((List.range x.shape.length).map (fun i => ((nth idx i - totalShift ps i) % nth x.shape i).toNat)) }

theorem slice_one_shape {α : Type} (fill : α) (a : Nat) (sp : SliceSpec) (y : T α) :
    (slice fill [(a : Int)] [sp] y).shape =
      (List.range y.shape.length).map (fun i => if a = i then sp.count (nth y.shape i) else nth y.shape i) := by
  rw [slice_shape]
  apply List.map_congr_left
  intro i _
  by_cases h : a = i
  · simp [normAxis_cast, h, sliceRule]
  · simp [normAxis_cast, h, sliceRule]

theorem slice_one_get {α : Type} (fill : α) (a : Nat) (sp : SliceSpec) (y : T α) (idx : List Nat) :
    (slice fill [(a : Int)] [sp] y).get idx =
      y.get ((List.range y.shape.length).map (fun i =>
        if a = i then (sp.first (nth y.shape i) + nth idx i * sp.step).toNat else nth idx i)) := by
  rw [slice_get]
  congr 1
  apply List.map_congr_left
  intro i _
  by_cases h : a = i
  · simp [normAxis_cast, h, sliceSrc]
  · simp [normAxis_cast, h, sliceSrc]

theorem nth_setAt {l : List Nat} {a k i : Nat} (h : a < l.length) : nth (setAt l a k) i = if i = a then k else nth l i := by
  unfold nth setAt
  by_cases hi : i = a
  · subst hi; simp [List.getD, h]
  · rw [if_neg hi]
    simp [List.getD, List.getElem?_set_ne (Ne.symm hi)]

theorem mod_sub_shift (k s d : Int) (hd : 0 < d) (hk0 : 0 ≤ k) (hk : k < d) :
    (k - s) % d = if k < s % d then d - s % d + k else k - s % d := by
  have h1 := Int.emod_nonneg s (Int.ne_of_gt hd)
  have h2 := Int.emod_lt_of_pos s hd
  have h3 : (k - s) % d = (k - s % d) % d := by rw [Int.sub_emod, Int.sub_emod k (s % d), Int.emod_emod]
  rw [h3]
  split
  · rw [show k - s % d = (d - s % d + k) + d * (-1) by omega, Int.add_mul_emod_self_left]
    exact Int.emod_eq_of_lt (by omega) (by omega)
  · exact Int.emod_eq_of_lt (by omega) (by omega)

theorem rollAxis_get {α : Type} (fill : α) (a : Nat) (s : Int) (y : T α) (ha : a < y.shape.length) (hd : 0 < nth y.shape a) :
    (rollAxis fill a s y y.shape).shape = y.shape ∧ ∀ idx, InB y.shape idx → (rollAxis fill a s y y.shape).get idx =
      y.get (setAt idx a ((nth idx a - s) % nth y.shape a).toNat) := by
  have hdpos : (0 : Int) < nth y.shape a := by omega
  have hm : Int.fmod s (nth y.shape a) = s % nth y.shape a := Int.fmod_eq_emod_of_nonneg _ (by omega)
  have h1 := Int.emod_nonneg s (Int.ne_of_gt hdpos)
  have h2 := Int.emod_lt_of_pos s hdpos
  have hc1 : (⟨0, nth y.shape a - s % nth y.shape a, 1⟩ : SliceSpec).count (nth y.shape a) = (nth y.shape a - s % nth y.shape a).toNat := by
    simp only [SliceSpec.first, SliceSpec.count, SliceSpec.last, show (0 : Int) < 1 by decide, if_true, clampPos, Int.ediv_one]
    rw [if_neg (by omega), if_neg (by omega)]; omega
  have hc2 : (⟨nth y.shape a - s % nth y.shape a, nth y.shape a, 1⟩ : SliceSpec).count (nth y.shape a) = (s % nth y.shape a).toNat := by
    simp only [SliceSpec.first, SliceSpec.count, SliceSpec.last, show (0 : Int) < 1 by decide, if_true, clampPos, Int.ediv_one]
    rw [if_neg (by omega), if_neg (by omega)]; omega
  have hf1 : (⟨0, nth y.shape a - s % nth y.shape a, 1⟩ : SliceSpec).first (nth y.shape a) = 0 := by
    simp only [SliceSpec.first, show (0 : Int) < 1 by decide, if_true, clampPos]
    rw [if_neg (by omega)]; omega
  have hf2 : (⟨nth y.shape a - s % nth y.shape a, nth y.shape a, 1⟩ : SliceSpec).first (nth y.shape a) = nth y.shape a - s % nth y.shape a := by
    simp only [SliceSpec.first, show (0 : Int) < 1 by decide, if_true, clampPos]
    rw [if_neg (by omega)]; omega
  have hs2 : nth (slice fill [(a : Int)] [⟨nth y.shape a - s % nth y.shape a, nth y.shape a, 1⟩] y).shape a = (s % nth y.shape a).toNat := by
    rw [slice_one_shape, nth_map_range, if_pos ha, if_pos rfl, hc2]
  have hs1 : nth (slice fill [(a : Int)] [⟨0, nth y.shape a - s % nth y.shape a, 1⟩] y).shape a = (nth y.shape a - s % nth y.shape a).toNat := by
    rw [slice_one_shape, nth_map_range, if_pos ha, if_pos rfl, hc1]
  unfold rollAxis
  simp only [hm]
  constructor
  · show setAt _ a _ = _
    apply ext_nth
    · simp [setAt, slice_one_shape]
    · intro i hi
      have hi : i < y.shape.length := by simpa [setAt, slice_one_shape] using hi
      rw [nth_setAt (by simpa [slice_one_shape] using ha)]
      by_cases hia : i = a
      · subst hia
        simp only [if_true, List.map_cons, List.map_nil, List.sum_cons, List.sum_nil, hs1, hs2]
        omega
      · rw [if_neg hia]
        show nth (slice fill _ _ y).shape i = _
        rw [slice_one_shape, nth_map_range, if_pos hi, if_neg (Ne.symm hia)]
  · intro idx hidx
    have hk := hidx.2 a ha
    show concatGet fill a _ idx = _
    rw [mod_sub_shift _ s _ hdpos (by omega) (by omega)]
    simp only [concatGet, hs2, hs1]
    have hal : a < idx.length := by rw [hidx.1]; exact ha
    by_cases hlt : nth idx a < (s % nth y.shape a).toNat
    · rw [if_pos hlt, if_pos (by omega), slice_one_get]
      congr 1
      apply ext_nth
      · simp [setAt, hidx.1]
      · intro i hi
        have hi : i < y.shape.length := by simpa using hi
        rw [nth_map_range, if_pos hi, nth_setAt hal]
        by_cases hia : a = i
        · subst hia; simp only [if_true, hf2, Int.mul_one]
        · rw [if_neg hia, if_neg (Ne.symm hia)]
    · rw [if_neg hlt, nth_setAt hal, if_pos rfl, if_pos (show nth idx a - (s % nth y.shape a).toNat < (nth y.shape a - s % nth y.shape a).toNat by omega),
        if_neg (show ¬ (nth idx a : Int) < s % nth y.shape a by omega), slice_one_get]
      congr 1
      apply ext_nth
      · simp [setAt, hidx.1]
      · intro i hi
        have hi : i < y.shape.length := by simpa using hi
        rw [nth_map_range, if_pos hi, nth_setAt hal, nth_setAt hal]
        by_cases hia : a = i
        · subst hia; simp only [if_true, hf1, Int.mul_one]; omega
        · rw [if_neg hia, if_neg (Ne.symm hia), if_neg (Ne.symm hia)]

theorem totalShift_append (ps : List (Nat × Int)) (a : Nat) (s : Int) (i : Nat) :
    totalShift (ps ++ [(a, s)]) i = totalShift ps i + if a = i then s else 0 := by
  unfold totalShift
  rw [List.filter_append]
  by_cases h : a = i <;> simp [h]

theorem rollAxis_step {α : Type} (fill : α) (a : Nat) (s : Int) (acc : List (Nat × Int)) (x y : T α) (ha : a < x.shape.length)
    (hd : 0 < nth x.shape a) (h : Same y (tfRoll acc x)) :
    Same (rollAxis fill a s y x.shape) (tfRoll (acc ++ [(a, s)]) x) := by
  have hys : y.shape = x.shape := h.1
  obtain ⟨h1, h2⟩ := rollAxis_get fill a s y (hys ▸ ha) (hys ▸ hd)
  rw [hys] at h1 h2
  refine ⟨h1, fun idx hi => ?_⟩
  rw [h1] at hi
  rw [h2 idx hi]
  have hal : a < idx.length := by rw [hi.1]; exact ha
  have hdpos : (0 : Int) < nth x.shape a := by omega
  have hin : InB y.shape (setAt idx a ((nth idx a - s) % nth x.shape a).toNat) := by
    rw [hys]
    refine ⟨by simp [setAt, hi.1], fun i hi' => ?_⟩
    rw [nth_setAt hal]
    split
    · rename_i h; subst h
      have h1 := Int.emod_nonneg (nth idx i - s) (Int.ne_of_gt hdpos)
      have h2 := Int.emod_lt_of_pos (nth idx i - s) hdpos
      omega
    · exact hi.2 i hi'
  rw [h.2 _ hin]
  show x.get _ = x.get _
  congr 1
  apply List.map_congr_left
  intro i hi'
  rw [List.mem_range] at hi'
  rw [nth_setAt hal, totalShift_append]
  by_cases hia : i = a
  · subst hia
    rw [if_pos rfl, if_pos rfl]
    have h1 := Int.emod_nonneg (nth idx i - s) (Int.ne_of_gt hdpos)
    rw [Int.toNat_of_nonneg h1, Int.emod_sub_emod]
    congr 2; omega
  · rw [if_neg hia, if_neg (Ne.symm hia), Int.add_zero]

theorem tfRoll_nil {α : Type} (x : T α) : Same x (tfRoll [] x) := by
  refine ⟨rfl, fun idx hi => ?_⟩
  show _ = x.get _
  congr 1
  apply ext_nth
  · simp [hi.1]
  · intro i hi'
    rw [hi.1] at hi'
    have := hi.2 i hi'
    rw [nth_map_range, if_pos hi']
    rw [Int.emod_eq_of_lt (by simp [totalShift]) (by simp [totalShift]; omega)]
    simp [totalShift]

/-- **C33**: the nodes emitted for `tf.roll` rotate: `output[i] = input[(i - shift) mod n]` along every given axis, for every rank,
list of axes (negative ones count from the back, repeated ones add up) and shifts (negative, or larger than the axis),
as long as the rolled axes are not empty. -/
theorem roll_rotates {α : Type} (fill : α) (axes : List Int) (shifts : List Int) (x : T α)
    (hax : ∀ a ∈ axes, -(x.shape.length : Int) ≤ a ∧ a < x.shape.length)
    (hd : ∀ a ∈ axes, 0 < nth x.shape (normAxis x.shape.length a)) :
    Same (roll fill axes shifts x) (tfRoll ((axes.map (normAxis x.shape.length)).zip shifts) x) := by
  have key : ∀ (ps acc : List (Nat × Int)) (y : T α), (∀ p ∈ ps, p.1 < x.shape.length ∧ 0 < nth x.shape p.1) →
      Same y (tfRoll acc x) → Same (ps.foldl (fun d p => rollAxis fill p.1 p.2 d x.shape) y) (tfRoll (acc ++ ps) x) := by
    intro ps
    induction ps with
    | nil => intro acc y _ h; simpa using h
    | cons p ps ih =>
      intro acc y hp h
      rw [List.foldl_cons]
      have := ih (acc ++ [p]) _ (fun q hq => hp q (List.mem_cons_of_mem _ hq))
        (rollAxis_step fill p.1 p.2 acc x y (hp p (List.mem_cons_self ..)).1 (hp p (List.mem_cons_self ..)).2 h)
      simpa using this
  have hmap : axes.map (fun (a : Int) => (if a ≥ 0 then a else a + (x.shape.length : Int)).toNat) = axes.map (normAxis x.shape.length) := by
    apply List.map_congr_left
    intro a _
    unfold normAxis
    by_cases h : a < 0
    · rw [if_neg (by omega), if_pos h]
    · rw [if_pos (by omega), if_neg h]
  unfold roll
  rw [hmap]
  refine key _ [] x (fun p hp => ?_) (tfRoll_nil x)
  have := (List.of_mem_zip hp).1
  obtain ⟨a, ha, hpa⟩ := List.mem_map.1 this
  rw [← hpa]
  refine ⟨?_, hd a ha⟩
  have := hax a ha
  unfold normAxis
  split <;> omega

example : Same (roll 0 [-1, 0, 1] [7, -1, 1] (⟨[2, 3], fun i => 10 * nth i 0 + nth i 1⟩ : T Nat))
    (tfRoll [(1, 7), (0, -1), (1, 1)] ⟨[2, 3], fun i => 10 * nth i 0 + nth i 1⟩) :=
  roll_rotates 0 [-1, 0, 1] [7, -1, 1] _ (by decide) (by decide)

/-- A rolled element, computed: `tf.roll([0, 1, 2, 3, 4], 2)` starts with 3. -/
example : (roll 0 [0] [2] (⟨[5], fun i => nth i 0⟩ : T Nat)).get [0] = 3 := rfl

/-! ## C35: `SplitV` -/

theorem sum_split (l : List Int) (v : Int) (h : (l.filter (fun i => decide (i = -1))).length = 1) (hn : ∀ i ∈ l, i = -1 ∨ 0 ≤ i) :
    (l.map (fun i => if i = -1 then v else i)).sum = v + (l.filter (fun i => 0 ≤ i)).sum := by
  have key : ∀ l : List Int, (∀ i ∈ l, i = -1 ∨ 0 ≤ i) →
      (l.map (fun i => if i = -1 then v else i)).sum =
        v * ((l.filter (fun i => decide (i = -1))).length : Int) + (l.filter (fun i => 0 ≤ i)).sum := by
    intro l hn
    induction l with
    | nil => simp
    | cons a l ih =>
      have := ih (fun i hi => hn i (List.mem_cons_of_mem _ hi))
      rcases hn a (List.mem_cons_self ..) with h | h
      · subst h
        simp only [List.map_cons, if_true, List.sum_cons, this, List.filter_cons, decide_true, List.length_cons]
        simp only [show ¬ (0 : Int) ≤ -1 by decide, decide_false, Bool.false_eq_true, if_false]
        rw [Int.natCast_add, Int.mul_add]
        simp only [Int.natCast_one, Int.mul_one]; omega
      · have hne : a ≠ -1 := by omega
        simp only [List.map_cons, hne, if_false, List.sum_cons, this, List.filter_cons, decide_false, Bool.false_eq_true, h,
          decide_true, if_true]
        omega
  rw [key l hn, h]; simp

/-- **C35**: for a split vector TensorFlow accepts on an axis of known length `d` (at most one `-1`, the rest non-negative,
adding up to `d`, or to at most `d` with the `-1`), the emitted sizes are non-negative, keep every explicit size in place,
and add up to `d`. -/
theorem splitv_sizes (shape : List Int) (split : List Int) (axis : Int) (d : Nat)
    (hd : shape.getD (normAxis shape.length axis) 0 = d) (hn : ∀ i ∈ split, i = -1 ∨ 0 ≤ i)
    (hone : (split.filter (fun i => decide (i = -1))).length ≤ 1)
    (hsum : if (-1) ∈ split then (split.filter (fun i => 0 ≤ i)).sum ≤ d else split.sum = d) :
    (splitSizes shape split axis).length = split.length ∧
    (∀ i, i < split.length → split.getD i 0 ≠ -1 → (splitSizes shape split axis).getD i 0 = split.getD i 0) ∧
    (∀ s ∈ splitSizes shape split axis, 0 ≤ s) ∧ (splitSizes shape split axis).sum = d := by
  unfold splitSizes
  by_cases h : (-1) ∈ split
  · simp only [h, if_true, hd] at hsum ⊢
    refine ⟨by simp, fun i hi hne => ?_, fun s hs => ?_, ?_⟩
    · have : split[i] ≠ -1 := by simpa [List.getD, hi] using hne
      simp [hi, this]
    · obtain ⟨v, hv, rfl⟩ := List.mem_map.1 hs
      split
      · omega
      · rcases hn v hv with h' | h'
        · contradiction
        · exact h'
    · have hl : (split.filter (fun i => decide (i = -1))).length = 1 := by
        have : 0 < (split.filter (fun i => decide (i = -1))).length := List.length_pos_of_mem (List.mem_filter.2 ⟨h, by simp⟩)
        omega
      rw [sum_split split _ hl hn]; omega
  · simp only [h, if_false] at hsum ⊢
    refine ⟨trivial, fun _ _ _ => trivial, fun s hs => ?_, hsum⟩
    rcases hn s hs with h' | h'
    · exact absurd (h' ▸ hs) h
    · exact h'

/-- The hypotheses of `splitv_sizes` are met by `tf.split` of an axis of length 10 into `[2, -1, 3]`. -/
example : (splitSizes [4, 10] [2, -1, 3] 1).sum = 10 :=
  (splitv_sizes [4, 10] [2, -1, 3] 1 10 (by decide) (by decide) (by decide) (by decide)).2.2.2

example : splitSizes [4, 10] [2, -1, 3] 1 = [2, 5, 3] ∧ splitSizes [4, 10] [2, -1, 3] (-1) = [2, 5, 3] := ⟨rfl, rfl⟩

/-- C35 fails when the length of the axis is not known at conversion time (`-1` in the shape): a negative size is written into
the model, and no error is raised. -/
theorem splitv_unknown_violated (shape split : List Int) (axis : Int)
    (hd : shape.getD (normAxis shape.length axis) 0 = -1) (h : (-1) ∈ split) :
    ∃ s ∈ splitSizes shape split axis, s < 0 := by
  unfold splitSizes
  simp only [h, if_true, hd]
  refine ⟨_, List.mem_map.2 ⟨-1, h, rfl⟩, ?_⟩
  have : 0 ≤ (split.filter (fun i => 0 ≤ i)).sum := by
    have : ∀ l : List Int, (∀ i ∈ l, 0 ≤ i) → 0 ≤ l.sum := by
      intro l hl
      induction l with
      | nil => simp
      | cons a l ih =>
        have h1 := hl a (List.mem_cons_self ..)
        have h2 := ih (fun i hi => hl i (List.mem_cons_of_mem _ hi))
        simp only [List.sum_cons]; omega
    apply this
    intro i hi
    simpa using (List.mem_filter.1 hi).2
  simp only [if_true]
  omega

end Verif.SliceOps
