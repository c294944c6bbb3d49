import Verif.Spec.TensorOps
import Verif.Props.C16_Transpose
/-!
# C19: moving a transpose across an operator

Each theorem: the operator applied to the transposed tensor is the transpose of the operator, with the attributes the
handler computes, applied to the tensor itself; for every element type, rank, shape and permutation.
-/
namespace Verif.TransposeOpt
open Verif.Tensor

/-! ## Helpers -/

theorem pyIdx_eq (perm : List Nat) (a : Int) : pyIdx perm a = nth perm (normAxis perm.length a) := rfl

/-- An axis attribute that is valid for rank `r`. -/
def ValidAxis (r : Nat) (a : Int) : Prop := -(r : Int) ≤ a ∧ a < r

theorem normAxis_lt {r : Nat} {a : Int} (h : ValidAxis r a) : normAxis r a < r := by
  unfold normAxis ValidAxis at *
  split <;> omega

theorem normAxis_ofNat (r k : Nat) : normAxis r (k : Int) = k := by
  unfold normAxis
  rw [if_neg (by omega)]
  simp

theorem getD_map {α β : Type} (f : α → β) (l : List α) (i : Nat) (d : α) (e : β) (h : i < l.length) :
    (l.map f).getD i e = f (l.getD i d) := by simp [List.getD, h]

theorem getD_append_left {α : Type} (l m : List α) (i : Nat) (d : α) (h : i < l.length) :
    (l ++ m).getD i d = l.getD i d := by simp [List.getD, List.getElem?_append_left h]

theorem getD_append_right' {α : Type} (l m : List α) (i : Nat) (d : α) (h : l.length ≤ i) :
    (l ++ m).getD i d = m.getD (i - l.length) d := by simp [List.getD, List.getElem?_append_right h]

theorem nth_setAt_self {l : List Nat} {a k : Nat} (h : a < l.length) : nth (setAt l a k) a = k := by
  simp [setAt, nth, h]

theorem nth_setAt_ne {l : List Nat} {a k i : Nat} (h : a ≠ i) : nth (setAt l a k) i = nth l i := by
  simp only [setAt, nth, List.getD_eq_getElem?_getD]
  rw [List.getElem?_set_ne h]

/-! ## Axis-by-axis operators -/

/-- Moving a transpose across an operator that treats every axis on its own: axis `perm[i]` gets the parameter of
axis `i`. -/
theorem push_axisOp {α P : Type} (R : AxisRule P) (fill : α) (par par' : Nat → P) (perm : List Nat) (x : T α)
    (hp : IsPerm perm) (hl : x.shape.length = perm.length)
    (hpar : ∀ i, i < perm.length → par' (nth perm i) = par i) :
    Same (axisOp R fill par (transpose perm x)) (transpose perm (axisOp R fill par' x)) := by
  have hpar' : ∀ j, j < perm.length → par' j = par (perm.idxOf j) := by
    intro j hj
    rw [← hpar _ (hp.idxOf_lt hj), hp.nth_idxOf hj]
  refine ⟨?_, fun idx _ => ?_⟩
  · apply ext_nth (by simp [axisOp, transpose])
    intro i hi
    simp only [axisOp, transpose, List.length_map, List.length_range] at hi
    simp only [axisOp, transpose, List.length_map]
    have hj := hp.nth_lt hi
    rw [nth_map_range, if_pos hi, nth_map _ _ _ hi, nth_map _ _ _ hi, nth_map_range, if_pos (hl ▸ hj), hpar i hi]
  · simp only [axisOp, transpose, List.length_map]
    have hiff : (∀ i, i < perm.length → (R.src (par i) (nth (perm.map (nth x.shape)) i) (nth idx i)).isSome = true) ↔
        (∀ i, i < x.shape.length → (R.src (par' i) (nth x.shape i) (nth (permIdx perm idx) i)).isSome = true) := by
      constructor
      · intro h j hj
        rw [hl] at hj
        have := h _ (hp.idxOf_lt hj)
        rwa [nth_map _ _ _ (hp.idxOf_lt hj), hp.nth_idxOf hj, ← hpar' j hj, ← nth_permIdx hj] at this
      · intro h i hi
        have := h _ (hl ▸ hp.nth_lt hi)
        rwa [hpar i hi, nth_permIdx_nth hp hi, ← nth_map (nth x.shape) perm i hi] at this
    by_cases hc : ∀ i, i < perm.length → (R.src (par i) (nth (perm.map (nth x.shape)) i) (nth idx i)).isSome = true
    · rw [if_pos hc, if_pos (hiff.1 hc)]
      congr 1
      apply ext_nth (by simp [hl])
      intro j hj
      simp only [permIdx_length] at hj
      rw [nth_permIdx hj, nth_map_range, if_pos (hp.idxOf_lt hj), nth_map_range, if_pos (hl ▸ hj),
        nth_map _ _ _ (hp.idxOf_lt hj), hp.nth_idxOf hj, nth_permIdx hj, hpar' j hj]
    · rw [if_neg hc, if_neg (fun h => hc (hiff.2 h))]

/-- **C19, Pad** (all modes). -/
theorem push_pad {α : Type} (m : PadMode) (fill : α) (perm : List Nat) (pads : List Int) (x : T α)
    (hp : IsPerm perm) (hl : x.shape.length = perm.length) :
    Same (pad m fill pads (transpose perm x)) (transpose perm (pad m fill (permutePads perm pads) x)) := by
  apply push_axisOp _ _ _ _ _ _ hp hl
  intro i hi
  have hil := invertPerm_length perm hp
  have hn : (invertPerm perm).getD (nth perm i) 0 = i := by
    have := nth_invertPerm hp (hp.nth_lt hi)
    rw [hp.idxOf_nth hi] at this
    exact this
  have hlt := hp.nth_lt hi
  have e1 : (permutePads perm pads).getD (nth perm i) 0 = pads.getD i 0 := by
    rw [permutePads, getD_append_left _ _ _ _ (by simpa [hil] using hlt),
      getD_map _ _ _ 0 _ (hil.symm ▸ hlt), hn]
  have e2 : (permutePads perm pads).getD (nth perm i + x.shape.length) 0 =
      pads.getD (i + (transpose perm x).shape.length) 0 := by
    rw [permutePads, getD_append_right' _ _ _ _ (by simp [hil, hl])]
    simp only [List.length_map, hil, hl, Nat.add_sub_cancel, transpose]
    rw [getD_map _ _ _ 0 _ (hil.symm ▸ hlt), hn]
  rw [e1, e2]

/-- **C19, Tile.** -/
theorem push_tile {α : Type} (fill : α) (perm : List Nat) (repeats : List Int) (x : T α)
    (hp : IsPerm perm) (hl : x.shape.length = perm.length) :
    Same (tile fill repeats (transpose perm x)) (transpose perm (tile fill (tileRepeats perm repeats) x)) := by
  apply push_axisOp _ _ _ _ _ _ hp hl
  intro i hi
  have hlt := hp.nth_lt hi
  rw [tileRepeats, getD_map _ _ _ 0 _ (invertPerm_length perm hp ▸ hlt)]
  congr 1
  have := nth_invertPerm hp hlt
  rw [hp.idxOf_nth hi] at this
  exact this

/-- **C19, Slice** (negative axes included). -/
theorem push_slice {α : Type} (fill : α) (perm : List Nat) (axes : List Int) (specs : List SliceSpec) (x : T α)
    (hp : IsPerm perm) (hl : x.shape.length = perm.length) (hax : ∀ a ∈ axes, ValidAxis perm.length a) :
    Same (slice fill axes specs (transpose perm x)) (transpose perm (slice fill (mapAxes perm axes) specs x)) := by
  apply push_axisOp _ _ _ _ _ _ hp hl
  intro i hi
  simp only [transpose, List.length_map, mapAxes]
  rw [hl]
  clear hl x
  induction axes generalizing specs with
  | nil => rfl
  | cons a axes ih =>
    cases specs with
    | nil => rfl
    | cons s specs =>
      have ha := normAxis_lt (hax a (by simp))
      simp only [List.map_cons, List.zip_cons_cons, List.find?_cons]
      have hiff : (normAxis perm.length ((pyIdx perm a : Nat) : Int) = nth perm i) ↔ normAxis perm.length a = i := by
        rw [normAxis_ofNat, pyIdx_eq]
        constructor
        · intro h
          have := congrArg perm.idxOf h
          rwa [hp.idxOf_nth ha, hp.idxOf_nth hi] at this
        · rintro rfl; rfl
      by_cases h : normAxis perm.length a = i
      · simp [h, hiff.2 h]
      · have h' : ¬ normAxis perm.length ((pyIdx perm a : Nat) : Int) = nth perm i := fun c => h (hiff.1 c)
        simp only [h, h', decide_false]
        exact ih specs (fun b hb => hax b (List.mem_cons_of_mem _ hb))

/-! ## Operators along one axis -/

theorem permIdx_setAt {perm idx : List Nat} (hp : IsPerm perm) (hl : idx.length = perm.length) {a k : Nat}
    (ha : a < perm.length) : permIdx perm (setAt idx a k) = setAt (permIdx perm idx) (nth perm a) k := by
  apply ext_nth (by simp [setAt])
  intro j hj
  simp only [permIdx_length] at hj
  rw [nth_permIdx hj]
  by_cases h : perm.idxOf j = a
  · have hj' : j = nth perm a := by rw [← h, hp.nth_idxOf hj]
    subst hj'
    rw [h, nth_setAt_self (hl.symm ▸ ha), nth_setAt_self (by simpa using hj)]
  · have hj' : nth perm a ≠ j := fun c => h (by rw [← c, hp.idxOf_nth ha])
    rw [nth_setAt_ne (Ne.symm h), nth_setAt_ne hj', nth_permIdx hj]

/-- **C19, operators along one axis** (`Softmax`/`LogSoftmax` from opset 13, `ArgMax`/`ArgMin` keeping the axis,
per-axis `QuantizeLinear`/`DequantizeLinear`): `axis` becomes `perm[axis]`. -/
theorem push_alongAxis {α β : Type} (outDim : Nat → Nat) (line : Nat → (Nat → α) → Nat → β) (perm : List Nat)
    (axis : Int) (x : T α) (hp : IsPerm perm) (hl : x.shape.length = perm.length) (ha : ValidAxis perm.length axis) :
    Same (alongAxis outDim line (normAxis perm.length axis) (transpose perm x))
      (transpose perm (alongAxis outDim line (mapAxis perm axis) x)) := by
  have ha' := normAxis_lt ha
  have hm : mapAxis perm axis = nth perm (normAxis perm.length axis) := rfl
  rw [hm]
  generalize normAxis perm.length axis = a at ha'
  refine ⟨?_, fun idx hi => ?_⟩
  · apply ext_nth (by simp [alongAxis, transpose])
    intro i hi
    simp only [alongAxis, transpose, List.length_map, List.length_range] at hi
    simp only [alongAxis, transpose, List.length_map]
    have hlt : nth perm i < x.shape.length := hl ▸ hp.nth_lt hi
    rw [nth_map_range, if_pos hi, nth_map _ _ _ hi, nth_map _ _ _ hi, nth_map_range, if_pos hlt]
    by_cases h : i = a
    · rw [if_pos h, if_pos (by rw [h])]
    · rw [if_neg h, if_neg]
      intro c
      have := congrArg perm.idxOf c
      rw [hp.idxOf_nth hi, hp.idxOf_nth ha'] at this
      exact h this
  · have hil : idx.length = perm.length := by simpa [alongAxis, transpose] using hi.1
    simp only [alongAxis, transpose]
    rw [nth_map _ _ _ ha', nth_permIdx_nth hp ha']
    congr 1
    funext k
    rw [permIdx_setAt hp hil ha']

/-! ## Reductions -/

theorem mem_allIdx (s idx : List Nat) : idx ∈ allIdx s ↔ InB s idx := by
  induction s generalizing idx with
  | nil =>
    simp only [allIdx, List.mem_singleton, InB, List.length_nil, List.length_eq_zero_iff]
    constructor
    · intro h; exact ⟨h, fun i hi => absurd hi (by omega)⟩
    · exact fun h => h.1
  | cons d s ih =>
    simp only [allIdx, List.mem_flatMap, List.mem_range, List.mem_map]
    constructor
    · rintro ⟨k, hk, i, hi, rfl⟩
      have := (ih i).1 hi
      refine ⟨by simp [this.1], fun j hj => ?_⟩
      cases j with
      | zero => simpa [nth] using hk
      | succ j => simpa [nth] using this.2 j (by simpa using hj)
    · rintro ⟨h1, h2⟩
      cases idx with
      | nil => simp at h1
      | cons k i =>
        refine ⟨k, by simpa [nth] using h2 0 (by simp), i, (ih i).2 ⟨by simpa using h1, fun j hj => ?_⟩, rfl⟩
        simpa [nth] using h2 (j + 1) (by simpa using hj)

theorem nodup_allIdx (s : List Nat) : (allIdx s).Nodup := by
  induction s with
  | nil => simp [allIdx]
  | cons d s ih =>
    simp only [allIdx]
    rw [List.nodup_flatMap]
    refine ⟨fun k _ => ih.map (fun a b h => by simpa using h), ?_⟩
    apply List.Nodup.pairwise_of_forall_ne List.nodup_range
    intro a _ b _ hab
    rw [Function.onFun, List.disjoint_left]
    intro l hl hl'
    simp only [List.mem_map] at hl hl'
    obtain ⟨i, _, rfl⟩ := hl
    obtain ⟨j, _, h⟩ := hl'
    simp only [List.cons.injEq] at h
    exact hab h.1.symm

/-- The group of a transposed tensor at `idx` is the group of the tensor at the index `idx` comes from. -/
theorem group_transpose {α : Type} (perm : List Nat) (ax ax' : Nat → Bool) (x : T α) (idx : List Nat)
    (hp : IsPerm perm) (hl : x.shape.length = perm.length)
    (hax : ∀ i, i < perm.length → ax' (nth perm i) = ax i) :
    group ax (transpose perm x) idx = group ax' x (permIdx perm idx) := by
  unfold group
  have key : ((allIdx (transpose perm x).shape).filter (fun j =>
        (List.range (transpose perm x).shape.length).all (fun i => ax i || decide (nth j i = nth idx i)))).Perm
      (((allIdx x.shape).filter (fun j =>
        (List.range x.shape.length).all (fun i => ax' i || decide (nth j i = nth (permIdx perm idx) i)))).map
          (fun j => perm.map (nth j))) := by
    apply (List.perm_ext_iff_of_nodup ((nodup_allIdx _).filter _) _).2
    · intro j
      simp only [List.mem_filter, mem_allIdx, List.all_eq_true, List.mem_range, Bool.or_eq_true, decide_eq_true_eq,
        List.mem_map, transpose, List.length_map]
      constructor
      · rintro ⟨hj, hr⟩
        have hjl : j.length = perm.length := by simpa using hj.1
        refine ⟨permIdx perm j, ⟨InB.permIdx hp hl hj, ?_⟩, ?_⟩
        · intro i hi
          rw [hl] at hi
          have h := hr _ (hp.idxOf_lt hi)
          rwa [← hax _ (hp.idxOf_lt hi), hp.nth_idxOf hi, ← nth_permIdx hi, ← nth_permIdx hi] at h
        · apply ext_nth (by simp [hjl])
          intro i hi
          simp only [List.length_map] at hi
          rw [nth_map _ _ _ hi, nth_permIdx_nth hp hi]
      · rintro ⟨k, ⟨hk, hr⟩, rfl⟩
        refine ⟨InB.map_nth hp hl hk, fun i hi => ?_⟩
        have h := hr _ (hl ▸ hp.nth_lt hi)
        rw [nth_map _ _ _ hi]
        rwa [hax i hi, nth_permIdx_nth hp hi] at h
    · apply List.Nodup.map_on _ ((nodup_allIdx _).filter _)
      intro a ha b hb hab
      simp only [List.mem_filter, mem_allIdx] at ha hb
      rw [← permIdx_of_nth hp (ha.1.1.trans hl), hab, permIdx_of_nth hp (hb.1.1.trans hl)]
  have := congrArg (Multiset.map (transpose perm x).get) (Multiset.coe_eq_coe.2 key)
  rw [this]
  simp only [Multiset.map_coe, List.map_map]
  congr 1
  apply List.map_congr_left
  intro j hj
  simp only [List.mem_filter, mem_allIdx] at hj
  simp only [Function.comp, transpose]
  rw [permIdx_of_nth hp (hj.1.1.trans hl)]

theorem push_reduceKeep_set {α β : Type} (f : Multiset α → β) (perm : List Nat) (ax ax' : Nat → Bool) (x : T α)
    (hp : IsPerm perm) (hl : x.shape.length = perm.length)
    (hax : ∀ i, i < perm.length → ax' (nth perm i) = ax i) :
    Same (reduceKeep f ax (transpose perm x)) (transpose perm (reduceKeep f ax' x)) := by
  refine ⟨?_, fun idx _ => ?_⟩
  · apply ext_nth (by simp [reduceKeep, transpose])
    intro i hi
    simp only [reduceKeep, transpose, List.length_map, List.length_range] at hi
    simp only [reduceKeep, transpose, List.length_map]
    have hlt : nth perm i < x.shape.length := hl ▸ hp.nth_lt hi
    rw [nth_map_range, if_pos hi, nth_map _ _ _ hi, nth_map _ _ _ hi, nth_map_range, if_pos hlt, hax i hi]
  · show f (group ax (transpose perm x) idx) = f (group ax' x (permIdx perm idx))
    rw [group_transpose perm ax ax' x idx hp hl hax]

/-- The set of axes a list of (possibly negative) axis numbers names. -/
def axisSet (rank : Nat) (axes : List Int) (i : Nat) : Bool := (axes.map (normAxis rank)).contains i

theorem axisSet_iff {rank : Nat} {axes : List Int} {i : Nat} :
    axisSet rank axes i = true ↔ ∃ a ∈ axes, normAxis rank a = i := by simp [axisSet]

/-- Which axes `Reduce*` reduces: without axes all of them, unless `noop_with_empty_axes`. -/
def reducedSet (noop : Bool) (rank : Nat) (axes : List Int) (i : Nat) : Bool :=
  if axes = [] then !noop else axisSet rank axes i

theorem axisSet_mapAxes {perm : List Nat} {axes : List Int} (hp : IsPerm perm)
    (hax : ∀ a ∈ axes, ValidAxis perm.length a) {i : Nat} (hi : i < perm.length) :
    axisSet perm.length (mapAxes perm axes) (nth perm i) = axisSet perm.length axes i := by
  rw [Bool.eq_iff_iff, axisSet_iff, axisSet_iff]
  simp only [mapAxes, List.mem_map]
  constructor
  · rintro ⟨_, ⟨a, ha, rfl⟩, h⟩
    refine ⟨a, ha, ?_⟩
    rw [normAxis_ofNat, pyIdx_eq] at h
    have := congrArg perm.idxOf h
    rwa [hp.idxOf_nth (normAxis_lt (hax a ha)), hp.idxOf_nth hi] at this
  · rintro ⟨a, ha, rfl⟩
    exact ⟨_, ⟨a, ha, rfl⟩, by rw [normAxis_ofNat, pyIdx_eq]⟩

/-- **C19, Reduce* with the axes as an input** (`_reduce_latest_handler`: `ReduceSum` from opset 13, all of them from
opset 18; only for `keepdims = 1`). -/
theorem push_reduce_latest {α β : Type} (f : Multiset α → β) (noop : Bool) (perm : List Nat) (axes : List Int) (x : T α)
    (hp : IsPerm perm) (hl : x.shape.length = perm.length) (hax : ∀ a ∈ axes, ValidAxis perm.length a) :
    Same (reduceKeep f (reducedSet noop perm.length axes) (transpose perm x))
      (transpose perm (reduceKeep f (reducedSet noop perm.length (mapAxes perm axes)) x)) := by
  apply push_reduceKeep_set f perm _ _ x hp hl
  intro i hi
  unfold reducedSet
  by_cases h : axes = []
  · simp [h, mapAxes]
  · rw [if_neg h, if_neg (by simpa [mapAxes] using h), axisSet_mapAxes hp hax hi]

/-- The axes `_reduce_base_handler` starts from: all of them without an `axes` attribute. -/
def baseAxes (rank : Nat) (axes : Option (List Int)) : List Int :=
  axes.getD ((List.range rank).map (fun (i : Nat) => (i : Int)))

theorem reduceAxes_mem {perm : List Nat} {axes : Option (List Int)} {i : Nat}
    (hp : IsPerm perm) (hax : ∀ a ∈ baseAxes perm.length axes, ValidAxis perm.length a) (hi : i < perm.length) :
    (reduceAxes perm axes).contains (nth perm i) = axisSet perm.length (baseAxes perm.length axes) i := by
  rw [Bool.eq_iff_iff, axisSet_iff]
  simp only [reduceAxes, List.contains_iff_mem, List.map_map, List.mem_map, Function.comp]
  constructor
  · rintro ⟨a, ha, h⟩
    refine ⟨a, ha, ?_⟩
    have hva := hax a ha
    have e : pyIdx perm (if a < 0 then a + perm.length else a) = nth perm (normAxis perm.length a) := by
      unfold pyIdx normAxis
      congr 1
      unfold ValidAxis at hva
      split <;> (try split) <;> first | rfl | omega
    rw [e] at h
    have := congrArg perm.idxOf h
    rwa [hp.idxOf_nth (normAxis_lt hva), hp.idxOf_nth hi] at this
  · rintro ⟨a, ha, rfl⟩
    refine ⟨a, ha, ?_⟩
    have hva := hax a ha
    unfold pyIdx normAxis
    congr 1
    unfold ValidAxis at hva
    split <;> (try split) <;> first | rfl | omega

/-- **C19, Reduce* with the axes as an attribute, `keepdims = 1`.** -/
theorem push_reduce_base {α β : Type} (f : Multiset α → β) (perm : List Nat) (axes : Option (List Int)) (x : T α)
    (hp : IsPerm perm) (hl : x.shape.length = perm.length)
    (hax : ∀ a ∈ baseAxes perm.length axes, ValidAxis perm.length a) :
    Same (reduceKeep f (axisSet perm.length (baseAxes perm.length axes)) (transpose perm x))
      (transpose perm (reduceKeep f (reduceAxes perm axes).contains x)) := by
  apply push_reduceKeep_set f perm _ _ x hp hl
  intro i hi
  exact reduceAxes_mem hp hax hi

/-! ## Squeeze -/

theorem mem_keptAxes {n : Nat} {ax : Nat → Bool} {i : Nat} : i ∈ keptAxes n ax ↔ i < n ∧ ax i = false := by
  simp [keptAxes]

theorem nodup_keptAxes (n : Nat) (ax : Nat → Bool) : (keptAxes n ax).Nodup := List.nodup_range.filter _

theorem idxOf_nth_of_nodup {l : List Nat} (hn : l.Nodup) {i : Nat} (hi : i < l.length) : l.idxOf (nth l i) = i := by
  rw [nth_eq _ _ hi]; exact hn.idxOf_getElem i hi

theorem nth_idxOf_of_mem {l : List Nat} {a : Nat} (h : a ∈ l) : nth l (l.idxOf a) = a := by
  rw [nth_eq _ _ (List.idxOf_lt_length_iff.2 h)]; exact List.getElem_idxOf _

theorem nth_mem {l : List Nat} {i : Nat} (h : i < l.length) : nth l i ∈ l := by
  rw [nth_eq _ _ h]; exact List.getElem_mem h

/-- The `perm` of the transpose that is left after an axis set `ax` (seen after the transpose) was dropped before it. -/
def droppedPerm (perm : List Nat) (ax ax' : Nat → Bool) : List Nat :=
  (keptAxes perm.length ax).map (fun i => (keptAxes perm.length ax').idxOf (nth perm i))

theorem droppedPerm_length (perm : List Nat) (ax ax' : Nat → Bool) :
    (droppedPerm perm ax ax').length = (keptAxes perm.length ax).length := by simp [droppedPerm]

theorem kept_nth {perm : List Nat} {ax ax' : Nat → Bool} (hp : IsPerm perm)
    (hax : ∀ i, i < perm.length → ax' (nth perm i) = ax i) {i : Nat} (h : i ∈ keptAxes perm.length ax) :
    nth perm i ∈ keptAxes perm.length ax' := by
  rw [mem_keptAxes] at h ⊢
  exact ⟨hp.nth_lt h.1, by rw [hax i h.1, h.2]⟩

theorem kept_perm {perm : List Nat} {ax ax' : Nat → Bool} (hp : IsPerm perm)
    (hax : ∀ i, i < perm.length → ax' (nth perm i) = ax i) :
    ((keptAxes perm.length ax).map (nth perm)).Perm (keptAxes perm.length ax') := by
  apply (List.perm_ext_iff_of_nodup _ (nodup_keptAxes _ _)).2
  · intro j
    rw [List.mem_map]
    constructor
    · rintro ⟨i, hi, rfl⟩; exact kept_nth hp hax hi
    · intro hj
      rw [mem_keptAxes] at hj
      refine ⟨perm.idxOf j, ?_, hp.nth_idxOf hj.1⟩
      rw [mem_keptAxes]
      refine ⟨hp.idxOf_lt hj.1, ?_⟩
      rw [← hax _ (hp.idxOf_lt hj.1), hp.nth_idxOf hj.1, hj.2]
  · apply List.Nodup.map_on _ (nodup_keptAxes _ _)
    intro a ha b hb hab
    have := congrArg perm.idxOf hab
    rwa [hp.idxOf_nth (mem_keptAxes.1 ha).1, hp.idxOf_nth (mem_keptAxes.1 hb).1] at this

theorem droppedPerm_isPerm {perm : List Nat} {ax ax' : Nat → Bool} (hp : IsPerm perm)
    (hax : ∀ i, i < perm.length → ax' (nth perm i) = ax i) : IsPerm (droppedPerm perm ax ax') := by
  have hlen : (keptAxes perm.length ax).length = (keptAxes perm.length ax').length := by
    simpa using (kept_perm hp hax).length_eq
  apply isPerm_of_nodup
  · apply List.Nodup.map_on _ (nodup_keptAxes _ _)
    intro a ha b hb hab
    have ha' := kept_nth hp hax ha
    have hb' := kept_nth hp hax hb
    have h1 := congrArg (nth (keptAxes perm.length ax')) hab
    rw [nth_idxOf_of_mem ha', nth_idxOf_of_mem hb'] at h1
    have := congrArg perm.idxOf h1
    rwa [hp.idxOf_nth (mem_keptAxes.1 ha).1, hp.idxOf_nth (mem_keptAxes.1 hb).1] at this
  · intro j hj
    rw [droppedPerm_length, hlen]
    simp only [droppedPerm, List.mem_map] at hj
    obtain ⟨i, hi, rfl⟩ := hj
    exact List.idxOf_lt_length_iff.2 (kept_nth hp hax hi)

theorem push_squeeze_set {α : Type} (perm : List Nat) (ax ax' : Nat → Bool) (x : T α)
    (hp : IsPerm perm) (hl : x.shape.length = perm.length)
    (hax : ∀ i, i < perm.length → ax' (nth perm i) = ax i) :
    Same (squeeze ax (transpose perm x)) (transpose (droppedPerm perm ax ax') (squeeze ax' x)) := by
  have hd := droppedPerm_isPerm hp hax
  have hlen : (keptAxes perm.length ax).length = (keptAxes perm.length ax').length := by
    simpa using (kept_perm hp hax).length_eq
  have hsl : (transpose perm x).shape.length = perm.length := by simp [transpose]
  refine ⟨?_, fun idx _ => ?_⟩
  · simp only [squeeze, hsl, hl]
    simp only [transpose, droppedPerm, List.map_map]
    apply List.map_congr_left
    intro i hi
    have hi' := kept_nth hp hax hi
    simp only [Function.comp]
    rw [nth_map _ _ _ (mem_keptAxes.1 hi).1, nth_map _ _ _ (List.idxOf_lt_length_iff.2 hi'), nth_idxOf_of_mem hi']
  · simp only [squeeze, hsl, hl]
    simp only [transpose]
    congr 1
    apply ext_nth (by simp)
    intro j hj
    simp only [permIdx_length] at hj
    have hij := hp.idxOf_lt hj
    have hax' : ax' j = ax (perm.idxOf j) := by rw [← hax _ hij, hp.nth_idxOf hj]
    rw [nth_permIdx hj, nth_map_range, if_pos hij, nth_map_range, if_pos hj, hax']
    cases hc : ax (perm.idxOf j) with
    | true => rfl
    | false =>
      simp only [Bool.false_eq_true, if_false]
      have hk : perm.idxOf j ∈ keptAxes perm.length ax := mem_keptAxes.2 ⟨hij, hc⟩
      have hk' : j ∈ keptAxes perm.length ax' := mem_keptAxes.2 ⟨hj, by rw [hax', hc]⟩
      have hm : (keptAxes perm.length ax').idxOf j < (droppedPerm perm ax ax').length := by
        rw [droppedPerm_length, hlen]; exact List.idxOf_lt_length_iff.2 hk'
      rw [nth_permIdx hm]
      congr 1
      have hlt : (keptAxes perm.length ax).idxOf (perm.idxOf j) < (droppedPerm perm ax ax').length := by
        rw [droppedPerm_length]; exact List.idxOf_lt_length_iff.2 hk
      rw [← hd.idxOf_nth hlt]
      congr 1
      rw [droppedPerm, nth_map _ _ _ (List.idxOf_lt_length_iff.2 hk), nth_idxOf_of_mem hk, hp.nth_idxOf hj]

theorem map_nth_range (l : List Nat) : (List.range l.length).map (nth l) = l := by
  apply ext_nth (by simp)
  intro i hi
  simp only [List.length_map, List.length_range] at hi
  rw [nth_map_range, if_pos hi]

/-- What `_calculate_new_attr` computes. -/
theorem squeezeNewAttr_spec (perm : List Nat) (axes : List Int) (hp : IsPerm perm)
    (hax : ∀ a ∈ axes, ValidAxis perm.length a) :
    (∀ i, i < perm.length → (squeezeNewAttr perm axes).1.contains (nth perm i) = axisSet perm.length axes i) ∧
    (squeezeNewAttr perm axes).2 =
      droppedPerm perm (axisSet perm.length axes) (squeezeNewAttr perm axes).1.contains := by
  have hnorm : ∀ a ∈ axes, (if a ≥ 0 then a else a + (perm.length : Int)) = (normAxis perm.length a : Nat) := by
    intro a ha
    have := hax a ha
    unfold ValidAxis at this
    unfold normAxis
    split <;> split <;> omega
  have h1 : ∀ i, i < perm.length →
      (squeezeNewAttr perm axes).1.contains (nth perm i) = axisSet perm.length axes i := by
    intro i hi
    rw [Bool.eq_iff_iff, axisSet_iff]
    simp only [squeezeNewAttr, List.contains_iff_mem, List.mem_insertionSort, List.map_map, List.mem_map, Function.comp]
    constructor
    · rintro ⟨a, ha, h⟩
      refine ⟨a, ha, ?_⟩
      rw [hnorm a ha, pyIdx_eq, normAxis_ofNat] at h
      have := congrArg perm.idxOf h
      rwa [hp.idxOf_nth (normAxis_lt (hax a ha)), hp.idxOf_nth hi] at this
    · rintro ⟨a, ha, rfl⟩
      exact ⟨a, ha, by rw [hnorm a ha, pyIdx_eq, normAxis_ofNat]⟩
  refine ⟨h1, ?_⟩
  have hf1 : (List.range perm.length).filter (fun (i : Nat) => decide ((i : Int) ∉
      axes.map (fun i => if i ≥ 0 then i else i + (perm.length : Int)))) =
      keptAxes perm.length (axisSet perm.length axes) := by
    unfold keptAxes
    apply List.filter_congr
    intro i _
    have : ((i : Int) ∈ axes.map (fun i => if i ≥ 0 then i else i + (perm.length : Int))) ↔
        axisSet perm.length axes i = true := by
      rw [axisSet_iff, List.mem_map]
      constructor
      · rintro ⟨a, ha, h⟩
        rw [hnorm a ha] at h
        exact ⟨a, ha, by exact_mod_cast h⟩
      · rintro ⟨a, ha, h⟩
        exact ⟨a, ha, by rw [hnorm a ha, h]⟩
    by_cases hc : axisSet perm.length axes i = true
    · simp only [hc, Bool.not_true, decide_eq_false_iff_not, not_not]; exact this.2 hc
    · have hc' : axisSet perm.length axes i = false := by simpa using hc
      simp only [hc', Bool.not_false, decide_eq_true_eq]
      exact fun h => hc (this.1 h)
  have hf2 : ((List.range perm.length).filter (fun i => decide (i ∉ (squeezeNewAttr perm axes).1))).map
      (nth (List.range perm.length)) = keptAxes perm.length (squeezeNewAttr perm axes).1.contains := by
    have : (List.range perm.length).filter (fun i => decide (i ∉ (squeezeNewAttr perm axes).1)) =
        keptAxes perm.length (squeezeNewAttr perm axes).1.contains := by
      unfold keptAxes
      apply List.filter_congr
      intro i _
      rw [Bool.eq_iff_iff]
      simp
    rw [this]
    conv => rhs; rw [← List.map_id (keptAxes perm.length (squeezeNewAttr perm axes).1.contains)]
    apply List.map_congr_left
    intro i hi
    rw [nth_range (mem_keptAxes.1 hi).1]; rfl
  have hst : perm.map (nth (List.range perm.length)) = perm := by
    conv => rhs; rw [← List.map_id perm]
    apply List.map_congr_left
    intro i hi
    rw [nth_range (hp.mem.1 hi)]; rfl
  show List.map _ (List.map _ (List.filter _ _)) = _
  rw [hf1, hst]
  show List.map (fun i => List.idxOf i (List.map (nth (List.range perm.length))
    ((List.range perm.length).filter (fun i => decide (i ∉ (squeezeNewAttr perm axes).1))))) _ = _
  rw [hf2, List.map_map]
  rfl

/-- **C19, Squeeze**: the handler's new axes and new permutation. -/
theorem push_squeeze {α : Type} (perm : List Nat) (axes : List Int) (x : T α)
    (hp : IsPerm perm) (hl : x.shape.length = perm.length) (hax : ∀ a ∈ axes, ValidAxis perm.length a) :
    Same (squeeze (axisSet perm.length axes) (transpose perm x))
      (transpose (squeezeNewAttr perm axes).2 (squeeze (squeezeNewAttr perm axes).1.contains x)) := by
  obtain ⟨h1, h2⟩ := squeezeNewAttr_spec perm axes hp hax
  rw [h2]
  exact push_squeeze_set perm _ _ x hp hl h1

/-! ## Reductions that drop the axes -/

theorem remainingAxes_spec (newAxes : List Nat) (n k j : Nat) (hj : j = ((List.range k).filter (· ∉ newAxes)).length)
    (todo : List Nat) (htodo : todo = (List.range' k (n - k))) (hk : k ≤ n) (p : Nat) (hkp : k ≤ p) (hp : p < n) :
    ((remainingAxes newAxes todo j)[p - k]?).getD none =
      if p ∈ newAxes then none else some ((List.range p).filter (· ∉ newAxes)).length := by
  induction todo generalizing k j with
  | nil =>
    have := congrArg List.length htodo
    simp at this; omega
  | cons i todo ih =>
    obtain ⟨m, hm⟩ : ∃ m, n - k = m + 1 := ⟨n - k - 1, by
      have := congrArg List.length htodo
      simp at this; omega⟩
    rw [hm, List.range'_succ] at htodo
    simp only [List.cons.injEq] at htodo
    obtain ⟨rfl, htodo⟩ := htodo
    have htodo' : todo = List.range' (i + 1) (n - (i + 1)) := by
      rw [htodo]; congr 1; omega
    by_cases hpi : p = i
    · subst hpi
      unfold remainingAxes
      split
      · rename_i h; simp [h]
      · rename_i h; simp [h, hj]
    · have hp1 : p - i = (p - (i + 1)) + 1 := by omega
      unfold remainingAxes
      split
      · rename_i h
        rw [hp1, List.getElem?_cons_succ]
        apply ih (i + 1) j _ htodo' (by omega) (by omega)
        rw [List.range_succ, List.filter_append]; simp [h, hj]
      · rename_i h
        rw [hp1, List.getElem?_cons_succ]
        apply ih (i + 1) (j + 1) _ htodo' (by omega) (by omega)
        rw [List.range_succ, List.filter_append]; simp [h, hj]

/-- The number of kept axes before a kept axis is its position among the kept axes. -/
theorem idxOf_kept {n p : Nat} {q : Nat → Bool} (hp : p < n) (hq : q p = true) :
    ((List.range n).filter q).idxOf p = ((List.range p).filter q).length := by
  induction n with
  | zero => omega
  | succ n ih =>
    rw [List.range_succ, List.filter_append]
    by_cases h : p = n
    · subst h
      rw [List.idxOf_append_of_notMem (by simp)]
      simp [hq]
    · rw [List.idxOf_append_of_mem (by simp [hq]; omega), ih (by omega)]

theorem reduceNewPerm_spec {perm newAxes : List Nat} {ax : Nat → Bool} (hp : IsPerm perm)
    (hax : ∀ i, i < perm.length → newAxes.contains (nth perm i) = ax i) :
    reduceNewPerm perm newAxes = droppedPerm perm ax newAxes.contains := by
  have hrem : ∀ p ∈ perm, ((remainingAxes newAxes (List.range perm.length) 0)[p]?).getD none =
      if p ∈ newAxes then none else some ((keptAxes perm.length newAxes.contains).idxOf p) := by
    intro p hpm
    have hlt := hp.mem.1 hpm
    have := remainingAxes_spec newAxes perm.length 0 0 (by simp) (List.range perm.length)
      (by rw [List.range_eq_range']; simp) (by omega) p (by omega) hlt
    rw [Nat.sub_zero] at this
    rw [this]
    split
    · rfl
    · rename_i h
      congr 1
      have hk : keptAxes perm.length newAxes.contains = (List.range perm.length).filter (fun i => decide (i ∉ newAxes)) := by
        unfold keptAxes
        apply List.filter_congr
        intro i _
        rw [Bool.eq_iff_iff]; simp
      rw [hk, idxOf_kept hlt (by simpa using h)]
  have h1 : reduceNewPerm perm newAxes = perm.filterMap (fun p =>
      if p ∈ newAxes then none else some ((keptAxes perm.length newAxes.contains).idxOf p)) := by
    unfold reduceNewPerm
    exact List.filterMap_congr hrem
  rw [h1]
  have h2 : perm.filterMap (fun p =>
      if p ∈ newAxes then none else some ((keptAxes perm.length newAxes.contains).idxOf p)) =
      (List.range perm.length).filterMap (fun i => if nth perm i ∈ newAxes then none else
        some ((keptAxes perm.length newAxes.contains).idxOf (nth perm i))) := by
    conv => lhs; rw [← map_nth_range perm]
    rw [List.filterMap_map]
    simp only [Function.comp_def]
    rw [List.length_map, List.length_range]
  rw [h2]
  unfold droppedPerm keptAxes
  rw [← List.filterMap_eq_map, List.filterMap_filter]
  apply List.filterMap_congr
  intro i hi
  have := hax i (List.mem_range.1 hi)
  by_cases hc : nth perm i ∈ newAxes
  · have hx : ax i = true := by rw [← this]; simpa using hc
    simp [hc, hx]
  · have hx : ax i = false := by rw [← this]; simpa using hc
    simp [hc, hx]

/-- **C19, Reduce* with the axes as an attribute, `keepdims = 0`** (also `ArgMax`/`ArgMin` through the same handler):
new axes and new permutation. -/
theorem push_reduce_base_drop {α β : Type} (f : Multiset α → β) (perm : List Nat) (axes : Option (List Int)) (x : T α)
    (hp : IsPerm perm) (hl : x.shape.length = perm.length)
    (hax : ∀ a ∈ baseAxes perm.length axes, ValidAxis perm.length a) :
    Same (reduceDrop f (axisSet perm.length (baseAxes perm.length axes)) (transpose perm x))
      (transpose (reduceNewPerm perm (reduceAxes perm axes)) (reduceDrop f (reduceAxes perm axes).contains x)) := by
  have hset : ∀ i, i < perm.length → (reduceAxes perm axes).contains (nth perm i) =
      axisSet perm.length (baseAxes perm.length axes) i := fun i hi => reduceAxes_mem hp hax hi
  rw [reduceNewPerm_spec hp hset]
  have h1 := push_reduce_base f perm axes x hp hl hax
  have h2 := push_squeeze_set perm _ _ (reduceKeep f (reduceAxes perm axes).contains x) hp
    (by simpa [reduceKeep] using hl) hset
  refine Same.trans ?_ h2
  have hsl : (reduceKeep f (axisSet perm.length (baseAxes perm.length axes)) (transpose perm x)).shape.length =
      perm.length := by simp [reduceKeep, transpose]
  have hsl' : (transpose perm (reduceKeep f (reduceAxes perm axes).contains x)).shape.length = perm.length := by
    simp [transpose]
  unfold reduceDrop squeeze
  rw [hsl, hsl', h1.1]
  refine ⟨rfl, fun idx hidx => ?_⟩
  apply h1.2
  refine ⟨by rw [hsl]; simp, fun i hi => ?_⟩
  rw [hsl] at hi
  rw [nth_map_range, if_pos hi]
  split
  · rename_i h
    simp only [reduceKeep]
    rw [nth_map_range, if_pos (by simpa [transpose] using hi), if_pos h]; omega
  · rename_i h
    have hk : i ∈ keptAxes perm.length (axisSet perm.length (baseAxes perm.length axes)) :=
      mem_keptAxes.2 ⟨hi, by simpa using h⟩
    have := hidx.2 _ (by simpa using List.idxOf_lt_length_iff.2 hk)
    rw [nth_map _ _ _ (List.idxOf_lt_length_iff.2 hk), nth_idxOf_of_mem hk] at this
    rw [h1.1]; exact this

end Verif.TransposeOpt
