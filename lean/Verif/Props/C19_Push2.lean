import Verif.Props.C19_Push
/-!
# C19, continued: Softmax before opset 13, ArgMax/ArgMin, Concat, element-wise operators, Shape, and the replacement of a
transpose by a reshape
-/
namespace Verif.TransposeOpt
open Verif.Tensor

/-! ## Softmax before opset 13 -/

/-- The axes from the coercion axis on. -/
def fromAxis (rank : Nat) (axis : Int) (i : Nat) : Bool := decide (normAxis rank axis ≤ i)

/-- **C19, Softmax/LogSoftmax before opset 13**: if the handler decides to move the transpose, the result is the same,
for every non-negative axis. -/
theorem push_softmax_old {α β : Type} (f : Multiset α → α → β) (perm : List Nat) (axis : Nat) (x : T α)
    (hp : IsPerm perm) (hl : x.shape.length = perm.length) (hm : softmaxOldMoves perm axis = true) :
    Same (groupMap f (fromAxis perm.length axis) (transpose perm x))
      (transpose perm (groupMap f (fromAxis perm.length axis) x)) := by
  have hax : ∀ i, i < perm.length → fromAxis perm.length axis (nth perm i) = fromAxis perm.length axis i := by
    intro i hi
    unfold softmaxOldMoves at hm
    rw [List.all_eq_true] at hm
    have hmem : (nth perm i, i) ∈ perm.zipIdx := by
      rw [List.mem_zipIdx_iff_getElem?, List.getElem?_eq_getElem hi, nth_eq _ _ hi]
    have := hm _ hmem
    simp only [Bool.not_eq_true', Bool.or_eq_false_iff, Bool.and_eq_false_iff, decide_eq_false_iff_not] at this
    unfold fromAxis
    rw [normAxis_ofNat, decide_eq_decide]
    omega
  refine ⟨rfl, fun idx _ => ?_⟩
  show f (group _ (transpose perm x) idx) _ = f (group _ x (permIdx perm idx)) _
  rw [group_transpose perm _ _ x idx hp hl hax]
  rfl

/-- The handler moves a transpose that keeps the channel axis apart (NHWC to NCHW of the batch only). -/
example : softmaxOldMoves [0, 2, 1] (1 : Nat) = true ∧ softmaxOldMoves [1, 0, 2] (1 : Nat) = false := by decide

/-- **C19 is violated for a negative axis (opset 11 and 12)**: the check compares the negative number with axis
positions, so every transpose is moved. Softmax over the last axis of a `2 x 3` matrix (here: each element is mapped to
the number of elements it is normalised with) before and after a `[1, 0]` transpose differs. -/
theorem push_softmax_old_negative_axis_violated :
    ∃ (perm : List Nat) (axis : Int) (x : T Nat) (f : Multiset Nat → Nat → Nat),
      IsPerm perm ∧ x.shape.length = perm.length ∧ ValidAxis perm.length axis ∧ softmaxOldMoves perm axis = true ∧
      ¬ Same (groupMap f (fromAxis perm.length axis) (transpose perm x))
        (transpose perm (groupMap f (fromAxis perm.length axis) x)) := by
  refine ⟨[1, 0], -1, ⟨[2, 3], fun _ => 0⟩, fun m _ => m.card, ?_, rfl, ⟨by decide, by decide⟩, by decide, ?_⟩
  · unfold IsPerm; decide
  · intro h
    have h0 := h.2 [0, 0] ⟨rfl, fun i hi => by
      have : i = 0 ∨ i = 1 := by simp [groupMap, transpose] at hi; omega
      rcases this with rfl | rfl <;> decide⟩
    revert h0
    decide

/-! ## Squeezing after the operator -/

theorem squeeze_congr {α : Type} {a b : T α} {ax : Nat → Bool} (h : Same a b)
    (hone : ∀ i, i < a.shape.length → ax i = true → nth a.shape i = 1) : Same (squeeze ax a) (squeeze ax b) := by
  refine ⟨by simp [squeeze, h.1], fun idx hidx => ?_⟩
  simp only [squeeze]
  rw [← h.1]
  apply h.2
  refine ⟨by simp, fun i hi => ?_⟩
  rw [nth_map_range, if_pos hi]
  split
  · rename_i hc; rw [hone i hi hc]; omega
  · rename_i hc
    have hk : i ∈ keptAxes a.shape.length ax := mem_keptAxes.2 ⟨hi, by simpa using hc⟩
    have := hidx.2 _ (by simpa [squeeze] using List.idxOf_lt_length_iff.2 hk)
    simp only [squeeze] at this
    rwa [nth_map _ _ _ (List.idxOf_lt_length_iff.2 hk), nth_idxOf_of_mem hk] at this

/-- `ArgMax`/`ArgMin`: `pick d v` is the position selected on a line `v` of length `d`. -/
def argOp {α : Type} (pick : Nat → (Nat → α) → Nat) (a : Nat) (x : T α) : T Nat :=
  alongAxis (fun _ => 1) (fun d v _ => pick d v) a x

/-- **C19, ArgMax/ArgMin with `keepdims = 0`**: `_arg_min_max_handler` goes through `_reduce_base_handler` with the one
axis. -/
theorem push_arg_drop {α : Type} (pick : Nat → (Nat → α) → Nat) (perm : List Nat) (axis : Int) (x : T α)
    (hp : IsPerm perm) (hl : x.shape.length = perm.length) (ha : ValidAxis perm.length axis) :
    ∃ newAxis, reduceAxes perm (some [axis]) = [newAxis] ∧
      Same (squeeze (axisSet perm.length [axis]) (argOp pick (normAxis perm.length axis) (transpose perm x)))
        (transpose (reduceNewPerm perm [newAxis]) (squeeze [newAxis].contains (argOp pick newAxis x))) := by
  have hva := ha
  have he : reduceAxes perm (some [axis]) = [mapAxis perm axis] := by
    simp only [reduceAxes, Option.getD_some, List.map_cons, List.map_nil, mapAxis, List.cons.injEq, and_true]
    unfold pyIdx
    unfold ValidAxis at hva
    congr 1
    split <;> (try split) <;> first | rfl | omega
  refine ⟨mapAxis perm axis, he, ?_⟩
  have hset : ∀ i, i < perm.length → ([mapAxis perm axis] : List Nat).contains (nth perm i) =
      axisSet perm.length [axis] i := by
    intro i hi
    have := reduceAxes_mem (axes := some [axis]) hp (by simpa [baseAxes] using hva) hi
    rw [he] at this
    exact this
  have h1 := push_alongAxis (fun _ => 1) (fun d v _ => pick d v) perm axis x hp hl ha
  have h2 := squeeze_congr (ax := axisSet perm.length [axis]) h1 (by
    intro i hi hc
    rw [axisSet_iff] at hc
    obtain ⟨a, ha, rfl⟩ := hc
    rw [List.mem_singleton] at ha
    subst ha
    have hlt := normAxis_lt hva
    simp only [alongAxis, transpose, List.length_map]
    rw [nth_map_range, if_pos hlt, if_pos rfl])
  have h3 := push_squeeze_set perm _ _ (argOp pick (mapAxis perm axis) x) hp
    (by simpa [argOp, alongAxis] using hl) hset
  rw [reduceNewPerm_spec hp hset]
  exact h2.trans h3

/-! ## Concat -/

theorem concatGet_transpose {α : Type} (fill : α) (perm : List Nat) (a : Nat) (xs : List (T α)) (idx : List Nat)
    (hp : IsPerm perm) (ha : a < perm.length) (hil : idx.length = perm.length) :
    concatGet fill a (xs.map (transpose perm)) idx = concatGet fill (nth perm a) xs (permIdx perm idx) := by
  induction xs generalizing idx with
  | nil => rfl
  | cons x xs ih =>
    simp only [List.map_cons, concatGet]
    have e : nth (transpose perm x).shape a = nth x.shape (nth perm a) := by
      simp only [transpose]; rw [nth_map _ _ _ ha]
    rw [e, nth_permIdx_nth hp ha]
    split
    · rfl
    · rw [ih _ (by simpa [setAt] using hil), permIdx_setAt hp hil ha]

/-- **C19, Concat** of tensors that are all transposed the same way: `axis` becomes `perm[axis]`. -/
theorem push_concat {α : Type} (fill : α) (perm : List Nat) (axis : Int) (xs : List (T α)) (hne : xs ≠ [])
    (hp : IsPerm perm) (hl : ∀ x ∈ xs, x.shape.length = perm.length) (ha : ValidAxis perm.length axis) :
    Same (concat fill (normAxis perm.length axis) (xs.map (transpose perm)))
      (transpose perm (concat fill (mapAxis perm axis) xs)) := by
  have ha' := normAxis_lt ha
  have hm : mapAxis perm axis = nth perm (normAxis perm.length axis) := rfl
  rw [hm]
  generalize normAxis perm.length axis = a at ha'
  have hsum : ((xs.map (transpose perm)).map (fun x => nth x.shape a)) = xs.map (fun x => nth x.shape (nth perm a)) := by
    rw [List.map_map]
    apply List.map_congr_left
    intro x _
    simp only [Function.comp, transpose]; rw [nth_map _ _ _ ha']
  cases xs with
  | nil => exact absurd rfl hne
  | cons x xs =>
    have hx := hl x (by simp)
    refine ⟨?_, fun idx hi => ?_⟩
    · have e0 : (concat fill a (List.map (transpose perm) (x :: xs))).shape = setAt (perm.map (nth x.shape)) a
          (((x :: xs).map (fun x => nth x.shape (nth perm a))).sum) := by
        show setAt _ a _ = _
        rw [hsum]
        rfl
      rw [e0]
      show _ = perm.map (nth (setAt x.shape (nth perm a) _))
      apply ext_nth (by simp [setAt])
      intro i hi
      simp only [setAt, List.length_set, List.length_map] at hi
      rw [nth_map _ _ _ hi]
      by_cases h : a = i
      · subst h
        rw [nth_setAt_self (by simpa using ha'), nth_setAt_self (hx.symm ▸ hp.nth_lt ha')]
      · rw [nth_setAt_ne h, nth_map _ _ _ hi, nth_setAt_ne]
        intro c
        have := congrArg perm.idxOf c
        rw [hp.idxOf_nth ha', hp.idxOf_nth hi] at this
        exact h this
    · have hil : idx.length = perm.length := by
        have := hi.1
        simpa [concat, setAt, transpose] using this
      exact concatGet_transpose fill perm a (x :: xs) idx hp ha' hil

/-! ## Element-wise operators -/

theorem permIdx_bidx {perm s idx : List Nat} (hp : IsPerm perm) (hl : s.length = perm.length) :
    permIdx perm (bidx (perm.map (nth s)) idx) = bidx s (permIdx perm idx) := by
  apply ext_nth (by simp [bidx, hl])
  intro j hj
  simp only [permIdx_length] at hj
  have hij := hp.idxOf_lt hj
  rw [nth_permIdx hj]
  unfold bidx
  have hj' : j < s.length := hl ▸ hj
  rw [nth_map_range, if_pos (by simpa using hij), nth_map_range, if_pos hj', nth_map _ _ _ hij, hp.nth_idxOf hj,
    nth_permIdx hj]

/-- Element-wise operators on operands of one rank commute with transposing all of them. -/
theorem push_elementwiseSame {α β : Type} (f : List α → β) (perm : List Nat) (xs : List (T α))
    (hp : IsPerm perm) (hl : ∀ x ∈ xs, x.shape.length = perm.length) :
    Same (elementwiseSame f perm.length (xs.map (transpose perm)))
      (transpose perm (elementwiseSame f perm.length xs)) := by
  refine ⟨?_, fun idx _ => ?_⟩
  · apply ext_nth (by simp [elementwiseSame, transpose])
    intro i hi
    simp only [elementwiseSame, List.length_map, List.length_range] at hi
    have hlt := hp.nth_lt hi
    simp only [elementwiseSame, transpose]
    rw [nth_map_range, if_pos hi, nth_map _ _ _ hi, nth_map_range, if_pos hlt, List.map_map]
    congr 1
    apply List.map_congr_left
    intro x _
    simp only [Function.comp, transpose]
    rw [nth_map _ _ _ hi]
  · simp only [elementwiseSame, transpose, List.map_map]
    congr 1
    apply List.map_congr_left
    intro x hx
    simp only [Function.comp, transpose]
    rw [permIdx_bidx hp (hl x hx)]

/-- The rewrite of `_handle_node_having_branches`: an operand is either a transpose with the permutation, whose operand
is used instead (`inl`), or any other tensor of rank at most the permutation's, which gets a reshape to full rank
(`shape_after_expand`) and a transpose with the inverse permutation (`inr`). -/
def pushedOperand {α : Type} (perm : List Nat) : T α ⊕ T α → T α
  | .inl x => x
  | .inr y => transpose (invertPerm perm) (reshape (shapeAfterExpand perm.length y.shape) y)

/-- The operand before the rewrite. -/
def originalOperand {α : Type} (perm : List Nat) : T α ⊕ T α → T α
  | .inl x => transpose perm x
  | .inr y => y

theorem size_replicate_one (k : Nat) (s : List Nat) : size (List.replicate k 1 ++ s) = size s := by
  induction k with
  | zero => rfl
  | succ k ih => simp only [List.replicate_succ, List.cons_append, size, List.foldr_cons, Nat.one_mul]; exact ih

theorem lin_lt {s idx : List Nat} (h : InB s idx) : lin s idx < size s := by
  induction s generalizing idx with
  | nil => cases idx <;> simp [lin, size]
  | cons d s ih =>
    cases idx with
    | nil => simp [InB] at h
    | cons i idx =>
      have hi : i < d := by simpa [nth] using h.2 0 (by simp)
      have ht : InB s idx := ⟨by simpa using h.1, fun j hj => by simpa [nth] using h.2 (j + 1) (by simpa using hj)⟩
      have := ih ht
      show i * size s + lin s idx < d * size s
      calc i * size s + lin s idx < i * size s + size s := by omega
        _ = (i + 1) * size s := by rw [Nat.add_mul, Nat.one_mul]
        _ ≤ d * size s := Nat.mul_le_mul_right _ hi

theorem delin_lin {s idx : List Nat} (h : InB s idx) : delin s (lin s idx) = idx := by
  induction s generalizing idx with
  | nil => cases idx with
    | nil => rfl
    | cons a l => simp [InB] at h
  | cons d s ih =>
    cases idx with
    | nil => simp [InB] at h
    | cons i idx =>
      have ht : InB s idx := ⟨by simpa using h.1, fun j hj => by simpa [nth] using h.2 (j + 1) (by simpa using hj)⟩
      have hlt := lin_lt ht
      have hpos : 0 < size s := by omega
      simp only [lin, delin]
      rw [Nat.mul_comm, Nat.mul_add_div hpos, Nat.div_eq_of_lt hlt, Nat.mul_add_mod, Nat.mod_eq_of_lt hlt, ih ht]
      simp

theorem lin_replicate (k : Nat) (s idx : List Nat) (h : InB (List.replicate k 1 ++ s) idx) :
    lin (List.replicate k 1 ++ s) idx = lin s (idx.drop k) ∧ InB s (idx.drop k) := by
  induction k generalizing idx with
  | zero => exact ⟨rfl, h⟩
  | succ k ih =>
    rw [List.replicate_succ, List.cons_append] at h ⊢
    cases idx with
    | nil => simp [InB] at h
    | cons i idx =>
      have hi : i < 1 := by simpa [nth] using h.2 0 (by simp)
      have ht : InB (List.replicate k 1 ++ s) idx :=
        ⟨by simpa using h.1, fun j hj => by simpa [nth] using h.2 (j + 1) (by simpa using hj)⟩
      have := ih idx ht
      simp only [lin, List.drop_succ_cons]
      rw [show i = 0 by omega, Nat.zero_mul, Nat.zero_add]
      exact this

/-- The inserted reshape is the rank expansion of broadcasting. -/
theorem reshape_expand {α : Type} (n : Nat) (y : T α) :
    Same (reshape (shapeAfterExpand n y.shape) y) (expandRank n y) := by
  refine ⟨rfl, fun idx h => ?_⟩
  simp only [reshape, expandRank, shapeAfterExpand] at h ⊢
  obtain ⟨h1, h2⟩ := lin_replicate _ _ _ h
  rw [h1, delin_lin h2]

theorem bidx_InB {s idx : List Nat} (out : List Nat) (hl : s.length = out.length) (hi : InB out idx)
    (hb : ∀ i, i < s.length → nth s i = 1 ∨ nth s i = nth out i) : InB s (bidx s idx) := by
  refine ⟨by simp [bidx], fun i h => ?_⟩
  unfold bidx
  rw [nth_map_range, if_pos h]
  rcases hb i h with e | e
  · rw [if_pos e, e]; omega
  · split
    · omega
    · rw [e]; exact hi.2 i (hl ▸ h)

/-- Operands fit together: on every axis each operand has length 1 or the broadcast length (ONNX requires it). -/
def Broadcastable {α : Type} (n : Nat) (xs : List (T α)) : Prop :=
  ∀ x ∈ xs, x.shape.length = n ∧
    ∀ i, i < n → nth x.shape i = 1 ∨ nth x.shape i = bdim (xs.map (fun x => nth x.shape i))

theorem elementwiseSame_congr {α β : Type} (f : List α → β) (n : Nat) (xs ys : List (T α))
    (hb : Broadcastable n xs) (h : List.Forall₂ Same xs ys) :
    Same (elementwiseSame f n xs) (elementwiseSame f n ys) := by
  have hsh : ∀ i, xs.map (fun x => nth x.shape i) = ys.map (fun x => nth x.shape i) := by
    intro i
    clear hb
    induction h with
    | nil => rfl
    | cons h _ ih => simp [h.1, ih]
  refine ⟨by simp [elementwiseSame, hsh], fun idx hidx => ?_⟩
  simp only [elementwiseSame] at hidx ⊢
  congr 1
  have hin : ∀ x ∈ xs, InB x.shape (bidx x.shape idx) := by
    intro x hx
    obtain ⟨h1, h2⟩ := hb x hx
    apply bidx_InB _ (by simp [h1]) hidx
    intro i hi
    rw [h1] at hi
    rw [nth_map_range, if_pos hi]
    exact h2 i hi
  clear hb hsh hidx
  induction h with
  | nil => rfl
  | cons h _ ih =>
    rename_i a b as bs _
    simp only [List.map_cons, List.cons.injEq]
    refine ⟨?_, ih (fun x hx => hin x (List.mem_cons_of_mem _ hx))⟩
    rw [h.2 _ (hin a (by simp)), h.1]

theorem expandRank_self {α : Type} (n : Nat) (x : T α) (h : x.shape.length = n) : expandRank n x = x := by
  simp [expandRank, h]

theorem transpose_invert {α : Type} (perm : List Nat) (x : T α) (hp : IsPerm perm) (hl : x.shape.length = perm.length) :
    Same (transpose perm (transpose (invertPerm perm) x)) x := by
  have h := transpose_fusion (invertPerm perm) perm x (invertPerm_isPerm hp) hp
    (hl.trans (invertPerm_length perm hp).symm) (invertPerm_length perm hp).symm
  have : fusedResult (invertPerm perm) perm x = x := by
    unfold fusedResult; rw [(invertPerm_cancels perm hp).2]
  rw [this] at h
  exact h.symm

/-- **C19, element-wise operators with broadcasting** (`Add`, `Sub`, `Mul`, `Max`, `Min`, `PRelu`, `Sum`, and through a
single operand `Relu`, `Abs`, `Cast`, ...): the operands that are not transposes are reshaped and transposed back as
`_create_transpose_pairs_before_node` does. -/
theorem push_elementwise {α β : Type} (f : List α → β) (perm : List Nat) (ops : List (T α ⊕ T α))
    (hp : IsPerm perm)
    (hrank : ∀ o ∈ ops, match o with
      | .inl x => x.shape.length = perm.length | .inr y => y.shape.length ≤ perm.length)
    (hb : Broadcastable perm.length ((ops.map (originalOperand perm)).map (expandRank perm.length))) :
    Same (elementwise f perm.length (ops.map (originalOperand perm)))
      (transpose perm (elementwise f perm.length (ops.map (pushedOperand perm)))) := by
  have hinvl := invertPerm_length perm hp
  have hpush : ∀ o ∈ ops, (pushedOperand perm o).shape.length = perm.length := by
    intro o ho
    have := hrank o ho
    cases o with
    | inl x => exact this
    | inr y => simp [pushedOperand, transpose, hinvl]
  have hexp : (ops.map (pushedOperand perm)).map (expandRank perm.length) = ops.map (pushedOperand perm) := by
    rw [List.map_map]
    apply List.map_congr_left
    intro o ho
    exact expandRank_self _ _ (hpush o ho)
  unfold elementwise
  rw [hexp]
  have h2 := push_elementwiseSame f perm (ops.map (pushedOperand perm)) hp (by
    intro x hx
    rw [List.mem_map] at hx
    obtain ⟨o, ho, rfl⟩ := hx
    exact hpush o ho)
  refine Same.trans (elementwiseSame_congr f perm.length _ _ hb ?_) h2
  rw [List.map_map, List.map_map, List.forall₂_map_left_iff, List.forall₂_map_right_iff, List.forall₂_same]
  intro o ho
  have hr := hrank o ho
  cases o with
  | inl x =>
    simp only [Function.comp, originalOperand, pushedOperand]
    rw [expandRank_self _ _ (by simp [transpose])]
    exact Same.refl _
  | inr y =>
    simp only [Function.comp, originalOperand, pushedOperand]
    have hyl : (reshape (shapeAfterExpand perm.length y.shape) y).shape.length = perm.length := by
      simp only [reshape, shapeAfterExpand, List.length_append, List.length_replicate]
      simp only at hr
      omega
    exact (reshape_expand perm.length y).symm.trans (transpose_invert perm _ hp hyl).symm

/-! ## Constant multipliers -/

/-- **C19, Mul by a constant of shape `(m)`, `(1, m)`, ... of at most the rank of the transpose**: the constant is
reshaped to full rank with its elements along axis `perm[-1]`, which is the tensor that
`_create_transpose_pairs_before_node` would make. -/
theorem mul_const_shape {α : Type} (perm : List Nat) (k m : Nat) (y : T α) (hp : IsPerm perm)
    (hs : y.shape = List.replicate k 1 ++ [m]) (hk : k + 1 ≤ perm.length) :
    (reshape (mulConstShape perm m) y).shape = (pushedOperand perm (.inr y)).shape := by
  have hinvl := invertPerm_length perm hp
  have hyl : y.shape.length = k + 1 := by simp [hs]
  apply ext_nth (by simp [reshape, pushedOperand, transpose, mulConstShape, hinvl])
  intro i hi
  simp only [reshape, mulConstShape, List.length_set, List.length_replicate] at hi
  have hlast : perm.length - 1 < perm.length := by omega
  have e : shapeAfterExpand perm.length y.shape = List.replicate (perm.length - 1) 1 ++ [m] := by
    unfold shapeAfterExpand
    rw [hyl, hs, ← List.append_assoc, List.replicate_append_replicate]
    congr 2
    omega
  simp only [reshape, pushedOperand, transpose]
  rw [nth_map _ _ _ (hinvl.symm ▸ hi), nth_invertPerm hp hi, e]
  unfold mulConstShape
  change nth (setAt (List.replicate perm.length 1) _ m) i = _
  by_cases h : nth perm (perm.length - 1) = i
  · rw [← h, nth_setAt_self (by simpa using hp.nth_lt hlast), hp.idxOf_nth hlast]
    simp [nth, List.getD]
  · rw [nth_setAt_ne h]
    have hne : perm.idxOf i ≠ perm.length - 1 := fun c => h (by rw [← c, hp.nth_idxOf hi])
    have hlt : perm.idxOf i < perm.length - 1 := by have := hp.idxOf_lt hi; omega
    simp [nth, List.getD, List.getElem?_append_left, hlt, hi]

/-! ## Shape -/

/-- **C19, Shape**: `Shape(Transpose(x))` is `Gather(Shape(x), perm)`. -/
theorem push_shape {α : Type} (perm : List Nat) (x : T α) :
    Same (shapeOf (transpose perm x)) (gather1 (shapeOf x) perm) := by
  refine ⟨by simp [shapeOf, gather1, transpose], fun idx h => ?_⟩
  simp only [shapeOf, gather1, transpose] at h ⊢
  have h0 : nth idx 0 < perm.length := by simpa [nth] using h.2 0 (by simp)
  rw [nth_map _ _ _ h0]
  simp [nth]

/-- The shape recorded for the moved operator's output is the one that gives the old output shape after the
transpose. -/
theorem switchShape_spec (perm shape : List Nat) (hp : IsPerm perm) (hl : shape.length = perm.length) :
    perm.map (nth (switchShape perm shape)) = shape := by
  apply ext_nth (by simp [hl])
  intro i hi
  simp only [List.length_map] at hi
  have hlt := hp.nth_lt hi
  rw [nth_map _ _ _ hi, switchShape, nth_map _ _ _ ((invertPerm_length perm hp).symm ▸ hlt), nth_invertPerm hp hlt,
    hp.idxOf_nth hi]

/-! ## Replacing a transpose by a reshape -/

/-- The row-major position only depends on the axes of length other than 1. -/
theorem lin_trim (s idx : List Nat) (h : InB s idx) :
    lin s idx = lin ((s.zip idx).filter (fun p => p.1 ≠ 1)).unzip.1 ((s.zip idx).filter (fun p => p.1 ≠ 1)).unzip.2 ∧
    size s = size ((s.zip idx).filter (fun p => p.1 ≠ 1)).unzip.1 := by
  induction s generalizing idx with
  | nil => cases idx <;> simp [lin, size]
  | cons d s ih =>
    cases idx with
    | nil => simp [InB] at h
    | cons i idx =>
      have hi : i < d := by simpa [nth] using h.2 0 (by simp)
      have ht : InB s idx := ⟨by simpa using h.1, fun j hj => by simpa [nth] using h.2 (j + 1) (by simpa using hj)⟩
      obtain ⟨h1, h2⟩ := ih idx ht
      by_cases hd : d = 1
      · subst hd
        rw [show i = 0 by omega]
        simp only [List.zip_cons_cons, ne_eq, not_true_eq_false, decide_false, Bool.false_eq_true, not_false_eq_true,
          List.filter_cons_of_neg, lin, Nat.zero_mul, Nat.zero_add]
        refine ⟨h1, ?_⟩
        simp only [size, List.foldr_cons, Nat.one_mul]
        exact h2
      · simp only [List.zip_cons_cons, ne_eq, hd, not_false_eq_true, decide_true, List.filter_cons_of_pos,
          List.unzip_cons, lin]
        rw [h1, h2]
        refine ⟨rfl, ?_⟩
        simp only [size, List.foldr_cons]
        congr 1

/-- A recorded shape (`none`: unknown dimension) that is true of the run-time shape. -/
def Records (rec : List (Option Nat)) (s : List Nat) : Prop :=
  rec.length = s.length ∧ ∀ (i d : Nat), rec[i]? = some (some d) → nth s i = d

/-- **C19, transpose replaced by reshape**: if only axes known to have length 1 change their place among the others,
the reshape to the permuted shape gives the same tensor, whatever the unknown dimensions are. -/
theorem transpose_as_reshape {α : Type} (perm : List Nat) (rec : List (Option Nat)) (x : T α)
    (hp : IsPerm perm) (hl : x.shape.length = perm.length) (hrec : Records rec x.shape)
    (h : reshapeInstead perm rec = true) :
    Same (transpose perm x) (reshape (perm.map (nth x.shape)) x) := by
  refine ⟨rfl, fun idx hidx => ?_⟩
  simp only [transpose, reshape] at hidx ⊢
  have hin := InB.permIdx hp hl hidx
  rw [← delin_lin hin]
  congr 2
  -- both row-major positions agree on the axes that are not of recorded length 1
  have hrl : rec.length = perm.length := hrec.1.trans hl
  -- tags
  have htag : ∀ p, p < perm.length →
      (rec.zipIdx.map (fun di => if di.1 = some 1 then none else some di.2)).getD p none =
        if rec[p]? = some (some 1) then none else some p := by
    intro p hpn
    have hpr : p < rec.length := hrl.symm ▸ hpn
    simp [List.getD, hpr]
  have hfilter : perm.filter (fun p => rec[p]? ≠ some (some 1)) =
      (List.range perm.length).filter (fun p => rec[p]? ≠ some (some 1)) := by
    unfold reshapeInstead at h
    simp only [decide_eq_true_eq] at h
    have e1 : (perm.map (fun p => (rec.zipIdx.map (fun di => if di.1 = some 1 then none else some di.2)).getD p none)) =
        perm.map (fun p => if rec[p]? = some (some 1) then none else some p) := by
      apply List.map_congr_left
      intro p hpm
      exact htag p (hp.mem.1 hpm)
    have e2 : rec.zipIdx.map (fun di => if di.1 = some 1 then none else some di.2) =
        (List.range perm.length).map (fun p => if rec[p]? = some (some 1) then none else some p) := by
      apply List.ext_getElem (by simp [hrl])
      intro i h1 h2
      have := htag i (by simpa using h2)
      rw [List.getD_eq_getElem?_getD, List.getElem?_eq_getElem h1, Option.getD_some] at this
      rw [this]; simp
    rw [e1, e2] at h
    have e3 : ∀ l : List Nat, (l.map (fun p => if rec[p]? = some (some 1) then none else some p)).filter
        (fun o : Option Nat => o.isSome) = (l.filter (fun p => rec[p]? ≠ some (some 1))).map some := by
      intro l
      induction l with
      | nil => rfl
      | cons a l ih =>
        by_cases ha : rec[a]? = some (some 1)
        · simp [ha, ih]
        · simp [ha, ih]
    rw [e3, e3] at h
    exact List.map_injective_iff.2 (Option.some_injective _) h
  have hone : ∀ p, rec[p]? = some (some 1) → nth x.shape p = 1 := fun p hpp => hrec.2 p 1 hpp
  rw [(lin_trim _ _ hin).1, (lin_trim _ _ hidx).1]
  have hz1 : x.shape.zip (permIdx perm idx) =
      (List.range perm.length).map (fun p => (nth x.shape p, nth (permIdx perm idx) p)) := by
    apply List.ext_getElem (by simp [hl])
    intro i h1 h2
    simp only [List.length_map, List.length_range] at h2
    simp [nth_eq, hl, h2]
  have hz2 : (perm.map (nth x.shape)).zip idx = perm.map (fun p => (nth x.shape p, nth (permIdx perm idx) p)) := by
    have hil : idx.length = perm.length := by simpa using hidx.1
    apply List.ext_getElem (by simp [hil])
    intro i h1 h2
    simp only [List.length_map] at h2
    have := nth_permIdx_nth (idx := idx) hp h2
    rw [nth_eq _ _ h2] at this
    simp [this, nth_eq _ _ (hil.symm ▸ h2)]
  have key : ((List.range perm.length).map (fun p => (nth x.shape p, nth (permIdx perm idx) p))).filter (fun p => p.1 ≠ 1) =
      (perm.map (fun p => (nth x.shape p, nth (permIdx perm idx) p))).filter (fun p => p.1 ≠ 1) := by
    have hff : ∀ l : List Nat, (l.map (fun p => (nth x.shape p, nth (permIdx perm idx) p))).filter (fun p => p.1 ≠ 1) =
        ((l.filter (fun p => rec[p]? ≠ some (some 1))).map (fun p => (nth x.shape p, nth (permIdx perm idx) p))).filter
          (fun p => p.1 ≠ 1) := by
      intro l
      induction l with
      | nil => rfl
      | cons a l ih =>
        by_cases ha : rec[a]? = some (some 1)
        · have := hone a ha
          simp only [List.map_cons, List.filter_cons, this, ha]
          simpa using ih
        · simp only [List.map_cons, List.filter_cons]
          have hd : decide (rec[a]? ≠ some (some 1)) = true := by simpa using ha
          rw [hd]
          simp only [if_true, List.map_cons, List.filter_cons]
          rw [ih]
    rw [hff (List.range perm.length), hff perm, hfilter]
  rw [hz1, hz2, key]

example : reshapeInstead [0, 2, 3, 1] [none, some 1, some 8, some 8] = true := by decide
example : reshapeInstead [0, 2, 3, 1] [none, some 4, some 8, some 8] = false := by decide

end Verif.TransposeOpt
