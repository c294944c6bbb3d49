import Verif.Props.C66_Gemm
import Mathlib.Data.List.Sort
/-!
# C66: flattening, full transposition, identity matrices
-/
namespace Verif.Patt
open Verif.Tensor Verif.Emit Verif.Conv

/-! ## Flatten -/

/-- The value of the matched operators: a slice `[b : b + 1]` of the vector gives the first dimension. -/
def FlattenMatch.value {α : Type} (m : FlattenMatch α) : Option (T α) :=
  match m.begin_, m.last with
  | [b], some l => if 0 ≤ b then (m.s[b.toNat]?).bind (fun d => tfReshape m.x [d, l]) else none
  | _, _ => none

theorem reshape_first {α : Type} {x v : T α} {d : Int} (hd : d = -1 ∨ (d = nth x.shape 0 ∧ 1 ≤ x.shape.length)) (h : tfReshape x [d, -1] = some v) :
    ∃ y, flatten x = some y ∧ Same y v := by
  unfold tfReshape at h
  rw [Option.map_eq_some_iff] at h
  obtain ⟨r, hr, rfl⟩ := h
  unfold tfReshapeDims at hr
  dsimp only at hr
  split at hr
  · rename_i hc
    obtain ⟨-, hcount, hk, -⟩ := hc
    rcases hd with rfl | ⟨rfl, hl⟩
    · simp at hcount
    · have hne : (nth x.shape 0 : Int) ≠ -1 := by omega
      have hk := hk (by simp)
      simp only [ne_eq, hne, not_false_eq_true, decide_true, List.filter_cons_of_pos, not_true_eq_false, decide_false, Bool.false_eq_true,
        List.filter_cons_of_neg, List.filter_nil, List.map_cons, List.map_nil, Int.toNat_natCast, Tensor.size, List.foldr_cons, List.foldr_nil,
        Nat.mul_one, if_false, if_true, hne, if_neg hne, Option.some.injEq] at hr hk
      refine ⟨_, by unfold flatten; rw [if_pos hl], ?_⟩
      have e : [nth x.shape 0, Tensor.size x.shape.tail] = r := by
        rw [← hr]
        cases hs : x.shape with
        | nil => rw [hs] at hl; simp at hl
        | cons a t =>
          rw [hs] at hk
          have ha : nth (a :: t) 0 = a := rfl
          rw [ha] at hk ⊢
          simp only [List.foldr_cons, List.tail_cons, Tensor.size]
          rw [Nat.mul_div_cancel_left _ (by omega)]
      rw [e]
      exact Same.refl _
  · cases hr

theorem flatten_match {α : Type} {m : FlattenMatch α} {z : Option (T α)} {v : T α} (h : flattenRewrite m = some z) (hv : m.value = some v) :
    ∃ d, m.s[0]? = some d ∧ tfReshape m.x [d, -1] = some v ∧ z = flatten m.x ∧ (m.fixed = true → m.xShape = some m.s) := by
  unfold flattenRewrite at h
  split at h
  · rename_i hok
    cases h
    unfold flattenOk at hok
    simp only [Bool.and_eq_true, decide_eq_true_eq, Bool.or_eq_true, Bool.not_eq_true'] at hok
    obtain ⟨⟨⟨⟨⟨⟨h1, h2⟩, h3⟩, h4⟩, -⟩, -⟩, -⟩ := hok
    unfold FlattenMatch.value at hv
    rw [h1, h4] at hv
    simp only [le_refl, if_true, Int.toNat_zero, Option.bind_eq_some_iff] at hv
    obtain ⟨d, hd, hv⟩ := hv
    exact ⟨d, hd, hv, rfl, fun hf => (h3.resolve_left (by simp [hf])).2⟩
  · cases h

/-- **C66**: a reshape to `[first dimension, -1]`, the first dimension taken from a constant, is a `Flatten`. -/
theorem flatten_constant_shape {α : Type} (m : FlattenMatch α) (hf : m.fixed = true) (hr : ∀ r, m.xShape = some r → Rec r m.x.shape)
    {z : Option (T α)} (h : flattenRewrite m = some z) {v : T α} (hv : m.value = some v) : ∃ y, z = some y ∧ Same y v := by
  obtain ⟨d, hd, hv, rfl, hs⟩ := flatten_match h hv
  have hrec := hr _ (hs hf)
  apply reshape_first _ hv
  have hl : 0 < m.s.length := by
    by_contra hh
    rw [List.getElem?_eq_none (by omega)] at hd
    cases hd
  have := hrec.2 0 (hrec.1 ▸ hl)
  rw [List.getD_eq_getElem?_getD, hd] at this
  exact this.imp id (fun h => ⟨h, hrec.1 ▸ hl⟩)

/-- **C66**: the same, if the first dimension comes from the shape of a tensor with as many rows. The code does not compare that tensor with the operand. -/
theorem flatten_run_time_shape_partial {α β : Type} (m : FlattenMatch α) (other : T β) (ho : m.s = other.shape.map Int.ofNat)
    (hrank : 1 ≤ m.x.shape.length) (hrows : nth other.shape 0 = nth m.x.shape 0)
    {z : Option (T α)} (h : flattenRewrite m = some z) {v : T α} (hv : m.value = some v) : ∃ y, z = some y ∧ Same y v := by
  obtain ⟨d, hd, hv, rfl, -⟩ := flatten_match h hv
  apply reshape_first _ hv
  right
  refine ⟨?_, hrank⟩
  rw [ho] at hd
  have hl : 0 < other.shape.length := by
    by_contra hh
    rw [List.getElem?_eq_none (by rw [List.length_map]; omega)] at hd
    cases hd
  rw [List.getElem?_map, List.getElem?_eq_getElem hl] at hd
  simp only [Option.map_some, Option.some.injEq] at hd
  rw [← hd, ← hrows, nth_eq _ _ hl]
  rfl

/-- A matrix of shape `[2, 6]` reshaped to the rows of another one, 3. -/
def otherRows : FlattenMatch Int :=
  { x := ⟨[2, 6], fun i => 6 * nth i 0 + nth i 1⟩, fixed := false, s := [3, 5], sConst := false, last := some (-1), begin_ := [0], end_ := [1],
    strides := [1], xShape := some [2, 6] }

/-- **Defect**: without that condition the result has another shape. -/
theorem flatten_other_rows_violated : ∃ y v, flattenRewrite otherRows = some (some y) ∧ otherRows.value = some v ∧ y.shape = [2, 6] ∧ v.shape = [3, 4] :=
  ⟨_, _, rfl, rfl, rfl, rfl⟩

/-- The hypotheses are met by a batch of images. -/
theorem flatten_example : ∃ y v, flattenRewrite { otherRows with x := ⟨[2, 3, 4], fun i => nth i 2⟩, s := [2, 3, 4], xShape := some [-1, 3, 4] } = some (some y) ∧
    { otherRows with x := ⟨[2, 3, 4], fun i => nth i 2⟩, s := [2, 3, 4], xShape := some [-1, 3, 4] : FlattenMatch Int }.value = some v ∧
    y.shape = [2, 12] ∧ v.shape = [2, 12] := ⟨_, _, rfl, rfl, rfl, rfl⟩

/-! ## Full transposition -/

/-- The permutation the matched operators compute: `(a - b) - range(start, limit, delta)`. -/
def permOf (a b start limit delta : Int) : Option (List Int) := (tfRange start limit delta).map (fun l => l.map (fun r => (a - b) - r))

/-- `tf.transpose` by a permutation that is computed. -/
def tfTranspose {α : Type} (x : T α) (perm : List Int) : Option (T α) :=
  if IsPerm (perm.map Int.toNat) ∧ (∀ z ∈ perm, 0 ≤ z) ∧ perm.length = x.shape.length then some (transpose (perm.map Int.toNat) x) else none

/-- Decreasing permutations are the reversal. -/
theorem perm_decreasing {l : List Nat} (hp : IsPerm l) (hd : l.Pairwise (· > ·)) : l = (List.range l.length).reverse := by
  have h1 : l.reverse.Pairwise (· < ·) := List.pairwise_reverse.2 hd
  have h2 : l.reverse.Perm (List.range l.length) := (List.reverse_perm l).trans hp
  have h3 : l.reverse = List.range l.length := by
    apply List.Perm.eq_of_pairwise (le := (· < ·)) _ h1 List.pairwise_lt_range h2
    intro a b _ _ h h'
    omega
  rw [← h3, List.reverse_reverse]

theorem range_length {s l d : Int} {r : List Int} (h : tfRange s l d = some r) (hd : 0 < d) : r = (List.range r.length).map (fun k : Nat => s + k * d) := by
  unfold tfRange at h
  rw [if_pos hd] at h
  cases h
  simp

/-- **C66**: a transposition by `(a - b) - range(start, limit, delta)` reverses the axes if `delta` is positive, whatever the other operands are, provided TensorFlow
accepts it. -/
theorem transpose_reverses_partial {α : Type} (x : T α) (a b start limit delta : Int) (hd : 0 < delta) (r : List Int) (hr : Rec r x.shape)
    {perm : List Int} (hp : permOf a b start limit delta = some perm) {v : T α} (hv : tfTranspose x perm = some v) :
    transposeRewrite (some r) x = .ok v := by
  unfold tfTranspose at hv
  split at hv
  · rename_i hc
    obtain ⟨h1, h2, h3⟩ := hc
    cases hv
    unfold permOf at hp
    rw [Option.map_eq_some_iff] at hp
    obtain ⟨l, hl, rfl⟩ := hp
    have hlen := range_length hl hd
    have hdec : ((l.map (fun r => (a - b) - r)).map Int.toNat).Pairwise (· > ·) := by
      rw [List.pairwise_map]
      have hm : (l.map (fun r => (a - b) - r)).Pairwise (· > ·) := by
        rw [hlen, List.map_map, List.pairwise_map]
        refine List.pairwise_lt_range.imp ?_
        intro i j hij
        show (a - b) - (start + (i : Int) * delta) > (a - b) - (start + (j : Int) * delta)
        have : ((j : Int) - i) * delta > 0 := Int.mul_pos (by omega) hd
        rw [Int.sub_mul] at this
        omega
      refine hm.imp_of_mem ?_
      intro u w hu hw huw
      have := h2 u hu
      have := h2 w hw
      show u.toNat > w.toNat
      omega
    have := perm_decreasing h1 hdec
    unfold transposeRewrite
    dsimp only
    rw [this, hr.1, List.length_map, h3]
  · cases hv

/-- The usual case: `(rank - 1) - range(0, rank, 1)` is accepted for every tensor. -/
theorem transpose_usual {α : Type} (x : T α) (r : List Int) (hr : Rec r x.shape) : ∃ perm v,
    permOf x.shape.length 1 0 x.shape.length 1 = some perm ∧ tfTranspose x perm = some v ∧ transposeRewrite (some r) x = .ok v := by
  have h1 : permOf x.shape.length 1 0 x.shape.length 1 = some ((List.range x.shape.length).map (fun k : Nat => ((x.shape.length : Int) - 1) - k)) := by
    unfold permOf tfRange
    rw [if_pos (by omega)]
    simp
  have e : ((List.range x.shape.length).map (fun k : Nat => ((x.shape.length : Int) - 1) - k)).map Int.toNat = (List.range x.shape.length).reverse := by
    apply List.ext_getElem (by simp)
    intro i h1 h2
    simp at h1
    simp
  have h2 : ∃ v, tfTranspose x ((List.range x.shape.length).map (fun k : Nat => ((x.shape.length : Int) - 1) - k)) = some v := by
    unfold tfTranspose
    rw [if_pos]
    · exact ⟨_, rfl⟩
    · refine ⟨?_, fun z hz => ?_, by simp⟩
      · rw [e]
        unfold IsPerm
        simp
      · obtain ⟨k, hk, rfl⟩ := List.mem_map.1 hz
        have := List.mem_range.1 hk
        omega
  obtain ⟨v, hv⟩ := h2
  exact ⟨_, v, h1, hv, transpose_reverses_partial x _ _ _ _ _ (by omega) r hr h1 hv⟩

/-- **Defect**: with a negative step the matched operators may leave the axes where they are. -/
theorem transpose_negative_step_violated : ∃ (x v y : T Int) (perm : List Int), permOf 2 2 0 (-3) (-1) = some perm ∧ tfTranspose x perm = some v ∧
    transposeRewrite (some [2, 3, 4]) x = .ok y ∧ v.shape = [2, 3, 4] ∧ y.shape = [4, 3, 2] := by
  refine ⟨⟨[2, 3, 4], fun _ => 0⟩, transpose [0, 1, 2] ⟨[2, 3, 4], fun _ => 0⟩, transpose [2, 1, 0] ⟨[2, 3, 4], fun _ => 0⟩, [0, 1, 2], by decide, ?_,
    rfl, rfl, rfl⟩
  unfold tfTranspose
  rw [if_pos ⟨by unfold IsPerm; decide, by decide, rfl⟩]
  rfl

/-! ## Identity matrices -/

/-- `MatrixDiag` of a fill, as `tf.eye` makes it for square matrices: `batch` are further dimensions. -/
def diagValue {β : Type} [Zero β] (batch : List Int) (rows cols : Int) (v : β) : Option (T β) :=
  (tfFill (batch ++ [min rows cols]) v).bind (matrixDiag 0)

/-- `MatrixSetDiag` of two fills, as `tf.eye` makes it for other matrices: `shape` and `w` are the operands of the first one. -/
def setDiagValue {β : Type} (batch : List Int) (rows cols : Int) (v : β) (shape : List Int) (w : β) : Option (T β) :=
  (tfFill shape w).bind (fun x => (tfFill (batch ++ [min rows cols]) v).bind (matrixSetDiag x))

variable {β : Type} [DecidableEq β] [Zero β] [One β]

/-- **C66**: a diagonal of ones of length `min rows cols`, without batch dimensions and with as many rows as columns, is the identity matrix. -/
theorem eye_square_partial (n : Int) (fv : β) {z : Option (T β)} (h : eyeRewrite fv n n = some z) {v : T β} (hv : diagValue [] n n fv = some v) :
    ∃ y, z = some y ∧ Same y v := by
  unfold eyeRewrite at h
  split at h
  · rename_i hf
    subst hf
    cases h
    unfold diagValue tfFill at hv
    rw [List.nil_append, Int.min_self] at hv
    split at hv
    · rename_i hn
      have hn : 0 ≤ n := hn n (by simp)
      rw [Option.bind_some] at hv
      unfold matrixDiag at hv
      simp only [List.map_cons, List.map_nil, List.length_cons, List.length_nil, le_refl, if_true, Nat.zero_add, Option.some.injEq] at hv
      refine ⟨⟨[n.toNat, n.toNat], fun i => if nth i 0 = nth i 1 then 1 else 0⟩, ?_, ?_⟩
      · unfold Seg.constOfShape
        rw [if_pos (by simp [hn])]
        simp [eyeLike]
      · rw [← hv]
        refine ⟨rfl, fun i hi => ?_⟩
        have hl : i.length = 2 := hi.1
        simp only [hl]
        by_cases h : nth i 0 = nth i 1
        · rw [if_pos h, if_pos h.symm]
        · rw [if_neg h, if_neg (fun h' => h h'.symm)]
    · cases hv
  · cases h

/-- **C66**: a diagonal of ones set in a matrix of zeros with `rows` rows and `cols` columns is the identity matrix. -/
theorem eye_any_partial (rows cols : Int) (fv : β) {z : Option (T β)} (h : eyeRewrite fv rows cols = some z) {v : T β}
    (hv : setDiagValue [] rows cols fv [rows, cols] 0 = some v) : ∃ y, z = some y ∧ Same y v := by
  unfold eyeRewrite at h
  split at h
  · rename_i hf
    subst hf
    cases h
    unfold setDiagValue at hv
    rw [Option.bind_eq_some_iff] at hv
    obtain ⟨x, hx, hv⟩ := hv
    rw [Option.bind_eq_some_iff] at hv
    obtain ⟨d, hd, hv⟩ := hv
    unfold tfFill at hx hd
    split at hx
    · rename_i hn
      cases hx
      split at hd
      · cases hd
        unfold matrixSetDiag at hv
        split at hv
        · rename_i hc
          cases hv
          refine ⟨⟨[rows.toNat, cols.toNat], fun i => if nth i 0 = nth i 1 then 1 else 0⟩, ?_, rfl, fun i hi => ?_⟩
          · unfold Seg.constOfShape
            rw [if_pos hn]
            simp [eyeLike]
          · have hl : i.length = 2 := hi.1
            simp only [hl]
            by_cases h : nth i 0 = nth i 1
            · rw [if_pos h, if_pos h.symm]
            · rw [if_neg h, if_neg (fun h' => h h'.symm)]
        · cases hv
      · cases hd
    · cases hx
  · cases h

/-- Both have a value. -/
theorem eye_examples : (∃ v : T Int, diagValue [] 3 3 1 = some v) ∧ ∃ v : T Int, setDiagValue [] 2 3 1 [2, 3] 0 = some v := ⟨⟨_, rfl⟩, ⟨_, rfl⟩⟩

/-- **Defect**: the pattern with `MatrixDiag` does not ask for a square matrix. -/
theorem eye_not_square_violated : ∃ y v : T Int, eyeRewrite 1 2 3 = some (some y) ∧ diagValue [] 2 3 1 = some v ∧ y.shape = [2, 3] ∧ v.shape = [2, 2] :=
  ⟨_, _, rfl, rfl, rfl, rfl⟩

/-- **Defect**: batch dimensions are lost. -/
theorem eye_batch_violated : ∃ y v : T Int, eyeRewrite 1 3 3 = some (some y) ∧ diagValue [5] 3 3 1 = some v ∧ y.shape = [3, 3] ∧ v.shape = [5, 3, 3] :=
  ⟨_, _, rfl, rfl, rfl, rfl⟩

/-- **Defect**: what surrounds the diagonal is not looked at: sevens become zeros. -/
theorem eye_background_violated : ∃ y v : T Int, eyeRewrite 1 2 2 = some (some y) ∧ setDiagValue [] 2 2 1 [2, 2] 7 = some v ∧
    y.get [0, 1] = 0 ∧ v.get [0, 1] = 7 := ⟨_, _, rfl, rfl, rfl, rfl⟩

end Verif.Patt
