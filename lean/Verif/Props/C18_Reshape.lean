import Verif.Props.C19_Push2
import Verif.Model.ConstFold
/-!
# C18: removing the first of two reshapes, and squeeze/unsqueeze pairs
-/
namespace Verif.ConstFold
open Verif.Tensor Verif.TransposeOpt

theorem size_cons (d : Nat) (s : List Nat) : size (d :: s) = d * size s := rfl

theorem lin_delin {s : List Nat} {k : Nat} (h : k < size s) : lin s (delin s k) = k ∧ InB s (delin s k) := by
  induction s generalizing k with
  | nil =>
    simp only [size, List.foldr_nil] at h
    refine ⟨by simp [lin, delin]; omega, rfl, fun i hi => absurd hi (by simp)⟩
  | cons d s ih =>
    rw [size_cons] at h
    have hpos : 0 < size s := by
      rcases Nat.eq_zero_or_pos (size s) with e | e
      · rw [e] at h; omega
      · exact e
    have hd : k / size s < d := Nat.div_lt_of_lt_mul (by rwa [Nat.mul_comm] at h)
    obtain ⟨h1, h2⟩ := ih (Nat.mod_lt k hpos)
    refine ⟨?_, ?_, ?_⟩
    · simp only [delin, lin, h1]
      rw [Nat.mul_comm]; exact Nat.div_add_mod k (size s)
    · simp [delin, h2.1]
    · intro i hi
      cases i with
      | zero => simpa [delin, nth] using hd
      | succ i => simpa [delin, nth] using h2.2 i (by simpa using hi)

/-- Two reshapes in a row are one reshape to the second shape. -/
theorem reshape_reshape {α : Type} (s1 s2 : List Nat) (x : T α) (h1 : size s1 = size x.shape) (h2 : size s2 = size s1) :
    Same (reshape s2 (reshape s1 x)) (reshape s2 x) := by
  refine ⟨rfl, fun idx hi => ?_⟩
  have hlt := lin_lt hi
  simp only [reshape] at hlt ⊢
  rw [(lin_delin (h2 ▸ hlt)).1]

theorem reshapesTo_of_size {az : Bool} {s s' : List Nat} {t : List Int} {r : List Nat} (hs : size s' = size s)
    (hz : az = true ∨ (0 : Int) ∉ t) (h : ReshapesTo az s t r) : ReshapesTo az s' t r := by
  refine { h with copy := fun i hi haz => ?_, total := h.total.trans hs.symm }
  rcases hz with hz | hz
  · rw [hz] at haz; cases haz
  · exact absurd (List.mem_of_getElem? hi) hz

/-- **C18, Reshape after Reshape** (`_optimize_reshape_reshape`, tf2onnx/optimizer/back_to_back_optimizer.py:261-272: the
second reshape reads the operand of the first, shape operand and attributes unchanged). The rewritten reshape resolves
to the same shape and gives the same tensor, provided no entry of the second shape operand copies a dimension.
Missing for the full property: shape operands with `0` (see `reshape_reshape_zero_violated`). -/
theorem reshape_reshape_fused_partial {α : Type} (az1 az2 : Bool) (t1 t2 : List Int) (s1 r : List Nat) (x : T α)
    (h1 : ReshapesTo az1 x.shape t1 s1) (hz : az2 = true ∨ (0 : Int) ∉ t2) :
    (ReshapesTo az2 (reshape s1 x).shape t2 r ↔ ReshapesTo az2 x.shape t2 r) ∧
    (ReshapesTo az2 (reshape s1 x).shape t2 r → Same (reshape r (reshape s1 x)) (reshape r x)) := by
  have hs : size (reshape s1 x).shape = size x.shape := h1.total
  exact ⟨⟨reshapesTo_of_size hs.symm hz, reshapesTo_of_size hs hz⟩, fun h => reshape_reshape s1 r x h1.total h.total⟩

/-- Instance: `[2, 3, 4] -> [6, 4] -> [-1, 2]`. -/
example : ReshapesTo false [6, 4] [-1, 2] [12, 2] := by
  refine ⟨rfl, ?_, ?_, ?_, by decide, ?_, rfl, ?_⟩
  · intro i h; match i, h with | 0, h => simp at h | 1, h => simp at h
  · intro i h; match i, h with | 0, h => simp at h | 1, h => simp at h
  · intro i d h hd
    match i, h with
    | 0, h => simp at h; omega
    | 1, h => simp at h; subst h; rfl
  · intro i j hi hj
    have : ∀ i : Nat, ([-1, 2] : List Int)[i]? = some (-1) → i = 0 := by
      intro i h
      match i, h with
      | 0, _ => rfl
      | 1, h => simp at h
    rw [this i hi, this j hj]
  · intro i h
    match i, h with
    | 0, _ => decide
    | 1, h => simp at h

/-- **C18 is violated when the second shape operand copies a dimension**: `[6] -> [2, 3] -> [0, -1]` is `[2, 3]`, the
rewritten reshape of `[6]` by `[0, -1]` is `[6, 1]`. -/
theorem reshape_reshape_zero_violated :
    ∃ (x s1 r r' : List Nat) (t1 t2 : List Int), ReshapesTo false x t1 s1 ∧ ReshapesTo false s1 t2 r ∧
      ReshapesTo false x t2 r' ∧ r ≠ r' := by
  refine ⟨[6], [2, 3], [2, 3], [6, 1], [2, 3], [0, -1], ?_, ?_, ?_, by decide⟩
  · refine ⟨rfl, ?_, ?_, ?_, by decide, ?_, rfl, ?_⟩
    · intro i h; match i, h with | 0, h => simp at h | 1, h => simp at h
    · intro i h; match i, h with | 0, h => simp at h | 1, h => simp at h
    · intro i d h hd
      match i, h with
      | 0, h => simp at h; subst h; rfl
      | 1, h => simp at h; subst h; rfl
    · intro i j hi; match i, hi with | 0, h => simp at h | 1, h => simp at h
    · intro i hi; match i, hi with | 0, h => simp at h | 1, h => simp at h
  · refine ⟨rfl, ?_, ?_, ?_, by decide, ?_, rfl, ?_⟩
    · intro i h _; match i, h with | 0, _ => decide | 1, h => simp at h
    · intro i h haz; cases haz
    · intro i d h hd
      match i, h with
      | 0, h => simp at h; omega
      | 1, h => simp at h; omega
    · intro i j hi hj
      have : ∀ i : Nat, ([0, -1] : List Int)[i]? = some (-1) → i = 1 := by
        intro i h
        match i, h with
        | 0, h => simp at h
        | 1, _ => rfl
      rw [this i hi, this j hj]
    · intro i hi; match i, hi with | 0, h => simp at h | 1, _ => decide
  · refine ⟨rfl, ?_, ?_, ?_, by decide, ?_, rfl, ?_⟩
    · intro i h _; match i, h with | 0, _ => decide | 1, h => simp at h
    · intro i h haz; cases haz
    · intro i d h hd
      match i, h with
      | 0, h => simp at h; omega
      | 1, h => simp at h; omega
    · intro i j hi hj
      have : ∀ i : Nat, ([0, -1] : List Int)[i]? = some (-1) → i = 1 := by
        intro i h
        match i, h with
        | 0, h => simp at h
        | 1, _ => rfl
      rw [this i hi, this j hj]
    · intro i hi; match i, hi with | 0, h => simp at h | 1, _ => decide

/-- **C18, Unsqueeze after Squeeze on the same axes** (`_optimize_squeeze_unsqueeze`,
tf2onnx/optimizer/back_to_back_optimizer.py:157-191): the pair is the identity, for every set of axes given by equal
(possibly negative) axis lists, on every tensor the squeeze is defined for. -/
theorem squeeze_unsqueeze_cancel {α : Type} (axes : List Int) (x : T α)
    (hone : ∀ i, i < x.shape.length → axisSet x.shape.length axes i = true → nth x.shape i = 1) :
    Same (unsqueeze x.shape.length (axisSet x.shape.length axes) (squeeze (axisSet x.shape.length axes) x)) x := by
  generalize axisSet x.shape.length axes = ax at *
  have hk : ∀ i, i < x.shape.length → ax i = false → i ∈ keptAxes x.shape.length ax :=
    fun i hi hf => mem_keptAxes.2 ⟨hi, hf⟩
  have hsh : (unsqueeze x.shape.length ax (squeeze ax x)).shape = x.shape := by
    apply ext_nth (by simp [unsqueeze])
    intro i hi
    simp only [unsqueeze, List.length_map, List.length_range] at hi
    simp only [unsqueeze, squeeze]
    rw [nth_map_range, if_pos hi]
    split
    · rename_i h; rw [hone i hi h]
    · rename_i h
      have hm := hk i hi (by simpa using h)
      rw [nth_map _ _ _ (List.idxOf_lt_length_iff.2 hm), nth_idxOf_of_mem hm]
  refine ⟨hsh, fun idx hidx => ?_⟩
  rw [hsh] at hidx
  simp only [unsqueeze, squeeze]
  congr 1
  apply ext_nth (by simp [hidx.1])
  intro i hi
  simp only [List.length_map, List.length_range] at hi
  rw [nth_map_range, if_pos hi]
  split
  · rename_i h
    have := hidx.2 i hi
    rw [hone i hi h] at this
    omega
  · rename_i h
    have hm := hk i hi (by simpa using h)
    rw [nth_map _ _ _ (List.idxOf_lt_length_iff.2 hm), nth_idxOf_of_mem hm]

/-- The unsqueeze's axes refer to its result, whose rank is that of the squeeze's operand again. -/
theorem squeeze_unsqueeze_rank {α : Type} (axes : List Int) (x : T α)
    (hax : ∀ a ∈ axes, ValidAxis x.shape.length a) (hnd : (axes.map (normAxis x.shape.length)).Nodup) :
    (squeeze (axisSet x.shape.length axes) x).shape.length + axes.length = x.shape.length := by
  have hlt : ∀ a ∈ axes.map (normAxis x.shape.length), a < x.shape.length := by
    intro a ha
    rw [List.mem_map] at ha
    obtain ⟨b, hb, rfl⟩ := ha
    exact normAxis_lt (hax b hb)
  have h0 : ((List.range x.shape.length).filter (fun i => i ∈ axes.map (normAxis x.shape.length))).length =
      axes.length := by
    rw [← List.length_map (as := axes) (f := normAxis x.shape.length)]
    apply List.Perm.length_eq
    apply (List.perm_ext_iff_of_nodup (List.nodup_range.filter _) hnd).2
    intro a
    simp only [List.mem_filter, List.mem_range, decide_eq_true_eq]
    exact ⟨fun h => h.2, fun h => ⟨hlt a h, h⟩⟩
  have h1 : ∀ (n : Nat) (q : Nat → Bool), ((List.range n).filter q).length +
      ((List.range n).filter (fun i => !q i)).length = n := by
    intro n q
    induction n with
    | zero => rfl
    | succ n ih =>
      rw [List.range_succ, List.filter_append, List.filter_append]
      cases h : q n <;> simp [h] <;> omega
  have h2 := h1 x.shape.length (axisSet x.shape.length axes)
  have h3 : (List.range x.shape.length).filter (axisSet x.shape.length axes) =
      (List.range x.shape.length).filter (fun i => i ∈ axes.map (normAxis x.shape.length)) := by
    apply List.filter_congr
    intro i _
    simp [axisSet]
  rw [h3, h0] at h2
  simp only [squeeze, List.length_map]
  unfold keptAxes
  omega

/-! ## The constant multiplier of C19 -/

/-- **C19, Mul by a constant**: the reshape of the constant is the tensor the general rewrite would use. -/
theorem mul_const_operand {α : Type} (perm : List Nat) (k m : Nat) (y : T α) (hp : IsPerm perm)
    (hs : y.shape = List.replicate k 1 ++ [m]) (hk : k + 1 ≤ perm.length) :
    Same (reshape (mulConstShape perm m) y) (pushedOperand perm (.inr y)) := by
  have hinvl := invertPerm_length perm hp
  have hinv := invertPerm_isPerm hp
  have hyl : y.shape.length = k + 1 := by simp [hs]
  have e : shapeAfterExpand perm.length y.shape = List.replicate (perm.length - 1) 1 ++ [m] := by
    unfold shapeAfterExpand
    rw [hyl, hs, ← List.append_assoc, List.replicate_append_replicate]
    congr 2
    omega
  have hsz : size (shapeAfterExpand perm.length y.shape) = size y.shape := by
    unfold shapeAfterExpand; exact size_replicate_one _ _
  have hsz2 : size (mulConstShape perm m) = size y.shape := by
    have hsh := mul_const_shape perm k m y hp hs hk
    have hm : ∀ s : List Nat, size s = (s.filter (· ≠ 1)).foldr (· * ·) 1 := by
      intro s
      induction s with
      | nil => rfl
      | cons d s ih =>
        by_cases hd : d = 1
        · subst hd; simpa [size] using ih
        · simpa [size, hd] using congrArg (d * ·) ih
    have hlt : nth perm (perm.length - 1) < perm.length := hp.nth_lt (by omega)
    have hset : mulConstShape perm m = List.replicate (nth perm (perm.length - 1)) 1 ++ m ::
        List.replicate (perm.length - (nth perm (perm.length - 1) + 1)) 1 := by
      unfold mulConstShape
      rw [List.set_eq_take_append_cons_drop]
      rw [if_pos (by simpa using hlt)]
      simp [List.take_replicate, List.drop_replicate]
      omega
    have happ : ∀ a b : List Nat, size (a ++ b) = size a * size b := by
      intro a b
      induction a with
      | nil => simp [size]
      | cons d a ih => simp only [List.cons_append, size_cons, ih, Nat.mul_assoc]
    have hones : ∀ j, size (List.replicate j 1) = 1 := by
      intro j
      have := size_replicate_one j []
      simpa [size] using this
    rw [hset, hs, happ, happ, size_cons, hones, hones, hones]
    simp [size]
  -- transpose of the expanded constant is a reshape
  have hrec : Records (List.replicate (perm.length - 1) (some 1) ++ [none]) (reshape (shapeAfterExpand perm.length y.shape) y).shape := by
    refine ⟨by simp only [reshape, e]; simp, ?_⟩
    intro i d hi
    simp only [reshape, e]
    by_cases h : i < perm.length - 1
    · rw [List.getElem?_append_left (by simpa using h)] at hi
      simp [h] at hi
      subst hi
      simp [nth, List.getD, List.getElem?_append_left, h]
    · rw [List.getElem?_append_right (by simpa using Nat.le_of_not_lt h)] at hi
      simp only [List.length_replicate] at hi
      rcases Nat.eq_zero_or_pos (i - (perm.length - 1)) with h0 | h0
      · rw [h0] at hi; simp at hi
      · rw [List.getElem?_eq_none (by simp; omega)] at hi; cases hi
  have hmov : reshapeInstead (invertPerm perm) (List.replicate (perm.length - 1) (some 1) ++ [none]) = true := by
    unfold reshapeInstead
    simp only [decide_eq_true_eq]
    have hlast : perm.length - 1 < perm.length := by omega
    have htag : ((List.replicate (perm.length - 1) (some 1) ++ [none]).zipIdx.map
        (fun di : Option Nat × Nat => if di.1 = some 1 then none else some di.2)) =
        List.replicate (perm.length - 1) none ++ [some (perm.length - 1)] := by
      apply List.ext_getElem (by simp)
      intro i h1 h2
      simp only [List.length_append, List.length_replicate, List.length_singleton] at h2
      by_cases h : i < perm.length - 1
      · simp [h, List.getElem_append_left]
      · have hi : i = perm.length - 1 := by omega
        subst hi
        simp
    rw [htag]
    have hf : ∀ (j : Nat) (l : List (Option Nat)), (List.replicate j none ++ l).filter (fun o : Option Nat => o.isSome) =
        l.filter (fun o => o.isSome) := by
      intro j l
      induction j with
      | zero => rfl
      | succ j ih => simpa [List.replicate_succ] using ih
    rw [hf]
    have hg : ∀ p, p < perm.length → ((List.replicate (perm.length - 1) none ++ [some (perm.length - 1)]).getD p none :
        Option Nat) = if p = perm.length - 1 then some p else none := by
      intro p hpl
      by_cases h : p = perm.length - 1
      · subst h; simp [List.getD]
      · have : p < perm.length - 1 := by omega
        simp [List.getD, List.getElem?_append_left, this, h]
    have hmap : (invertPerm perm).map (fun p => ((List.replicate (perm.length - 1) none ++
        [some (perm.length - 1)]).getD p none : Option Nat)) =
        (invertPerm perm).map (fun p => if p = perm.length - 1 then some p else none) := by
      apply List.map_congr_left
      intro p hpm
      exact hg p (hinvl ▸ hinv.mem.1 hpm)
    rw [hmap]
    have hcount : ∀ l : List Nat, l.Nodup → perm.length - 1 ∈ l →
        (l.map (fun p => if p = perm.length - 1 then some p else none)).filter (fun o : Option Nat => o.isSome) =
          [some (perm.length - 1)] := by
      intro l hnd hmem
      induction l with
      | nil => simp at hmem
      | cons a l ih =>
        rw [List.nodup_cons] at hnd
        by_cases ha : a = perm.length - 1
        · subst ha
          have hnone : (l.map (fun p => if p = perm.length - 1 then some p else none)).filter
              (fun o : Option Nat => o.isSome) = [] := by
            rw [List.filter_eq_nil_iff]
            intro o ho
            rw [List.mem_map] at ho
            obtain ⟨p, hpm, rfl⟩ := ho
            have hne : p ≠ perm.length - 1 := fun c => hnd.1 (by rw [← c]; exact hpm)
            simp [hne]
          simp [hnone]
        · rw [List.map_cons, if_neg ha, List.filter_cons_of_neg (by simp)]
          apply ih hnd.2
          rcases List.mem_cons.1 hmem with h | h
          · exact absurd h.symm ha
          · exact h
    rw [hcount _ hinv.nodup (hinv.mem.2 (hinvl.symm ▸ hlast))]
    simp
  have hl' : (reshape (shapeAfterExpand perm.length y.shape) y).shape.length = (invertPerm perm).length := by
    rw [hinvl]; simp only [reshape, e]; simp; omega
  have h1 := transpose_as_reshape (invertPerm perm) _ _ hinv hl' hrec hmov
  have hsh := mul_const_shape perm k m y hp hs hk
  simp only [reshape, pushedOperand, transpose] at hsh
  have h2 := reshape_reshape (shapeAfterExpand perm.length y.shape) (mulConstShape perm m) y hsz (hsz2.trans hsz.symm)
  simp only [pushedOperand]
  refine h2.symm.trans ?_
  rw [hsh]
  exact h1.symm

end Verif.ConstFold
