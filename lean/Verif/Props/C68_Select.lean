import Verif.Props.C68_Mask
import Verif.Props.C57_Geom
/-!
# C68: choosing elements
-/
namespace Verif.Scan
open Verif.Tensor Verif.Emit

/-- `z` is chosen of `x` and `y` by `c`, all three broadcast, seen from the last axis. -/
structure Chosen {α : Type} (c : T Bool) (x y z : T α) : Prop where
  rank : z.shape.length = max c.shape.length (max x.shape.length y.shape.length)
  dims : ∀ k, dimB z.shape k = if dimB c.shape k = 1 then (if dimB x.shape k = 1 then dimB y.shape k else dimB x.shape k) else dimB c.shape k
  elems : ∀ p, at' z p = if at' c p then at' x p else at' y p

theorem Chosen.same {α : Type} {c : T Bool} {x y z w : T α} (h : Chosen c x y z) (h' : Chosen c x y w) : Same z w :=
  same_of_view (h.rank.trans h'.rank.symm) (fun k => (h.dims k).trans (h'.dims k).symm) (fun p => (h.elems p).trans (h'.elems p).symm)

/-- What three shapes that broadcast satisfy. -/
def Compat3 (c x y : List Nat) : Prop := Compat' x y ∧ ∀ k, dimB c k = (if dimB x k = 1 then dimB y k else dimB x k) ∨ dimB c k = 1 ∨ (dimB x k = 1 ∧ dimB y k = 1)

theorem where_chosen {α : Type} {c : T Bool} {x y z : T α} (h : onnxWhere c x y = some z) : Chosen c x y z ∧ Compat3 c.shape x.shape y.shape := by
  unfold onnxWhere at h
  rw [Option.bind_eq_some_iff] at h
  obtain ⟨q, hq, hz⟩ := h
  obtain ⟨ql, qd, qc, qa⟩ := zipT_view hq
  obtain ⟨zl, zd, zc, za⟩ := zipT_view hz
  refine ⟨⟨by rw [zl, ql], fun k => by rw [zd, qd], fun p => by rw [za, qa]⟩, qc, fun k => ?_⟩
  have h1 := zc k
  rw [qd] at h1
  rcases h1 with h1 | h1 | h1
  · exact Or.inl h1
  · exact Or.inr (Or.inl h1)
  · have := qc k
    split at h1
    · exact Or.inr (Or.inr ⟨by assumption, h1⟩)
    · exact absurd h1 (by assumption)

theorem where_some {α : Type} {c : T Bool} {x y : T α} (h : Compat3 c.shape x.shape y.shape) : ∃ z, onnxWhere c x y = some z := by
  obtain ⟨q, hq⟩ := zipT_some (Prod.mk : α → α → α × α) h.1
  obtain ⟨-, qd, -, -⟩ := zipT_view hq
  obtain ⟨z, hz⟩ := zipT_some (fun (c : Bool) (q : α × α) => if c then q.1 else q.2) (x := c) (y := q) (by
    intro k
    rw [qd]
    rcases h.2 k with h1 | h1 | h1
    · exact Or.inl h1
    · exact Or.inr (Or.inl h1)
    · right
      right
      rw [if_pos h1.1]
      exact h1.2)
  exact ⟨z, by unfold onnxWhere; rw [hq]; exact hz⟩

/-- `a` behaves like a number: multiplied with the casts of truth values it is itself and zero, zero added changes nothing. -/
structure Plain {α : Type} [Add α] [Mul α] (cast : Bool → α) (zero : α) (a : α) : Prop where
  one_mul : cast true * a = a
  mul_one : a * cast true = a
  zero_mul : cast false * a = zero
  mul_zero : a * cast false = zero
  add_zero : a + zero = a
  zero_add : zero + a = a

theorem mulAdd_chosen {α : Type} [Add α] [Mul α] (cast : Bool → α) (zero : α) {c : T Bool} {x y : T α} (h : Compat3 c.shape x.shape y.shape)
    (hx : ∀ i, Plain cast zero (x.get i)) (hy : ∀ i, Plain cast zero (y.get i)) : ∃ z, mulAdd cast c x y = some z ∧ Chosen c x y z := by
  have c1 : Compat' (mapT cast c).shape x.shape := by
    intro k
    show dimB c.shape k = _ ∨ _ ∨ _
    have h1 := h.1 k
    have h2 := h.2 k
    show dimB c.shape k = dimB x.shape k ∨ dimB c.shape k = 1 ∨ dimB x.shape k = 1
    split at h2 <;> omega
  have c2 : Compat' y.shape (mapT cast (mapT not c)).shape := by
    intro k
    have h1 := h.1 k
    have h2 := h.2 k
    show dimB y.shape k = dimB c.shape k ∨ dimB y.shape k = 1 ∨ dimB c.shape k = 1
    split at h2 <;> omega
  obtain ⟨p, hp⟩ := zipT_some (· * ·) c1
  obtain ⟨q, hq⟩ := zipT_some (· * ·) c2
  obtain ⟨pl, pd, -, pa⟩ := zipT_view hp
  obtain ⟨ql, qd, -, qa⟩ := zipT_view hq
  change p.shape.length = max c.shape.length _ at pl
  change q.shape.length = max _ c.shape.length at ql
  have pd : ∀ k, dimB p.shape k = if dimB c.shape k = 1 then dimB x.shape k else dimB c.shape k := pd
  have qd : ∀ k, dimB q.shape k = if dimB y.shape k = 1 then dimB c.shape k else dimB y.shape k := qd
  have c3 : Compat' p.shape q.shape := by
    intro k
    have h1 := h.1 k
    have h2 := h.2 k
    rw [pd, qd]
    split at h2 <;> split <;> split <;> omega
  obtain ⟨z, hz⟩ := zipT_some (· + ·) c3
  obtain ⟨zl, zd, -, za⟩ := zipT_view hz
  refine ⟨z, by unfold mulAdd; rw [hp]; simp only [Option.bind_some]; rw [hq]; exact hz, ?_, ?_, ?_⟩
  · rw [zl, pl, ql]
    omega
  · intro k
    have h1 := h.1 k
    have h2 := h.2 k
    rw [zd, pd, qd]
    split_ifs at h2 ⊢ <;> omega
  · intro r
    rw [za, pa, qa]
    have e1 : at' (mapT cast c) r = cast (at' c r) := rfl
    have e2 : at' (mapT cast (mapT not c)) r = cast (not (at' c r)) := rfl
    rw [e1, e2]
    cases hc : at' c r with
    | true =>
      simp only [Bool.not_true, if_true]
      have a1 := (hx ((List.range x.shape.length).map (fun i => if nth x.shape i = 1 then 0 else r (x.shape.length - 1 - i))))
      have a2 := (hy ((List.range y.shape.length).map (fun i => if nth y.shape i = 1 then 0 else r (y.shape.length - 1 - i))))
      show cast true * at' x r + at' y r * cast false = at' x r
      rw [show cast true * at' x r = at' x r from a1.one_mul, show at' y r * cast false = zero from a2.mul_zero]
      exact a1.add_zero
    | false =>
      simp only [Bool.not_false, Bool.false_eq_true, if_false]
      have a1 := (hx ((List.range x.shape.length).map (fun i => if nth x.shape i = 1 then 0 else r (x.shape.length - 1 - i))))
      have a2 := (hy ((List.range y.shape.length).map (fun i => if nth y.shape i = 1 then 0 else r (y.shape.length - 1 - i))))
      show cast false * at' x r + at' y r * cast true = at' y r
      rw [show cast false * at' x r = zero from a1.zero_mul, show at' y r * cast true = at' y r from a2.mul_one]
      exact a2.zero_add

/-- When the converted operators have to choose, without arithmetic: from opset 9 on for strings, if a rewriter has said so, and for floats if the condition looks for
numbers that are none, or either operand is seen to hold some. -/
def UsesWhere (opset : Nat) (n : SelectNode) : Prop :=
  9 ≤ opset ∧ (n.isString = true ∨ n.handlesNan = true ∨ (n.isFloat = true ∧ (n.condNan = true ∨ n.constNan.1 = true ∨ n.constNan.2 = true ∨ n.mulInf.1 = true ∨ n.mulInf.2 = true)))

theorem UsesWhere.needs {opset : Nat} {n : SelectNode} (h : UsesWhere opset n) : n.isString = true ∨ n.needsWhere = true := by
  rcases h.2 with h | h | ⟨hf, h⟩
  · exact Or.inl h
  · right
    simp [SelectNode.needsWhere, h]
  · right
    unfold SelectNode.needsWhere
    rw [hf]
    rcases h with h | h | h | h | h <;> simp [h]

theorem select_chosen {α : Type} [Add α] [Mul α] (cast : Bool → α) (zero : α) (opset : Nat) (n : SelectNode) (hstr : n.isString = true → 9 ≤ opset)
    {c c' : T Bool} {x y : T α} (hc : n.cond c = .ok (some c')) (hnum : UsesWhere opset n ∨ ∀ i, Plain cast zero (x.get i) ∧ Plain cast zero (y.get i))
    (h : Compat3 c'.shape x.shape y.shape) : ∃ z, select cast opset n c x y = .ok (some z) ∧ Chosen c' x y z := by
  have num : (∀ i, Plain cast zero (x.get i) ∧ Plain cast zero (y.get i)) →
      ∃ z, (n.cond c).map (fun c => c.bind (fun c => mulAdd cast c x y)) = .ok (some z) ∧ Chosen c' x y z := by
    intro hp
    obtain ⟨z, hz, hch⟩ := mulAdd_chosen cast zero h (fun i => (hp i).1) (fun i => (hp i).2)
    refine ⟨z, ?_, hch⟩
    rw [hc]
    show Except.ok (mulAdd cast c' x y) = _
    rw [hz]
  have whr : ∃ z, (n.cond c).map (fun c => c.bind (fun c => onnxWhere c x y)) = .ok (some z) ∧ Chosen c' x y z := by
    obtain ⟨z, hz⟩ := where_some h
    refine ⟨z, ?_, (where_chosen hz).1⟩
    rw [hc]
    show Except.ok (onnxWhere c' x y) = _
    rw [hz]
  unfold select
  split
  · rename_i h9
    split
    · rename_i hs
      have := hstr hs
      omega
    · rcases hnum with hu | hp
      · have := hu.1
        omega
      · exact num hp
  · split
    · rename_i h9 hw
      rcases hnum with hu | hp
      · rcases hu.needs with h1 | h1 <;> simp [h1] at hw
      · exact num hp
    · exact whr

/-- **C68**: `SelectV2`, for operands and conditions of all shapes that broadcast. Where the choice is computed by products and a sum, the elements of both operands have
to behave like numbers (`select_infinity_violated`). -/
theorem select_v2_partial {α : Type} [Add α] [Mul α] (cast : Bool → α) (zero : α) (opset : Nat) (n : SelectNode) (hv : n.v1 = false) (hstr : n.isString = true → 9 ≤ opset)
    (c : T Bool) (x y : T α) (hnum : UsesWhere opset n ∨ ∀ i, Plain cast zero (x.get i) ∧ Plain cast zero (y.get i)) {v : T α} (h : tfSelectV2 c x y = some v) :
    ∃ z, select cast opset n c x y = .ok (some z) ∧ Same z v := by
  obtain ⟨hch, hcom⟩ := where_chosen (c := c) (x := x) (y := y) (z := v) h
  have hc : n.cond c = .ok (some c) := by
    unfold SelectNode.cond
    rw [hv]
    split
    · rw [if_neg (by simp)]
    · rfl
  obtain ⟨z, hz, hzc⟩ := select_chosen cast zero opset n hstr hc hnum hcom
  exact ⟨z, hz, hzc.same hch⟩

/-! ## `Select` of TensorFlow 1 -/

theorem size_ones (k : Nat) : Tensor.size (List.replicate k 1) = 1 := by
  induction k with
  | zero => rfl
  | succ k ih => rw [List.replicate_succ]; simp [Tensor.size] at *; exact ih

theorem lin_ones (k : Nat) : lin (List.replicate k 1) (List.replicate k 0) = 0 := by
  induction k with
  | zero => rfl
  | succ k ih => rw [List.replicate_succ, List.replicate_succ]; simp [lin, ih]

/-- The recorded rank and length are right. -/
structure SelectNode.Right {α : Type} (n : SelectNode) (c : T Bool) (x : T α) : Prop where
  cond : ∀ s, n.condShape = some s → Conv.Rec s c.shape
  rank : ∀ r, n.inRank = some r → r = x.shape.length

/-- The condition with one truth value for each row, reshaped. -/
theorem rows_cond {α : Type} (n : SelectNode) (hv : n.v1 = true) (c : T Bool) (x : T α) (hr : n.Right c x) (hn : n.inRank ≠ none) (hs : n.condShape ≠ none)
    (h2 : 2 ≤ x.shape.length) (hc : c.shape = [nth x.shape 0]) :
    ∃ c', n.cond c = .ok (some c') ∧ c'.shape = nth x.shape 0 :: List.replicate (x.shape.length - 1) 1 ∧
      ∀ p, at' c' p = c.get [if nth x.shape 0 = 1 then 0 else p (x.shape.length - 1)] := by
  obtain ⟨s, hs⟩ := Option.ne_none_iff_exists'.1 hs
  obtain ⟨r, hrk⟩ := Option.ne_none_iff_exists'.1 hn
  have hrec := hr.cond s hs
  have hre := hr.rank r hrk
  subst hre
  rw [hc] at hrec
  obtain ⟨d, rfl⟩ : ∃ d, s = [d] := by
    match s, hrec.1 with
    | [d], _ => exact ⟨d, rfl⟩
  have hd : d = -1 ∨ d = (nth x.shape 0 : Int) := hrec.2 0 (by simp)
  generalize nth x.shape 0 = m at *
  generalize hk : x.shape.length - 1 = k at *
  have hdims : reshapeDims [m] (d :: List.replicate k 1) = some (m :: List.replicate k 1) := by
    have hm1 : (m : Int) ≠ -1 := by omega
    unfold reshapeDims
    have e : (d :: List.replicate k (1 : Int)).mapIdx (fun i z => if z = 0 then (nth [m] i : Int) else z) = (d :: List.replicate k 1) := by
      apply List.ext_getElem (by simp)
      intro i h1 h2
      rw [List.getElem_mapIdx]
      cases i with
      | zero =>
        simp only [List.getElem_cons_zero]
        split
        · rename_i h0
          rcases hd with hd | hd
          · omega
          · rw [hd]; rfl
        · rfl
      | succ i => simp
    simp only [e]
    have hf : (List.replicate k (1 : Int)).filter (fun z => decide (z ≠ -1)) = List.replicate k 1 := by
      rw [List.filter_eq_self]
      intro a ha
      rw [List.eq_of_mem_replicate ha]
      decide
    have hmap : (List.replicate k (1 : Int)).map Int.toNat = List.replicate k 1 := by simp
    rcases hd with hd | hd
    · subst hd
      have hfil : ((-1 : Int) :: List.replicate k 1).filter (fun z => decide (z ≠ -1)) = List.replicate k 1 := by
        rw [List.filter_cons_of_neg (by simp), hf]
      simp only [hfil, hmap, size_ones]
      have hr : ((-1 : Int) :: List.replicate k 1).map (fun z => if z = -1 then Tensor.size [m] / 1 else z.toNat) = m :: List.replicate k 1 := by
        simp [Tensor.size]
      rw [hr, if_pos]
      refine ⟨?_, ?_, ?_, ?_, ?_⟩
      · intro z hz
        rcases List.mem_cons.1 hz with rfl | hz
        · omega
        · rw [List.eq_of_mem_replicate hz]; omega
      · intro i hi h0
        cases i with
        | zero => simp
        | succ i =>
          exfalso
          have h0 : ((List.replicate k (1 : Int))[i]?) = some 0 := by simpa using h0
          exact absurd (List.eq_of_mem_replicate (List.mem_of_getElem? h0)) (by decide)
      · rw [List.count_cons_self, List.count_eq_zero.2 (fun h => absurd (List.eq_of_mem_replicate h) (by decide))]
      · intro _
        omega
      · show m * Tensor.size (List.replicate k 1) = m * 1
        rw [size_ones]
    · subst hd
      have hfil : ((m : Int) :: List.replicate k 1).filter (fun z => decide (z ≠ -1)) = (m : Int) :: List.replicate k 1 := by
        rw [List.filter_cons_of_pos (by simpa using hm1), hf]
      simp only [hfil]
      have hr : ((m : Int) :: List.replicate k 1).map (fun z => if z = -1 then Tensor.size [m] / Tensor.size (((m : Int) :: List.replicate k 1).map Int.toNat) else z.toNat) =
          m :: List.replicate k 1 := by
        simp [hm1]
      rw [hr, if_pos]
      refine ⟨?_, ?_, ?_, ?_, ?_⟩
      · intro z hz
        rcases List.mem_cons.1 hz with rfl | hz
        · omega
        · rw [List.eq_of_mem_replicate hz]; omega
      · intro i hi h0
        cases i with
        | zero => simp
        | succ i =>
          exfalso
          have h0 : ((List.replicate k (1 : Int))[i]?) = some 0 := by simpa using h0
          exact absurd (List.eq_of_mem_replicate (List.mem_of_getElem? h0)) (by decide)
      · rw [List.count_cons_of_ne hm1, List.count_eq_zero.2 (fun h => absurd (List.eq_of_mem_replicate h) (by decide))]
        omega
      · intro h
        rcases List.mem_cons.1 h with h | h
        · omega
        · have := List.eq_of_mem_replicate h
          omega
      · show m * Tensor.size (List.replicate k 1) = m * 1
        rw [size_ones]
  refine ⟨Tensor.reshape (m :: List.replicate k 1) c, ?_, rfl, fun p => ?_⟩
  · unfold SelectNode.cond
    rw [hs]
    simp only
    rw [if_pos ⟨hv, by rw [hrk]; simp; omega⟩, hrk]
    simp only
    rw [hc, hk, hdims]
    rfl
  · unfold at'
    show c.get (delin c.shape (lin (m :: List.replicate k 1) _)) = _
    rw [hc]
    have hl : (Tensor.reshape (m :: List.replicate k 1) c).shape = m :: List.replicate k 1 := rfl
    rw [hl]
    have hidx : (List.range (m :: List.replicate k 1).length).map (fun i => if nth (m :: List.replicate k 1) i = 1 then 0 else p ((m :: List.replicate k 1).length - 1 - i)) =
        (if m = 1 then 0 else p k) :: List.replicate k 0 := by
      apply List.ext_getElem (by simp)
      intro i h1 h2
      rw [List.getElem_map, List.getElem_range]
      cases i with
      | zero => simp [nth]
      | succ i =>
        have : i < k := by simpa using h1
        have e : nth (m :: List.replicate k 1) (i + 1) = 1 := by simp [nth, List.getD_eq_getElem?_getD, this]
        rw [if_pos e]
        simp
    rw [hidx]
    simp only [lin, lin_ones]
    rw [size_ones]
    simp [delin, Tensor.size]

/-- **C68**: `Select` of TensorFlow 1 with a condition of the shape of the operands, a single truth value, or one for each row; for the last the shape of the
condition and the rank of the operands have to be recorded (`select_unknown_violated`). -/
theorem select_v1_partial {α : Type} [Add α] [Mul α] (cast : Bool → α) (zero : α) (opset : Nat) (n : SelectNode) (hv : n.v1 = true) (hstr : n.isString = true → 9 ≤ opset)
    (c : T Bool) (x y : T α) (hr : n.Right c x) (hk : n.inRank ≠ none ∧ n.condShape ≠ none)
    (hnum : UsesWhere opset n ∨ ∀ i, Plain cast zero (x.get i) ∧ Plain cast zero (y.get i)) {v : T α} (h : tfSelect c x y = some v) :
    ∃ z, select cast opset n c x y = .ok (some z) ∧ Same z v := by
  unfold tfSelect at h
  split at h
  swap
  · cases h
  rename_i hxy
  have hid : c.shape.length ≠ 1 ∨ x.shape.length = 1 → n.cond c = .ok (some c) := by
    intro hh
    obtain ⟨s, hs⟩ := Option.ne_none_iff_exists'.1 hk.2
    obtain ⟨r, hrk⟩ := Option.ne_none_iff_exists'.1 hk.1
    have h1 := (hr.cond s hs).1
    have h2 := hr.rank r hrk
    unfold SelectNode.cond
    rw [hs]
    split
    · rename_i d hd
      injection hd with hd
      rw [hd] at h1
      rw [if_neg]
      rintro ⟨-, h3⟩
      rw [hrk, h2] at h3
      rcases hh with hh | hh
      · exact hh h1.symm
      · exact h3 (by rw [hh])
    · rfl
  have fin : ∀ (c' : T Bool) (w : T α), n.cond c = .ok (some c') → c'.shape.length ≤ x.shape.length → (∀ k, dimB c'.shape k = dimB x.shape k ∨ dimB c'.shape k = 1) →
      w.shape = x.shape → (∀ p, (∀ k, p k < dimB x.shape k) → at' w p = if at' c' p then at' x p else at' y p) →
      ∃ z, select cast opset n c x y = .ok (some z) ∧ Same z w := by
    intro c' w hc' hlen hdim hw hat
    obtain ⟨z, hz, hch⟩ := select_chosen cast zero opset n hstr hc' hnum (by
      refine ⟨fun k => Or.inl (by rw [hxy]), fun k => ?_⟩
      rw [← hxy]
      rcases hdim k with hd | hd
      · left
        rw [hd]
        split <;> rfl
      · exact Or.inr (Or.inl hd))
    refine ⟨z, hz, ?_⟩
    have hs : z.shape = x.shape := by
      apply shape_ext
      · rw [hch.rank, ← hxy]
        omega
      · intro k
        rw [hch.dims, ← hxy]
        rcases hdim k with hd | hd
        · rw [hd]
          split <;> (try split) <;> rfl
        · rw [if_pos hd]
          split <;> rfl
    apply same_of_at_lt (hs.trans hw.symm)
    intro p hp
    rw [hs] at hp
    rw [hch.elems, hat p hp]
  split at h
  · rename_i hcs
    cases h
    refine fin c _ (hid (by rw [hcs]; omega)) (by rw [hcs]) (fun k => Or.inl (by rw [hcs])) rfl (fun p _ => ?_)
    unfold at'
    simp only [← hxy, hcs]
  · split at h
    · rename_i hcs
      cases h
      refine fin c _ (hid (Or.inl (by rw [hcs]; simp))) (by rw [hcs]; simp) (fun k => Or.inr (by rw [hcs]; exact dimB_of_le (by simp))) rfl (fun p _ => ?_)
      unfold at'
      simp only [← hxy, hcs]
      rfl
    · split at h
      · rename_i hns hne hcs
        cases h
        have h2 : 2 ≤ x.shape.length := by
          by_contra hlt
          have h1 : x.shape.length = 1 := by omega
          apply hns
          rw [hcs.1]
          match hx : x.shape, h1 with
          | [a], _ => rfl
        obtain ⟨c', hc', hcsh, hcat⟩ := rows_cond n hv c x hr hk.1 hk.2 h2 hcs.1
        refine fin c' _ hc' (by rw [hcsh]; simp; omega) (fun k => ?_) rfl (fun p hp => ?_)
        · by_cases hkl : k < x.shape.length - 1
          · right
            rw [dimB_of_lt (by rw [hcsh]; simp; omega), hcsh]
            simp only [List.length_cons, List.length_replicate]
            have : x.shape.length - 1 + 1 - 1 - k = (x.shape.length - 2 - k) + 1 := by omega
            rw [this]
            have h3 : x.shape.length - 2 - k < x.shape.length - 1 := by omega
            simp [nth, List.getD_eq_getElem?_getD, h3]
          · by_cases hke : k = x.shape.length - 1
            · left
              rw [dimB_of_lt (by rw [hcsh]; simp; omega), hcsh, dimB_of_lt (by omega)]
              simp only [List.length_cons, List.length_replicate]
              have e1 : x.shape.length - 1 + 1 - 1 - k = 0 := by omega
              have e2 : x.shape.length - 1 - k = 0 := by omega
              rw [e1, e2]
              rfl
            · right
              exact dimB_of_le (by rw [hcsh]; simp; omega)
        · rw [hcat]
          unfold at'
          simp only [← hxy]
          rw [nth_map_range, if_pos (show 0 < x.shape.length by omega)]
          simp
      · cases h

/-- **C68**: `Select` and `SelectV2` of truth values, by way of integers, at every opset. -/
theorem select_bool (opset : Nat) (n : SelectNode) (hv : n.v1 = false) (c x y : T Bool) {v : T Bool} (h : tfSelectV2 c x y = some v) :
    ∃ z, selectBool opset n c x y = .ok (some z) ∧ Same z v := by
  obtain ⟨hch, hcom⟩ := where_chosen (c := c) (x := x) (y := y) (z := v) h
  have hc : n.cond c = .ok (some c) := by
    unfold SelectNode.cond
    rw [hv]
    split
    · rw [if_neg (by simp)]
    · rfl
  unfold selectBool
  simp only
  split
  · have plain : ∀ b : Bool, Plain (fun b : Bool => if b then (1 : Int) else 0) 0 (if b then (1 : Int) else 0) := by
      intro b
      cases b <;> constructor <;> rfl
    obtain ⟨z, hz, hzc⟩ := mulAdd_chosen (fun b : Bool => if b then (1 : Int) else 0) 0 (c := c) (x := mapT (fun b : Bool => if b then (1 : Int) else 0) x)
      (y := mapT (fun b : Bool => if b then (1 : Int) else 0) y) hcom (fun i => plain _) (fun i => plain _)
    refine ⟨mapT (fun z => decide (z ≠ 0)) z, ?_, ?_⟩
    · rw [hc]
      show Except.ok ((mulAdd _ c _ _).map _) = _
      rw [hz]
      rfl
    · refine Chosen.same (c := c) (x := x) (y := y) ⟨hzc.rank, hzc.dims, fun p => ?_⟩ hch
      have e : at' (mapT (fun z : Int => decide (z ≠ 0)) z) p = decide (at' z p ≠ 0) := rfl
      rw [e, hzc.elems]
      have ex : at' (mapT (fun b : Bool => if b then (1 : Int) else 0) x) p = if at' x p then 1 else 0 := rfl
      have ey : at' (mapT (fun b : Bool => if b then (1 : Int) else 0) y) p = if at' y p then 1 else 0 := rfl
      rw [ex, ey]
      cases at' c p <;> cases at' x p <;> cases at' y p <;> rfl
  · obtain ⟨z, hz⟩ := where_some hcom
    refine ⟨z, ?_, (where_chosen hz).1.same hch⟩
    rw [hc]
    show Except.ok (onnxWhere c x y) = _
    rw [hz]

/-- A node about which nothing special is known. -/
def plainNode : SelectNode := ⟨false, false, true, false, false, false, (false, false), (false, false), none, none⟩

/-- **Defect**: an infinity that is not chosen makes the result not-a-number, at every opset. -/
theorem select_infinity_violated (opset : Nat) : ∃ z v, select extBit opset plainNode ⟨[], fun _ => true⟩ (⟨[], fun _ => .num 5⟩ : T Ext) ⟨[], fun _ => .inf⟩ = .ok (some z) ∧
    tfSelectV2 ⟨[], fun _ => true⟩ (⟨[], fun _ => .num 5⟩ : T Ext) ⟨[], fun _ => .inf⟩ = some v ∧ z.get [] = .nan ∧ v.get [] = .num 5 := by
  unfold select
  split
  · exact ⟨_, _, rfl, rfl, rfl, rfl⟩
  · exact ⟨_, _, rfl, rfl, rfl, rfl⟩

/-- A node with unknown shapes. -/
def unknownNode : SelectNode := { plainNode with v1 := true }

/-- **Defect**: a condition with one truth value for each row, of unknown shape, is applied to the columns. -/
theorem select_unknown_violated : ∃ z v, select bit 11 unknownNode ⟨[2], fun i => decide (nth i 0 = 0)⟩ twoByTwo (mapT (fun z => -z) twoByTwo) = .ok (some z) ∧
    tfSelect ⟨[2], fun i => decide (nth i 0 = 0)⟩ twoByTwo (mapT (fun z => -z) twoByTwo) = some v ∧
    (allIdx [2, 2]).map z.get = [1, -2, 3, -4] ∧ (allIdx [2, 2]).map v.get = [1, 2, -3, -4] := by
  refine ⟨_, _, rfl, rfl, ?_, ?_⟩ <;> decide +kernel

theorem select_example : ∃ z, select bit 11 { unknownNode with condShape := some [-1], inRank := some 2 } ⟨[2], fun i => decide (nth i 0 = 0)⟩ twoByTwo (mapT (fun z => -z) twoByTwo) = .ok (some z) ∧
    (allIdx [2, 2]).map z.get = [1, 2, -3, -4] := by
  refine ⟨_, rfl, ?_⟩
  decide +kernel

/-- Integers behave like numbers. -/
theorem int_plain (a : Int) : Plain bit 0 a := by
  constructor <;> simp [bit]

end Verif.Scan
