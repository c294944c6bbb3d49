import Verif.Props.C72_Main
import Mathlib.Tactic.FieldSimp
/-!
# C72: cross-entropy with class numbers
-/
namespace Verif.Softmax
open Verif.Tensor Verif.Emit Verif.Einsum Verif.Fourier

/-- Labels: one class number for every row. -/
structure Labels (labels : T Int) (N C : Nat) : Prop where
  shape : labels.shape = [N]
  range : ∀ i, i < N → 0 ≤ labels.get [i] ∧ labels.get [i] < C

/-- A recorded shape says nothing wrong about the number of classes. -/
def Recorded (s : List Int) (C : Nat) : Prop := s ≠ [] ∧ (s.getLastD 0 = -1 ∨ s.getLastD 0 = C)

/-- The operators emitted for `GatherNd` gather elements of a matrix, as a column. -/
def Gathers (gathernd : T ℝ → List (List Int) → Option (T ℝ)) : Prop :=
  ∀ (x : T ℝ) (N C M : Nat) (p q : Nat → Nat), x.shape = [N, C] → (∀ i, i < M → p i < N ∧ q i < C) →
    ∃ z, gathernd x ((List.range M).map (fun i => [(p i : Int), (q i : Int)])) = some z ∧ z.shape = [M, 1] ∧ ∀ i, i < M → z.get [i, 0] = x.get [p i, q i]

theorem posOf_ok {C : Nat} {a : Int} (h : 0 ≤ a) : posOf C a = a.toNat := by
  unfold posOf
  rw [if_neg (by omega)]

theorem gather_eye {labels : T Int} {N C : Nat} (h : Labels labels N C) :
    ∃ z, Seg.gather0 (eye C) labels = some z ∧ Is2 z N C (fun i k => if (labels.get [i]).toNat = k then 1 else 0) := by
  have hc : (eye C).shape ≠ [] ∧ IndicesOk (nth (eye C).shape 0) labels := by
    refine ⟨by simp [eye], fun i hi => ?_⟩
    have hb := mem_allIdx hi
    rw [h.shape] at hb
    obtain ⟨h1, h2⟩ := hb
    match i, h1 with
    | [a], _ =>
      have := h.range a (h2 0 (by simp))
      show -(C : Int) ≤ _ ∧ _ < (C : Int)
      omega
  refine ⟨_, if_pos hc, by simp [gatherOn, eye, h.shape], fun i k hi hk => ?_⟩
  show (eye C).get (([i, k].take 0) ++ [posOf (nth (eye C).shape 0) (labels.get (([i, k].drop 0).take labels.shape.length))] ++ [i, k].drop (0 + labels.shape.length)) = _
  rw [h.shape]
  show (if posOf C (labels.get [i]) = k then (1 : ℝ) else 0) = _
  rw [posOf_ok (h.range i hi).1]

theorem sparse_value {x : Nat → ℝ} {C l : Nat} (hl : l < C) :
    -1 * ((List.range C).map (fun k => (if l = k then (1 : ℝ) else 0) * (x k - Real.log ((List.range C).map (fun j => Real.exp (x j))).sum))).sum = tfSparse x C l := by
  rw [oneHot_sum (fun k => x k - Real.log ((List.range C).map (fun j => Real.exp (x j))).sum) C l hl, neg_one_mul]
  rfl

theorem byEye_sound {v : Nat} {neg : Bool} {labels : T Int} {logits : T ℝ} {N C : Nat} (h : Labels labels N C) (hx : logits.shape = [N, C]) :
    ∃ y, sparseByEye v neg C labels logits = some y ∧ y.shape = [N] ∧ ∀ i, i < N → y.get [i] = tfSparse (fun k => logits.get [i, k]) C (labels.get [i]).toNat := by
  have h2 : Is2 logits N C (fun a b => logits.get [a, b]) := ⟨hx, fun _ _ _ _ => rfl⟩
  obtain ⟨hot, e0, i0⟩ := gather_eye h
  obtain ⟨ls, e1, i1⟩ := logsoftmax2 (v := v) (neg := neg) h2
  obtain ⟨p, e2, i2⟩ := zip2 (fun a b : ℝ => a * b) i0 i1 (Or.inl rfl) (Or.inl rfl)
  obtain ⟨s, e3, i3⟩ := reduce_keep (v := v) (neg := neg) (F := Multiset.sum) i2 (a := 1) (Or.inl rfl) (Or.inl rfl)
  obtain ⟨t, e4, i4⟩ := neg2 i3
  obtain ⟨y, e5, i5⟩ := squeeze_col i4
  have hcom : ∀ d, common d d = d := fun d => by unfold common; split <;> rfl
  refine ⟨y, ?_, by rw [i5.shape, hcom], fun i hi => ?_⟩
  · unfold sparseByEye
    rw [e0, Option.bind_some, e1, Option.bind_some, e2, Option.bind_some, e3, Option.bind_some, e4, Option.bind_some, e5]
  · rw [i5.get i (by rw [hcom]; exact hi), Multiset.sum_coe, hcom, ← sparse_value (by have := h.range i hi; omega)]
    congr 2
    apply List.map_congr_left
    intro k hk
    rw [src_self hi, src_self (List.mem_range.1 hk)]

theorem hcat_columns (f g : Nat → Int) (l : List Nat) : List.zipWith (· ++ ·) (Vec.column (l.map f)) (Vec.column (l.map g)) = l.map (fun i => [f i, g i]) := by
  induction l with
  | nil => rfl
  | cons a l ih =>
    simp only [List.map_cons, Vec.column, List.zipWith_cons_cons]
    congr 1

theorem byGather_sound {v : Nat} {neg : Bool} {gathernd : T ℝ → List (List Int) → Option (T ℝ)} (hg : Gathers gathernd) {labels : T Int} {logits : T ℝ} {N C : Nat}
    (h : Labels labels N C) (hx : logits.shape = [N, C]) :
    ∃ y, sparseByGather v neg gathernd labels logits = some y ∧ y.shape = [N] ∧ ∀ i, i < N → y.get [i] = tfSparse (fun k => logits.get [i, k]) C (labels.get [i]).toNat := by
  have h2 : Is2 logits N C (fun a b => logits.get [a, b]) := ⟨hx, fun _ _ _ _ => rfl⟩
  obtain ⟨ls, e1, i1⟩ := logsoftmax2 (v := v) (neg := neg) h2
  obtain ⟨g, e2, s2, g2⟩ := hg ls N C N id (fun i => (labels.get [i]).toNat) i1.shape (fun i hi => ⟨hi, by have := h.range i hi; omega⟩)
  have i2 : Is2 g N 1 (fun i _ => g.get [i, 0]) := ⟨s2, fun i j hi hj => by
    have : j = 0 := by omega
    rw [this]⟩
  obtain ⟨t, e4, i4⟩ := neg2 i2
  obtain ⟨y, e5, i5⟩ := squeeze_col i4
  refine ⟨y, ?_, i5.shape, fun i hi => ?_⟩
  · unfold sparseByGather
    have hsz : Tensor.size labels.shape = N := by rw [h.shape]; simp [Tensor.size]
    have hcat : Vec.hcat (Vec.column (Seg.rangeVec ((List.range N).map (fun i => labels.get [i])).length)) (Vec.column ((List.range N).map (fun i => labels.get [i])))
        = some ((List.range N).map (fun i => [((id i : Nat) : Int), ((labels.get [i]).toNat : Int)])) := by
      unfold Vec.hcat Seg.rangeVec
      rw [if_pos (by simp [Vec.column])]
      congr 1
      rw [List.length_map, List.length_range, Int.toNat_natCast, hcat_columns]
      apply List.map_congr_left
      intro i hi
      have := h.range i (List.mem_range.1 hi)
      rw [Int.toNat_of_nonneg this.1]
      rfl
    dsimp only
    rw [hsz, hcat, Option.bind_some, e1, Option.bind_some, e2, Option.bind_some, e4, Option.bind_some, e5]
  · have := h.range i hi
    rw [i5.get i hi, g2 i hi, id, i1.get _ _ hi (by omega), neg_one_mul]
    rfl

/-- **C72.** The conversion of `SparseSoftmaxCrossEntropyWithLogits` for operator sets 7 and 8, for labels in range and shapes that are recorded; a number of classes that is not
recorded or is above 20000 takes the way over `GatherNd`. -/
theorem sparse7_sound {v : Nat} {neg : Bool} {gathernd : T ℝ → List (List Int) → Option (T ℝ)} (hg : Gathers gathernd) {labels : T Int} {logits : T ℝ} {N C : Nat}
    (h : Labels labels N C) (hx : logits.shape = [N, C]) {ls s : List Int} (hl : ls.length = 1) (hs : Recorded s C) :
    ∃ y, sparse7 v neg gathernd (some ls) (some s) labels logits = .ok (some y) ∧ y.shape = [N] ∧
      ∀ i, i < N → y.get [i] = tfSparse (fun k => logits.get [i, k]) C (labels.get [i]).toNat := by
  obtain ⟨h1, h2⟩ := hs
  match s, h1 with
  | d :: t, _ =>
    by_cases hd : (d :: t).getLastD 0 = -1 ∨ 20000 < (d :: t).getLastD 0
    · obtain ⟨y, e, r⟩ := byGather_sound (v := v) (neg := neg) hg h hx
      refine ⟨y, ?_, r⟩
      unfold sparse7
      dsimp only
      rw [if_pos hl, if_pos hd, e]
    · obtain ⟨y, e, r⟩ := byEye_sound (v := v) (neg := neg) h hx
      refine ⟨y, ?_, r⟩
      unfold sparse7
      dsimp only
      have : ((d :: t).getLastD 0).toNat = C := by omega
      rw [if_pos hl, if_neg hd, this, e]

/-! ## From operator set 9 on -/

theorem classes_ok {logits : T ℝ} {N C : Nat} (hx : logits.shape = [N, C]) {logitShape : Option (List Int)} (hs : ∀ s, logitShape = some s → Recorded s C) :
    classes logitShape logits = .ok [(C : Int)] := by
  have hdyn : sliceVec (logits.shape.map Int.ofNat) (-1) 2147483647 = [(C : Int)] := by
    rw [hx]
    simp [sliceVec, clampPos]
  unfold classes
  match logitShape, hs with
  | none, _ => rw [← hdyn]
  | some [], hs => exact absurd rfl (hs [] rfl).1
  | some (d :: t), hs =>
    dsimp only
    by_cases hd : (d :: t).getLastD 0 = -1
    · rw [if_pos hd, hdyn]
    · rw [if_neg hd]
      rcases (hs _ rfl).2 with h | h
      · exact absurd h hd
      · rw [h]

theorem mask_ok {v : Nat} {labels : T Int} {N C : Nat} (h : Labels labels N C) :
    ∃ z, labelMask v [(C : Int)] labels = some z ∧ Is2 z N C (fun i k => if (labels.get [i]).toNat = k then 1 else 0) := by
  by_cases hv : v < 11
  · have hax : Index.oneHotAxis labels.shape.length (-1) = some 1 := by rw [h.shape]; rfl
    refine ⟨Index.oneHot 1 C (0 : ℝ) 1 labels, ?_, ?_, fun i k hi hk => ?_⟩
    · show (if v < 11 then _ else _) = _
      rw [if_pos hv, hax]
      rfl
    · simp [Index.oneHot, h.shape]
    · show (if -(C : Int) ≤ labels.get [i] ∧ labels.get [i] < C ∧ posOf C (labels.get [i]) = k then (1 : ℝ) else 0) = _
      have := h.range i hi
      rw [posOf_ok this.1]
      have he : (-(C : Int) ≤ labels.get [i] ∧ labels.get [i] < C ∧ (labels.get [i]).toNat = k) ↔ (labels.get [i]).toNat = k := ⟨fun h => h.2.2, fun h => ⟨by omega, this.2, h⟩⟩
      by_cases e : (labels.get [i]).toNat = k
      · rw [if_pos (he.2 e), if_pos e]
      · rw [if_neg (fun h => e (he.1 h)), if_neg e]
  · have hu : ∃ l, unsqueezeT [labels.shape.length] labels = some l ∧ l.shape = [N, 1] ∧ ∀ i, l.get [i, 0] = labels.get [i] := by
      have hc : [labels.shape.length].Nodup ∧ ∀ a ∈ [labels.shape.length], a < labels.shape.length + [labels.shape.length].length := ⟨by simp, by simp⟩
      refine ⟨_, if_pos hc, ?_, fun i => ?_⟩
      · simp [unsqueeze, h.shape, keptAxes, List.range_succ, nth]
      · simp [unsqueeze, h.shape, keptAxes, List.range_succ, nth]
    obtain ⟨l, e1, s1, g1⟩ := hu
    have hlen : (Seg.rangeVec (C : Int)).length = C := by simp [Seg.rangeVec]
    obtain ⟨z, e2, s2, g2⟩ := zip_21 (fun a b : Int => if a = b then (1 : ℝ) else 0) (x := l)
      (y := ⟨[(Seg.rangeVec (C : Int)).length], fun i => (Seg.rangeVec (C : Int)).getD (nth i 0) 0⟩) s1 (a := C) (by rw [hlen])
    refine ⟨z, ?_, s2, fun i k hi hk => ?_⟩
    · show (if v < 11 then _ else _) = _
      rw [if_neg hv, e1, Option.bind_some, e2]
    · rw [g2 i k hi hk, g1]
      have hk' : (Seg.rangeVec (C : Int)).getD (nth [k] 0) 0 = (k : Int) := by
        simp [Seg.rangeVec, nth, hk]
      show (if labels.get [i] = (Seg.rangeVec (C : Int)).getD (nth [k] 0) 0 then (1 : ℝ) else 0) = _
      rw [hk']
      have := h.range i hi
      by_cases e : (labels.get [i]).toNat = k
      · rw [if_pos (by omega), if_pos e]
      · rw [if_neg (by omega), if_neg e]

/-- The shift by the greatest logit, or by any other number, cancels. -/
theorem shift_cancels {x : Nat → ℝ} {C l : Nat} (hl : l < C) (M : ℝ) :
    Real.log (((List.range C).map (fun k => (if l = k then (1 : ℝ) else 0) * Real.exp (x k - M))).sum / ((List.range C).map (fun k => Real.exp (x k - M))).sum) * -1 = tfSparse x C l := by
  rw [oneHot_sum (fun k => Real.exp (x k - M)) C l hl]
  have hs : ((List.range C).map (fun k => Real.exp (x k - M))).sum = ((List.range C).map (fun k => Real.exp (x k))).sum / Real.exp M := by
    have : ∀ r : List Nat, (r.map (fun k => Real.exp (x k - M))).sum = (r.map (fun k => Real.exp (x k))).sum / Real.exp M := by
      intro r
      induction r with
      | nil => simp
      | cons a r ih => rw [List.map_cons, List.map_cons, List.sum_cons, List.sum_cons, ih, Real.exp_sub, add_div]
    exact this _
  have hpos : 0 < ((List.range C).map (fun k => Real.exp (x k))).sum := by
    apply List.sum_pos
    · intro y hy
      obtain ⟨k, -, rfl⟩ := List.mem_map.1 hy
      exact Real.exp_pos _
    · intro e
      rw [List.map_eq_nil_iff, List.range_eq_nil] at e
      omega
  rw [hs, Real.exp_sub]
  have hM := (Real.exp_pos M).ne'
  rw [div_div_div_cancel_right₀ hM, Real.log_div (Real.exp_pos _).ne' hpos.ne', Real.log_exp]
  unfold tfSparse
  ring

theorem byMask_sound {v : Nat} {neg : Bool} (hv : 11 ≤ v ∨ neg = true) {mask logits : T ℝ} {N C : Nat} {l : Nat → Nat} (hl : ∀ i, i < N → l i < C)
    (hm : Is2 mask N C (fun i k => if l i = k then 1 else 0)) (hx : logits.shape = [N, C]) :
    ∃ y, sparseByMask v neg mask logits = some y ∧ y.shape = [N] ∧ ∀ i, i < N → y.get [i] = tfSparse (fun k => logits.get [i, k]) C (l i) := by
  have h2 : Is2 logits N C (fun a b => logits.get [a, b]) := ⟨hx, fun _ _ _ _ => rfl⟩
  have hcom : ∀ d, common d d = d := fun d => by unfold common; split <;> rfl
  have hcom1 : common C 1 = C := by unfold common; split <;> omega
  obtain ⟨mx, e1, i1⟩ := reduce_keep (v := v) (neg := neg) (F := greatest) h2 (a := -1) (Or.inr rfl) (Or.inr hv)
  obtain ⟨nr, e2, i2⟩ := zip2 (fun a b : ℝ => a - b) h2 i1 (Or.inl rfl) (Or.inr (Or.inr rfl))
  rw [hcom, hcom1] at i2
  have i3 := map2 i2 Real.exp
  obtain ⟨s, e4, i4⟩ := reduce_drop (v := v) (neg := neg) (F := Multiset.sum) i3 hv
  obtain ⟨p, e5, i5⟩ := zip2 (fun a b : ℝ => a * b) hm i3 (Or.inl rfl) (Or.inl rfl)
  rw [hcom, hcom] at i5
  obtain ⟨ms, e6, i6⟩ := reduce_drop (v := v) (neg := neg) (F := Multiset.sum) i5 hv
  obtain ⟨q, e7, i7⟩ := zip1 (fun a b : ℝ => a / b) i6 i4
  have i8 := map1 i7 Real.log
  obtain ⟨y, e9, s9, g9⟩ := zip_10 (fun a b : ℝ => a * b) (x := Scan.mapT Real.log q) (y := minusOne) i8.shape rfl
  refine ⟨y, ?_, s9, fun i hi => ?_⟩
  · unfold sparseByMask
    rw [e1, Option.bind_some, e2, Option.bind_some]
    dsimp only
    rw [e4, Option.bind_some, e5, Option.bind_some, e6, Option.bind_some, e7, Option.bind_some, e9]
  · rw [g9 i hi, i8.get i hi, Multiset.sum_coe, Multiset.sum_coe]
    show _ * (-1 : ℝ) = _
    rw [← shift_cancels (x := fun k => logits.get [i, k]) (hl i hi) (greatest (((List.range C).map (fun b => logits.get [i, b]) : List ℝ) : Multiset ℝ))]
    have key : ∀ k, k < C → Real.exp (logits.get [src N i, src C k] - greatest (((List.range C).map (fun b => logits.get [src N i, b]) : List ℝ) : Multiset ℝ))
        = Real.exp (logits.get [i, k] - greatest (((List.range C).map (fun b => logits.get [i, b]) : List ℝ) : Multiset ℝ)) := by
      intro k hk
      rw [src_self hi, src_self hk]
    congr 3
    · congr 1
      apply List.map_congr_left
      intro k hk
      have hk := List.mem_range.1 hk
      rw [← key k hk]
      simp only [src_self hi, src_self hk]
    · congr 1
      apply List.map_congr_left
      intro k hk
      exact key k (List.mem_range.1 hk)

/-- **C72.** The conversion of `SparseSoftmaxCrossEntropyWithLogits` from operator set 9 on, for labels in range; the number of classes may be unknown. -/
theorem sparse9_sound {v : Nat} {neg : Bool} (hv : 11 ≤ v ∨ neg = true) {labels : T Int} {logits : T ℝ} {N C : Nat} (h : Labels labels N C) (hx : logits.shape = [N, C])
    {logitShape : Option (List Int)} (hs : ∀ s, logitShape = some s → Recorded s C) :
    ∃ y, sparse9 v neg logitShape labels logits = .ok (some y) ∧ y.shape = [N] ∧
      ∀ i, i < N → y.get [i] = tfSparse (fun k => logits.get [i, k]) C (labels.get [i]).toNat := by
  obtain ⟨mask, e1, i1⟩ := mask_ok (v := v) h
  obtain ⟨y, e2, r⟩ := byMask_sound (v := v) (neg := neg) hv (fun i hi => by have := h.range i hi; omega) i1 hx
  refine ⟨y, ?_, r⟩
  unfold sparse9
  rw [classes_ok hx hs]
  dsimp only
  rw [e1, Option.bind_some, e2]

/-- **C72.** The conversions for operator sets 7 and 17 give the same losses. -/
theorem sparse_versions_agree {neg : Bool} {gathernd : T ℝ → List (List Int) → Option (T ℝ)} (hg : Gathers gathernd) {labels : T Int} {logits : T ℝ} {N C : Nat}
    (h : Labels labels N C) (hx : logits.shape = [N, C]) {ls s : List Int} (hl : ls.length = 1) (hs : Recorded s C) :
    ∃ y z, sparse7 7 neg gathernd (some ls) (some s) labels logits = .ok (some y) ∧ sparse9 17 neg (some s) labels logits = .ok (some z) ∧ Same y z := by
  obtain ⟨y, e1, s1, g1⟩ := sparse7_sound (v := 7) (neg := neg) hg h hx hl hs
  obtain ⟨z, e2, s2, g2⟩ := sparse9_sound (v := 17) (neg := neg) (Or.inl (by omega)) h hx (logitShape := some s) (fun t ht => by cases ht; exact hs)
  refine ⟨y, z, e1, e2, s1.trans s2.symm, fun i hi => ?_⟩
  rw [s1] at hi
  match i, hi with
  | [a], hi =>
    have ha : a < N := hi.2 0 (by simp)
    rw [g1 a ha, g2 a ha]
  | [], hi => exact absurd hi.1 (by simp)
  | _ :: _ :: _, hi => exact absurd hi.1 (by simp)

/-- **C72, a limit of the code.** Operator sets 7 and 8 need recorded shapes and labels of rank 1. -/
theorem sparse7_needs {v : Nat} {neg : Bool} {gathernd : T ℝ → List (List Int) → Option (T ℝ)} {labelShape logitShape : Option (List Int)} {labels : T Int} {logits : T ℝ} {y : Option (T ℝ)}
    (h : sparse7 v neg gathernd labelShape logitShape labels logits = .ok y) : (∃ s, labelShape = some s ∧ s.length = 1) ∧ ∃ s, logitShape = some s ∧ s ≠ [] := by
  unfold sparse7 at h
  match labelShape, h with
  | none, h => cases h
  | some s, h =>
    dsimp only at h
    split at h
    · rename_i hs
      refine ⟨⟨s, rfl, hs⟩, ?_⟩
      match logitShape, h with
      | none, h => cases h
      | some [], h => cases h
      | some (d :: t), _ => exact ⟨d :: t, rfl, by simp⟩
    · cases h

/-! ## Examples -/

/-- Two rows, three classes. -/
noncomputable def exLogits : T ℝ := ⟨[2, 3], fun i => (nth i 0 : ℝ) + 2 * nth i 1⟩
def exLabels : T Int := ⟨[2], fun i => 2 - nth i 0⟩

theorem ex_labels : Labels exLabels 2 3 := ⟨rfl, fun i hi => by
  show (0 : Int) ≤ 2 - nth [i] 0 ∧ (2 : Int) - nth [i] 0 < 3
  simp [nth]
  omega⟩

theorem ex_sparse : ∃ y, sparse9 13 false none exLabels exLogits = .ok (some y) ∧ y.shape = [2] ∧ y.get [1] = -(3 - Real.log (Real.exp 1 + Real.exp 3 + Real.exp 5)) := by
  obtain ⟨y, e, s, g⟩ := sparse9_sound (v := 13) (neg := false) (Or.inl (by omega)) ex_labels (logits := exLogits) rfl (logitShape := none) (fun s hs => by cases hs)
  refine ⟨y, e, s, ?_⟩
  rw [g 1 (by omega)]
  have h1 : (exLabels.get [1]).toNat = 1 := rfl
  rw [h1]
  simp [tfSparse, exLogits, nth, List.range_succ]
  norm_num
  rw [add_assoc]

theorem ex_softmax : ∃ y, softmax 11 false none (some [-1, 3]) exLogits = .ok (some y) ∧ Same y (tfSoftmax exLogits) :=
  softmax_sound false exLogits (by simp [exLogits]) (fun _ => ⟨_, rfl, rfl⟩)

/-- The ONNX operator `GatherND` followed by `Unsqueeze` would do. -/
theorem ex_gathers : Gathers (fun x ix => some ⟨[ix.length, 1], fun i => x.get ((ix.getD (nth i 0) []).map Int.toNat)⟩) := by
  intro x N C M p q _ _
  refine ⟨_, rfl, by simp, fun i hi => ?_⟩
  simp [nth, hi]

end Verif.Softmax
