import Verif.Props.C55_GenBack
/-!
# C55: square blocks, by `DepthToSpace` and `SpaceToDepth`
-/
namespace Verif.Emit
open Verif.Tensor TransposeOpt

variable {α β : Type} {v : Nat} {zero : α} {env : Nat → Option (Value α)}

theorem transpose_data {p : List Nat} {x : T α} (hp : IsPerm p) (hl : p.length = x.shape.length) :
    Op.eval v zero (.transpose (some p)) [.data x] = some (.data (Tensor.transpose p x)) := by
  simp only [Op.eval, dims_data, Option.getD_some]
  exact if_pos ⟨hp, hl⟩

theorem squeeze_mk {e : Expr} {x : T α} {a : Nat} (he : e.eval v zero env = some (.data x)) (h1 : nth x.shape a = 1) (ha : a < x.shape.length) :
    (mkSqueeze v [(a : Int)] e).eval v zero env = some (.data (Tensor.squeeze (axSet x.shape.length [(a : Int)]) x)) := by
  have hn : normAxis x.shape.length (a : Int) = a := by unfold normAxis; rw [if_neg (by omega)]; omega
  have hax : AxesOk x.shape.length [(a : Int)] := ⟨by simp; omega, by simp⟩
  have h2 : ∀ z ∈ [(a : Int)], nth x.shape (normAxis x.shape.length z) = 1 := by simpa [hn] using h1
  unfold mkSqueeze
  split
  · rw [eval_app1 he]
    simp only [Op.eval, dims_data]
    exact if_pos ⟨‹_›, hax, by simp, h2⟩
  · rw [eval_app2 he (eval_const _)]
    simp only [Op.eval, vec_ints, Option.bind_eq_bind, Option.bind_some, dims_data]
    exact if_pos ⟨by omega, hax, h2⟩

theorem unsqueeze_mk {e : Expr} {x : T α} {a : Nat} (he : e.eval v zero env = some (.data x)) (ha : a ≤ x.shape.length) :
    (mkUnsqueeze v [(a : Int)] e).eval v zero env = some (.data (Tensor.unsqueeze (x.shape.length + 1) (axSet (x.shape.length + 1) [(a : Int)]) x)) := by
  have hax : AxesOk (x.shape.length + 1) [(a : Int)] := ⟨by simp; omega, by simp⟩
  unfold mkUnsqueeze
  split
  · rw [eval_app1 he]
    simp only [Op.eval, dims_data]
    exact if_pos ⟨‹_›, hax, by simp⟩
  · rw [eval_app2 he (eval_const _)]
    simp only [Op.eval, vec_ints, Option.bind_eq_bind, Option.bind_some, dims_data]
    exact if_pos ⟨by omega, hax⟩

/-- The data in the order C, N, H, W; without channels there is one channel. -/
theorem toCNHW_eval {e : Expr} {x : T α} {n h w : Nat} {d : List Nat} (he : e.eval v zero env = some (.data x)) (hx : x.shape = n :: h :: w :: d)
    (hd : d.length ≤ 1) :
    ∃ y, (toCNHW v x.shape.length e).eval v zero env = some (.data y) ∧ y.shape = [size d, n, h, w] ∧
      ∀ i a b c, InB d c → y.get [lin d c, i, a, b] = x.get (i :: a :: b :: c) := by
  cases d with
  | nil =>
    have hl : x.shape.length = 3 := by rw [hx]; rfl
    have hu := unsqueeze_mk (a := 3) he (by omega)
    rw [hl] at hu ⊢
    have hus : (Tensor.unsqueeze 4 (axSet 4 [((3 : Nat) : Int)]) x).shape = [n, h, w, 1] := by
      simp [Tensor.unsqueeze, hx, keptAxes, List.range_succ, axSet, normAxis, nth, List.idxOf_cons]
    refine ⟨Tensor.transpose [3, 0, 1, 2] (Tensor.unsqueeze 4 (axSet 4 [((3 : Nat) : Int)]) x), ?_, ?_, ?_⟩
    · unfold toCNHW
      rw [if_pos rfl]
      refine (eval_app1 hu).trans ?_
      exact transpose_data (by decide) (by rw [hus]; rfl)
    · simp only [Tensor.transpose]
      rw [hus]
      rfl
    · intro i a b c hc
      rw [inB_nil] at hc
      subst hc
      simp [Tensor.transpose, permIdx, List.range_succ, List.idxOf_cons, nth, Tensor.unsqueeze, keptAxes, axSet, normAxis, lin]
  | cons c0 d =>
    have hd' : d = [] := by simpa using hd
    subst hd'
    have hl : x.shape.length = 4 := by rw [hx]; rfl
    rw [hl]
    refine ⟨Tensor.transpose [1, 0, 2, 3] (Tensor.transpose [0, 3, 1, 2] x), ?_, ?_, ?_⟩
    · unfold toCNHW
      rw [if_neg (by omega)]
      refine (eval_app1 ((eval_app1 he).trans (transpose_data (by decide) (by rw [hl]; rfl)))).trans ?_
      exact transpose_data (by decide) rfl
    · simp [Tensor.transpose, hx, nth, size]
    · intro i a b c hc
      obtain ⟨k, j, rfl, hk, hj⟩ := inB_cons' hc
      rw [inB_nil] at hj
      subst hj
      simp [Tensor.transpose, permIdx, List.range_succ, List.idxOf_cons, nth]

/-- Back again. -/
theorem fromCNHW_eval {e : Expr} {z : T α} {n h w : Nat} {d : List Nat} (he : e.eval v zero env = some (.data z)) (hz : z.shape = [size d, n, h, w])
    (hd : d.length ≤ 1) :
    ∃ y, (fromCNHW v (3 + d.length) e).eval v zero env = some (.data y) ∧ y.shape = n :: h :: w :: d ∧
      ∀ i a b c, InB d c → y.get (i :: a :: b :: c) = z.get [lin d c, i, a, b] := by
  cases d with
  | nil =>
    have hz' : z.shape = [1, n, h, w] := hz
    have ht : (Expr.app (.transpose (some [1, 2, 3, 0])) [e]).eval v zero env = some (.data (Tensor.transpose [1, 2, 3, 0] z)) :=
      (eval_app1 he).trans (transpose_data (by decide) (by rw [hz]; rfl))
    have hts : (Tensor.transpose [1, 2, 3, 0] z).shape = [n, h, w, 1] := by simp [Tensor.transpose, hz', nth]
    have hq := squeeze_mk (a := 3) ht (by rw [hts]; rfl) (by rw [hts]; simp)
    rw [hts] at hq
    refine ⟨Tensor.squeeze (axSet 4 [((3 : Nat) : Int)]) (Tensor.transpose [1, 2, 3, 0] z), ?_, ?_, ?_⟩
    · unfold fromCNHW
      rw [if_pos (by rfl)]
      exact hq
    · simp [Tensor.squeeze, hts, keptAxes, List.range_succ, axSet, normAxis, nth]
    · intro i a b c hc
      rw [inB_nil] at hc
      subst hc
      simp only [Tensor.squeeze, hts, List.length_cons, List.length_nil]
      simp [Tensor.transpose, permIdx, List.range_succ, List.idxOf_cons, nth, keptAxes, axSet, normAxis, lin]
  | cons c0 d =>
    have hd' : d = [] := by simpa using hd
    subst hd'
    have hz' : z.shape = [c0, n, h, w] := by rw [hz]; simp [size]
    refine ⟨Tensor.transpose [0, 2, 3, 1] (Tensor.transpose [1, 0, 2, 3] z), ?_, ?_, ?_⟩
    · unfold fromCNHW
      rw [if_neg (by simp)]
      refine (eval_app1 ((eval_app1 he).trans (transpose_data (by decide) (by rw [hz]; rfl)))).trans ?_
      exact transpose_data (by decide) rfl
    · simp [Tensor.transpose, hz', nth]
    · intro i a b c hc
      obtain ⟨k, j, rfl, hk, hj⟩ := inB_cons' hc
      rw [inB_nil] at hj
      subst hj
      simp [Tensor.transpose, permIdx, List.range_succ, List.idxOf_cons, nth]

/-- The end of a slice that cuts off `c` elements. -/
theorem cropEnd_clamp {d s c : Nat} (hd : (d : Int) ≤ int32Max) (h : s + c ≤ d) : (clampPos d 0 d (cropEnd c) - s).toNat = d - s - c := by
  unfold clampPos cropEnd int32Max at *
  by_cases h0 : (c : Int) ≠ 0
  · rw [if_pos h0, if_pos (by omega)]
    omega
  · rw [if_neg h0, if_neg (by omega)]
    omega

/-- A slice of height and width. -/
theorem slice_hw {x : T β} {n0 n1 h w : Nat} {s0 s1 c0 c1 : Nat} {fill : β} (hx : x.shape = [n0, n1, h, w]) (hh : (h : Int) ≤ int32Max) (hw : (w : Int) ≤ int32Max)
    (h0 : s0 + c0 ≤ h) (h1 : s1 + c1 ≤ w) :
    (sliceOn [(s0 : Int), s1] [cropEnd c0, cropEnd c1] [2, 3] fill x).shape = [n0, n1, h - s0 - c0, w - s1 - c1] ∧
    ∀ i j a b, (sliceOn [(s0 : Int), s1] [cropEnd c0, cropEnd c1] [2, 3] fill x).get [i, j, a, b] = x.get [i, j, a + s0, b + s1] := by
  have hp0 : ∀ A B C D : Int, slicePar 4 [2, 3] (List.zipWith (fun s e => ⟨s, e, 1⟩) [A, B] [C, D]) 0 = none := fun _ _ _ _ => rfl
  have hp1 : ∀ A B C D : Int, slicePar 4 [2, 3] (List.zipWith (fun s e => ⟨s, e, 1⟩) [A, B] [C, D]) 1 = none := fun _ _ _ _ => rfl
  have hp2 : ∀ A B C D : Int, slicePar 4 [2, 3] (List.zipWith (fun s e => ⟨s, e, 1⟩) [A, B] [C, D]) 2 = some ⟨A, C, 1⟩ := fun _ _ _ _ => rfl
  have hp3 : ∀ A B C D : Int, slicePar 4 [2, 3] (List.zipWith (fun s e => ⟨s, e, 1⟩) [A, B] [C, D]) 3 = some ⟨B, D, 1⟩ := fun _ _ _ _ => rfl
  have q0 := slice_count (s := s0) (e := cropEnd c0) (d := h) (by omega) (by omega)
  have q1 := slice_count (s := s1) (e := cropEnd c1) (d := w) (by omega) (by omega)
  rw [cropEnd_clamp hh h0] at q0
  rw [cropEnd_clamp hw h1] at q1
  constructor
  · simp only [sliceOn, slice_eq, hx, List.length_cons, List.length_nil, List.range_succ, List.range_zero, List.nil_append, List.cons_append,
      List.map_cons, List.map_nil, Nat.zero_add, nth_cons_zero, nth_cons_succ, Nat.reduceAdd, hp0, hp1, hp2, hp3]
    rw [q0.2, q1.2]
  · intro i j a b
    simp only [sliceOn, slice_eq, hx, List.length_cons, List.length_nil, List.range_succ, List.range_zero, List.nil_append, List.cons_append,
      List.map_cons, List.map_nil, Nat.zero_add, nth_cons_zero, nth_cons_succ, Nat.reduceAdd, hp0, hp1, hp2, hp3]
    rw [q0.1, q1.1]
    congr 1
    congr 1
    congr 1
    congr 1
    · omega
    · congr 1
      omega

theorem sliceOk_hw {a b c d : Int} : SliceOk 4 [a, b] [c, d] [2, 3] := ⟨rfl, rfl, (by decide : AxesOk 4 [2, 3])⟩

/-- Part `k` of crops or paddings for two axes. -/
theorem quarter_eval {e : Expr} {a b c d : Nat} (he : e.eval v zero env = some (.ints (pairsT [(a, b), (c, d)]))) {k : Nat} (hk : k < 4) :
    (quarter e k).eval v zero env = some (.ints (vecT [(([a, b, c, d].getD k 0 : Nat) : Int)])) := by
  have hopen := reshapeDims_open (s := (pairsT [(a, b), (c, d)]).shape) (pre := []) (post := []) (n := 4) (by simp) (by rfl)
  have hr : (Expr.app .reshape [e, .const (vecT [-1])]).eval v zero env = some (.ints (vecT [(a : Int), b, c, d])) := by
    rw [eval_app2 he (eval_const _)]
    rw [reshape_ints (l := [-1]) hopen]
    simp only [Option.some.injEq, Value.ints.injEq]
    have g0 := pairsT_get [(a, b), (c, d)] (k := 0) (by simp)
    have g1 := pairsT_get [(a, b), (c, d)] (k := 1) (by simp)
    have hget : ∀ (r q k : Nat), r < 2 → q < 2 → k = r * 2 + q → (Tensor.reshape ([] ++ [4]) (pairsT [(a, b), (c, d)])).get [k] = (pairsT [(a, b), (c, d)]).get [r, q] := by
      intro r q k hr hq e
      exact reshape_get (x := pairsT [(a, b), (c, d)]) (j := [r, q]) (inB_two.2 ⟨hr, hq⟩) (by rw [e]; simp [lin, size, pairsT])
    apply canon_eq_vec
    · rfl
    · intro k hk
      have hk' : k < 4 := hk
      rcases (show k = 0 ∨ k = 1 ∨ k = 2 ∨ k = 3 by omega) with rfl | rfl | rfl | rfl
      · rw [hget 0 0 0 (by omega) (by omega) rfl, g0.1]; rfl
      · rw [hget 0 1 1 (by omega) (by omega) rfl, g0.2]; rfl
      · rw [hget 1 0 2 (by omega) (by omega) rfl, g1.1]; rfl
      · rw [hget 1 1 3 (by omega) (by omega) rfl, g1.2]; rfl
  have hc : (Expr.app .cast64 [.app .reshape [e, .const (vecT [-1])]]).eval v zero env = some (.ints (vecT [(a : Int), b, c, d])) := (eval_app1 hr).trans rfl
  unfold quarter
  rw [eval_app1 hc]
  have hop : Op.eval v zero (.split 4 k) [.ints (vecT [(a : Int), b, c, d])] =
      some (.ints (canon (splitChunk 0 (List.replicate 4 1) k (vecT [(a : Int), b, c, d]))) : Value α) := by
    have h4 : 4 ∣ nth [4] 0 := by decide
    have h0 : 0 < [4].length := by decide
    have hc : 0 < 4 ∧ k < 4 ∧ 0 < (Value.ints (vecT [(a : Int), b, c, d]) : Value α).dims.length ∧
      4 ∣ nth (Value.ints (vecT [(a : Int), b, c, d]) : Value α).dims 0 := ⟨by omega, hk, h0, h4⟩
    have h5 : nth (Value.ints (vecT [(a : Int), b, c, d]) : Value α).dims 0 = 4 := rfl
    simp only [Op.eval]
    rw [if_pos hc, h5]
    rfl
  rw [hop]
  simp only [Option.some.injEq, Value.ints.injEq]
  apply canon_eq_vec
  · rcases (show k = 0 ∨ k = 1 ∨ k = 2 ∨ k = 3 by omega) with rfl | rfl | rfl | rfl <;> rfl
  · intro j hj
    have hj0 : j = 0 := by simpa using hj
    subst hj0
    have hs : (splitChunk 0 (List.replicate 4 1) k (vecT [(a : Int), b, c, d])).get [0] = (vecT [(a : Int), b, c, d]).get [k] := by
      rcases (show k = 0 ∨ k = 1 ∨ k = 2 ∨ k = 3 by omega) with rfl | rfl | rfl | rfl <;> rfl
    rw [hs, vecT_get _ _ (by simpa using hk)]
    rcases (show k = 0 ∨ k = 1 ∨ k = 2 ∨ k = 3 by omega) with rfl | rfl | rfl | rfl <;> rfl

/-- The end of a slice, from the runtime. -/
theorem cropToEnd_eval {e : Expr} {c : Int} (he : e.eval v zero env = some (.ints (vecT [c]))) :
    (cropToEnd e).eval v zero env = some (.ints (vecT [cropEnd c])) := by
  obtain ⟨z, hz, hzs, hzg⟩ := zipT_vec (fun a b : Int => decide (a = b)) (a := [c]) (b := [0]) rfl
  have hg0 : z.get [0] = decide (c = 0) := hzg 0 (by simp)
  have heq : (Expr.app .equal [e, .const (vecT [0])]).eval v zero env = some (.bools z) := by
    rw [eval_app2 he (eval_const _)]
    show (zipT (fun a b : Int => decide (a = b)) (vecT [c]) (vecT [0])).map _ = _
    rw [hz]
    rfl
  have hcast : (Expr.app .cast64 [.app .equal [e, .const (vecT [0])]]).eval v zero env = some (.ints (vecT [if c = 0 then 1 else 0])) := by
    rw [eval_app1 heq]
    show some (Value.ints (canon ⟨z.shape, fun i => if z.get i then 1 else 0⟩)) = _
    simp only [Option.some.injEq, Value.ints.injEq]
    apply canon_eq_vec
    · exact hzs
    · intro k hk
      have hk0 : k = 0 := by simpa using hk
      subst hk0
      simp [hg0]
  have hneg : (Expr.app .neg [.app .cast64 [.app .not [.app .equal [e, .const (vecT [0])]]]]).eval v zero env = some (.ints (vecT [if c = 0 then 0 else -1])) := by
    have h1 : (Expr.app .cast64 [.app .not [.app .equal [e, .const (vecT [0])]]]).eval v zero env = some (.ints (vecT [if c = 0 then 0 else 1])) := by
      rw [eval_app1 (eval_app1 heq)]
      show some (Value.ints (canon ⟨z.shape, fun i => if !z.get i then 1 else 0⟩)) = _
      simp only [Option.some.injEq, Value.ints.injEq]
      apply canon_eq_vec
      · exact hzs
      · intro k hk
        have hk0 : k = 0 := by simpa using hk
        subst hk0
        by_cases h : c = 0 <;> simp [hg0, h]
    rw [eval_app1 h1]
    show some (Value.ints (canon ⟨[1], fun i => - (vecT [if c = 0 then 0 else 1]).get i⟩)) = _
    simp only [Option.some.injEq, Value.ints.injEq]
    apply canon_eq_vec
    · rfl
    · intro k hk
      have hk0 : k = 0 := by simpa using hk
      subst hk0
      show - (vecT [if c = 0 then 0 else 1]).get [0] = _
      rw [vecT_get _ _ (by simp)]
      by_cases h : c = 0 <;> simp [h]
  have hm1 := eval_app2 (op := .mul) he hneg
  rw [mul_vec (by simp)] at hm1
  have hm2 := eval_app2 (op := .mul) (eval_const (vecT [int32Max])) hcast
  rw [mul_vec (by simp)] at hm2
  unfold cropToEnd
  rw [eval_app2 hm1 hm2, add_vec (by simp)]
  unfold cropEnd
  by_cases h : c = 0 <;> simp [h]

/-- Square blocks: `BatchToSpaceND` by `DepthToSpace`. -/
theorem batchToSpaceFast_eval {x : T α} {b n h w : Nat} {d : List Nat} {c0 c1 e0 e1 : Nat} (hb : 0 < b) (hx : x.shape = (b * b * n) :: h :: w :: d)
    (hd : d.length ≤ 1) (h0 : c0 + e0 ≤ h * b) (h1 : c1 + e1 ≤ w * b) (hh : ((h * b : Nat) : Int) ≤ int32Max) (hw : ((w * b : Nat) : Int) ≤ int32Max)
    (crops : Option (List (Int × Int))) (hc : crops = some [((c0 : Int), (e0 : Int)), ((c1 : Int), (e1 : Int))] ∨ (crops = none ∧ 10 ≤ v)) :
    ∃ e, batchToSpaceFast v x.shape.length b crops = .ok e ∧
      ∃ y, e.eval v zero (blockInputs x [b, b] [(c0, e0), (c1, e1)]) = some (.data y) ∧ Same y (tfBatchToSpace [b, b] [(c0, e0), (c1, e1)] x) := by
  have hx0 : (Expr.inp 0).eval v zero (blockInputs x [b, b] [(c0, e0), (c1, e1)]) = some (.data x) := by simp [blockInputs]
  obtain ⟨t, ht, hts, htg⟩ := toCNHW_eval hx0 hx hd
  have hbb : b * b * n / (b * b) = n := Nat.mul_div_cancel_left _ (Nat.mul_pos hb hb)
  have hd2s := eval_app1 (op := .depthToSpace b) ht
  have hop : Op.eval v zero (.depthToSpace b) [.data t] = some (.data (depthToSpaceOn b t)) := by
    have hdv : b * b ∣ nth t.shape 1 := by rw [hts]; exact Dvd.intro _ rfl
    simp only [Op.eval, dims_data]
    exact if_pos ⟨by omega, by rw [hts]; rfl, hdv⟩
  rw [hop] at hd2s
  have hds : (depthToSpaceOn b t).shape = [size d, n, h * b, w * b] := by
    simp only [depthToSpaceOn, hts, nth_cons_zero, nth_cons_succ]
    rw [hbb]
  have hdg : ∀ i a c k, InB d k → (depthToSpaceOn b t).get [lin d k, i, a, c] = x.get (((a % b * b + c % b) * n + i) :: (a / b) :: (c / b) :: k) := by
    intro i a c k hk
    rw [← htg _ _ _ _ hk]
    simp only [depthToSpaceOn, hts]
    rw [show nth [size d, b * b * n, h, w] 1 = b * b * n from rfl, hbb]
    rfl
  generalize depthToSpaceOn b t = D at hd2s hds hdg
  obtain ⟨hss, hsg⟩ := slice_hw (fill := zero) hds hh hw h0 h1
  -- what the slice gives is what TensorFlow gives
  have hfin : ∀ e : Expr, e.eval v zero (blockInputs x [b, b] [(c0, e0), (c1, e1)]) =
      some (.data (sliceOn [(c0 : Int), c1] [cropEnd e0, cropEnd e1] [2, 3] zero D)) →
      ∃ y, (fromCNHW v x.shape.length e).eval v zero (blockInputs x [b, b] [(c0, e0), (c1, e1)]) = some (.data y) ∧
        Same y (tfBatchToSpace [b, b] [(c0, e0), (c1, e1)] x) := by
    intro e he
    obtain ⟨y, hy, hys, hyg⟩ := fromCNHW_eval he hss hd
    have hlen : x.shape.length = 3 + d.length := by rw [hx]; simp; omega
    rw [hlen]
    refine ⟨y, hy, ?_, ?_⟩
    · rw [hys]
      have hsb : size [b, b] = b * b := by simp [size]
      simp only [tfBatchToSpace, hx, nth_cons_zero, hsb, hbb]
      simp [List.range_succ, nth]
    · intro idx hi
      rw [hys] at hi
      obtain ⟨i, j, rfl, hi0, hj⟩ := inB_cons' hi
      obtain ⟨a, j, rfl, ha, hj⟩ := inB_cons' hj
      obtain ⟨c, k, rfl, hc, hk⟩ := inB_cons' hj
      rw [hyg i a c k hk, hsg, hdg _ _ _ k hk]
      have hsb : size [b, b] = b * b := by simp [size]
      simp only [tfBatchToSpace, hx, nth_cons_zero, hsb, hbb]
      simp [List.range_succ, nth, lin, size]
  rcases hc with rfl | ⟨rfl, hv⟩
  · refine ⟨_, rfl, hfin _ ?_⟩
    unfold mkSlice
    have hok : SliceOk D.shape.length [(c0 : Int), c1] [cropEnd e0, cropEnd e1] [2, 3] := by rw [hds]; exact sliceOk_hw
    split
    · rw [eval_app1 hd2s]
      simp only [Op.eval, dims_data]
      exact if_pos ⟨‹_›, hok⟩
    · rw [eval_app4 hd2s (eval_const _) (eval_const _) (eval_const _)]
      simp only [Op.eval, vec_ints, Option.bind_eq_bind, Option.bind_some, dims_data]
      exact if_pos ⟨by omega, hok⟩
  · have hc2 : (Expr.inp 2).eval v zero (blockInputs x [b, b] [(c0, e0), (c1, e1)]) = some (.ints (pairsT [(c0, e0), (c1, e1)])) := by simp [blockInputs]
    refine ⟨_, by simp only [batchToSpaceFast]; rw [if_neg (by omega)], hfin _ ?_⟩
    have q0 := quarter_eval hc2 (k := 0) (by omega)
    have q1 := quarter_eval hc2 (k := 1) (by omega)
    have q2 := quarter_eval hc2 (k := 2) (by omega)
    have q3 := quarter_eval hc2 (k := 3) (by omega)
    have hst := eval_app2 (op := .concat 0) q0 q2
    have hen := eval_app2 (op := .concat 0) (cropToEnd_eval q1) (cropToEnd_eval q3)
    have hcat : ∀ A B : Int, Op.eval v zero (.concat 0) [.ints (vecT [A]), .ints (vecT [B])] = some (.ints (vecT [A, B]) : Value α) := by
      intro A B
      have := concat_vecs (α := α) (v := v) (zero := zero) (ls := [[A], [B]]) (by simp)
      simpa using this
    rw [hcat] at hst hen
    rw [eval_app4 hd2s hst hen (eval_const _)]
    have hok : SliceOk D.shape.length [(c0 : Int), c1] [cropEnd e0, cropEnd e1] [2, 3] := by rw [hds]; exact sliceOk_hw
    simp only [Op.eval, vec_ints, Option.bind_eq_bind, Option.bind_some, dims_data]
    exact if_pos ⟨hv, hok⟩

/-- Padding of height and width. -/
theorem pad_hw {x : T β} {n0 n1 h w : Nat} {a0 a1 b0 b1 : Nat} {fill : β} (hx : x.shape = [n0, n1, h, w]) :
    (Tensor.pad .constant fill [0, 0, (a0 : Int), a1, 0, 0, b0, b1] x).shape = [n0, n1, h + a0 + b0, w + a1 + b1] ∧
    ∀ i j a b, i < n0 → j < n1 → (Tensor.pad .constant fill [0, 0, (a0 : Int), a1, 0, 0, b0, b1] x).get [i, j, a, b] =
      if (a0 ≤ a ∧ a - a0 < h) ∧ (a1 ≤ b ∧ b - a1 < w) then x.get [i, j, a - a0, b - a1] else fill := by
  have hr4 : List.range 4 = [0, 1, 2, 3] := rfl
  constructor
  · simp only [Tensor.pad, axisOp, hx, List.length_cons, List.length_nil, hr4, List.map_cons, List.map_nil, padRule, Nat.zero_add, Nat.reduceAdd,
      nth_cons_zero, nth_cons_succ]
    simp [List.getD]
    omega
  · intro i j a b hi hj
    have hs0 : (padRule .constant).src (0, 0) n0 i = some i := by
      simp only [padRule, PadMode.src]
      rw [if_pos (by omega)]
      congr 1
    have hs1 : (padRule .constant).src (0, 0) n1 j = some j := by
      simp only [padRule, PadMode.src]
      rw [if_pos (by omega)]
      congr 1
    have hs : ∀ (p q d k : Nat), (padRule .constant).src ((p : Int), (q : Int)) d k = if p ≤ k ∧ k - p < d then some (k - p) else none := by
      intro p q d k
      simp only [padRule, PadMode.src]
      by_cases hh : p ≤ k ∧ k - p < d
      · rw [if_pos hh, if_pos (by omega)]
        congr 1
        omega
      · rw [if_neg hh, if_neg (by omega)]
    simp only [Tensor.pad, axisOp, hx, List.length_cons, List.length_nil, hr4, List.map_cons, List.map_nil, Nat.zero_add, Nat.reduceAdd]
    have hall : ∀ P : Nat → Prop, (∀ i, i < 4 → P i) ↔ (P 0 ∧ P 1 ∧ P 2 ∧ P 3) := by
      intro P
      constructor
      · intro hP
        exact ⟨hP 0 (by omega), hP 1 (by omega), hP 2 (by omega), hP 3 (by omega)⟩
      · rintro ⟨p0, p1, p2, p3⟩ i hi
        rcases (show i = 0 ∨ i = 1 ∨ i = 2 ∨ i = 3 by omega) with rfl | rfl | rfl | rfl <;> assumption
    simp only [hall]
    simp only [List.getD_cons_zero, List.getD_cons_succ, nth_cons_zero, nth_cons_succ, hs0, hs1, hs]
    by_cases h1 : a0 ≤ a ∧ a - a0 < h
    · by_cases h2 : a1 ≤ b ∧ b - a1 < w
      · rw [if_pos h1, if_pos h2, if_pos ⟨rfl, rfl, rfl, rfl⟩, if_pos ⟨h1, h2⟩]
        rfl
      · rw [if_neg h2, if_neg (by simp), if_neg (by tauto)]
    · rw [if_neg h1, if_neg (by simp), if_neg (by tauto)]

/-- Square blocks: `SpaceToBatchND` by `SpaceToDepth`. -/
theorem spaceToBatchFast_eval {x : T α} {b n h w : Nat} {d : List Nat} {p0 p1 q0 q1 : Nat} (hb : 0 < b) (hx : x.shape = n :: h :: w :: d)
    (hd : d.length ≤ 1) (h0 : b ∣ h + p0 + q0) (h1 : b ∣ w + p1 + q1)
    (pads : Option (List (Int × Int))) (hc : pads = some [((p0 : Int), (q0 : Int)), ((p1 : Int), (q1 : Int))] ∨ (pads = none ∧ 11 ≤ v)) :
    ∃ e, spaceToBatchFast v x.shape.length b pads = .ok e ∧
      ∃ y, e.eval v zero (blockInputs x [b, b] [(p0, q0), (p1, q1)]) = some (.data y) ∧ Same y (tfSpaceToBatch zero [b, b] [(p0, q0), (p1, q1)] x) := by
  have hx0 : (Expr.inp 0).eval v zero (blockInputs x [b, b] [(p0, q0), (p1, q1)]) = some (.data x) := by simp [blockInputs]
  obtain ⟨t, ht, hts, htg⟩ := toCNHW_eval hx0 hx hd
  obtain ⟨hps, hpg⟩ := pad_hw (fill := zero) (a0 := p0) (a1 := p1) (b0 := q0) (b1 := q1) hts
  generalize hP : Tensor.pad .constant zero [0, 0, (p0 : Int), p1, 0, 0, q0, q1] t = P at hps hpg
  have hfin : ∀ e : Expr, e.eval v zero (blockInputs x [b, b] [(p0, q0), (p1, q1)]) = some (.data P) →
      ∃ y, (fromCNHW v x.shape.length (.app (.spaceToDepth b) [e])).eval v zero (blockInputs x [b, b] [(p0, q0), (p1, q1)]) = some (.data y) ∧
        Same y (tfSpaceToBatch zero [b, b] [(p0, q0), (p1, q1)] x) := by
    intro e he
    have hs2d := eval_app1 (op := .spaceToDepth b) he
    have hop : Op.eval v zero (.spaceToDepth b) [.data P] = some (.data (spaceToDepthOn b P)) := by
      have hdv : b ∣ nth P.shape 2 := by rw [hps]; exact h0
      have hdv' : b ∣ nth P.shape 3 := by rw [hps]; exact h1
      simp only [Op.eval, dims_data]
      exact if_pos ⟨by omega, by rw [hps]; rfl, hdv, hdv'⟩
    rw [hop] at hs2d
    have hss : (spaceToDepthOn b P).shape = [size d, n * (b * b), (h + p0 + q0) / b, (w + p1 + q1) / b] := by
      simp only [spaceToDepthOn, hps]
      rfl
    obtain ⟨y, hy, hys, hyg⟩ := fromCNHW_eval hs2d hss hd
    have hlen : x.shape.length = 3 + d.length := by rw [hx]; simp; omega
    rw [hlen]
    refine ⟨y, hy, ?_, ?_⟩
    · rw [hys]
      have hsb : size [b, b] = b * b := by simp [size]
      simp only [tfSpaceToBatch, hx, nth_cons_zero, hsb]
      rw [Nat.mul_comm n]
      simp [List.range_succ, nth]
    · intro idx hi
      rw [hys] at hi
      obtain ⟨i, j, rfl, hi0, hj⟩ := inB_cons' hi
      obtain ⟨a, j, rfl, ha, hj⟩ := inB_cons' hj
      obtain ⟨c, k, rfl, hc, hk⟩ := inB_cons' hj
      have hn : 0 < n := by
        rcases Nat.eq_zero_or_pos n with rfl | h
        · simp at hi0
        · exact h
      have hdl : delin [b, b] (i / n) = [i / n / b, i / n % b] := by simp [delin, size]
      have hrd : (spaceToDepthOn b P).get [lin d k, i, a, c] = P.get [lin d k, i % n, a * b + i / n / b, c * b + i / n % b] := by
        simp only [spaceToDepthOn, hps]
        rfl
      rw [hyg i a c k hk, hrd, hpg _ _ _ _ (lin_lt hk) (Nat.mod_lt _ hn), htg _ _ _ _ hk]
      simp only [tfSpaceToBatch, hx, nth_cons_zero, hdl]
      have hall : ∀ P : Nat → Prop, (∀ i, i < [b, b].length → P i) ↔ (P 0 ∧ P 1) := by
        intro P
        constructor
        · intro hP
          exact ⟨hP 0 (by simp), hP 1 (by simp)⟩
        · rintro ⟨p0, p1⟩ i hi
          have : i < 2 := hi
          rcases (show i = 0 ∨ i = 1 by omega) with rfl | rfl <;> assumption
      simp only [hall]
      simp [List.range_succ, nth]
  have h8 : ([0, 0, (p0 : Int), p1, 0, 0, q0, q1] : List Int).length = 2 * t.shape.length := by rw [hts]; rfl
  rcases hc with rfl | ⟨rfl, hv⟩
  · refine ⟨_, rfl, hfin _ ?_⟩
    split
    · rw [eval_app1 ht, ← hP]
      simp only [Op.eval, dims_data]
      exact if_pos ⟨by omega, h8⟩
    · rw [eval_app2 ht (eval_const _), ← hP]
      simp only [Op.eval, vec_ints, Option.bind_eq_bind, Option.bind_some, dims_data]
      exact if_pos ⟨by omega, h8⟩
  · have hc2 : (Expr.inp 2).eval v zero (blockInputs x [b, b] [(p0, q0), (p1, q1)]) = some (.ints (pairsT [(p0, q0), (p1, q1)])) := by simp [blockInputs]
    refine ⟨_, by simp only [spaceToBatchFast]; rw [if_neg (by omega)], hfin _ ?_⟩
    have r0 := quarter_eval hc2 (k := 0) (by omega)
    have r1 := quarter_eval hc2 (k := 1) (by omega)
    have r2 := quarter_eval hc2 (k := 2) (by omega)
    have r3 := quarter_eval hc2 (k := 3) (by omega)
    have hcat : (Expr.app (.concat 0) [.const (vecT [0]), .const (vecT [0]), quarter (.inp 2) 0, quarter (.inp 2) 2, .const (vecT [0]), .const (vecT [0]),
        quarter (.inp 2) 1, quarter (.inp 2) 3]).eval v zero (blockInputs x [b, b] [(p0, q0), (p1, q1)]) =
        some (.ints (vecT [0, 0, (p0 : Int), p1, 0, 0, q0, q1])) := by
      have := concat_vecs (α := α) (v := v) (zero := zero) (ls := [[0], [0], [(p0 : Int)], [(p1 : Int)], [0], [0], [(q0 : Int)], [(q1 : Int)]]) (by simp)
      rw [eval_app]
      simp only [Expr.evalList, eval_const, r0, r1, r2, r3, Option.bind_eq_bind, Option.bind_some]
      simpa using this
    rw [eval_app2 ht hcat, ← hP]
    simp only [Op.eval, vec_ints, Option.bind_eq_bind, Option.bind_some, dims_data]
    exact if_pos ⟨hv, h8⟩

end Verif.Emit
