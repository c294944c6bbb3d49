import Verif.Props.C71_Kit
/-!
# C71: the transform along one axis
-/
namespace Verif.Fourier
open Verif.Tensor Verif.Emit Verif.Einsum

/-! ## The matrices -/

/-- An entry of the matrix of the transform. -/
noncomputable def unit (N k n : Nat) : ℂ := Complex.exp (-(2 * Real.pi * ((k : ℂ) * n / N)) * Complex.I)

theorem unit_eq (N k n : Nat) : Complex.exp (-2 * Complex.I * Real.pi * k * n / N) = unit N k n := by
  unfold unit
  congr 1
  ring

theorem constant_is (d N : Nat) : Is3 (dftConstant d N) 2 (max d (N / 2 + 1)) (max d (N / 2 + 1))
    (fun c k n => if c = 0 then (unit N k n).re else (unit N k n).im) := by
  refine ⟨rfl, fun i j k _ _ _ => ?_⟩
  simp only [dftConstant, nth, List.getD_cons_zero, List.getD_cons_succ, unit_eq]

theorem matrices_is {d N : Nat} (h0 : 0 < N) (h : N ≤ d) : ∃ z m, matrices d N = some z ∧ N / 2 + 1 ≤ m ∧ (d = N → m = N / 2 + 1) ∧
    Is3 z 2 m N (fun c k n => if c = 0 then (unit N k n).re else (unit N k n).im) := by
  have hc := constant_is d N
  by_cases hlt : N < d
  · obtain ⟨z, hz, hi⟩ := slice3_2 hc (e := N) (by omega)
    exact ⟨z, _, by rw [matrices, if_pos hlt, hz], by omega, by omega, hi⟩
  · obtain ⟨z, hz, hi⟩ := slice3_12 hc (d := N / 2 + 1) (e := N) (by omega) (by omega)
    exact ⟨z, _, by rw [matrices, if_neg hlt, hz], by omega, by omega, hi⟩

/-! ## The emitted operators -/

theorem cutInput_is {x : T ℝ} {R d N : Nat} {f : Nat → Nat → ℝ} (hx : Is2 x R d f) (h : N ≤ d) : ∃ z, cutInput d N x = some z ∧ Is2 z R N f := by
  by_cases hlt : N < d
  · obtain ⟨z, hz, hi⟩ := slice2_last hx (e := N) h
    exact ⟨z, by rw [cutInput, if_pos hlt, hz], hi⟩
  · have : N = d := by omega
    exact ⟨x, by rw [cutInput, if_neg hlt], this ▸ hx⟩

theorem cutRows_is {x : T ℝ} {R d N m : Nat} {f : Nat → Nat → Nat → ℝ} (hx : Is3 x 2 m R f) (hm : N / 2 + 1 ≤ m) (h : N ≤ d) (he : d = N → m = N / 2 + 1) :
    ∃ z, cutRows d N x = some z ∧ Is3 z 2 (N / 2 + 1) R f := by
  by_cases hlt : N < d
  · obtain ⟨z, hz, hi⟩ := slice3_1 hx (e := N / 2 + 1) hm (ax := -2) (Or.inr rfl)
    exact ⟨z, by rw [cutRows, if_pos hlt, hz], hi⟩
  · have hm := he (by omega)
    exact ⟨x, by rw [cutRows, if_neg hlt], hm ▸ hx⟩

/-- The transform of the rows of a matrix. -/
noncomputable def rows (N : Nat) (f : Nat → Nat → ℝ) (r k : Nat) : ℂ := ∑ n ∈ Finset.range N, (f r n : ℂ) * unit N k n

theorem rows_re (N : Nat) (f : Nat → Nat → ℝ) (r k : Nat) : (rows N f r k).re = ∑ n ∈ Finset.range N, (unit N k n).re * f r n := by
  unfold rows
  rw [Complex.re_sum]
  apply Finset.sum_congr rfl
  intro n _
  simp [mul_comm]

theorem rows_im (N : Nat) (f : Nat → Nat → ℝ) (r k : Nat) : (rows N f r k).im = ∑ n ∈ Finset.range N, (unit N k n).im * f r n := by
  unfold rows
  rw [Complex.im_sum]
  apply Finset.sum_congr rfl
  intro n _
  simp [mul_comm]

theorem emitted_is {x : T ℝ} {R d N : Nat} {f : Nat → Nat → ℝ} (hx : Is2 x R d f) (h0 : 0 < N) (h : N ≤ d) (final : Option (List Int)) :
    ∃ y, emitted d N (some x) final = finish final y ∧
      Is3 y 2 R (N / 2 + 1) (fun c r k => if c = 0 then (rows N f r k).re else (rows N f r k).im) := by
  obtain ⟨x1, e1, i1⟩ := cutInput_is hx h
  obtain ⟨x2, e2, i2⟩ := transpose10 i1
  obtain ⟨c, m, ec, hm, he, ic⟩ := matrices_is h0 h
  obtain ⟨x3, e3, i3⟩ := matmul32 ic i2
  obtain ⟨x4, e4, i4⟩ := cutRows_is i3 hm h he
  obtain ⟨x5, e5, i5⟩ := transpose021 i4
  refine ⟨x5, ?_, i5.congr fun c' r k _ _ _ => ?_⟩
  · simp only [emitted, Option.bind_some, e1, e2, ec, e3, e4, e5]
  · by_cases hc : c' = 0
    · simp only [hc, if_true, rows_re]
    · simp only [hc, if_false, rows_im]

/-! ## Rows of a tensor -/

theorem delin_inB {s : List Nat} {k : Nat} (h : k < size s) : InB s (delin s k) := by
  induction s generalizing k with
  | nil => exact inB_nil.2 rfl
  | cons d s ih =>
    rw [size_cons] at h
    have hp : 0 < size s := Nat.pos_of_ne_zero fun e => by rw [e] at h; omega
    rw [delin, inB_cons]
    exact ⟨Nat.div_lt_of_lt_mul (by rwa [Nat.mul_comm]), ih (Nat.mod_lt _ hp)⟩

theorem lin_delin' {s : List Nat} {k : Nat} (h : k < size s) : lin s (delin s k) = k := by
  induction s generalizing k with
  | nil => simp [size] at h; simp [delin, lin, h]
  | cons d s ih =>
    rw [size_cons] at h
    have hp : 0 < size s := Nat.pos_of_ne_zero fun e => by rw [e] at h; omega
    rw [delin, lin, ih (Nat.mod_lt _ hp)]
    exact Nat.div_add_mod' k (size s)

theorem lin_lt' {s i : List Nat} (h : InB s i) : lin s i < size s := by
  induction s generalizing i with
  | nil => rw [inB_nil.1 h]; decide
  | cons d s ih =>
    obtain ⟨k, j, rfl, hk, hj⟩ := inB_cons' h
    rw [lin, size_cons]
    have := ih hj
    calc k * size s + lin s j < k * size s + size s := by omega
      _ = (k + 1) * size s := by ring
      _ ≤ d * size s := Nat.mul_le_mul_right _ hk

theorem delin_lin' {s i : List Nat} (h : InB s i) : delin s (lin s i) = i := by
  induction s generalizing i with
  | nil => rw [inB_nil.1 h]; rfl
  | cons d s ih =>
    obtain ⟨k, j, rfl, hk, hj⟩ := inB_cons' h
    have hlt := lin_lt' hj
    have e1 : (k * size s + lin s j) / size s = k := by
      rw [Nat.mul_comm, Nat.mul_add_div (by omega), Nat.div_eq_of_lt hlt, Nat.add_zero]
    have e2 : (k * size s + lin s j) % size s = lin s j := by
      rw [Nat.mul_comm, Nat.mul_add_mod, Nat.mod_eq_of_lt hlt]
    rw [lin, delin, e1, e2, ih hj]

/-- A tensor, reshaped to a matrix. -/
theorem reshape_rows {x : T ℝ} {pre : List Nat} {d : Nat} (hs : x.shape = pre ++ [d]) (hd : 0 < d) :
    ∃ z, reshapeT [-1, (d : Int)] x = some z ∧ Is2 z (size pre) d (fun r n => x.get (delin pre r ++ [n])) := by
  have h : reshapeDims x.shape ([].map Int.ofNat ++ (-1) :: [d].map Int.ofNat) = some ([] ++ size pre :: [d]) :=
    reshapeDims_open (by simpa using hd) (by rw [hs, size_append]; simp [size])
  refine ⟨_, congrArg (Option.map _) h, rfl, fun r n hr hn => ?_⟩
  apply reshape_get
  · rw [hs, inB_append (delin_inB hr).1]
    exact ⟨delin_inB hr, inB_one.2 hn⟩
  · rw [hs, lin_append (delin_inB hr).1, lin_delin' hr]
    simp [lin, size]

/-- The last reshape. -/
theorem finish_rows {y : T ℝ} {pre : List Nat} {m : Nat} {g : Nat → Nat → Nat → ℝ} (hpos : ∀ d ∈ pre, 0 < d) (hy : Is3 y 2 (size pre) m g) :
    ∃ z, finish (some ([2] ++ pre.map Int.ofNat ++ [-1])) y = some z ∧ z.shape = 2 :: (pre ++ [m]) ∧
      ∀ c i k, c < 2 → InB pre i → k < m → z.get (c :: (i ++ [k])) = g c (lin pre i) k := by
  have h : reshapeDims y.shape ((2 :: pre).map Int.ofNat ++ (-1) :: [].map Int.ofNat) = some ((2 :: pre) ++ m :: []) :=
    reshapeDims_open (by
      intro d hd
      simp only [List.append_nil, List.mem_cons] at hd
      rcases hd with rfl | hd
      · omega
      · exact hpos d hd) (by
      rw [hy.shape, size_append]
      simp [size]
      ring)
  have h' : reshapeDims y.shape ([2] ++ pre.map Int.ofNat ++ [-1]) = some ((2 :: pre) ++ [m]) := h
  refine ⟨_, congrArg (Option.map _) h', rfl, fun c i k hc hi hk => ?_⟩
  have hl := lin_lt' hi
  rw [← hy.get c (lin pre i) k hc hl hk]
  apply reshape_get
  · rw [hy.shape, inB_cons, inB_cons, inB_one]
    exact ⟨hc, hl, hk⟩
  · rw [hy.shape]
    have e : (2 :: pre) ++ [m] = 2 :: (pre ++ [m]) := rfl
    rw [e, lin, lin_append hi.1, size_append]
    simp [lin, size]

end Verif.Fourier
