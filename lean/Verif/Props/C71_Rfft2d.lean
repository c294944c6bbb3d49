import Verif.Props.C71_Abs
/-!
# C71: the transform along two axes
-/
namespace Verif.Fourier
open Verif.Tensor Verif.Emit Verif.Einsum

/-! ## The matrices -/

theorem cumsum_ones (N : Nat) : (Vec.cumsum (List.replicate N 1)).map (· + -1) = (List.range N).map (fun k : Nat => (k : Int)) := by
  unfold Vec.cumsum
  rw [List.length_replicate, List.map_map]
  apply List.map_congr_left
  intro k hk
  have : k < N := List.mem_range.1 hk
  simp [List.take_replicate]
  omega

theorem unit_re (N k n : Nat) : Real.cos ((k : ℝ) * n / N * -(2 * Real.pi)) = (unit N k n).re := by
  unfold unit
  have : (-(2 * (Real.pi : ℂ) * ((k : ℂ) * n / N)) * Complex.I) = ((k : ℝ) * n / N * -(2 * Real.pi) : ℝ) * Complex.I := by
    push_cast
    ring
  rw [this, Complex.exp_ofReal_mul_I_re]

theorem unit_im (N k n : Nat) : Real.sin ((k : ℝ) * n / N * -(2 * Real.pi)) = (unit N k n).im := by
  unfold unit
  have : (-(2 * (Real.pi : ℂ) * ((k : ℂ) * n / N)) * Complex.I) = ((k : ℝ) * n / N * -(2 * Real.pi) : ℝ) * Complex.I := by
    push_cast
    ring
  rw [this, Complex.exp_ofReal_mul_I_im]

theorem concat_pair {x y : T ℝ} {a b : Nat} {f g : Nat → Nat → ℝ} (hx : Is2 x a b f) (hy : Is2 y a b g) :
    ∃ z, Seg.concat0 0 (Seg.unsqueeze0 x) (Seg.unsqueeze0 y) = some z ∧ Is3 z 2 a b (fun c i j => if c = 0 then f i j else g i j) := by
  have hok : ConcatOk 0 [Seg.unsqueeze0 x, Seg.unsqueeze0 y] := by
    simp [ConcatOk, Seg.unsqueeze0, hx.shape, hy.shape]
  refine ⟨_, if_pos hok, by simp [Tensor.concat, Seg.unsqueeze0, hx.shape, hy.shape, setAt, nth], fun c i j hc hi hj => ?_⟩
  have : c = 0 ∨ c = 1 := by omega
  rcases this with rfl | rfl
  · simp [Tensor.concat, concatGet, Seg.unsqueeze0, nth]
    exact hx.get i j hi hj
  · simp [Tensor.concat, concatGet, Seg.unsqueeze0, nth, setAt]
    exact hy.get i j hi hj

theorem dyn_is (N : Nat) (h0 : 0 < N) : ∃ z, dynMatrices N = some z ∧
    Is4 z 1 2 N N (fun _ c k n => if c = 0 then (unit N k n).re else (unit N k n).im) := by
  have hfill : Vec.fill 1 (N : Int) = some (List.replicate N (1 : Int)) := by simp [Vec.fill]
  set n : T ℝ := ⟨[(List.replicate N (1 : Int)).length], fun i => (((Vec.cumsum (List.replicate N (1 : Int))).map (· + -1)).getD (nth i 0) 0 : Int)⟩ with hn
  have in_ : n.shape = [N] := by simp [hn]
  have gn : ∀ j, j < N → n.get [j] = (j : ℝ) := by
    intro j hj
    simp only [hn, cumsum_ones, nth]
    simp [hj]
  have hk : ∃ k, reshapeT [(N : Int), 1] n = some k ∧ Is2 k N 1 (fun i _ => (i : ℝ)) := by
    have h : reshapeDims n.shape ([N, 1].map Int.ofNat) = some [N, 1] := reshapeDims_full (by simpa using h0) (by rw [in_]; simp [size])
    refine ⟨_, congrArg (Option.map _) h, rfl, fun i j hi hj => ?_⟩
    rw [← gn i hi]
    apply reshape_get
    · rw [in_]; exact inB_one.2 hi
    · rw [in_]
      have : j = 0 := by omega
      simp [lin, size, this]
  obtain ⟨k, ek, ik⟩ := hk
  obtain ⟨kn, ekn, skn, gkn⟩ := zip_21 (fun a b : ℝ => a * b) ik.shape in_
  obtain ⟨q, eq, sq, gq⟩ := zip_one (fun a b : ℝ => a / b) (y := (⟨[], fun _ => ((N : Int) : ℝ)⟩ : T ℝ)) skn (Or.inl rfl) (v := ((N : Int) : ℝ)) (fun _ => rfl)
  obtain ⟨a, ea, sa, ga⟩ := zip_one (fun a b : ℝ => a * b) (y := (⟨[1], fun _ => -(2 * Real.pi)⟩ : T ℝ)) sq (Or.inr ⟨rfl, by simp⟩) (v := -(2 * Real.pi)) (fun _ => rfl)
  have gall : ∀ i j, i < N → j < N → a.get [i, j] = (i : ℝ) * j / N * -(2 * Real.pi) := by
    intro i j hi hj
    have hb : InB [N, N] [i, j] := by rw [inB_cons, inB_one]; exact ⟨hi, hj⟩
    rw [ga _ hb, gq _ hb, gkn i j hi hj, ik.get i 0 hi (by omega), gn j hj, Int.cast_natCast]
  have i1 : Is2 (Scan.mapT Real.cos a) N N (fun k n => (unit N k n).re) :=
    ⟨sa, fun i j hi hj => by show Real.cos (a.get [i, j]) = _; rw [gall i j hi hj, unit_re]⟩
  have i2 : Is2 (Scan.mapT Real.sin a) N N (fun k n => (unit N k n).im) :=
    ⟨sa, fun i j hi hj => by show Real.sin (a.get [i, j]) = _; rw [gall i j hi hj, unit_im]⟩
  obtain ⟨c, ec, ic⟩ := concat_pair i1 i2
  obtain ⟨s, es, is⟩ := slice3_2 ic (e := N) (by omega)
  refine ⟨Seg.unsqueeze0 s, ?_, ⟨by simp [Seg.unsqueeze0, is.shape], fun _ c i j _ hc hi hj => is.get c i j hc hi hj⟩⟩
  unfold dynMatrices
  simp only [hfill, Option.bind_some]
  rw [← hn]
  simp only [ek, ekn, eq, ea, ec, es, Option.bind_some, Option.map_some]

/-! ## The emitted operators -/

theorem tdiv_two (M : Nat) : Int.tdiv (M : Int) 2 + 1 = ((M / 2 + 1 : Nat) : Int) := by
  have : Int.tdiv (M : Int) 2 = ((M / 2 : Nat) : Int) := rfl
  omega

/-- The transform of the last axis of a batch of matrices; only the real parts are left when its length is 1. -/
theorem first_is {c x : T ℝ} {B H W N M : Nat} {f : Nat → Nat → Nat → ℝ} (hc : Is4 c 1 2 M M (fun _ c k n => if c = 0 then (unit M k n).re else (unit M k n).im))
    (hx : Is3 x B H W f) (hM : M ≤ W) :
    ∃ z, firstFft N M c x = some z ∧ Is4 z (min (M / 2 + 1) 2) B (min N H) M
      (fun p b n l => if p = 0 then (rows M (f b) n l).re else (rows M (f b) n l).im) := by
  obtain ⟨x1, e1, i1⟩ := slice3_12c hx N M
  rw [Nat.min_eq_left hM] at i1
  obtain ⟨x2, e2, i2⟩ := transpose021 i1
  obtain ⟨x3, e3, i3⟩ := slice3_1 i2 (e := M) (by omega) (ax := 1) (Or.inl rfl)
  obtain ⟨x4, e4, i4⟩ := unsqueeze3_1 i3
  obtain ⟨x5, e5, i5⟩ := matmul44 hc i4
  obtain ⟨x6, e6, i6⟩ := slice4_1 i5 (M / 2 + 1)
  obtain ⟨x7, e7, i7⟩ := transpose1032 i6
  refine ⟨x7, ?_, i7.congr fun p b n l hp hb hn hl => ?_⟩
  · unfold firstFft
    simp only [e1, e2, e3, e4, e5, tdiv_two, e6, e7, Option.bind_some]
  · by_cases h : p = 0
    · simp only [h, if_true, rows_re]
    · simp only [h, if_false, rows_im]

/-- The length of the transform is larger than the axis. -/
theorem first_none {c x : T ℝ} {B H W N M : Nat} {f : Nat → Nat → Nat → ℝ} {g : Nat → Nat → Nat → Nat → ℝ} (hc : Is4 c 1 2 M M g) (hx : Is3 x B H W f) (hM : W < M) :
    firstFft N M c x = none := by
  obtain ⟨x1, e1, i1⟩ := slice3_12c hx N M
  obtain ⟨x2, e2, i2⟩ := transpose021 i1
  obtain ⟨x3, e3, i3⟩ := slice3_1c i2 M
  obtain ⟨x4, e4, i4⟩ := unsqueeze3_1 i3
  unfold firstFft
  simp only [e1, e2, e3, e4, matmul_none hc i4 (by omega), Option.bind_some, Option.bind_none]

theorem gather_index {x : T ℝ} {a b c d : Nat} {f : Nat → Nat → Nat → Nat → ℝ} (hx : Is4 x a b c d f) {p : Nat} (hp : p < a) :
    ∃ z, Seg.gather0 x ⟨[], fun _ => (p : Int)⟩ = some z ∧ Is3 z b c d (f p) := by
  have hok : IndicesOk (nth x.shape 0) ⟨[], fun _ => (p : Int)⟩ := by
    intro i _
    rw [hx.shape]
    simp [nth]
    omega
  refine ⟨_, if_pos ⟨by rw [hx.shape]; simp, hok⟩, by simp [gatherOn, hx.shape], fun i j k hi hj hk => ?_⟩
  have : (gatherOn 0 (⟨[], fun _ => (p : Int)⟩ : T Int) x).get [i, j, k] = x.get [p, i, j, k] := by
    have e : (if (p : Int) < 0 then (p : Int) + a else p).toNat = p := by rw [if_neg (by omega)]; omega
    simp [gatherOn, hx.shape, nth, posOf]
    rw [e]
  rw [this]
  exact hx.get p i j k hp hi hj hk

theorem second_is {c x : T ℝ} {a B N M p : Nat} {g : Nat → Nat → Nat → Nat → ℝ} (hc : Is4 c 1 2 N N (fun _ c k n => if c = 0 then (unit N k n).re else (unit N k n).im))
    (hx : Is4 x a B N M g) (hp : p < a) :
    ∃ z, secondFft p N c x = some z ∧ Is4 z 2 B N M
      (fun q b k l => ∑ n ∈ Finset.range N, (if q = 0 then (unit N k n).re else (unit N k n).im) * g p b n l) := by
  obtain ⟨x1, e1, i1⟩ := gather_index hx hp
  obtain ⟨x2, e2, i2⟩ := slice3_1 i1 (e := N) (by omega) (ax := 1) (Or.inl rfl)
  obtain ⟨x3, e3, i3⟩ := unsqueeze3_1 i2
  obtain ⟨x4, e4, i4⟩ := matmul44 hc i3
  obtain ⟨x5, e5, i5⟩ := transpose1023 i4
  refine ⟨x5, ?_, i5⟩
  unfold secondFft
  simp only [e1, e2, e3, e4, e5, Option.bind_some]

theorem second_none {c x : T ℝ} {a B H N M p : Nat} {f g : Nat → Nat → Nat → Nat → ℝ} (hc : Is4 c 1 2 N N f) (hx : Is4 x a B H M g) (hp : p < a) (hN : H < N) :
    secondFft p N c x = none := by
  obtain ⟨x1, e1, i1⟩ := gather_index hx hp
  obtain ⟨x2, e2, i2⟩ := slice3_1c i1 N
  obtain ⟨x3, e3, i3⟩ := unsqueeze3_1 i2
  unfold secondFft
  simp only [e1, e2, e3, matmul_none hc i3 (by omega), Option.bind_some, Option.bind_none]

theorem timesI_is {x : T ℝ} {b c d : Nat} {f : Nat → Nat → Nat → Nat → ℝ} (hx : Is4 x 2 b c d f) :
    ∃ z, timesI x = some z ∧ Is4 z 2 b c d (fun p j k l => if p = 0 then -f 1 j k l else f 0 j k l) := by
  obtain ⟨im, e1, i1⟩ := slice4_0 hx (s := 1) (by omega)
  obtain ⟨re, e2, i2⟩ := slice4_0 hx (s := 0) (by omega)
  have e1' : sliceT [1] [2] [0] x = some im := e1
  have e2' : sliceT [0] [1] [0] x = some re := e2
  have hok : ConcatOk 0 [Scan.mapT (fun a => -a) im, re] := by
    simp [ConcatOk, Scan.mapT, i1.shape, i2.shape]
  refine ⟨_, by unfold timesI; simp only [e1', e2', Option.bind_some]; exact if_pos hok, by simp [Tensor.concat, Scan.mapT, i1.shape, i2.shape, setAt, nth], fun p j k l hp hj hk hl => ?_⟩
  have : p = 0 ∨ p = 1 := by omega
  rcases this with rfl | rfl
  · simp [Tensor.concat, concatGet, Scan.mapT, nth, i1.shape]
    exact i1.get 0 j k l (by omega) hj hk hl
  · simp [Tensor.concat, concatGet, Scan.mapT, nth, setAt, i1.shape, i2.shape]
    exact i2.get 0 j k l (by omega) hj hk hl

/-- The transform of a matrix. -/
noncomputable def grid (N M : Nat) (f : Nat → Nat → ℝ) (k l : Nat) : ℂ := ∑ n ∈ Finset.range N, rows M f n l * unit N k n

theorem grid_re (N M : Nat) (f : Nat → Nat → ℝ) (k l : Nat) : (grid N M f k l).re =
    (∑ n ∈ Finset.range N, (unit N k n).re * (rows M f n l).re) + -(∑ n ∈ Finset.range N, (unit N k n).im * (rows M f n l).im) := by
  unfold grid
  rw [Complex.re_sum, ← Finset.sum_neg_distrib, ← Finset.sum_add_distrib]
  apply Finset.sum_congr rfl
  intro n _
  rw [Complex.mul_re]
  ring

theorem grid_im (N M : Nat) (f : Nat → Nat → ℝ) (k l : Nat) : (grid N M f k l).im =
    (∑ n ∈ Finset.range N, (unit N k n).im * (rows M f n l).re) + (∑ n ∈ Finset.range N, (unit N k n).re * (rows M f n l).im) := by
  unfold grid
  rw [Complex.im_sum, ← Finset.sum_add_distrib]
  apply Finset.sum_congr rfl
  intro n _
  rw [Complex.mul_im]
  ring

end Verif.Fourier
