import Verif.Props.C71_Rfft2d
/-!
# C71: what `RFFT2D` becomes
-/
namespace Verif.Fourier
open Verif.Tensor Verif.Emit Verif.Einsum

theorem sliceVec_last2 {pre : List Nat} {h w : Nat} : sliceVec ((pre ++ [h, w]).map Int.ofNat) (-2) ((pre ++ [h, w]).length : Nat) = [(h : Int), (w : Int)] := by
  have h1 : (clampPos ((pre ++ [h, w]).map Int.ofNat).length 0 ((pre ++ [h, w]).map Int.ofNat).length ((pre ++ [h, w]).length : Nat)).toNat = pre.length + 2 := by
    unfold clampPos
    rw [if_neg (by omega)]
    simp
    omega
  have h2 : (clampPos ((pre ++ [h, w]).map Int.ofNat).length 0 ((pre ++ [h, w]).map Int.ofNat).length (-2)).toNat = pre.length := by
    unfold clampPos
    simp
  unfold sliceVec
  rw [h1, h2, List.take_of_length_le (by simp), List.map_append, List.drop_append_of_le_length (by simp)]
  simp

theorem sliceVec_init2 {pre : List Nat} {h w : Nat} : sliceVec ((pre ++ [h, w]).map Int.ofNat) 0 (-2) = pre.map Int.ofNat := by
  have h1 : (clampPos ((pre ++ [h, w]).map Int.ofNat).length 0 ((pre ++ [h, w]).map Int.ofNat).length (-2)).toNat = pre.length := by
    unfold clampPos
    simp
  have h2 : (clampPos ((pre ++ [h, w]).map Int.ofNat).length 0 ((pre ++ [h, w]).map Int.ofNat).length 0).toNat = 0 := by
    unfold clampPos
    simp
  unfold sliceVec
  rw [h1, h2, List.drop_zero, List.map_append, List.take_append_of_le_length (by simp)]
  simp

/-- The operand as a batch of matrices. -/
theorem toMatrices_is {x : T ℝ} {pre : List Nat} {H W : Nat} (hs : x.shape = pre ++ [H, W]) (hH : 0 < H) (hW : 0 < W) :
    ∃ z, toMatrices x = some z ∧ Is3 z (size pre) H W (fun b n m => x.get (delin pre b ++ [n, m])) := by
  have h : reshapeDims x.shape ([].map Int.ofNat ++ (-1) :: [H, W].map Int.ofNat) = some ([] ++ size pre :: [H, W]) :=
    reshapeDims_open (by
      intro d hd
      simp at hd
      rcases hd with rfl | rfl <;> assumption) (by rw [hs, size_append]; simp [size])
  have he : toMatrices x = reshapeT ([-1] ++ [(H : Int), (W : Int)]) x := by
    unfold toMatrices
    simp only [hs]
    rw [sliceVec_last2]
  refine ⟨_, he.trans (congrArg (Option.map _) h), rfl, fun b n m hb hn hm => ?_⟩
  apply reshape_get
  · rw [hs, inB_append (delin_inB hb).1]
    exact ⟨delin_inB hb, by rw [inB_cons, inB_one]; exact ⟨hn, hm⟩⟩
  · rw [hs, lin_append (delin_inB hb).1, lin_delin' hb]
    simp [lin, size]

/-- The last reshape. -/
theorem finish2d_is {y : T ℝ} {pre : List Nat} {H W N M : Nat} {g : Nat → Nat → Nat → Nat → ℝ} (hpos : ∀ d ∈ pre, 0 < d) (hN : 0 < N) (hM : M / 2 + 1 ≤ M)
    (hy : Is4 y 2 (size pre) N M g) :
    ∃ z, finish2d (pre ++ [H, W]) N M y = some z ∧ z.shape = 2 :: (pre ++ [N, M / 2 + 1]) ∧
      ∀ c i k l, c < 2 → InB pre i → k < N → l < M / 2 + 1 → z.get (c :: (i ++ [k, l])) = g c (lin pre i) k l := by
  obtain ⟨w, e1, i1⟩ := slice4_23 hy (m := N) (e := M / 2 + 1) (by omega) hM
  have h : reshapeDims w.shape ((2 :: (pre ++ [N, M / 2 + 1])).map Int.ofNat) = some (2 :: (pre ++ [N, M / 2 + 1])) :=
    reshapeDims_full (by
      intro d hd
      simp only [List.mem_cons, List.mem_append, List.not_mem_nil, or_false] at hd
      rcases hd with rfl | hd | rfl | rfl
      · omega
      · exact hpos d hd
      · exact hN
      · omega) (by
      rw [i1.shape, size_cons, size_append]
      simp [size])
  have hlast : sliceVec (w.shape.map Int.ofNat) (-2) (w.shape.length : Nat) = [(N : Int), ((M / 2 + 1 : Nat) : Int)] := by
    rw [i1.shape]
    exact sliceVec_last2 (pre := [2, size pre])
  have he : finish2d (pre ++ [H, W]) N M y = reshapeT ((2 :: (pre ++ [N, M / 2 + 1])).map Int.ofNat) w := by
    unfold finish2d
    rw [tdiv_two, e1, Option.bind_some, hlast, sliceVec_init2]
    simp
  refine ⟨_, he.trans (congrArg (Option.map _) h), rfl, fun c i k l hc hi hk hl => ?_⟩
  have hlt := lin_lt' hi
  rw [← i1.get c (lin pre i) k l hc hlt hk hl]
  apply reshape_get
  · rw [i1.shape, inB_cons, inB_cons, inB_cons, inB_one]
    exact ⟨hc, hlt, hk, hl⟩
  · rw [i1.shape, lin, lin_append hi.1, size_append]
    simp [lin, size]

theorem grid_spec {x : T ℝ} {pre i : List Nat} {H W N M k l : Nat} (hs : x.shape = pre ++ [H, W]) (hN : N ≤ H) (hM : M ≤ W) (hi : InB pre i) :
    grid N M (fun n m => x.get (delin pre (lin pre i) ++ [n, m])) k l = (tfRfft2d N M x).get (i ++ [k, l]) := by
  have hr : x.shape.length - 2 = pre.length := by rw [hs]; simp
  have hr1 : x.shape.length - 1 = pre.length + 1 := by rw [hs]; simp
  unfold grid rows tfRfft2d
  simp only [hr, hr1]
  apply Finset.sum_congr rfl
  intro n hn
  rw [Finset.sum_mul]
  apply Finset.sum_congr rfl
  intro m hm
  have hn' := Finset.mem_range.1 hn
  have hm' := Finset.mem_range.1 hm
  have e1 : (i ++ [k, l]).take pre.length = i := by rw [← hi.1]; simp
  have e2 : nth (i ++ [k, l]) pre.length = k := by rw [← hi.1]; simp [nth]
  have e3 : nth (i ++ [k, l]) (pre.length + 1) = l := by rw [← hi.1]; simp [nth]
  rw [e1, e2, e3, padded_in (by rw [hs, inB_append hi.1, inB_cons, inB_one]; exact ⟨hi, by omega, by omega⟩), delin_lin' hi]
  unfold unit
  rw [mul_assoc, ← Complex.exp_add]
  congr 2
  ring

theorem gathers (N M : Int) : Vec.gather [N, M] [0] = some [N] ∧ Vec.gather [N, M] [-1] = some [M] ∧ Vec.gather [N, M] [-2] = some [N] ∧ Vec.gather [N, M] [1] = some [M] := by
  refine ⟨?_, ?_, ?_, ?_⟩ <;> simp [Vec.gather, posOf]

/-- The result of `RFFT2D` for lengths that are not larger than the axes, the second one being at least 2. -/
theorem rfft2d_accepts {consumers : List String} {x : T ℝ} {pre : List Nat} {H W N M : Nat} (hc : consumers ≠ [] ∧ ∀ c ∈ consumers, c = "ComplexAbs")
    (hs : x.shape = pre ++ [H, W]) (hpos : ∀ e ∈ pre, 0 < e) (h0 : 0 < N) (hN : N ≤ H) (h2 : 2 ≤ M) (hM : M ≤ W) :
    ∃ z, rfft2d consumers [(N : Int), (M : Int)] x = .ok (some z) ∧ Parts z (tfRfft2d N M x) := by
  obtain ⟨c0, e0, i0⟩ := dyn_is N h0
  obtain ⟨c1, e1, i1⟩ := dyn_is M (by omega)
  obtain ⟨m, em, im⟩ := toMatrices_is hs (by omega) (by omega)
  obtain ⟨f, ef, jf⟩ := first_is (N := N) i1 im hM
  have hmin : min (M / 2 + 1) 2 = 2 := by omega
  rw [hmin, Nat.min_eq_left hN] at jf
  obtain ⟨re, er, ir⟩ := second_is i0 jf (p := 0) (by omega)
  obtain ⟨im', ei, ii⟩ := second_is i0 jf (p := 1) (by omega)
  obtain ⟨ti, et, it⟩ := timesI_is ii
  obtain ⟨s, es, ss, gs⟩ := Scan.zipT_same (· + ·) re ti (by rw [ir.shape, it.shape])
  have hsum : Is4 s 2 (size pre) N M (fun p b k l => if p = 0 then (grid N M (fun n m => x.get (delin pre b ++ [n, m])) k l).re
      else (grid N M (fun n m => x.get (delin pre b ++ [n, m])) k l).im) := by
    refine ⟨by rw [ss, ir.shape], fun p b k l hp hb hk hl => ?_⟩
    rw [gs _ (by rw [ir.shape, inB_cons, inB_cons, inB_cons, inB_one]; exact ⟨hp, hb, hk, hl⟩), ir.get p b k l hp hb hk hl, it.get p b k l hp hb hk hl]
    by_cases hz : p = 0
    · simp only [hz, if_true, grid_re, one_ne_zero, if_false]
    · simp only [hz, if_false, if_true, grid_im, one_ne_zero]
  obtain ⟨z, hz, hzs, hzg⟩ := finish2d_is (H := H) (W := W) hpos h0 (by omega) hsum
  have hg := gathers N M
  refine ⟨z, ?_, ?_, fun i hi => ?_, fun i hi => ?_⟩
  · unfold rfft2d
    rw [if_pos hc]
    simp only [hg.1, hg.2.1, hg.2.2.1, hg.2.2.2]
    congr 1
    unfold emitted2d
    have er' : secondFft 0 N c0 f = some re := er
    have ei' : secondFft 1 N c0 f = some im' := ei
    simp only [e0, e1, em, ef, er', ei', et, es, hs, Option.bind_some]
    exact hz
  · rw [hzs]
    simp [tfRfft2d, hs]
  · have hi' : InB (pre ++ [N, M / 2 + 1]) i := by simpa [tfRfft2d, hs] using hi
    obtain ⟨a, b, rfl, ha, hb⟩ := inB_append' hi'
    obtain ⟨k, j, rfl, hk, hj⟩ := inB_cons' hb
    obtain ⟨l, j', rfl, hl, hj'⟩ := inB_cons' hj
    rw [inB_nil.1 hj', hzg 0 a k l (by omega) ha hk hl, if_pos rfl, grid_spec hs hN hM ha]
  · have hi' : InB (pre ++ [N, M / 2 + 1]) i := by simpa [tfRfft2d, hs] using hi
    obtain ⟨a, b, rfl, ha, hb⟩ := inB_append' hi'
    obtain ⟨k, j, rfl, hk, hj⟩ := inB_cons' hb
    obtain ⟨l, j', rfl, hl, hj'⟩ := inB_cons' hj
    rw [inB_nil.1 hj', hzg 1 a k l (by omega) ha hk hl, if_neg (by omega), grid_spec hs hN hM ha]

/-- With 1 as the second length the emitted operators fail: the axis of the parts is cut in place of that of the coefficients, and the imaginary parts are missing. -/
theorem rfft2d_one_violated {consumers : List String} {x : T ℝ} {pre : List Nat} {H W N : Nat} (hc : consumers ≠ [] ∧ ∀ c ∈ consumers, c = "ComplexAbs")
    (hs : x.shape = pre ++ [H, W]) (hH : 0 < H) (h0 : 0 < N) (hM : 1 ≤ W) : rfft2d consumers [(N : Int), 1] x = .ok none := by
  obtain ⟨c0, e0, i0⟩ := dyn_is N h0
  obtain ⟨c1, e1, i1⟩ := dyn_is 1 (by omega)
  obtain ⟨m, em, im⟩ := toMatrices_is hs hH (by omega)
  obtain ⟨f, ef, jf⟩ := first_is (N := N) i1 im hM
  have hg := gathers N 1
  unfold rfft2d
  rw [if_pos hc]
  simp only [hg.1, hg.2.1, hg.2.2.1, hg.2.2.2]
  congr 1
  unfold emitted2d
  have e1' : dynMatrices 1 = some c1 := e1
  have ef' : firstFft N 1 c1 m = some f := ef
  have hlast : secondFft 1 N c0 f = none := by
    unfold secondFft
    have : Seg.gather0 f ⟨[], fun _ => 1⟩ = none := by
      apply if_neg
      rintro ⟨-, h⟩
      have := h [] (by simp [allIdx])
      rw [jf.shape] at this
      simp [nth] at this
    rw [this]
    rfl
  simp only [e0, e1', em, ef', hlast, Option.bind_some, Option.bind_none]
  cases secondFft 0 N c0 f <;> rfl

/-- With a length larger than its axis, where TensorFlow continues the operand with zeros, the emitted operators fail. -/
theorem rfft2d_long_violated {consumers : List String} {x : T ℝ} {pre : List Nat} {H W N M : Nat} (hc : consumers ≠ [] ∧ ∀ c ∈ consumers, c = "ComplexAbs")
    (hs : x.shape = pre ++ [H, W]) (hH : 0 < H) (hW : 0 < W) (h0 : 0 < N) (h1 : 0 < M) (hlong : H < N ∨ W < M) : rfft2d consumers [(N : Int), (M : Int)] x = .ok none := by
  obtain ⟨c0, e0, i0⟩ := dyn_is N h0
  obtain ⟨c1, e1, i1⟩ := dyn_is M h1
  obtain ⟨m, em, im⟩ := toMatrices_is hs hH hW
  have hg := gathers N M
  unfold rfft2d
  rw [if_pos hc]
  simp only [hg.1, hg.2.1, hg.2.2.1, hg.2.2.2]
  congr 1
  unfold emitted2d
  by_cases hM : W < M
  · simp only [e0, e1, em, first_none i1 im hM, Option.bind_some, Option.bind_none]
  · obtain ⟨f, ef, jf⟩ := first_is (N := N) i1 im (by omega)
    have hs2 : secondFft 0 N c0 f = none := second_none i0 jf (p := 0) (by omega) (by omega)
    simp only [e0, e1, em, ef, hs2, Option.bind_some, Option.bind_none]

/-- Whatever `RFFT2D` computes, for positive lengths, is the transform. -/
theorem rfft2d_sound {consumers : List String} {x z : T ℝ} {pre : List Nat} {H W N M : Nat} (hs : x.shape = pre ++ [H, W]) (hpos : ∀ e ∈ x.shape, 0 < e) (h0 : 0 < N) (h1 : 0 < M)
    (h : rfft2d consumers [(N : Int), (M : Int)] x = .ok (some z)) : N ≤ H ∧ 2 ≤ M ∧ M ≤ W ∧ Parts z (tfRfft2d N M x) := by
  have hc : consumers ≠ [] ∧ ∀ c ∈ consumers, c = "ComplexAbs" := by
    by_contra hc
    unfold rfft2d at h
    rw [if_neg hc] at h
    cases h
  have hH : 0 < H := hpos H (by simp [hs])
  have hW : 0 < W := hpos W (by simp [hs])
  by_cases hlong : H < N ∨ W < M
  · rw [rfft2d_long_violated hc hs hH hW h0 h1 hlong] at h
    cases h
  by_cases h2 : M = 1
  · subst h2
    have h' : rfft2d consumers [(N : Int), 1] x = .ok (some z) := h
    rw [rfft2d_one_violated hc hs hH h0 (by omega)] at h'
    cases h'
  · obtain ⟨z', hz', hp⟩ := rfft2d_accepts hc hs (fun e he => hpos e (by simp [hs, he])) h0 (by omega) (show 2 ≤ M by omega) (by omega)
    rw [h] at hz'
    simp only [Except.ok.injEq, Option.some.injEq] at hz'
    exact ⟨by omega, by omega, by omega, hz' ▸ hp⟩

/-- `ComplexAbs` of what `RFFT2D` is converted to. -/
theorem rfft2d_abs_partial {consumers : List String} {recorded : Option (List Int)} {x z : T ℝ} {r : Option (T ℝ)} {pre : List Nat} {H W N M : Nat} (hs : x.shape = pre ++ [H, W])
    (hpos : ∀ e ∈ x.shape, 0 < e) (h0 : 0 < N) (h1 : 0 < M) (h : rfft2d consumers [(N : Int), (M : Int)] x = .ok (some z)) (h' : complexAbs recorded z = .ok r) :
    ∃ w, r = some w ∧ Same w (tfAbs (tfRfft2d N M x)) := by
  obtain ⟨-, -, -, hp⟩ := rfft2d_sound hs hpos h0 h1 h
  obtain ⟨w, hw, hsame⟩ := abs_emitted hp
  refine ⟨w, ?_, hsame⟩
  unfold complexAbs at h'
  split at h'
  · rw [hw] at h'; exact (Except.ok.inj h').symm
  · cases h'
  · split at h'
    · rw [hw] at h'; exact (Except.ok.inj h').symm
    · cases h'

/-! ## Examples -/

/-- A signal of length 4, and two lengths. -/
def exSignal : T ℝ := ⟨[3, 4], fun i => nth i 0 + nth i 1⟩
def exLength : T Int := ⟨[1], fun _ => 3⟩

theorem ex_rfft : ∃ z, anyVersion true ["ComplexAbs"] (some [-1, 4]) (some exLength) exSignal = .ok (some z) ∧ z.shape = [2, 3, 2] := by
  obtain ⟨z, hz, hp⟩ := rfft_accepts (consumers := ["ComplexAbs"]) (l := [-1, 4]) (len := exLength) (x := exSignal) (pre := [3]) (d := 4)
    ⟨by simp, by simp⟩ rfl (by simp) (by simp [exSignal])
    ⟨rfl, by
      intro i hi
      have : i = 0 ∨ i = 1 := by simp [exSignal] at hi; omega
      rcases this with rfl | rfl <;> simp [exSignal, nth]⟩ rfl rfl (by simp [exLength]) (by simp [exLength])
  exact ⟨z, hz, by rw [hp.shape]; rfl⟩

theorem ex_rfft2d : ∃ z, rfft2d ["ComplexAbs"] [2, 4] exSignal = .ok (some z) ∧ z.shape = [2, 2, 3] := by
  obtain ⟨z, hz, hp⟩ := rfft2d_accepts (consumers := ["ComplexAbs"]) (x := exSignal) (pre := []) (H := 3) (W := 4) (N := 2) (M := 4) ⟨by simp, by simp⟩ rfl (by simp) (by omega) (by omega)
    (by omega) (by omega)
  exact ⟨z, hz, by rw [hp.shape]; rfl⟩

/-- The first coefficient is the sum. -/
theorem ex_first_coefficient (N : Nat) (x : T ℝ) (i : List Nat) : (tfRfft N x).get (i ++ [0]) = ∑ n ∈ Finset.range N, (padded x (i ++ [n]) : ℂ) := by
  simp [tfRfft]

/-- A vector cannot be transformed: `Transpose` gets two axes. -/
theorem rfft_vector_violated {consumers : List String} {l : List Int} {fftLength : Option (T Int)} {x : T ℝ} {d : Nat} (hs : x.shape = [d]) (hd : 0 < d) (ht : Told l x.shape) :
    ∀ z, anyVersion true consumers (some l) fftLength x ≠ .ok (some z) := by
  intro z h
  obtain ⟨-, l', len, pre, d', -, -, -, hs', hne, -⟩ := rfft_needs (by simpa [hs] using hd) (by rintro _ ⟨⟩; exact ht) h
  rw [hs] at hs'
  have hlen : pre.length = 0 := by
    have := congrArg List.length hs'
    simpa using this.symm
  exact hne (List.length_eq_zero_iff.1 hlen)

/-- The length of the last axis has to be known before the model runs. -/
theorem rfft_unknown_violated {consumers : List String} {fftLength : Option (T Int)} {x : T ℝ} : ∀ z, anyVersion true consumers none fftLength x ≠ .ok z := by
  intro z h
  unfold anyVersion at h
  split at h
  · simp only [flatten, flatDynamic, if_true, lengths] at h
    cases fftLength with
    | none => cases h
    | some l =>
      simp only at h
      by_cases h1 : l.shape = [1]
      · by_cases h2 : 0 < l.get [0]
        · simp [h1, h2] at h
        · simp [h1, h2] at h
      · simp [h1] at h
  · cases h

end Verif.Fourier
