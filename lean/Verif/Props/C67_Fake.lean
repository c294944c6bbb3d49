import Verif.Props.C67_Qdq
/-!
# C67: `FakeQuantWithMinMaxArgs`, `FakeQuantWithMinMaxVars`; examples
-/
namespace Verif.Quant
open Verif.Tensor

/-- **C67**: the conversion succeeds only for 8 bits and the whole range of values; then the two operators compute what `FakeQuantWithMinMax` does, except for numbers half-way between two points, which
TensorFlow rounds up and ONNX rounds to even. -/
theorem fakeQuant_partial {narrow : Bool} {bits : Nat} {lo hi x y : Rat} (hlt : lo < hi) (h : fakeQuantConvert narrow bits lo hi x = .ok y)
    (h1 : ¬ Tie (lo / ((hi - lo) / 255))) (h2 : ¬ Tie (x / ((hi - lo) / 255))) : narrow = false ∧ bits = 8 ∧ y = fakeQuant lo hi x := by
  unfold fakeQuantConvert at h
  split at h
  · cases h
  split at h
  · cases h
  rename_i hb
  have hb : bits = 8 := not_not.1 hb
  subst hb
  refine ⟨by simp_all, rfl, ?_⟩
  dsimp only at h
  have e255 : ((2 : Rat) ^ 8 - 1) = 255 := by norm_num
  rw [e255] at h
  unfold fakeQuant
  dsimp only
  have hS : 0 < (hi - lo) / 255 := div_pos (by linarith) (by norm_num)
  have hw : hi - lo = 255 * ((hi - lo) / 255) := by ring
  generalize hSe : (hi - lo) / 255 = S at *
  split at h
  case isFalse => cases h
  rename_i hz
  generalize hze : -halfEven (lo / S) = z at *
  have hy : dequantize S z (quantize false S z x) = y := Except.ok.inj h
  rw [← hy]
  have hm : minAdj lo hi S = -(z : Rat) * S := by
    unfold minAdj
    split_ifs with a b
    · have : 0 ≤ halfEven (lo / S) := by
        have := halfEven_mono (p := ((0 : Int) : Rat)) (q := lo / S) (by push_cast; exact (div_pos a hS).le)
        rwa [halfEven_int] at this
      have : z = 0 := by omega
      rw [this]
      simp
    · have : halfEven (lo / S) ≤ -255 := by
        have := halfEven_mono (p := lo / S) (q := ((-255 : Int) : Rat)) (by
          push_cast
          rw [div_le_iff₀ hS]
          linarith)
        rwa [halfEven_int] at this
      have : z = 255 := by omega
      rw [this]
      push_cast
      linarith
    · rw [halfUp_eq h1]
      have : halfEven (lo / S) = -z := by omega
      rw [this]
      push_cast
      ring
  rw [hm, hw]
  have hc : clamp (-(z : Rat) * S) (-(z : Rat) * S + 255 * S) x / S = clamp (((-z : Int)) : Rat) ((255 - z : Int) : Rat) (x / S) := by
    have := clamp_div (a := ((-z : Int) : Rat)) (b := ((255 - z : Int) : Rat)) (x := x) hS
    rw [← this, show ((-z : Int) : Rat) * S = -(z : Rat) * S by push_cast; ring, show ((255 - z : Int) : Rat) * S = -(z : Rat) * S + 255 * S by push_cast; ring]
  have e : (clamp (-(z : Rat) * S) (-(z : Rat) * S + 255 * S) x - -(z : Rat) * S) / S = clamp (((-z : Int)) : Rat) ((255 - z : Int) : Rat) (x / S) + z := by
    rw [← hc]
    field_simp
    ring
  rw [e, halfUp_add_int, round_clamp (fun _ _ => halfUp_mono) halfUp_int, halfUp_eq h2]
  unfold dequantize quantize
  simp only [bounds, Bool.false_eq_true, if_false]
  have hcl : clamp (0 : Int) 255 (halfEven (x / S) + z) - z = clamp (-z) (255 - z) (halfEven (x / S)) := by
    unfold clamp
    omega
  rw [hcl]
  push_cast
  ring

/-- The conversion succeeds for a range that contains 0. -/
theorem fakeQuant_converts {lo hi : Rat} (hlt : lo < hi) (h1 : lo ≤ 0) (h2 : 0 ≤ hi) (x : Rat) : ∃ y, fakeQuantConvert false 8 lo hi x = .ok y := by
  unfold fakeQuantConvert
  rw [if_neg (by simp), if_neg (by simp)]
  dsimp only
  have e255 : ((2 : Rat) ^ 8 - 1) = 255 := by norm_num
  rw [e255]
  have hS : 0 < (hi - lo) / 255 := div_pos (by linarith) (by norm_num)
  have hw : hi - lo = 255 * ((hi - lo) / 255) := by ring
  generalize (hi - lo) / 255 = S at *
  have a1 := halfEven_mono (p := lo / S) (q := ((0 : Int) : Rat)) (by push_cast; exact div_nonpos_of_nonpos_of_nonneg h1 hS.le)
  have a2 := halfEven_mono (p := ((-255 : Int) : Rat)) (q := lo / S) (by push_cast; rw [le_div_iff₀ hS]; linarith)
  rw [halfEven_int] at a1 a2
  rw [if_pos ⟨by omega, by omega⟩]
  exact ⟨_, rfl⟩

/-! ## Examples -/

/-- A range whose points are not the integers: 255 steps of 2/5 from -2/5 * 128 on. -/
theorem fakeQuant_example : fakeQuantConvert false 8 (-51) 51 (103 / 100) = .ok (6 / 5) ∧ fakeQuant (-51) 51 (103 / 100) = 6 / 5 ∧
    ¬ Tie ((103 / 100 : Rat) / ((51 - -51) / 255)) ∧ fakeQuantConvert false 8 (-50) 52 (-1000) = .ok (-50) ∧ fakeQuant (-50) 52 (-1000) = -50 ∧
    ¬ Tie ((-50 : Rat) / ((52 - -50) / 255)) := by
  refine ⟨by decide +kernel, by decide +kernel, ?_, by decide +kernel, by decide +kernel, ?_⟩ <;> unfold Tie <;> decide +kernel

/-- **Defect**: half-way between two points the results differ. -/
theorem fakeQuant_tie_violated : fakeQuantConvert false 8 0 255 (1 / 2) = .ok 0 ∧ fakeQuant 0 255 (1 / 2) = 1 := by
  constructor <;> decide +kernel

/-- Options of a signed 8-bit quantization. -/
def o8 : Options := ⟨true, false, 8, false, -1⟩

/-- Two rows, quantized with a range each. -/
def rows : T Rat := ⟨[2, 2], fun i => if i = [0, 0] then -128 else if i = [0, 1] then 101 / 2 else if i = [1, 0] then 254 else 3⟩

/-- With ranges computed for each row: the first row has the points -128, ..., 127, the second one every second integer. -/
theorem qdq_example : Call 13 { o8 with axis := 0 } none rows ∧
    IsQdq { o8 with axis := 0 } none rows ⟨[2, 2], fun i => if i = [0, 0] then -128 else if i = [0, 1] then 50 else if i = [1, 0] then 254 else 4⟩ := by
  refine ⟨⟨fun _ => by decide, rfl, rfl, by decide, ⟨[0, 0], by constructor <;> decide⟩, fun l h => (by cases h), fun l h => (by cases h), fun _ h => (by cases h)⟩, rfl, fun i hi => ?_⟩
  have hm : i ∈ allIdx [2, 2] := (TransposeOpt.mem_allIdx _ _).2 hi
  have hl : allIdx [2, 2] = [[0, 0], [0, 1], [1, 0], [1, 1]] := rfl
  rw [hl] at hm
  simp only [List.mem_cons, List.not_mem_nil, or_false] at hm
  rcases hm with rfl | rfl | rfl | rfl
  · exact ⟨-128, 101 / 2, by decide +kernel, by decide +kernel⟩
  · exact ⟨-128, 101 / 2, by decide +kernel, by decide +kernel⟩
  · exact ⟨3, 254, by decide +kernel, by decide +kernel⟩
  · exact ⟨3, 254, by decide +kernel, by decide +kernel⟩

/-- A tensor of one number. -/
def one (v : Rat) : T Rat := ⟨[], fun _ => v⟩

/-- **Defect**: the number of bits is ignored. -/
theorem qdq_bits_violated : ∃ y, qdqRewrite 13 { o8 with bits := 4 } (some ([-8], [7])) (one (3 / 2)) = .ok (some y) ∧ y.get [] ≠ 2 ∧
    IsQdq { o8 with bits := 4 } (some ([-8], [7])) (one (3 / 2)) (one 2) := by
  refine ⟨one (dequantize (1 / 16) 0 (quantize true (1 / 16) 0 (3 / 2))), ?_, by decide +kernel, rfl, fun i _ => ⟨-8, 7, rfl, (by decide +kernel : tfQdq1 { o8 with bits := 4 } true (-8) 7 (3 / 2) = some 2)⟩⟩
  have : givenScales (quantRange { o8 with bits := 4 }) [-8] [7] = .ok [1 / 16] := by decide +kernel
  unfold qdqRewrite
  rw [if_neg (by decide)]
  simp only [bind, Except.bind, this]
  rfl

/-- **Defect**: the rounding mode is ignored. -/
theorem qdq_mode_violated : ∃ y, qdqRewrite 13 { o8 with up := true } (some ([-128], [127])) (one (1 / 2)) = .ok (some y) ∧ y.get [] = 0 ∧
    IsQdq { o8 with up := true } (some ([-128], [127])) (one (1 / 2)) (one 1) := by
  refine ⟨one (dequantize 1 0 (quantize true 1 0 (1 / 2))), ?_, by decide +kernel, rfl, fun i _ => ⟨-128, 127, rfl, (by decide +kernel : tfQdq1 { o8 with up := true } true (-128) 127 (1 / 2) = some 1)⟩⟩
  have : givenScales (quantRange { o8 with up := true }) [-128] [127] = .ok [1] := by decide +kernel
  unfold qdqRewrite
  rw [if_neg (by decide)]
  simp only [bind, Except.bind, this]
  rfl

/-- **Defect**: with a narrow range the lowest integer is -127, but `QuantizeLinear` goes down to -128. -/
theorem qdq_narrow_violated : ∃ y, qdqRewrite 13 { o8 with narrow := true } (some ([-127], [127])) (one (-200)) = .ok (some y) ∧ y.get [] = -128 ∧
    IsQdq { o8 with narrow := true } (some ([-127], [127])) (one (-200)) (one (-127)) := by
  refine ⟨one (dequantize 1 0 (quantize true 1 0 (-200))), ?_, by decide +kernel, rfl, fun i _ => ⟨-127, 127, rfl, (by decide +kernel : tfQdq1 { o8 with narrow := true } true (-127) 127 (-200) = some (-127))⟩⟩
  have : givenScales (quantRange { o8 with narrow := true }) [-127] [127] = .ok [1] := by decide +kernel
  unfold qdqRewrite
  rw [if_neg (by decide)]
  simp only [bind, Except.bind, this]
  rfl

end Verif.Quant
