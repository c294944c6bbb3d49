import Verif.Props.C47_Compare
import Verif.Props.ElemWitness
/-!
# C47: concrete cases, and where the property is false
-/
namespace Verif.Graph
open Verif Verif.Elem Verif.Cast

variable {v : Nat} {I : Interp (Ten Val)} {K T : Kern Val} {cast : DT → Val → Val}

/-- The theorems apply: `Greater` of int8 operands, exactly. -/
example : Shown 9 (G.handle exFresh (greaterLess7Acts exFresh)) (tfBinScript "Greater" 3 9) 2
    [("Placeholder", "", [], ["x"]), ("Placeholder", "", [], ["y"]), ("Greater", "", ["new'''':0", "new''''':0"], ["z"]),
     ("Identity", "", ["z"], ["o"]), ("Cast", "", ["x"], ["new'''':0"]), ("Cast", "", ["y"], ["new''''':0"])] (Two .int8 (fun _ _ => True)) :=
  .of _ rfl (by decide) fun _ _ _ _ on tf el h => greaterLess7_small_converts (t := .int8) (op := "Greater") on tf el exFresh_tensors (by decide)
    (site (tfBinScript "Greater" 3 9)) rfl rfl (by decide) h

/-- `Less` of doubles. -/
example : Shown 9 (G.handle exFresh (greaterLess7Acts exFresh)) (tfBinScript "Less" 11 9) 2
    [("Placeholder", "", [], ["x"]), ("Placeholder", "", [], ["y"]), ("Less", "", ["x", "y"], ["z"]), ("Identity", "", ["z"], ["o"])]
    (Two .double (fun u w => fl3 .double ∨ HasType .float u ∧ HasType .float w)) :=
  .of _ rfl (by decide) fun _ _ _ _ on tf el h => greaterLess7_converts_partial (t := .double) (op := "Less") on tf el exFresh_tensors (by decide)
    (site (tfBinScript "Less" 11 9)) rfl rfl h

/-- `GreaterEqual` of floats, where neither is NaN. -/
example : Shown 9 (G.handle exFresh (greaterLessEqual7Acts exFresh)) (tfBinScript "GreaterEqual" 1 9) 2
    [("Placeholder", "", [], ["x"]), ("Placeholder", "", [], ["y"]), ("Less", "", ["x", "y"], ["z"]), ("Identity", "", ["new'''':0"], ["o"]),
     ("Not", "", ["z"], ["new'''':0"])]
    (Two .float (fun u w => Comparable u ∧ Comparable w ∧ (fl3 .float ∨ HasType .float u ∧ HasType .float w))) :=
  .of _ rfl (by decide) fun _ _ _ _ on tf el h => greaterLessEqual7_converts_partial (t := .float) (op := "GreaterEqual") on tf el exFresh_tensors (by decide)
    (site (tfBinScript "GreaterEqual" 1 9)) (by decide) rfl rfl h

/-- `LessEqual` of int64 operands, from operator set 12 on. -/
example : Shown 12 (G.handle exFresh greaterLessEqual12Acts) (tfBinScript "LessEqual" 7 9) 2
    [("Placeholder", "", [], ["x"]), ("Placeholder", "", [], ["y"]), ("LessOrEqual", "", ["x", "y"], ["z"]), ("Identity", "", ["z"], ["o"])]
    (Two .int64 (fun _ _ => True)) :=
  .of _ rfl (by decide) fun _ _ _ _ on tf el h => greaterLessEqual12_converts (t := .int64) (op := "LessEqual") on tf el exFresh_tensors (by decide) (by decide)
    (site (tfBinScript "LessEqual" 7 9)) rfl h

/-- `NotEqual` of int16 operands at operator set 7, and of floats at 11. -/
example : Shown 7 (G.handle exFresh (equal7Acts exFresh)) (tfBinScript "NotEqual" 5 9) 2
    [("Placeholder", "", [], ["x"]), ("Placeholder", "", [], ["y"]), ("Equal", "", ["new'''':0", "new''''':0"], ["z"]),
     ("Identity", "", ["new'''''':0"], ["o"]), ("Cast", "", ["x"], ["new'''':0"]), ("Cast", "", ["y"], ["new''''':0"]),
     ("Not", "", ["z"], ["new'''''':0"])]
    (Two .int16 (fun u w => DT.int16 ∈ [DT.bool, .int32, .int64] ∨ HasType .int32 u ∧ HasType .int32 w)) :=
  .of _ rfl (by decide) fun _ _ _ _ on tf el h => equal7_converts_partial (t := .int16) (op := "NotEqual") on tf el exFresh_tensors (by decide)
    (site (tfBinScript "NotEqual" 5 9)) (by decide) (by decide) rfl rfl h

example : Shown 11 (G.handle exFresh (equal11Acts exFresh)) (tfBinScript "NotEqual" 1 9) 2
    [("Placeholder", "", [], ["x"]), ("Placeholder", "", [], ["y"]), ("Equal", "", ["x", "y"], ["z"]),
     ("Identity", "", ["new'''':0"], ["o"]), ("Not", "", ["z"], ["new'''':0"])] (Two .float (fun _ _ => True)) :=
  .of _ rfl (by decide) fun _ _ _ _ on tf el h => equal11_converts_partial (t := .float) (op := "NotEqual") on tf el exFresh_tensors (by decide) (by decide)
    (site (tfBinScript "NotEqual" 1 9)) (by decide) rfl rfl (Or.inl rfl) h

/-- `o = Identity(NotEqual(x, x))`. -/
def selfScript : List Edit :=
  [.addGraphInput "px" "x", .makeNode "NotEqual" ["x", "x"] "nd" ["z"] [] "tf", .makeNode "Identity" ["z"] "id" ["o"] [] "", .addGraphOutput "o",
   .setDtype "x" 1, .setDtype "z" 9]

example : Shown 9 (G.handle exFresh (equal7Acts exFresh)) selfScript 1
    [("Placeholder", "", [], ["x"]), ("IsNaN", "", ["x"], ["z"]), ("Identity", "", ["z"], ["o"])] (Two .float (fun _ _ => True)) :=
  .of _ rfl (by decide) fun _ _ _ _ on tf el h => notEqual_self_converts (t := .float) on tf el exFresh_tensors (by decide)
    (site selfScript) rfl (by decide) h

/-- The operands `a` and `b`. -/
def pairEnv (t : DT) (a b : Val) (x : String) : Ten Val := Ten.scalar t (if x = "x" then a else b)

/-- No `float` lies strictly between `2^24` and `2^24 + 2`. -/
theorem float_gap (q : ℚ) (h : FloatRep 24 149 253 q) : q ≤ 2 ^ 24 ∨ 2 ^ 24 + 2 ≤ q := by
  obtain ⟨m, e, hm, he, hq⟩ := h
  by_contra hc
  push Not at hc
  obtain ⟨h1, h2⟩ := hc
  have hm' : (m : ℚ) < 2 ^ 24 := by
    have := lt_of_le_of_lt (le_abs_self m) hm
    exact_mod_cast this
  have hpos : (0 : ℚ) < 2 ^ 149 := by positivity
  -- the exponent is at least 150
  have he150 : 150 ≤ e := by
    by_contra hlt
    have hle : e ≤ 149 := by omega
    have hpe : (2 : ℚ) ^ e ≤ 2 ^ 149 := pow_le_pow_right₀ (by norm_num) hle
    have hmp : (0 : ℚ) < m := by
      by_contra hneg
      have : (m : ℚ) * 2 ^ e ≤ 0 := mul_nonpos_of_nonpos_of_nonneg (not_lt.1 hneg) (by positivity)
      have h3 : 0 < q * 2 ^ 149 := mul_pos (lt_trans (by norm_num) h1) hpos
      linarith
    have h4 : q * 2 ^ 149 < 2 ^ 24 * 2 ^ 149 := by
      rw [hq]
      calc (m : ℚ) * 2 ^ e ≤ m * 2 ^ 149 := mul_le_mul_of_nonneg_left hpe hmp.le
        _ < 2 ^ 24 * 2 ^ 149 := mul_lt_mul_of_pos_right hm' hpos
    have := lt_of_mul_lt_mul_right h4 hpos.le
    linarith
  obtain ⟨d, rfl⟩ : ∃ d, e = 150 + d := ⟨e - 150, by omega⟩
  have hq2 : q = 2 * (m * 2 ^ d : Int) := by
    have : q * 2 ^ 149 = (2 * (m * 2 ^ d : Int)) * 2 ^ 149 := by
      rw [hq]; push_cast; ring
    exact mul_right_cancel₀ hpos.ne' this
  rw [hq2] at h1 h2
  have h1' : (2 : Int) ^ 24 < 2 * (m * 2 ^ d) := by exact_mod_cast h1
  have h2' : 2 * (m * 2 ^ d) < (2 : Int) ^ 24 + 2 := by exact_mod_cast h2
  norm_num at h1' h2'
  omega

theorem int_isFloat (i : Int) (h : |i| < 2 ^ 24) : HasType .float (.num i) :=
  Or.inr (Or.inl ⟨_, rfl, i, 149, h, by norm_num, by norm_num⟩)

/-- Converting a `Greater` of integers changes the result for large ones, whatever the runtime's `Cast`: one of
`2^24 + 1 > 2^24` and `2^24 + 2 > 2^24 + 1` is true in TensorFlow and false after the conversion. -/
theorem greater_int_violated (on : OnnxOps v I K cast) (tf : TfOps I T) (el : ElemLaws T K) :
    ∃ g' a b, G.handle exFresh (greaterLess7Acts exFresh) (graphOf (tfBinScript "Greater" 6 9)) 2 = .ok g' ∧ HasType .int32 a ∧ HasType .int32 b ∧
      Computes I (graphOf (tfBinScript "Greater" 6 9)) (pairEnv .int32 a b) [Ten.scalar .bool (bval true)] ∧
      Computes I g' (pairEnv .int32 a b) [Ten.scalar .bool (bval false)] := by
  -- which pair
  have key : ∃ a b : Int, b < a ∧ 0 ≤ a ∧ a ≤ 2 ^ 24 + 2 ∧ 0 ≤ b ∧ vlt (cast .float (.num b)) (cast .float (.num a)) = false := by
    have e0 : cast .float (.num ((2 ^ 24 : Int) : ℚ)) = .num (2 ^ 24) := by
      rw [on.conf.exact]
      · norm_num
      · exact Or.inr (Or.inl ⟨_, rfl, 1, 173, by norm_num, by norm_num, by norm_num⟩)
    have e2 : cast .float (.num ((2 ^ 24 + 2 : Int) : ℚ)) = .num (2 ^ 24 + 2) := by
      rw [on.conf.exact]
      · norm_num
      · exact Or.inr (Or.inl ⟨_, rfl, 2 ^ 23 + 1, 150, by norm_num, by norm_num, by norm_num⟩)
    have hty := on.conf.typed .float (.num ((2 ^ 24 + 1 : Int) : ℚ))
    by_cases h1 : vlt (.num (2 ^ 24)) (cast .float (.num ((2 ^ 24 + 1 : Int) : ℚ))) = false
    · exact ⟨2 ^ 24 + 1, 2 ^ 24, by norm_num, by norm_num, by norm_num, by norm_num, by rw [e0]; exact h1⟩
    · refine ⟨2 ^ 24 + 2, 2 ^ 24 + 1, by norm_num, by norm_num, by norm_num, by norm_num, ?_⟩
      rw [e2]
      cases hc : cast .float (.num ((2 ^ 24 + 1 : Int) : ℚ)) with
      | num q =>
        rw [hc] at hty h1
        rcases hty with ⟨r, hr, _⟩ | ⟨f, hf, hq⟩ | ⟨hb, _⟩
        · simp [intRange] at hr
        · simp only [floatFormat, Option.some.injEq] at hf
          subst hf
          have hgap := float_gap q hq
          simp only [vlt, decide_eq_false_iff_not, not_lt] at h1 ⊢
          rcases hgap with h | h
          · linarith
          · exact h
        · cases hb
      | negInf => rw [hc] at h1; simp [vlt] at h1
      | _ => simp [vlt]
  obtain ⟨a, b, hab, ha0, ha, hb0, hlt⟩ := key
  have hTy : ∀ i : Int, 0 ≤ i → i ≤ 2 ^ 24 + 2 → HasType .int32 (.num i) := by
    intro i h0 h1
    refine Or.inl ⟨_, rfl, i, rfl, ?_, ?_⟩ <;> norm_num at h0 h1 ⊢ <;> omega
  refine ⟨_, .num a, .num b, rfl, hTy a ha0 ha, hTy b hb0 (by omega), ?_, ?_⟩
  · rw [computes_exec_order [0, 1, 2, 3] (by decide) (by decide) (by decide)]
    show _ = [I "Identity" "" [] [some (I "Greater" "tf" [] [some (pairEnv .int32 (.num a) (.num b) "x"),
      some (pairEnv .int32 (.num a) (.num b) "y")] 0)] 0]
    rw [on.identity, tf.bin "Greater" (by decide) _ _ _ (by rfl) (by exact Compat.refl _)]
    refine congrArg (· :: []) (Ten.ext_at rfl rfl fun i => ?_)
    have : (b : ℚ) < a := by exact_mod_cast hab
    simp [pairEnv, Ten.scalar, Ten.zip, Ten.get, el.same2 ("Greater", "Greater") (by decide), el.gt, vlt, this]
  · rw [computes_exec_order [0, 1, 4, 5, 2, 3] (by decide) (by decide) (by decide)]
    show _ = [I "Identity" "" [] [some (I "Greater" "" [] [some (I "Cast" "" [("to", .int 1)] [some (pairEnv .int32 (.num a) (.num b) "x")] 0),
      some (I "Cast" "" [("to", .int 1)] [some (pairEnv .int32 (.num a) (.num b) "y")] 0)] 0)] 0]
    rw [on.identity, on.isCast _ .float _ rfl, on.isCast _ .float _ rfl,
      on.bin "Greater" (by decide) _ _ _ (by rfl) (by rfl) (by exact Compat.refl _)]
    refine congrArg (· :: []) (Ten.ext_at rfl rfl fun i => ?_)
    simp [pairEnv, Ten.scalar, Ten.zip, Ten.get, Ten.map, el.gt, hlt]

/-- Converting `GreaterEqual` (operator sets 7 to 11) changes the result at NaN: TensorFlow's `NaN >= 1` is false, the converted graph's true. -/
theorem greaterEqual_nan_violated (on : OnnxOps v I K cast) (tf : TfOps I T) (el : ElemLaws T K) :
    ∃ g', G.handle exFresh (greaterLessEqual7Acts exFresh) (graphOf (tfBinScript "GreaterEqual" 1 9)) 2 = .ok g' ∧
      Computes I (graphOf (tfBinScript "GreaterEqual" 1 9)) (pairEnv .float .nan (.num 1)) [Ten.scalar .bool (bval false)] ∧
      Computes I g' (pairEnv .float .nan (.num 1)) [Ten.scalar .bool (bval true)] := by
  refine ⟨_, rfl, ?_, ?_⟩
  · rw [computes_exec_order [0, 1, 2, 3] (by decide) (by decide) (by decide)]
    show _ = [I "Identity" "" [] [some (I "GreaterEqual" "tf" [] [some (pairEnv .float .nan (.num 1) "x"),
      some (pairEnv .float .nan (.num 1) "y")] 0)] 0]
    rw [on.identity, tf.bin "GreaterEqual" (by decide) _ _ _ (by rfl) (by exact Compat.refl _)]
    refine congrArg (· :: []) (Ten.ext_at rfl rfl fun i => ?_)
    simp [pairEnv, Ten.scalar, Ten.zip, Ten.get, el.same2 ("GreaterEqual", "GreaterOrEqual") (by decide), el.ge, vlt, veq]
  · rw [computes_exec_order [0, 1, 2, 4, 3] (by decide) (by decide) (by decide)]
    show _ = [I "Identity" "" [] [some (I "Not" "" [] [some (I "Less" "" [] [some (pairEnv .float .nan (.num 1) "x"),
      some (pairEnv .float .nan (.num 1) "y")] 0)] 0)] 0]
    rw [on.identity, on.bin "Less" (by decide) _ _ _ (by rfl) (by rfl) (by exact Compat.refl _), on.un "Not" (by decide) _ _ (by rfl)]
    refine congrArg (· :: []) (Ten.ext_at rfl rfl fun i => ?_)
    simp [pairEnv, Ten.scalar, Ten.zip, Ten.get, Ten.map, el.lt, el.not, vlt]

/-- Converting `Equal` of floats (operator sets 7 to 10) changes the result: `1/2 = 3/4` is false in TensorFlow, true in the
converted graph, which compares the operands cast to int32. -/
theorem equal_float_violated (on : OnnxOps v I K cast) (tf : TfOps I T) (el : ElemLaws T K) :
    ∃ g', G.handle exFresh (equal7Acts exFresh) (graphOf (tfBinScript "Equal" 1 9)) 2 = .ok g' ∧
      Computes I (graphOf (tfBinScript "Equal" 1 9)) (pairEnv .float (.num (1 / 2)) (.num (3 / 4))) [Ten.scalar .bool (bval false)] ∧
      Computes I g' (pairEnv .float (.num (1 / 2)) (.num (3 / 4))) [Ten.scalar .bool (bval true)] := by
  have ht : ∀ q : ℚ, 0 ≤ q → q < 1 → cast .int32 (.num q) = .num ((0 : Int) : ℚ) := by
    intro q h0 h1
    have : trunc q = 0 := by
      unfold trunc
      rw [if_pos h0, Int.floor_eq_iff]
      constructor <;> norm_num <;> assumption
    rw [on.conf.toInt .int32 _ q rfl (by rw [this]; norm_num) (by rw [this]; norm_num), this]
  have h1 := ht (1 / 2) (by norm_num) (by norm_num)
  have h2 := ht (3 / 4) (by norm_num) (by norm_num)
  refine ⟨_, rfl, ?_, ?_⟩
  · rw [computes_exec_order [0, 1, 2, 3] (by decide) (by decide) (by decide)]
    show _ = [I "Identity" "" [] [some (I "Equal" "tf" [] [some (pairEnv .float (.num (1 / 2)) (.num (3 / 4)) "x"),
      some (pairEnv .float (.num (1 / 2)) (.num (3 / 4)) "y")] 0)] 0]
    rw [on.identity, tf.bin "Equal" (by decide) _ _ _ (by rfl) (by exact Compat.refl _)]
    refine congrArg (· :: []) (Ten.ext_at rfl rfl fun i => ?_)
    have hne : veq (.num (1 / 2)) (.num (3 / 4)) = false := by simp only [veq]; norm_num
    simp [-one_div, pairEnv, Ten.scalar, Ten.zip, Ten.get, el.same2 ("Equal", "Equal") (by decide), el.eq, hne]
  · rw [computes_exec_order [0, 1, 4, 5, 2, 3] (by decide) (by decide) (by decide)]
    show _ = [I "Identity" "" [] [some (I "Equal" "" [] [
      some (I "Cast" "" [("to", .int 6)] [some (pairEnv .float (.num (1 / 2)) (.num (3 / 4)) "x")] 0),
      some (I "Cast" "" [("to", .int 6)] [some (pairEnv .float (.num (1 / 2)) (.num (3 / 4)) "y")] 0)] 0)] 0]
    rw [on.identity, on.isCast _ .int32 _ rfl, on.isCast _ .int32 _ rfl,
      on.bin "Equal" (by decide) _ _ _ (by rfl) (by rfl) (by exact Compat.refl _)]
    refine congrArg (· :: []) (Ten.ext_at rfl rfl fun i => ?_)
    simp [-one_div, pairEnv, Ten.scalar, Ten.zip, Ten.get, Ten.map, el.eq, h1, h2, veq]

end Verif.Graph
