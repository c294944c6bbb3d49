import Verif.Props.C46_FloorOps
import Verif.Props.ElemWitness
/-!
# C46: concrete cases, and where the property is false
-/
namespace Verif.Graph
open Verif Verif.Elem Verif.Cast

/-- The theorem applies: a floating `FloorDiv` of a graph. -/
example : Shown 7 (G.handle exFresh floorDivActs) (tfBinScript "FloorDiv" 1 1) 2
    [("Placeholder", "", [], ["x"]), ("Placeholder", "", [], ["y"]), ("Div", "", ["x", "y"], ["z"]), ("Identity", "", ["new'''':0"], ["o"]),
     ("Floor", "", ["z"], ["new'''':0"])] (Two .float (fun _ _ => True)) :=
  .of _ rfl (by decide) fun _ _ _ _ on tf el h => floorDiv_float_converts (t := .float) on tf el exFresh_tensors
    (site (tfBinScript "FloorDiv" 1 1)) (by decide) rfl rfl h

/-- An integer `FloorDiv`. -/
example : Shown 7 (G.handle exFresh floorDivActs) (tfBinScript "FloorDiv" 6 6) 2
    [("Placeholder", "", [], ["x"]), ("Placeholder", "", [], ["y"]), ("Div", "", ["x", "y"], ["z"]), ("Identity", "", ["z"], ["o"])]
    (Two .int32 (SameSign .int32)) :=
  .of _ rfl (by decide) fun _ _ _ _ on tf el h => floorDiv_int_converts_partial (t := .int32) on tf el exFresh_tensors
    (site (tfBinScript "FloorDiv" 6 6)) rfl rfl rfl h

/-- A floating `FloorMod`. -/
example : Shown 7 (G.handle exFresh (floorModActs exFresh)) (tfBinScript "FloorMod" 1 1) 2
    [("Placeholder", "", [], ["x"]), ("Placeholder", "", [], ["y"]), ("Identity", "", ["z"], ["o"]), ("Div", "", ["x", "y"], ["new'''':0"]),
     ("Floor", "", ["new'''':0"], ["new''''':0"]), ("Mul", "", ["new''''':0", "y"], ["new'''''':0"]), ("Sub", "", ["x", "new'''''':0"], ["z"])]
    (Two .float (ModExact .float)) :=
  .of _ rfl (by decide) fun _ _ _ _ on tf el h => floorMod_float_converts_partial (t := .float) on tf el exFresh_tensors
    (site (tfBinScript "FloorMod" 1 1)) rfl rfl h

/-- An integer `FloorMod`. -/
example : Shown 7 (G.handle exFresh (floorModActs exFresh)) (tfBinScript "FloorMod" 6 6) 2
    [("Placeholder", "", [], ["x"]), ("Placeholder", "", [], ["y"]), ("Identity", "", ["z"], ["o"]), ("Div", "", ["x", "y"], ["new'''':0"]),
     ("Mul", "", ["new'''':0", "y"], ["new''''':0"]), ("Sub", "", ["x", "new''''':0"], ["z"])]
    (Two .int32 (SameSign .int32)) :=
  .of _ rfl (by decide) fun _ _ _ _ on tf el h => floorMod_int_converts_partial (t := .int32) on tf el exFresh_tensors
    (site (tfBinScript "FloorMod" 6 6)) rfl rfl rfl h

/-- The operands: `7.5` and `2` do for the floating theorem. -/
example : ModExact .float (.num (15 / 2)) (.num 2) := by
  have h : ⌊(15 / 2 : ℚ) / 2⌋ = 3 := by rw [Int.floor_eq_iff]; constructor <;> norm_num
  refine ⟨15 / 2, 2, rfl, rfl, by norm_num, ?_, ?_, ?_, ?_⟩
  all_goals try rw [h]
  all_goals refine Or.inr (Or.inl ⟨_, rfl, ?_⟩)
  · exact ⟨15, 147, by norm_num, by norm_num, by norm_num⟩
  · exact ⟨3, 149, by norm_num, by norm_num, by norm_num⟩
  · exact ⟨6, 149, by norm_num, by norm_num, by norm_num⟩
  · exact ⟨3, 148, by norm_num, by norm_num, by norm_num⟩

/-- The operands `-7` and `2`. -/
def minus7by2 (x : String) : Ten Val := Ten.scalar .int32 (.num (if x = "x" then -7 else 2))

theorem int32_num (i : Int) (h1 : -100 ≤ i) (h2 : i ≤ 100) : HasType .int32 (.num i) := by
  refine Or.inl ⟨_, rfl, i, rfl, ?_, ?_⟩ <;> norm_num <;> omega

variable {v : Nat} {I : Interp (Ten Val)} {K T : Kern Val} {cast : DT → Val → Val}

theorem floor_m7 : ⌊(((-7 : Int) : ℚ) / ((2 : Int) : ℚ))⌋ = -4 := by norm_num

theorem trunc_m7 : trunc (((-7 : Int) : ℚ) / ((2 : Int) : ℚ)) = -3 := by
  unfold trunc
  rw [if_neg (by norm_num)]
  norm_num

/-- Converting an integer `FloorDiv` changes the result when the signs differ, whatever the runtime: of `-7` and `2`, TensorFlow's
graph gives `-4`, the converted one `-3`. -/
theorem floorDiv_int_violated (on : OnnxOps v I K cast) (tf : TfOps I T) (el : ElemLaws T K) :
    ∃ g', G.handle exFresh floorDivActs (graphOf (tfBinScript "FloorDiv" 6 6)) 2 = .ok g' ∧
      Computes I (graphOf (tfBinScript "FloorDiv" 6 6)) minus7by2 [Ten.scalar .int32 (.num (-4))] ∧
      Computes I g' minus7by2 [Ten.scalar .int32 (.num (-3))] := by
  refine ⟨_, rfl, ?_, ?_⟩
  · rw [computes_exec_order [0, 1, 2, 3] (by decide) (by decide) (by decide)]
    show _ = [I "Identity" "" [] [some (I "FloorDiv" "tf" [] [some (minus7by2 "x"), some (minus7by2 "y")] 0)] 0]
    rw [on.identity, tf.bin "FloorDiv" (by decide) _ _ _ (by rfl) (by exact Compat.refl _)]
    refine congrArg (· :: []) (Ten.ext_at rfl rfl fun i => ?_)
    have := el.fdivInt .int32 (-7) 2 rfl (by decide) (by rw [floor_m7]; exact int32_num _ (by decide) (by decide))
    rw [floor_m7] at this
    simpa [minus7by2, Ten.scalar, Ten.zip, Ten.get] using this.symm
  · rw [computes_exec_order [0, 1, 2, 3] (by decide) (by decide) (by decide)]
    show _ = [I "Identity" "" [] [some (I "Div" "" [] [some (minus7by2 "x"), some (minus7by2 "y")] 0)] 0]
    rw [on.identity, on.bin "Div" (by decide) _ _ _ (by rfl) (by rfl) (by exact Compat.refl _)]
    refine congrArg (· :: []) (Ten.ext_at rfl rfl fun i => ?_)
    have := el.divInt .int32 (-7) 2 rfl (by decide) (by rw [trunc_m7]; exact int32_num _ (by decide) (by decide))
    rw [trunc_m7] at this
    simpa [minus7by2, Ten.scalar, Ten.zip, Ten.get] using this.symm

/-- Likewise an integer `FloorMod`: `1` becomes `-1`. -/
theorem floorMod_int_violated (on : OnnxOps v I K cast) (tf : TfOps I T) (el : ElemLaws T K) :
    ∃ g', G.handle exFresh (floorModActs exFresh) (graphOf (tfBinScript "FloorMod" 6 6)) 2 = .ok g' ∧
      Computes I (graphOf (tfBinScript "FloorMod" 6 6)) minus7by2 [Ten.scalar .int32 (.num 1)] ∧
      Computes I g' minus7by2 [Ten.scalar .int32 (.num (-1))] := by
  refine ⟨_, rfl, ?_, ?_⟩
  · rw [computes_exec_order [0, 1, 2, 3] (by decide) (by decide) (by decide)]
    show _ = [I "Identity" "" [] [some (I "FloorMod" "tf" [] [some (minus7by2 "x"), some (minus7by2 "y")] 0)] 0]
    rw [on.identity, tf.bin "FloorMod" (by decide) _ _ _ (by rfl) (by exact Compat.refl _)]
    refine congrArg (· :: []) (Ten.ext_at rfl rfl fun i => ?_)
    have hf : ⌊(-7 : ℚ) / 2⌋ = -4 := by norm_num
    have := el.fmod .int32 (-7) 2 (by norm_num) (by rw [hf]; have := int32_num 1 (by decide) (by decide); norm_num at this ⊢; exact this)
    rw [hf] at this
    norm_num at this
    simpa [minus7by2, Ten.scalar, Ten.zip, Ten.get] using this.symm
  · rw [computes_exec_order [0, 1, 4, 5, 6, 3] (by decide) (by decide) (by decide)]
    show _ = [I "Identity" "" [] [some (I "Sub" "" [] [some (minus7by2 "x"), some (I "Mul" "" [] [some (I "Div" "" []
      [some (minus7by2 "x"), some (minus7by2 "y")] 0), some (minus7by2 "y")] 0)] 0)] 0]
    rw [on.identity, on.bin "Div" (by decide) _ _ _ (by rfl) (by rfl) (by exact Compat.refl _), on.bin "Mul" (by decide) _ _ _ (by rfl) (by rfl) (by exact Compat.refl _),
      on.bin "Sub" (by decide) _ _ _ (by rfl) (by rfl) (by exact Compat.refl _)]
    refine congrArg (· :: []) (Ten.ext_at rfl rfl fun i => ?_)
    have h1 := el.divInt .int32 (-7) 2 rfl (by decide) (by rw [trunc_m7]; exact int32_num _ (by decide) (by decide))
    rw [trunc_m7] at h1
    have h2 := el.mul .int32 (-3) 2 (by have := int32_num (-6) (by decide) (by decide); norm_num at this ⊢; exact this)
    have h3 := el.sub .int32 (-7) (-3 * 2) (by have := int32_num (-1) (by decide) (by decide); norm_num at this ⊢; exact this)
    norm_num at h1 h2 h3
    simp [minus7by2, Ten.scalar, Ten.zip, Ten.get, resType, boolOps, h1, h2, h3]

end Verif.Graph
