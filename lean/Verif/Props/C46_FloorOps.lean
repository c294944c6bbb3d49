import Verif.Props.C49_Binary
import Mathlib.Tactic.NormNum
import Mathlib.Tactic.FieldSimp
/-!
# C46: converting floor division and floor remainder
-/
namespace Verif.Graph
open Verif Verif.Elem Verif.Cast

variable {v : Nat} {I : Interp (Ten Val)} {K T : Kern Val} {cast : DT → Val → Val}
  {fresh : Nat → String} {g g' : G} {r : Ref} {name op : String} {attr : Dict String Attr} {x y o : String} {t : DT}

/-- Integer operands whose quotient floor and truncation agree on, the quotient being a value of the type (it is not for the smallest
number divided by -1). -/
def SameSign (t : DT) (x y : Val) : Prop :=
  ∃ a b : Int, x = .num a ∧ y = .num b ∧ b ≠ 0 ∧ (0 ≤ (a : ℚ) / b ∨ b ∣ a) ∧ HasType t (.num ⌊(a : ℚ) / b⌋)

/-- Finite operands, the divisor not zero, on which no step of `x - floor(x / y) * y` rounds. -/
def ModExact (t : DT) (x y : Val) : Prop :=
  ∃ a b : ℚ, x = .num a ∧ y = .num b ∧ b ≠ 0 ∧ HasType t (.num (a / b)) ∧ HasType t (.num ⌊a / b⌋) ∧ HasType t (.num (⌊a / b⌋ * b)) ∧
    HasType t (.num (a - b * ⌊a / b⌋))

theorem trunc_sameSign {a b : Int} (hb : b ≠ 0) (h : 0 ≤ (a : ℚ) / b ∨ b ∣ a) : trunc ((a : ℚ) / b) = ⌊(a : ℚ) / b⌋ := by
  unfold trunc
  split
  · rfl
  · rcases h with h | ⟨c, rfl⟩
    · contradiction
    · have : ((b * c : Int) : ℚ) / b = (c : Int) := by
        have : (b : ℚ) ≠ 0 := by exact_mod_cast hb
        push_cast; field_simp
      rw [this, Int.ceil_intCast, Int.floor_intCast]

theorem isFloat_iff (h : g.dtypes.get x = some (code t)) : g.isFloat x = fl3 t := by
  unfold G.isFloat
  rw [h]
  cases t <;> simp [code, fl3]

theorem hasType_int (ht : int8s t) {i : Int} : HasType t (.num i) ↔ ∃ r, intRange t = some r ∧ r.1 ≤ i ∧ i ≤ r.2 := by
  constructor
  · rintro (⟨r, hr, j, hj, h⟩ | ⟨f, hf, -⟩ | ⟨rfl, -⟩)
    · have : i = j := by exact_mod_cast hj
      exact ⟨r, hr, this ▸ h⟩
    · cases t <;> simp [int8s, floatFormat] at ht hf
    · simp [int8s] at ht
  · rintro ⟨r, hr, h⟩
    exact Or.inl ⟨r, hr, i, rfl, h⟩

/-- Everything between zero and a value of an integer type is a value of the type. -/
theorem hasType_between (ht : int8s t) {i j : Int} (hi : HasType t (.num i)) (h : (0 ≤ j ∧ j ≤ i) ∨ (i ≤ j ∧ j ≤ 0)) : HasType t (.num j) := by
  rw [hasType_int ht] at hi ⊢
  obtain ⟨r, hr, h1, h2⟩ := hi
  have h0 : r.1 ≤ 0 ∧ 0 ≤ r.2 := by
    cases t <;> simp [int8s, intRange] at ht hr <;> subst hr <;> norm_num
  exact ⟨r, hr, by omega, by omega⟩

/-- Quotient times divisor, and remainder, lie between zero and the dividend. -/
theorem sameSign_between {a b : Int} (hb : b ≠ 0) (h : 0 ≤ (a : ℚ) / b ∨ b ∣ a) :
    ((0 ≤ ⌊(a : ℚ) / b⌋ * b ∧ ⌊(a : ℚ) / b⌋ * b ≤ a) ∨ (a ≤ ⌊(a : ℚ) / b⌋ * b ∧ ⌊(a : ℚ) / b⌋ * b ≤ 0)) ∧
    ((0 ≤ a - b * ⌊(a : ℚ) / b⌋ ∧ a - b * ⌊(a : ℚ) / b⌋ ≤ a) ∨ (a ≤ a - b * ⌊(a : ℚ) / b⌋ ∧ a - b * ⌊(a : ℚ) / b⌋ ≤ 0)) := by
  have key : (0 ≤ ⌊(a : ℚ) / b⌋ * b ∧ ⌊(a : ℚ) / b⌋ * b ≤ a) ∨ (a ≤ ⌊(a : ℚ) / b⌋ * b ∧ ⌊(a : ℚ) / b⌋ * b ≤ 0) := by
    have hbq : (b : ℚ) ≠ 0 := by exact_mod_cast hb
    rcases h with h | ⟨c, rfl⟩
    · have h1 : (⌊(a : ℚ) / b⌋ : ℚ) ≤ (a : ℚ) / b := Int.floor_le _
      have h0 : 0 ≤ ⌊(a : ℚ) / b⌋ := Int.floor_nonneg.2 h
      rcases lt_or_gt_of_ne hb with hneg | hpos
      · right
        have hneg' : (b : ℚ) < 0 := by exact_mod_cast hneg
        have : (a : ℚ) ≤ ⌊(a : ℚ) / b⌋ * b := by
          have := mul_le_mul_of_nonpos_right h1 hneg'.le
          rwa [div_mul_cancel₀ _ hbq] at this
        exact ⟨by exact_mod_cast this, mul_nonpos_of_nonneg_of_nonpos h0 hneg.le⟩
      · left
        have hpos' : (0 : ℚ) < b := by exact_mod_cast hpos
        have : (⌊(a : ℚ) / b⌋ : ℚ) * b ≤ a := by
          have := mul_le_mul_of_nonneg_right h1 hpos'.le
          rwa [div_mul_cancel₀ _ hbq] at this
        exact ⟨mul_nonneg h0 hpos.le, by exact_mod_cast this⟩
    · have : ((b * c : Int) : ℚ) / b = (c : Int) := by push_cast; field_simp
      rw [this, Int.floor_intCast, mul_comm]
      rcases le_total 0 (b * c) with h | h
      · exact Or.inl ⟨h, le_refl _⟩
      · exact Or.inr ⟨le_refl _, h⟩
  refine ⟨key, ?_⟩
  rw [mul_comm b]
  omega

/-- A floating `FloorDiv` becomes `Floor(Div)`, for all operands. -/
theorem floorDiv_float_converts (on : OnnxOps v I K cast) (tf : TfOps I T) (el : ElemLaws T K) (hf : FreshTensors fresh)
    (S : Site fresh g r name "FloorDiv" attr [x, y] o) (hno : o ∉ g.outputs) (hdt : g.dtypes.get x = some (code t)) (ht : fl3 t)
    (h : G.handle fresh floorDivActs g r = .ok g') : ConvStep I (Two t (fun _ _ => True)) fresh g r g' := by
  have hox : x ≠ o ∧ y ≠ o := ⟨fun h => S.own (by simp [h]), fun h => S.own (by simp [h])⟩
  refine site_step hf S (as := [.onnx, .setType "Div", .make (.mk' "Floor" [o]), .insertOut o])
    (handle_run h (by acts [floorDivActs, S.node, isFloat_iff hdt, ht])) ?_ (by simp)
    (self := some ⟨name, "Div", "", attr, [x, y], [o]⟩)
    (news := [(g.heap.length, ⟨fresh g.heap.length, "Floor", "", [], [o], [port fresh g.heap.length]⟩)])
    (out := port fresh g.heap.length) (len := g.heap.length + 1) (miss := []) (top := false)
    ?_ (fun h => absurd h hno) (by simp) (List.Perm.refl _) ?_ ?_ ?_ ?_
  · grp []
  · grp [hox.1, hox.2]
  · simp [Fed]
  · simp [Node.isGraphInput]
  · simp
  · rintro e he hD
    obtain ⟨hx, hy, ha, hb, -, -, hc, -⟩ := Two.elim hD
    simp [Eqs, argVals, hx, hy, argVal_ne S.oe] at he ⊢
    obtain ⟨h1, h2⟩ := he
    rw [on.bin "Div" (by decide) _ _ _ (by tys [ha, ht]) (hb.trans ha.symm) hc] at h1
    rw [h1, on.un "Floor" (by decide) _ _ (by tys [ha, ht])] at h2
    rw [h2, tf.bin "FloorDiv" (by decide) _ _ _ (hb.trans ha.symm) hc]
    refine Ten.ext_at (by tys []) rfl (fun i => ?_)
    simp only [Ten.map_at, Ten.get_zip, Ten.zip_at, Ten.zip_dt]
    tys [el.fdivFloat (e x).dt _ _ (by rw [ha]; exact ht)]

/-- An integer `FloorDiv` becomes `Div`: the same where floor and truncation agree. -/
theorem floorDiv_int_converts_partial (on : OnnxOps v I K cast) (tf : TfOps I T) (el : ElemLaws T K) (hf : FreshTensors fresh)
    (S : Site fresh g r name "FloorDiv" attr [x, y] o) (hdt : g.dtypes.get x = some (code t)) (ht : int8s t) (hty : onnxTypes v "Div" t)
    (h : G.handle fresh floorDivActs g r = .ok g') : ConvStep I (Two t (SameSign t)) fresh g r g' := by
  have htf : fl3 t = false := by revert ht; cases t <;> simp [int8s, fl3]
  refine site_step hf S (as := [.onnx, .setType "Div"])
    (handle_run h (by acts [floorDivActs, S.node, isFloat_iff hdt, htf])) ?_ (by simp)
    (self := some ⟨name, "Div", "", attr, [x, y], [o]⟩) (news := []) (out := o) (len := g.heap.length) (miss := []) (top := false)
    ?_ (fun _ => rfl) (by simp) (List.Perm.refl _) ?_ ?_ ?_ ?_
  · grp []
  · grp []
  · simp [Fed]
  · simp [Node.isGraphInput]
  · simp
  · rintro e he hD
    obtain ⟨hx, hy, ha, hb, -, -, hc, hP⟩ := Two.elim hD
    simp [Eqs, argVals, hx, hy] at he ⊢
    rw [on.bin "Div" (by decide) _ _ _ (by rw [ha]; exact hty) (hb.trans ha.symm) hc] at he
    rw [he, tf.bin "FloorDiv" (by decide) _ _ _ (hb.trans ha.symm) hc]
    refine Ten.ext_at (by tys []) rfl (fun i => ?_)
    obtain ⟨a, b, h1, h2, h3, h4, h5⟩ := hP i
    simp only [Ten.zip_at, ha, h1, h2]
    rw [el.fdivInt _ _ _ ht h3 h5, el.divInt _ _ _ ht h3 (by rw [trunc_sameSign h3 h4]; exact h5), trunc_sameSign h3 h4]

/-- A floating `FloorMod` becomes `x - Floor(x / y) * y`: the same where nothing rounds. -/
theorem floorMod_float_converts_partial (on : OnnxOps v I K cast) (tf : TfOps I T) (el : ElemLaws T K) (hf : FreshTensors fresh)
    (S : Site fresh g r name "FloorMod" attr [x, y] o) (hdt : g.dtypes.get x = some (code t)) (ht : fl3 t)
    (h : G.handle fresh (floorModActs fresh) g r = .ok g') : ConvStep I (Two t (ModExact t)) fresh g r g' := by
  refine site_step hf S (as := [.onnx, .make (.mk' "Div" [x, y]), .make (.mk' "Floor" [port fresh g.heap.length]),
      .make (.mk' "Mul" [port fresh (g.heap.length + 1), y]), .remove, .makeOut "Sub" [x, port fresh (g.heap.length + 2)] [] name o])
    (handle_run h (by acts [floorModActs, S.node, isFloat_iff hdt, ht])) ?_ (by simp) (self := none)
    (news := [(g.heap.length, ⟨fresh g.heap.length, "Div", "", [], [x, y], [port fresh g.heap.length]⟩),
      (g.heap.length + 1, ⟨fresh (g.heap.length + 1), "Floor", "", [], [port fresh g.heap.length], [port fresh (g.heap.length + 1)]⟩),
      (g.heap.length + 2, ⟨fresh (g.heap.length + 2), "Mul", "", [], [port fresh (g.heap.length + 1), y], [port fresh (g.heap.length + 2)]⟩),
      (g.heap.length + 3, ⟨name, "Sub", "", [], [x, port fresh (g.heap.length + 2)], [o]⟩)])
    (out := o) (len := g.heap.length + 4) (miss := []) (top := false)
    ?_ (fun _ => rfl) (by simp) (List.Perm.refl _) ?_ ?_ ?_ ?_
  · grp [S.name]
  · grp []
  · simp [Fed]
  · simp [Node.isGraphInput]
  · simp
  · rintro e he hD
    obtain ⟨hx, hy, ha, hb, -, -, hc, hP⟩ := Two.elim hD
    simp [Eqs, argVals, hx, hy, port] at he ⊢
    obtain ⟨h1, h2, h3, h4⟩ := he
    rw [on.bin "Div" (by decide) _ _ _ (by tys [ha, ht]) (hb.trans ha.symm) hc] at h1
    rw [h1, on.un "Floor" (by decide) _ _ (by tys [ha, ht])] at h2
    rw [h2, on.bin "Mul" (by decide) _ _ _ (by tys [ha, ht]) (by tys [ha, hb]) (by simpa using hc.right.symm)] at h3
    rw [h3, on.bin "Sub" (by decide) _ _ _ (by tys [ha, ht]) (by tys [ha]) (by simpa using hc.left)] at h4
    rw [h4, tf.bin "FloorMod" (by decide) _ _ _ (hb.trans ha.symm) hc]
    refine Ten.ext_at (by tys []) (by simp) (fun i => ?_)
    obtain ⟨a, b, e1, e2, e3, t1, t2, t3, t4⟩ := hP i
    simp only [Ten.zip_at, Ten.get_zip, Ten.get_map, ha, e1, e2, Ten.zip_dt, Ten.map_dt]
    tys []
    rw [el.div _ _ _ ht e3 t1, el.floor _ _ ht t2, el.mul _ _ _ t3, el.sub _ _ _ (by rw [mul_comm]; exact t4), el.fmod _ _ _ e3 t4, mul_comm]

/-- An integer `FloorMod` becomes `x - x / y * y`: the same where floor and truncation agree. -/
theorem floorMod_int_converts_partial (on : OnnxOps v I K cast) (tf : TfOps I T) (el : ElemLaws T K) (hf : FreshTensors fresh)
    (S : Site fresh g r name "FloorMod" attr [x, y] o) (hdt : g.dtypes.get x = some (code t)) (ht : int8s t) (hty : onnxTypes v "Div" t)
    (h : G.handle fresh (floorModActs fresh) g r = .ok g') : ConvStep I (Two t (SameSign t)) fresh g r g' := by
  have htf : fl3 t = false := by revert ht; cases t <;> simp [int8s, fl3]
  have htm : onnxTypes v "Mul" t := by revert hty; tys []
  have hts : onnxTypes v "Sub" t := by revert hty; tys []
  refine site_step hf S (as := [.onnx, .make (.mk' "Div" [x, y]), .make (.mk' "Mul" [port fresh g.heap.length, y]), .remove,
      .makeOut "Sub" [x, port fresh (g.heap.length + 1)] [] name o])
    (handle_run h (by acts [floorModActs, S.node, isFloat_iff hdt, htf])) ?_ (by simp) (self := none)
    (news := [(g.heap.length, ⟨fresh g.heap.length, "Div", "", [], [x, y], [port fresh g.heap.length]⟩),
      (g.heap.length + 1, ⟨fresh (g.heap.length + 1), "Mul", "", [], [port fresh g.heap.length, y], [port fresh (g.heap.length + 1)]⟩),
      (g.heap.length + 2, ⟨name, "Sub", "", [], [x, port fresh (g.heap.length + 1)], [o]⟩)])
    (out := o) (len := g.heap.length + 3) (miss := []) (top := false)
    ?_ (fun _ => rfl) (by simp) (List.Perm.refl _) ?_ ?_ ?_ ?_
  · grp [S.name]
  · grp []
  · simp [Fed]
  · simp [Node.isGraphInput]
  · simp
  · rintro e he hD
    obtain ⟨hx, hy, ha, hb, hta, -, hc, hP⟩ := Two.elim hD
    simp [Eqs, argVals, hx, hy, port] at he ⊢
    obtain ⟨h1, h2, h3⟩ := he
    rw [on.bin "Div" (by decide) _ _ _ (by rw [ha]; exact hty) (hb.trans ha.symm) hc] at h1
    rw [h1, on.bin "Mul" (by decide) _ _ _ (by simpa [ha, resType, boolOps] using htm) (by tys [ha, hb]) (by simpa using hc.right.symm)] at h2
    rw [h2, on.bin "Sub" (by decide) _ _ _ (by rw [ha]; exact hts) (by tys [ha]) (by simpa using hc.left)] at h3
    rw [h3, tf.bin "FloorMod" (by decide) _ _ _ (hb.trans ha.symm) hc]
    refine Ten.ext_at (by tys []) (by simp) (fun i => ?_)
    obtain ⟨a, b, e1, e2, e3, e4, t1⟩ := hP i
    have hta : HasType t (.num a) := by rw [← e1, ← ha]; exact hta.get i
    obtain ⟨b1, b2⟩ := sameSign_between e3 e4
    have t2 := hasType_between ht hta b1
    have t3 := hasType_between ht hta b2
    push_cast at t2 t3
    have e3' : (b : ℚ) ≠ 0 := by exact_mod_cast e3
    simp only [Ten.zip_at, Ten.get_zip, ha, e1, e2, Ten.zip_dt]
    tys []
    rw [el.divInt _ _ _ ht e3 (by rw [trunc_sameSign e3 e4]; exact t1), trunc_sameSign e3 e4, el.mul _ _ _ t2,
      el.sub _ _ _ (by rw [mul_comm]; exact t3), el.fmod _ _ _ e3' t3, mul_comm]

end Verif.Graph
