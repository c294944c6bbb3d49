import Verif.Props.C49_Unary
/-!
# C49: converting element-wise operators with two or three operands
-/
namespace Verif.Graph
open Verif Verif.Elem Verif.Cast

variable {v : Nat} {I : Interp (Ten Val)} {K T : Kern Val} {cast : DT → Val → Val}
  {fresh : Nat → String} {g g' : G} {r : Ref} {name op : String} {attr : Dict String Attr} {x y o : String} {t : DT}

theorem sameBin_facts : ∀ p ∈ sameBin, p.2 ∈ onnxBin ∧ p.1 ∈ tfBin ∧ (p.1 ∈ boolOps ↔ p.2 ∈ boolOps) ∧
    p.2 ∉ ["Placeholder", "PlaceholderWithDefault", "PlaceholderV2"] := by decide

/-- A handler that at most renames the node, to an operator that is the same function. -/
theorem same_bin_step (on : OnnxOps v I K cast) (tf : TfOps I T) (el : ElemLaws T K) (hf : FreshTensors fresh) {p : String × String}
    (hp : p ∈ sameBin) (S : Site fresh g r name p.1 attr [x, y] o) (ht : onnxTypes v p.2 t) {as : List Act}
    (has : as ∈ [[.onnx], [.setType p.2, .onnx], [.onnx, .setType p.2]]) (hsame : as = [.onnx] → p.1 = p.2)
    (h : G.runActs fresh g r as g = .ok g') : ConvStep I (Two t (fun _ _ => True)) fresh g r g' := by
  have hp2 := sameBin_facts p hp
  refine site_step hf S h ?_ ?_ (self := some ⟨name, p.2, "", attr, [x, y], [o]⟩) (news := []) (out := o) (len := g.heap.length) (miss := [])
    (top := false) ?_ (fun _ => rfl) (by simp) (List.Perm.refl _) ?_ ?_ ?_ ?_
  · simp only [List.mem_cons, List.not_mem_nil, or_false] at has
    rcases has with rfl | rfl | rfl <;> grp []
  · simp only [List.mem_cons, List.not_mem_nil, or_false] at has
    rcases has with rfl | rfl | rfl <;> simp
  · simp only [List.mem_cons, List.not_mem_nil, or_false] at has
    rcases has with rfl | rfl | rfl
    · have := hsame rfl
      grp [this]
    · grp []
    · grp []
  · simp [Fed]
  · simpa [Node.isGraphInput, not_or, and_assoc] using hp2.2.2.2
  · simp
  · intro e he hD
    obtain ⟨hx, hy, ha, hb, -, -, hc, -⟩ := Two.elim hD
    simp only [Eqs, argVals, List.map_cons, List.map_nil, Option.toList, List.append_nil, hx, hy, List.headD] at he ⊢
    rw [he.1, on.bin _ hp2.1 _ _ _ (by rw [ha]; exact ht) (hb.trans ha.symm) hc, tf.bin _ hp2.2.1 _ _ _ (hb.trans ha.symm) hc]
    refine Ten.ext_at ?_ rfl (fun i => ?_)
    · simp [resType, hp2.2.2.1]
    · exact (el.same2 p hp _ _ _).symm

/-- Operators with two operands whose handler does nothing; the entry of the table renames the node or has the same name. -/
theorem direct_bin_converts (on : OnnxOps v I K cast) (tf : TfOps I T) (el : ElemLaws T K) (hf : FreshTensors fresh) {p : String × String}
    (hp : p ∈ sameBin) (S : Site fresh g r name p.1 attr [x, y] o) (ht : onnxTypes v p.2 t) {onnxOp : Option String}
    (hop : onnxOp = some p.2 ∨ onnxOp = none ∧ p.1 = p.2) (h : (entry fresh onnxOp passActs).convert g r = .ok g') :
    ConvStep I (Two t (fun _ _ => True)) fresh g r g' := by
  rcases hop with rfl | ⟨rfl, h1⟩
  · exact same_bin_step on tf el hf hp S ht (as := [.setType p.2, .onnx]) (by simp) (by simp) (entry_renamed S h rfl)
  · exact same_bin_step on tf el hf hp S ht (as := [.onnx]) (by simp) (fun _ => h1) (entry_run h rfl)

/-- A handler that also swaps the operands, of an operator that commutes. -/
theorem swap_bin_step (on : OnnxOps v I K cast) (tf : TfOps I T) (el : ElemLaws T K) (hf : FreshTensors fresh) {p : String × String}
    (hp : p ∈ sameBin) (hcomm : p.2 ∈ ["Add", "Mul"]) (S : Site fresh g r name p.1 attr [x, y] o) (ht : onnxTypes v p.2 t) {as : List Act}
    (has : as ∈ [[.onnx], [.setType p.2, .onnx], [.onnx, .setType p.2]]) (hsame : as = [.onnx] → p.1 = p.2) (hxy : x ≠ y)
    (hy : ConstOut g y) (h : G.runActs fresh g r (as ++ [.inputAt 0 y, .inputAt 1 x]) g = .ok g') :
    ConvStep I (Two t (fun _ _ => True)) fresh g r g' := by
  have hp2 := sameBin_facts p hp
  refine site_step hf S h ?_ ?_ (self := some ⟨name, p.2, "", attr, [y, x], [o]⟩) (news := []) (out := o) (len := g.heap.length) (miss := [y])
    (top := false) ?_ (fun _ => rfl) (by simp [hy]) (List.Perm.refl _) ?_ ?_ ?_ ?_
  · simp only [List.mem_cons, List.not_mem_nil, or_false] at has
    rcases has with rfl | rfl | rfl <;> grp []
  · simp only [List.mem_cons, List.not_mem_nil, or_false] at has
    rcases has with rfl | rfl | rfl <;> simp
  · simp only [List.mem_cons, List.not_mem_nil, or_false] at has
    rcases has with rfl | rfl | rfl
    · have := hsame rfl
      grp [this, hxy, hxy.symm]
    · grp [hxy, hxy.symm]
    · grp [hxy, hxy.symm]
  · simp [Fed]
  · simpa [Node.isGraphInput, not_or, and_assoc] using hp2.2.2.2
  · simp
  · intro e he hD
    obtain ⟨hx, hy, ha, hb, -, -, hc, -⟩ := Two.elim hD
    simp only [Eqs, argVals, List.map_cons, List.map_nil, Option.toList, List.append_nil, hx, hy, List.headD] at he ⊢
    rw [he.1, on.bin _ hp2.1 _ _ _ (by rw [hb]; exact ht) (ha.trans hb.symm) hc.symm, tf.bin _ hp2.2.1 _ _ _ (hb.trans ha.symm) hc]
    refine Ten.ext_at ?_ hc.symm.comm (fun i => ?_)
    · simp [resType, hp2.2.2.1, ha, hb]
    · simp only [Ten.zip_at, ha, hb]
      rw [el.same2 p hp, el.comm p.2 hcomm]

/-- `Add`, `AddV2`, `Sub`, `Mul`, `Div`, `RealDiv`, `TruncateDiv`, `LogicalAnd`, `LogicalOr` (and every other operator that is the same
function in TensorFlow and ONNX, if the table sent it there), for operands of a type the operator set allows. If the handler swaps the
operands the second one must be a constant: otherwise the node disappears from the readers of that tensor, see `swap_loses_reader_violated`. -/
theorem broadcast6_converts (on : OnnxOps v I K cast) (tf : TfOps I T) (el : ElemLaws T K) (hf : FreshTensors fresh) {p : String × String}
    (hp : p ∈ sameBin) (S : Site fresh g r name p.1 attr [x, y] o) (ht : onnxTypes v p.2 t) {onnxOp : Option String}
    (hop : onnxOp = some p.2 ∨ onnxOp = none ∧ (p.1 = p.2 ∨ p.1 = "AddV2"))
    (hswap : swaps p.2 (g.shapes.get x) (g.shapes.get y) → ConstOut g y)
    (h : (entry fresh onnxOp broadcast6Acts).convert g r = .ok g') : ConvStep I (Two t (fun _ _ => True)) fresh g r g' := by
  have hfix : ∀ p ∈ sameBin, p.2 ≠ "AddV2" ∧ (p.1 = "AddV2" → p.2 = "Add") := by decide
  obtain ⟨hne, hadd⟩ := hfix p hp
  have hsw : swaps p.2 (g.shapes.get x) (g.shapes.get y) → p.2 ∈ ["Add", "Mul"] ∧ x ≠ y := by
    intro h
    unfold swaps at h
    split at h
    · rename_i d0 d1 h0 h1
      simp only [Bool.and_eq_true, Bool.or_eq_true, decide_eq_true_eq] at h
      refine ⟨by rcases h.2 with h | h <;> simp [h], ?_⟩
      rintro rfl
      rw [h0] at h1
      simp at h1
      simp [h1] at h
    · cases h
  obtain ⟨as, has, hsame, h⟩ : ∃ as, as ∈ [[.onnx], [.setType p.2, .onnx], [.onnx, .setType p.2]] ∧ (as = [.onnx] → p.1 = p.2) ∧
      G.runActs fresh g r (as ++ if swaps p.2 (g.shapes.get x) (g.shapes.get y) then [.inputAt 0 y, .inputAt 1 x] else []) g = .ok g' := by
    rcases hop with rfl | ⟨rfl, h1 | h1⟩
    · refine ⟨[.setType p.2, .onnx], by simp, by simp, entry_renamed S h ?_⟩
      acts [broadcast6Acts, S.setType_node, hne]
    · refine ⟨[.onnx], by simp, fun _ => h1, entry_run h ?_⟩
      acts [broadcast6Acts, S.node, h1, hne]
    · refine ⟨[.onnx, .setType p.2], by simp, by simp, entry_run h ?_⟩
      acts [broadcast6Acts, S.node, h1, hadd h1]
  split at h
  · rename_i hs
    obtain ⟨h1, h2⟩ := hsw hs
    exact swap_bin_step on tf el hf hp h1 S ht has hsame h2 (hswap hs) h
  · rw [List.append_nil] at h
    exact same_bin_step on tf el hf hp S ht has hsame h

/-- `SquaredDifference` becomes `Mul` of the difference with itself. -/
theorem sqDiff_converts (on : OnnxOps v I K cast) (tf : TfOps I T) (el : ElemLaws T K) (hf : FreshTensors fresh)
    (S : Site fresh g r name "SquaredDifference" attr [x, y] o) (hno : o ∉ g.outputs) (ht : onnxTypes v "Mul" t)
    (h : G.handle fresh sqDiffActs g r = .ok g') : ConvStep I (Two t (fun _ _ => True)) fresh g r g' := by
  have hox : x ≠ o ∧ y ≠ o := ⟨fun h => S.own (by simp [h]), fun h => S.own (by simp [h])⟩
  have ht' : onnxTypes v "Sub" t := by revert ht; tys []
  refine site_step hf S (as := [.onnx, .setType "Sub", .make (.mk' "Mul" [o, o]), .insertOut o])
    (handle_run h (by acts [sqDiffActs, S.node])) ?_ (by simp)
    (self := some ⟨name, "Sub", "", attr, [x, y], [o]⟩)
    (news := [(g.heap.length, ⟨fresh g.heap.length, "Mul", "", [], [o, o], [port fresh g.heap.length]⟩)])
    (out := port fresh g.heap.length) (len := g.heap.length + 1) (miss := []) (top := false)
    ?_ (fun h => absurd h hno) (by simp) (List.Perm.refl _) ?_ ?_ ?_ ?_
  · grp []
  · grp [hox.1, hox.2]
  · simp [Fed]
  · simp [Node.isGraphInput]
  · simp
  · rintro e he hD
    obtain ⟨hx, hy, ha, hb, -, -, hc, -⟩ := Two.elim hD
    simp [Eqs, argVals, hx, hy, argVal_ne S.oe] at he ⊢
    obtain ⟨h1, h2⟩ := he
    rw [on.bin "Sub" (by decide) _ _ _ (by rw [ha]; exact ht') (hb.trans ha.symm) hc] at h1
    rw [h1, on.bin "Mul" (by decide) _ _ _ (by simpa [ha, resType, boolOps] using ht) rfl (Compat.refl _)] at h2
    rw [h2, tf.bin "SquaredDifference" (by decide) _ _ _ (hb.trans ha.symm) hc]
    refine Ten.ext_at (by tys []) (by simp) (fun i => ?_)
    tys [el.sqdiff]

/-- `DivNoNan` becomes `Where(y = 0, 0, x / y)`, from operator set 11 on (before, `Equal` does not take floating types). -/
theorem divNoNan_converts_partial (on : OnnxOps v I K cast) (tf : TfOps I T) (el : ElemLaws T K) (hf : FreshTensors fresh) (hv : 11 ≤ v)
    (S : Site fresh g r name "DivNoNan" attr [x, y] o) (hno : o ∉ g.outputs) (hdt : g.dtypes.get y = some (code t)) (ht : fl3 t)
    (h : G.handle fresh (divNoNanActs fresh) g r = .ok g') : ConvStep I (Two t (fun _ _ => True)) fresh g r g' := by
  have hox : x ≠ o ∧ y ≠ o := ⟨fun h => S.own (by simp [h]), fun h => S.own (by simp [h])⟩
  have n0 : fresh g.heap.length ≠ o := (S.mine (Nat.le_refl _) (Or.inl rfl)).2
  have n1 : fresh (g.heap.length + 1) ++ ":0" ≠ o := (S.mine (Nat.le_succ _) (Or.inr rfl)).2
  refine site_step hf S (as := [.onnx, .setType "Div", .make (scalarSpec (code t) 0), .make (.mk' "Equal" [y, fresh g.heap.length]),
      .make (.mk' "Where" [port fresh (g.heap.length + 1), fresh g.heap.length, o]), .insertOut o])
    (handle_run h (by acts [divNoNanActs, S.node, hdt])) ?_ (by simp)
    (self := some ⟨name, "Div", "", attr, [x, y], [o]⟩)
    (news := [(g.heap.length, ⟨fresh g.heap.length, "Const", "", [("value", .tensor ⟨code t, [], [0]⟩)], [], [fresh g.heap.length]⟩),
      (g.heap.length + 1, ⟨fresh (g.heap.length + 1), "Equal", "", [], [y, fresh g.heap.length], [port fresh (g.heap.length + 1)]⟩),
      (g.heap.length + 2, ⟨fresh (g.heap.length + 2), "Where", "", [], [port fresh (g.heap.length + 1), fresh g.heap.length, o],
        [port fresh (g.heap.length + 2)]⟩)])
    (out := port fresh (g.heap.length + 2)) (len := g.heap.length + 3) (miss := []) (top := false)
    ?_ (fun h => absurd h hno) (by simp) (List.Perm.refl _) ?_ ?_ ?_ ?_
  · grp []
  · grp [hox.1, hox.2, n0]
  · simp [Fed]
  · simp [Node.isGraphInput]
  · simp
  · rintro e he hD
    obtain ⟨hx, hy, ha, hb, -, -, hc, -⟩ := Two.elim hD
    simp [Eqs, argVals, hx, hy, port, argVal_ne (hf.ne _), argVal_ne S.oe] at he ⊢
    obtain ⟨h1, h2, h3, h4⟩ := he
    rw [on.bin "Div" (by decide) _ _ _ (by tys [ha, ht]) (hb.trans ha.symm) hc] at h1
    rw [on.isConst _ t 0 rfl] at h2
    rw [h2, on.bin "Equal" (by decide) _ _ _ (by tys [hb, ht, numeric]; omega) (by simp [hb]) (Compat.nil _)] at h3
    rw [h1, h2, h3, on.isWhere _ _ _ _ (by omega) (by tys []) (by tys [ha]) (by simpa using hc.right) (by simp [Compat.nil'])] at h4
    rw [h4, tf.bin "DivNoNan" (by decide) _ _ _ (hb.trans ha.symm) hc]
    refine Ten.ext_at (by tys [ha]) ?_ (fun i => ?_)
    · simp only [Ten.zip3, Ten.zip_sh, Ten.scalar_sh, bsh_nil, nil_bsh]
      rw [hc.comm]
      simp
    · have hz : ∀ u, vzero (bval (veq u (.num 0))) = !vzero u := by
        intro u
        cases u <;> simp [vzero, bval, veq]
      simp [Ten.zip3, el.divNoNan, el.eq, hz]
      cases vzero ((e y).get i) <;> simp

theorem vmin_cases (x y : Val) : vmin x y = x ∨ vmin x y = y := by
  have ite' : ∀ (c : Bool) (a b : Val), (if c then b else a) = a ∨ (if c then b else a) = b := fun c => by cases c <;> simp
  cases x <;> cases y <;> first | exact Or.inl rfl | exact Or.inr rfl | exact ite' _ _ _

theorem vmax_cases (x y : Val) : vmax x y = x ∨ vmax x y = y := by
  have ite' : ∀ (c : Bool) (a b : Val), (if c then b else a) = a ∨ (if c then b else a) = b := fun c => by cases c <;> simp
  cases x <;> cases y <;> first | exact Or.inl rfl | exact Or.inr rfl | exact ite' _ _ _

/-- `Minimum`, `Maximum` before operator set 12, floating types: the operator and an `Identity`. -/
theorem minMax_float_converts (on : OnnxOps v I K cast) (tf : TfOps I T) (el : ElemLaws T K) (hf : FreshTensors fresh) {p : String × String}
    (hp : p ∈ [("Minimum", "Min"), ("Maximum", "Max")]) (S : Site fresh g r name p.1 attr [x, y] o) (ht : fl3 t)
    (hx : g.dtypes.get x = some (code t)) (hy : g.dtypes.get y = some (code t)) (ho : g.dtypes.get o = some (code t))
    (h : (entry fresh (some p.2) (minMaxActs fresh)).convert g r = .ok g') : ConvStep I (Two t (fun _ _ => True)) fresh g r g' := by
  have hcode : code t ∈ floatCodes := by revert ht; cases t <;> simp [fl3, code, floatCodes]
  have hp' : p ∈ sameBin := by
    simp only [List.mem_cons, List.not_mem_nil, or_false] at hp
    rcases hp with rfl | rfl <;> decide
  have hp2 := sameBin_facts p hp'
  refine site_step hf S (as := [.setType p.2, .onnx, .remove, .make (.mk' p.2 [x, y]),
      .makeOut "Identity" [port fresh g.heap.length] [] (fresh (g.heap.length + 1)) o])
    (entry_renamed S h (by acts [minMaxActs, S.setType_node, hx, hy, ho, hcode, minMaxSpecs])) ?_ (by simp) (self := none)
    (news := [(g.heap.length, ⟨fresh g.heap.length, p.2, "", [], [x, y], [port fresh g.heap.length]⟩),
      (g.heap.length + 1, ⟨fresh (g.heap.length + 1), "Identity", "", [], [port fresh g.heap.length], [o]⟩)])
    (out := o) (len := g.heap.length + 2) (miss := []) (top := false)
    ?_ (fun _ => rfl) (by simp) (List.Perm.refl _) ?_ ?_ ?_ ?_
  · grp [hf.ne]
  · grp []
  · simp [Fed]
  · have := hp2.2.2.2
    simp at this
    simp [Node.isGraphInput, this]
  · simp
  · rintro e he hD
    obtain ⟨hx, hy, ha, hb, -, -, hc, -⟩ := Two.elim hD
    simp [Eqs, argVals, hx, hy, port] at he ⊢
    obtain ⟨h1, h2⟩ := he
    rw [on.bin _ hp2.1 _ _ _ ?_ (hb.trans ha.symm) hc] at h1
    · rw [h1, on.identity] at h2
      rw [h2, tf.bin _ hp2.2.1 _ _ _ (hb.trans ha.symm) hc]
      refine Ten.ext_at ?_ rfl (fun i => ?_)
      · simp [resType, hp2.2.2.1]
      · exact (el.same2 p hp' _ _ _).symm
    · simp only [List.mem_cons, List.not_mem_nil, or_false] at hp
      rcases hp with rfl | rfl <;> tys [ha, ht]

/-- `Minimum`, `Maximum` before operator set 12, integer types: computed in float, so the operands must be values of float. -/
theorem minMax_int_converts_partial (on : OnnxOps v I K cast) (tf : TfOps I T) (el : ElemLaws T K) (hf : FreshTensors fresh)
    {p : String × String} (hp : p ∈ [("Minimum", "Min"), ("Maximum", "Max")]) (S : Site fresh g r name p.1 attr [x, y] o) (ht : int8s t)
    (hx : g.dtypes.get x = some (code t)) (hy : g.dtypes.get y = some (code t)) (ho : g.dtypes.get o = some (code t))
    (h : (entry fresh (some p.2) (minMaxActs fresh)).convert g r = .ok g') :
    ConvStep I (Two t (fun u w => HasType .float u ∧ HasType .float w)) fresh g r g' := by
  have hcode : code t ∉ floatCodes := by revert ht; cases t <;> simp [int8s, code, floatCodes]
  have hp' : p ∈ sameBin := by
    simp only [List.mem_cons, List.not_mem_nil, or_false] at hp
    rcases hp with rfl | rfl <;> decide
  have hp2 := sameBin_facts p hp'
  refine site_step hf S (as := [.setType p.2, .onnx, .remove, .make (castSpec x 1), .make (castSpec y 1),
      .make (.mk' p.2 [port fresh g.heap.length, port fresh (g.heap.length + 1)]), .make (castSpec (port fresh (g.heap.length + 2)) (code t)),
      .makeOut "Identity" [port fresh (g.heap.length + 3)] [] (fresh (g.heap.length + 4)) o])
    (entry_renamed S h (by acts [minMaxActs, S.setType_node, hx, hy, ho, hcode, minMaxSpecs])) ?_ (by simp) (self := none)
    (news := [(g.heap.length, ⟨fresh g.heap.length, "Cast", "", [("to", .int 1)], [x], [port fresh g.heap.length]⟩),
      (g.heap.length + 1, ⟨fresh (g.heap.length + 1), "Cast", "", [("to", .int 1)], [y], [port fresh (g.heap.length + 1)]⟩),
      (g.heap.length + 2, ⟨fresh (g.heap.length + 2), p.2, "", [], [port fresh g.heap.length, port fresh (g.heap.length + 1)],
        [port fresh (g.heap.length + 2)]⟩),
      (g.heap.length + 3, ⟨fresh (g.heap.length + 3), "Cast", "", [("to", .int (code t))], [port fresh (g.heap.length + 2)],
        [port fresh (g.heap.length + 3)]⟩),
      (g.heap.length + 4, ⟨fresh (g.heap.length + 4), "Identity", "", [], [port fresh (g.heap.length + 3)], [o]⟩)])
    (out := o) (len := g.heap.length + 5) (miss := []) (top := false)
    ?_ (fun _ => rfl) (by simp) (List.Perm.refl _) ?_ ?_ ?_ ?_
  · grp [hf.ne]
  · grp []
  · simp [Fed]
  · have := hp2.2.2.2
    simp at this
    simp [Node.isGraphInput, this]
  · simp
  · rintro e he hD
    obtain ⟨hx, hy, ha, hb, hta, htb, hc, hP⟩ := Two.elim hD
    simp [Eqs, argVals, hx, hy, port] at he ⊢
    obtain ⟨h1, h2, h3, h4, h5⟩ := he
    rw [on.isCast _ .float _ rfl] at h1 h2
    rw [h1, h2, on.bin _ hp2.1 _ _ _ ?_ (by simp) (by simpa using hc)] at h3
    · rw [h3, on.isCast _ t _ rfl] at h4
      rw [h4, on.identity] at h5
      rw [h5, tf.bin _ hp2.2.1 _ _ _ (hb.trans ha.symm) hc]
      have hnb : p.1 ∉ boolOps := by
        simp only [List.mem_cons, List.not_mem_nil, or_false] at hp
        rcases hp with rfl | rfl <;> decide
      refine Ten.ext_at ?_ rfl (fun i => ?_)
      · simp [resType, hnb, ha]
      · simp only [Ten.map_at, Ten.get_zip, Ten.get_map, Ten.zip_at, Ten.map_dt]
        rw [on.conf.exact _ _ (hP i).1, on.conf.exact _ _ (hP i).2, el.same2 p hp']
        have h1 : HasType t ((e x).get i) := ha ▸ hta.get i
        have h2 : HasType t ((e y).get i) := hb ▸ htb.get i
        simp only [List.mem_cons, List.not_mem_nil, or_false] at hp
        rcases hp with rfl | rfl
        · simp only [el.min]
          exact on.conf.exact _ _ (by rcases vmin_cases ((e x).get i) ((e y).get i) with h | h <;> rw [h] <;> assumption)
        · simp only [el.max]
          exact on.conf.exact _ _ (by rcases vmax_cases ((e x).get i) ((e y).get i) with h | h <;> rw [h] <;> assumption)
    · simp only [List.mem_cons, List.not_mem_nil, or_false] at hp
      rcases hp with rfl | rfl <;> tys [fl3]

/-- A tensor and two scalars of type `t`. -/
def Bounded (t : DT) (args : List (Option (Ten Val))) : Prop :=
  ∃ a lo hi : Ten Val, args = [some a, some lo, some hi] ∧ a.dt = t ∧ lo.dt = t ∧ hi.dt = t ∧ lo.sh = [] ∧ hi.sh = []

/-- `ClipByValue` with scalar bounds becomes `Clip`, from operator set 12 on. -/
theorem clip12_converts_partial (on : OnnxOps v I K cast) (tf : TfOps I T) (hf : FreshTensors fresh) (hv : 12 ≤ v) {z : String}
    (S : Site fresh g r name "ClipByValue" attr [x, y, z] o) (ht : onnxTypes v "Clip" t) (h : G.handle fresh (renameActs "Clip") g r = .ok g') :
    ConvStep I (Bounded t) fresh g r g' := by
  refine site_step hf S (as := [.onnx, .setType "Clip"]) (handle_run h (by acts [renameActs])) ?_ (by simp)
    (self := some ⟨name, "Clip", "", attr, [x, y, z], [o]⟩) (news := []) (out := o) (len := g.heap.length) (miss := []) (top := false)
    ?_ (fun _ => rfl) (by simp) (List.Perm.refl _) ?_ ?_ ?_ ?_
  · grp []
  · grp []
  · simp [Fed]
  · simp [Node.isGraphInput]
  · simp
  · rintro e he ⟨a, lo, hi, hargs, h1, h2, h3, h4, h5⟩
    have he : e o = I "Clip" "" attr ([x, y, z].map (argVal e)) 0 := he.1
    rw [he, hargs, on.clipIn _ _ _ _ (by omega) (by rw [h1]; exact ht) (h2.trans h1.symm) (h3.trans h1.symm) h4 h5,
      tf.clip _ _ _ _ (h2.trans h1.symm) (h3.trans h1.symm)]
    refine Ten.ext_at rfl (by simp [Ten.zip3, h4, h5]) (fun i => ?_)
    simp [Ten.zip3, Ten.get, h4, h5]

end Verif.Graph
