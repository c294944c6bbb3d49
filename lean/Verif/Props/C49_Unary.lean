import Verif.Model.HandlersElem
import Verif.Props.HandlerSite
import Verif.Props.C17_Cast
import Mathlib.Tactic.Linarith
/-!
# C49: converting element-wise operators with one operand
-/
namespace Verif.Graph
open Verif Verif.Elem Verif.Cast

variable {v : Nat} {I : Interp (Ten Val)} {K T : Kern Val} {cast : DT → Val → Val}
  {fresh : Nat → String} {g g' : G} {r : Ref} {name op : String} {attr : Dict String Attr} {x y o : String} {t : DT}

/-- A handler that at most renames the node, to an operator that is the same function. -/
theorem same_un_step (on : OnnxOps v I K cast) (tf : TfOps I T) (el : ElemLaws T K) (hf : FreshTensors fresh) {p : String × String}
    (hp : p ∈ sameUn) (S : Site fresh g r name p.1 attr [x] o) (ht : onnxTypes v p.2 t) {as : List Act}
    (has : as ∈ [[.onnx], [.setType p.2, .onnx], [.onnx, .setType p.2]]) (hsame : as = [.onnx] → p.1 = p.2)
    (h : G.runActs fresh g r as g = .ok g') : ConvStep I (One t (fun _ => True)) fresh g r g' := by
  have hp2 : p.2 ∈ onnxUn ∧ p.1 ∈ tfUn ∧ (p.1 ∈ boolOps ↔ p.2 ∈ boolOps) ∧ p.2 ∉ ["Placeholder", "PlaceholderWithDefault", "PlaceholderV2"] := by
    exact (by decide : ∀ p ∈ sameUn, p.2 ∈ onnxUn ∧ p.1 ∈ tfUn ∧ (p.1 ∈ boolOps ↔ p.2 ∈ boolOps) ∧
      p.2 ∉ ["Placeholder", "PlaceholderWithDefault", "PlaceholderV2"]) p hp
  refine site_step hf S h ?_ ?_ (self := some ⟨name, p.2, "", attr, [x], [o]⟩) (news := []) (out := o) (len := g.heap.length) (miss := [])
    (top := false) ?_ (fun _ => rfl) (by simp) (List.Perm.refl _) ?_ ?_ ?_ ?_
  · simp only [List.mem_cons, List.not_mem_nil, or_false] at has
    rcases has with rfl | rfl | rfl <;> grp []
  · simp only [List.mem_cons, List.not_mem_nil, or_false] at has
    rcases has with rfl | rfl | rfl <;> simp
  · simp only [List.mem_cons, List.not_mem_nil, or_false] at has
    rcases has with rfl | rfl | rfl
    · have := hsame rfl
      grp [this]
    · grp []
    · grp []
  · simp [Fed]
  · simpa [Node.isGraphInput, not_or, and_assoc] using hp2.2.2.2
  · simp
  · intro e he hD
    obtain ⟨hx, ha, -, -⟩ := One.elim hD
    simp only [Eqs, argVals, List.map_cons, List.map_nil, Option.toList, List.append_nil, hx, List.headD] at he ⊢
    rw [he.1, on.un _ hp2.1 _ _ (by rw [ha]; exact ht), tf.un _ hp2.2.1]
    refine Ten.ext_at ?_ rfl (fun i => ?_)
    · simp [resType, hp2.2.2.1]
    · exact (el.same1 p hp _ _).symm

/-- Operators with one operand whose handler does nothing; the entry of the table renames the node or has the same name. -/
theorem direct_un_converts (on : OnnxOps v I K cast) (tf : TfOps I T) (el : ElemLaws T K) (hf : FreshTensors fresh) {p : String × String}
    (hp : p ∈ sameUn) (S : Site fresh g r name p.1 attr [x] o) (ht : onnxTypes v p.2 t) {onnxOp : Option String}
    (hop : onnxOp = some p.2 ∨ onnxOp = none ∧ p.1 = p.2) (h : (entry fresh onnxOp passActs).convert g r = .ok g') :
    ConvStep I (One t (fun _ => True)) fresh g r g' := by
  rcases hop with rfl | ⟨rfl, h1⟩
  · exact same_un_step on tf el hf hp S ht (as := [.setType p.2, .onnx]) (by simp) (by simp) (entry_renamed S h rfl)
  · exact same_un_step on tf el hf hp S ht (as := [.onnx]) (by simp) (fun _ => h1) (entry_run h rfl)

/-- `Square` becomes `Mul` of the operand with itself. -/
theorem square_converts (on : OnnxOps v I K cast) (tf : TfOps I T) (el : ElemLaws T K) (hf : FreshTensors fresh)
    (S : Site fresh g r name "Square" attr [x] o) (ht : onnxTypes v "Mul" t) (h : G.handle fresh squareActs g r = .ok g') :
    ConvStep I (One t (fun _ => True)) fresh g r g' := by
  simp only [G.handle, squareActs, G.inp, S.node] at h
  refine site_step hf S (as := [.onnx, .setType "Mul", .rawInputs [x, x]]) h ?_ (by simp)
    (self := some ⟨name, "Mul", "", attr, [x, x], [o]⟩) (news := []) (out := o) (len := g.heap.length) (miss := []) (top := false)
    ?_ (fun _ => rfl) (by simp) (List.Perm.refl _) ?_ ?_ ?_ ?_
  · grp []
  · grp []
  · simp [Fed]
  · simp [Node.isGraphInput]
  · simp
  · rintro e he hD
    obtain ⟨hx, ha, -, -⟩ := One.elim hD
    simp only [Eqs, argVals, List.map_cons, List.map_nil, Option.toList, List.append_nil, hx, List.headD] at he ⊢
    rw [he.1, on.bin "Mul" (by decide) _ _ _ (by rw [ha]; exact ht) rfl (Compat.refl _), tf.un "Square" (by decide)]
    refine Ten.ext_at (by tys []) (by simp) (fun i => ?_)
    exact (el.square _ _).symm

/-- `Rsqrt` becomes `Reciprocal(Sqrt)`. -/
theorem rsqrt_converts (on : OnnxOps v I K cast) (tf : TfOps I T) (el : ElemLaws T K) (hf : FreshTensors fresh)
    (S : Site fresh g r name "Rsqrt" attr [x] o) (hno : o ∉ g.outputs) (ht : fl3 t) (h : G.handle fresh rsqrtActs g r = .ok g') :
    ConvStep I (One t (fun _ => True)) fresh g r g' := by
  have hox : x ≠ o := fun h => S.own (by simp [h])
  simp only [G.handle, rsqrtActs, G.outp, S.node] at h
  refine site_step hf S (as := [.onnx, .setType "Sqrt", .make (.mk' "Reciprocal" [o]), .insertOut o]) h ?_ (by simp)
    (self := some ⟨name, "Sqrt", "", attr, [x], [o]⟩)
    (news := [(g.heap.length, ⟨fresh g.heap.length, "Reciprocal", "", [], [o], [port fresh g.heap.length]⟩)])
    (out := port fresh g.heap.length) (len := g.heap.length + 1) (miss := []) (top := false)
    ?_ (fun h => absurd h hno) (by simp) (List.Perm.refl _) ?_ ?_ ?_ ?_
  · grp []
  · grp [hox]
  · simp [Fed]
  · simp [Node.isGraphInput]
  · simp
  · rintro e he hD
    obtain ⟨hx, ha, -, -⟩ := One.elim hD
    simp only [Eqs, argVals, List.map_cons, List.map_nil, Option.toList, List.singleton_append, hx, List.headD, argVal_ne S.oe] at he ⊢
    obtain ⟨h1, h2, -⟩ := he
    rw [on.un "Sqrt" (by decide) _ _ (by tys [ha, ht])] at h1
    rw [h1, on.un "Reciprocal" (by decide) _ _ (by tys [ha, ht])] at h2
    rw [h2, tf.un "Rsqrt" (by decide)]
    refine Ten.ext_at (by tys []) rfl (fun i => ?_)
    tys [el.rsqrt]

/-- `Relu6` becomes `Clip` between 0 and 6, given as attributes before operator set 11. -/
theorem relu6_converts (on : OnnxOps v I K cast) (tf : TfOps I T) (el : ElemLaws T K) (hf : FreshTensors fresh) (hv : v < 11)
    (S : Site fresh g r name "Relu6" attr [x] o) (ht : fl3 t) (h : G.handle fresh relu6Acts1 g r = .ok g') :
    ConvStep I (One t (fun _ => True)) fresh g r g' := by
  simp only [G.handle, relu6Acts1] at h
  refine site_step hf S (as := [.onnx, .setType "Clip", .setAttr "min" (.int 0), .setAttr "max" (.int 6)]) h ?_ (by simp)
    (self := some ⟨name, "Clip", "", (attr.set "min" (.int 0)).set "max" (.int 6), [x], [o]⟩) (news := []) (out := o) (len := g.heap.length)
    (miss := []) (top := false) ?_ (fun _ => rfl) (by simp) (List.Perm.refl _) ?_ ?_ ?_ ?_
  · grp []
  · grp []
  · simp [Fed]
  · simp [Node.isGraphInput]
  · simp
  · rintro e he hD
    obtain ⟨hx, ha, -, -⟩ := One.elim hD
    simp only [Eqs, argVals, List.map_cons, List.map_nil, Option.toList, List.append_nil, hx, List.headD] at he ⊢
    rw [he.1, on.clipAttr _ 0 6 _ hv (by rw [ha]; exact ht) (by simp [Dict.get_set]) (by simp [Dict.get_set]), tf.un "Relu6" (by decide)]
    refine Ten.ext_at (by tys []) (by simp) (fun i => ?_)
    simp [el.relu6]

/-- `Relu6` becomes `Clip` with two scalar constants from operator set 11 on. -/
theorem relu6_11_converts (on : OnnxOps v I K cast) (tf : TfOps I T) (el : ElemLaws T K) (hf : FreshTensors fresh) (hv : 11 ≤ v)
    (S : Site fresh g r name "Relu6" attr [x] o) (hx : g.dtypes.get x = some (code t)) (ht : onnxTypes v "Clip" t)
    (h : G.handle fresh (relu6Acts11 fresh) g r = .ok g') : ConvStep I (One t (fun _ => True)) fresh g r g' := by
  have n0 : fresh g.heap.length ≠ x := by simpa using (S.mine (Nat.le_refl _) (Or.inl rfl)).1
  have n1 : fresh (g.heap.length + 1) ≠ x := by simpa using (S.mine (Nat.le_succ _) (Or.inl rfl)).1
  have n2 : fresh (g.heap.length + 1) ≠ fresh g.heap.length := fun h => absurd (hf.inj _ _ h) (by simp)
  refine site_step hf S (as := [.onnx, .setType "Clip", .make (scalarSpec (code t) 0), .make (scalarSpec (code t) 6),
      .rawInputs [x, fresh g.heap.length], .rawInputs [x, fresh g.heap.length, fresh (g.heap.length + 1)]])
    (handle_run h (by acts [relu6Acts11, S.node, hx])) ?_ (by simp)
    (self := some ⟨name, "Clip", "", attr, [x, fresh g.heap.length, fresh (g.heap.length + 1)], [o]⟩)
    (news := [(g.heap.length, ⟨fresh g.heap.length, "Const", "", [("value", .tensor ⟨code t, [], [0]⟩)], [], [fresh g.heap.length]⟩),
      (g.heap.length + 1, ⟨fresh (g.heap.length + 1), "Const", "", [("value", .tensor ⟨code t, [], [6]⟩)], [], [fresh (g.heap.length + 1)]⟩)])
    (out := o) (len := g.heap.length + 2) (miss := [fresh g.heap.length, fresh (g.heap.length + 1)]) (top := true)
    ?_ (fun _ => rfl) ?_ (perm_of_idx (idx := [1, 2, 0]) (by decide : [1, 2, 0].Perm (List.range 3))) ?_ ?_ ?_ ?_
  · grp []
  · grp [n0, n1, n2]
  · simp
  · simp [Fed]
  · simp [Node.isGraphInput]
  · simp
  · rintro e he hD
    obtain ⟨hx, ha, -, -⟩ := One.elim hD
    simp [Eqs, argVals, hx, argVal_ne (hf.ne _)] at he ⊢
    obtain ⟨h1, h2, h3⟩ := he
    rw [on.isConst _ t 0 rfl] at h1
    rw [on.isConst _ t 6 rfl] at h2
    rw [h1, h2, on.clipIn _ _ _ _ hv (by rw [ha]; exact ht) (by simp [ha]) (by simp [ha]) rfl rfl] at h3
    rw [h3, tf.un "Relu6" (by decide)]
    refine Ten.ext_at (by tys []) (by simp) (fun i => ?_)
    simp [el.relu6]
    rfl

/-- `IsFinite` becomes `Not(Or(IsInf, IsNaN))`, from operator set 10 on. -/
theorem isFinite_converts (on : OnnxOps v I K cast) (tf : TfOps I T) (el : ElemLaws T K) (hf : FreshTensors fresh) (hv : 10 ≤ v)
    (S : Site fresh g r name "IsFinite" attr [x] o) (ht : onnxTypes v "IsInf" t) (h : G.handle fresh (isFiniteActs fresh) g r = .ok g') :
    ConvStep I (One t (fun _ => True)) fresh g r g' := by
  have ht' : fl3 t := by revert ht; cases t <;> tys [fl3]
  refine site_step hf S (as := [.onnx, .remove, .make (.mk' "IsInf" [x]), .make (.mk' "IsNaN" [x]),
      .make (.mk' "Or" [port fresh g.heap.length, port fresh (g.heap.length + 1)]), .makeOut "Not" [port fresh (g.heap.length + 2)] [] name o])
    (handle_run h (by acts [isFiniteActs, S.node])) ?_ (by simp) (self := none)
    (news := [(g.heap.length, ⟨fresh g.heap.length, "IsInf", "", [], [x], [port fresh g.heap.length]⟩),
      (g.heap.length + 1, ⟨fresh (g.heap.length + 1), "IsNaN", "", [], [x], [port fresh (g.heap.length + 1)]⟩),
      (g.heap.length + 2, ⟨fresh (g.heap.length + 2), "Or", "", [], [port fresh g.heap.length, port fresh (g.heap.length + 1)],
        [port fresh (g.heap.length + 2)]⟩),
      (g.heap.length + 3, ⟨name, "Not", "", [], [port fresh (g.heap.length + 2)], [o]⟩)])
    (out := o) (len := g.heap.length + 4) (miss := []) (top := false)
    ?_ (fun _ => rfl) (by simp) (List.Perm.refl _) ?_ ?_ ?_ ?_
  · grp [S.name]
  · grp []
  · simp [Fed]
  · simp [Node.isGraphInput]
  · simp
  · rintro e he hD
    obtain ⟨hx, ha, -, -⟩ := One.elim hD
    simp [Eqs, argVals, hx, port] at he ⊢
    obtain ⟨h1, h2, h3, h4⟩ := he
    rw [on.un "IsInf" (by decide) _ _ (by rw [ha]; exact ht)] at h1
    rw [on.un "IsNaN" (by decide) _ _ (by tys [ha, ht']; omega)] at h2
    rw [h1, h2, on.bin "Or" (by decide) _ _ _ (by tys []) (by tys []) (by simp [Compat.refl])] at h3
    rw [h3, on.un "Not" (by decide) _ _ (by tys [])] at h4
    rw [h4, tf.un "IsFinite" (by decide)]
    refine Ten.ext_at (by tys []) (by simp) (fun i => ?_)
    simp [el.isFinite, el.inf, el.nan, el.or, el.not]

/-- `Sign` stays `Sign`, from operator set 9 on. -/
theorem sign9_converts (on : OnnxOps v I K cast) (tf : TfOps I T) (el : ElemLaws T K) (hf : FreshTensors fresh) (hv : 9 ≤ v)
    (S : Site fresh g r name "Sign" attr [x] o) (ht : numeric t) (h : G.handle fresh signActs9 g r = .ok g') :
    ConvStep I (One t (fun _ => True)) fresh g r g' := by
  have hd : signActs9 g r = .ok [] := by
    cases hd : signActs9 g r with
    | error m => simp [G.handle, hd, bind, Except.bind] at h
    | ok as =>
      simp only [signActs9, S.node, G.outp, bind, Except.bind, List.getElem?_cons_zero] at hd
      split at hd
      · cases hd
      · split at hd
        · cases hd
        · exact hd.symm
  exact same_un_step on tf el hf (p := ("Sign", "Sign")) (by decide) S (by tys [ht]; omega) (by simp) (fun _ => rfl) (handle_run h hd)

theorem hasType_bit {t : DT} (ht : numeric t) (b : Bool) : HasType t (bval b) := by
  have h01 : (bval b) = .num ((if b then 1 else 0 : Int) : ℚ) := by cases b <;> simp [bval]
  rw [h01]
  generalize hi : (if b then 1 else 0 : Int) = i
  have hi' : i = 0 ∨ i = 1 := by cases b <;> simp_all
  cases t <;> simp [numeric, fl3, int8s] at ht
  all_goals first
    | exact Or.inl ⟨_, rfl, i, rfl, by rcases hi' with rfl | rfl <;> norm_num, by rcases hi' with rfl | rfl <;> norm_num⟩
    | exact Or.inr (Or.inl ⟨_, rfl, FloatRep.ofInt (by norm_num) (by rcases hi' with rfl | rfl <;> norm_num)⟩)

theorem hasType_negOne {t : DT} (ht : numeric t) {x : Val} (hx : HasType t x) (hneg : vlt x (.num 0)) : HasType t (.num (-1)) := by
  have hs : fl3 t ∨ t ∈ [DT.int8, .int16, .int32, .int64] := by
    cases x with
    | num q =>
      have hq : q < 0 := by simpa [vlt] using hneg
      cases t <;> simp [numeric, fl3, int8s] at ht <;> simp [fl3]
      all_goals
        rcases hx with ⟨r, hr, i, rfl, h1, h2⟩ | ⟨f, hf, -⟩ | ⟨h, -⟩
        · simp only [intRange, Option.some.injEq] at hr
          subst hr
          have hq : (i : ℚ) < 0 := hq
          have : i < 0 := by exact_mod_cast hq
          simp at h1
          omega
        · simp [floatFormat] at hf
        · cases h
    | negInf => cases t <;> simp [numeric, fl3, int8s, HasType, floatFormat] at ht hx <;> simp [fl3]
    | _ => simp [vlt] at hneg
  have h1 : (Val.num (-1)) = .num (((-1 : Int)) : ℚ) := by norm_num
  rw [h1]
  cases t <;> simp [fl3] at hs
  all_goals first
    | exact Or.inl ⟨_, rfl, -1, rfl, by norm_num, by norm_num⟩
    | exact Or.inr (Or.inl ⟨_, rfl, FloatRep.ofInt (by norm_num) (by norm_num)⟩)

theorem sign_bits (el : ElemLaws T K) (ht : numeric t) {x : Val} (hx : HasType t x) (hc : Comparable x) :
    K.bin "Sub" t (bval (vlt (.num 0) x)) (bval (vlt x (.num 0))) = vsign x := by
  have h1 := hasType_bit ht true
  have h0 := hasType_bit ht false
  simp only [bval] at h1 h0
  have hn := hasType_negOne ht hx
  have s1 : K.bin "Sub" t (.num 1) (.num 0) = .num 1 := by rw [el.sub t 1 0 (by simpa using h1)]; norm_num
  have s0 : K.bin "Sub" t (.num 0) (.num 0) = .num 0 := by rw [el.sub t 0 0 (by simpa using h0)]; norm_num
  have sn : vlt x (.num 0) → K.bin "Sub" t (.num 0) (.num 1) = .num (-1) := by
    intro h
    rw [el.sub t 0 1 (by simpa using hn h)]; norm_num
  cases x with
  | num q =>
    simp only [vlt, bval, vsign, decide_eq_true_eq] at sn ⊢
    rcases lt_trichotomy q 0 with h | h | h
    · simp [h, not_lt.2 h.le, sn h]
    · simp [h, s0]
    · simp [h, not_lt.2 h.le, h.ne', s1]
  | posInf => simpa [vlt, bval, vsign] using s1
  | negInf => simpa [vlt, bval, vsign] using sn rfl
  | _ => cases hc

/-- `Sign` before operator set 9, type float. For other floating types the operands of the comparisons have different types (`Greater` of
double and float), which ONNX does not allow: see `sign1_double_violated`. -/
theorem sign1_float_converts (on : OnnxOps v I K cast) (tf : TfOps I T) (el : ElemLaws T K) (hf : FreshTensors fresh)
    (S : Site fresh g r name "Sign" attr [x] o) (hdt : g.dtypes.get o = some (code .float)) (h : G.handle fresh (signActs1 fresh) g r = .ok g') :
    ConvStep I (One .float Comparable) fresh g r g' := by
  refine site_step hf S (as := [.onnx, .make (scalarSpec 1 0), .make (.mk' "Greater" [x, fresh g.heap.length]),
      .make (.mk' "Less" [x, fresh g.heap.length]), .make (castSpec (port fresh (g.heap.length + 1)) 1),
      .make (castSpec (port fresh (g.heap.length + 2)) 1), .remove,
      .makeOut "Sub" [port fresh (g.heap.length + 3), port fresh (g.heap.length + 4)] [] (fresh (g.heap.length + 5)) o])
    (handle_run h (by acts [signActs1, S.node, hdt, code, signPre, floatCodes])) ?_ (by simp) (self := none)
    (news := [(g.heap.length, ⟨fresh g.heap.length, "Const", "", [("value", .tensor ⟨1, [], [0]⟩)], [], [fresh g.heap.length]⟩),
      (g.heap.length + 1, ⟨fresh (g.heap.length + 1), "Greater", "", [], [x, fresh g.heap.length], [port fresh (g.heap.length + 1)]⟩),
      (g.heap.length + 2, ⟨fresh (g.heap.length + 2), "Less", "", [], [x, fresh g.heap.length], [port fresh (g.heap.length + 2)]⟩),
      (g.heap.length + 3, ⟨fresh (g.heap.length + 3), "Cast", "", [("to", .int 1)], [port fresh (g.heap.length + 1)],
        [port fresh (g.heap.length + 3)]⟩),
      (g.heap.length + 4, ⟨fresh (g.heap.length + 4), "Cast", "", [("to", .int 1)], [port fresh (g.heap.length + 2)],
        [port fresh (g.heap.length + 4)]⟩),
      (g.heap.length + 5, ⟨fresh (g.heap.length + 5), "Sub", "", [], [port fresh (g.heap.length + 3), port fresh (g.heap.length + 4)], [o]⟩)])
    (out := o) (len := g.heap.length + 6) (miss := []) (top := false)
    ?_ (fun _ => rfl) (by simp) (List.Perm.refl _) ?_ ?_ ?_ ?_
  · grp [hf.ne]
  · grp []
  · simp [Fed]
  · simp [Node.isGraphInput]
  · simp
  · rintro e he hD
    obtain ⟨hx, ha, hty, hP⟩ := One.elim hD
    simp [Eqs, argVals, hx, port, argVal_ne (hf.ne _)] at he ⊢
    obtain ⟨h0, h1, h2, h3, h4, h5⟩ := he
    rw [on.isConst _ .float 0 rfl] at h0
    rw [h0, on.bin "Greater" (by decide) _ _ _ (by tys [ha, fl3]) (by simp [ha]) (Compat.nil _)] at h1
    rw [h0, on.bin "Less" (by decide) _ _ _ (by tys [ha, fl3]) (by simp [ha]) (Compat.nil _)] at h2
    rw [h1, on.isCast _ .float _ rfl] at h3
    rw [h2, on.isCast _ .float _ rfl] at h4
    rw [h3, h4, on.bin "Sub" (by decide) _ _ _ (by tys [fl3]) (by simp) (by simp [Compat.refl])] at h5
    rw [h5, tf.un "Sign" (by decide)]
    refine Ten.ext_at (by tys [ha]) (by simp) (fun i => ?_)
    have hti : HasType .float ((e x).get i) := ha ▸ hty.get i
    simp only [Ten.zip_at, Ten.get_map, Ten.get_zip, Ten.get_scalar, el.gt, el.lt, Ten.map_at, Ten.map_dt]
    rw [on.conf.exact _ _ (hasType_bit (by decide) _), on.conf.exact _ _ (hasType_bit (by decide) _), el.sign _ _ (hP i)]
    simpa using sign_bits el (by decide) hti (hP i)

/-- `Sign` before operator set 9, integer types the operators of the group take, for values float represents. -/
theorem sign1_int_converts_partial (on : OnnxOps v I K cast) (tf : TfOps I T) (el : ElemLaws T K) (hf : FreshTensors fresh)
    (S : Site fresh g r name "Sign" attr [x] o) (hdt : g.dtypes.get o = some (code t)) (ht : int8s t) (hts : onnxTypes v "Sub" t)
    (h : G.handle fresh (signActs1 fresh) g r = .ok g') : ConvStep I (One t (HasType .float)) fresh g r g' := by
  have hnum : numeric t := by simp [numeric, ht]
  have hcode : code t ∉ floatCodes ∧ code t ≠ 14 ∧ code t ≠ 15 := by revert ht; cases t <;> simp [int8s, code, floatCodes]
  refine site_step hf S (as := [.onnx, .make (scalarSpec 1 0), .make (castSpec x 1),
      .make (.mk' "Greater" [port fresh (g.heap.length + 1), fresh g.heap.length]),
      .make (.mk' "Less" [port fresh (g.heap.length + 1), fresh g.heap.length]), .make (castSpec (port fresh (g.heap.length + 2)) (code t)),
      .make (castSpec (port fresh (g.heap.length + 3)) (code t)), .remove,
      .makeOut "Sub" [port fresh (g.heap.length + 4), port fresh (g.heap.length + 5)] [] (fresh (g.heap.length + 6)) o])
    (handle_run h (by acts [signActs1, S.node, hdt, signPre, hcode])) ?_ (by simp) (self := none)
    (news := [(g.heap.length, ⟨fresh g.heap.length, "Const", "", [("value", .tensor ⟨1, [], [0]⟩)], [], [fresh g.heap.length]⟩),
      (g.heap.length + 1, ⟨fresh (g.heap.length + 1), "Cast", "", [("to", .int 1)], [x], [port fresh (g.heap.length + 1)]⟩),
      (g.heap.length + 2, ⟨fresh (g.heap.length + 2), "Greater", "", [], [port fresh (g.heap.length + 1), fresh g.heap.length],
        [port fresh (g.heap.length + 2)]⟩),
      (g.heap.length + 3, ⟨fresh (g.heap.length + 3), "Less", "", [], [port fresh (g.heap.length + 1), fresh g.heap.length],
        [port fresh (g.heap.length + 3)]⟩),
      (g.heap.length + 4, ⟨fresh (g.heap.length + 4), "Cast", "", [("to", .int (code t))], [port fresh (g.heap.length + 2)],
        [port fresh (g.heap.length + 4)]⟩),
      (g.heap.length + 5, ⟨fresh (g.heap.length + 5), "Cast", "", [("to", .int (code t))], [port fresh (g.heap.length + 3)],
        [port fresh (g.heap.length + 5)]⟩),
      (g.heap.length + 6, ⟨fresh (g.heap.length + 6), "Sub", "", [], [port fresh (g.heap.length + 4), port fresh (g.heap.length + 5)], [o]⟩)])
    (out := o) (len := g.heap.length + 7) (miss := []) (top := false)
    ?_ (fun _ => rfl) (by simp) (List.Perm.refl _) ?_ ?_ ?_ ?_
  · grp [hf.ne]
  · grp []
  · simp [Fed]
  · simp [Node.isGraphInput]
  · simp
  · rintro e he hD
    obtain ⟨hx, ha, hty, hP⟩ := One.elim hD
    simp [Eqs, argVals, hx, port, argVal_ne (hf.ne _)] at he ⊢
    obtain ⟨h0, h1, h2, h3, h4, h5, h6⟩ := he
    rw [on.isConst _ .float 0 rfl] at h0
    rw [on.isCast _ .float _ rfl] at h1
    rw [h0, h1, on.bin "Greater" (by decide) _ _ _ (by tys [fl3]) (by simp) (by simp [Compat.nil])] at h2
    rw [h0, h1, on.bin "Less" (by decide) _ _ _ (by tys [fl3]) (by simp) (by simp [Compat.nil])] at h3
    rw [h2, on.isCast _ t _ rfl] at h4
    rw [h3, on.isCast _ t _ rfl] at h5
    rw [h4, h5, on.bin "Sub" (by decide) _ _ _ (by simpa using hts) (by simp) (by simp [Compat.refl])] at h6
    rw [h6, tf.un "Sign" (by decide)]
    refine Ten.ext_at (by tys [ha]) (by simp) (fun i => ?_)
    have hti : HasType t ((e x).get i) := ha ▸ hty.get i
    have hcmp : Comparable ((e x).get i) := by
      revert hti
      cases (e x).get i <;> cases t <;> simp [int8s, HasType, floatFormat, Comparable] at ht ⊢
    simp only [Ten.zip_at, Ten.get_map, Ten.get_zip, Ten.get_scalar, el.gt, el.lt, Ten.map_at, Ten.map_dt]
    rw [on.conf.exact _ _ (hP i), on.conf.exact _ _ (hasType_bit hnum _), on.conf.exact _ _ (hasType_bit hnum _), el.sign _ _ hcmp]
    simpa using sign_bits el hnum hti hcmp

/-- `Log` stays `Log` for operands of type float. Operands of type double are converted to float and back: precision is lost. -/
theorem log6_float_converts_partial (on : OnnxOps v I K cast) (tf : TfOps I T) (el : ElemLaws T K) (hf : FreshTensors fresh)
    (S : Site fresh g r name "Log" attr [x] o) (hdt : g.dtypes.get x = some (code .float)) (h : G.handle fresh (log6Acts fresh) g r = .ok g') :
    ConvStep I (One .float (fun _ => True)) fresh g r g' :=
  same_un_step on tf el hf (p := ("Log", "Log")) (by decide) S (by tys [fl3]) (by simp) (fun _ => rfl)
    (handle_run h (as := []) (by acts [log6Acts, S.node, hdt, code]))

/-- `Log` of operands of any type other than float and double, half floats included, is refused. -/
theorem log6_other_raises (S : Site fresh g r name "Log" attr [x] o) (hf : g.dtypes.get x ≠ some (code .float))
    (hd : g.dtypes.get x ≠ some (code .double)) : ∃ e, G.handle fresh (log6Acts fresh) g r = .error e := by
  have : log6Acts fresh g r = .error "don't know how to cast type" := by
    simp only [code] at hf hd
    simp only [log6Acts, G.inp, G.outp, S.node, bind, Except.bind]
    simp
  exact ⟨"don't know how to cast type", by simp [G.handle, this, bind, Except.bind]⟩

/-- `IsInf`. -/
theorem isInf_converts (on : OnnxOps v I K cast) (tf : TfOps I T) (el : ElemLaws T K) (hf : FreshTensors fresh)
    (S : Site fresh g r name "IsInf" attr [x] o) (hx : g.dtypes.get x = some (code t)) (ht : onnxTypes v "IsInf" t)
    (h : (entry fresh (some "IsInf") isInfActs).convert g r = .ok g') : ConvStep I (One t (fun _ => True)) fresh g r g' := by
  refine same_un_step on tf el hf (p := ("IsInf", "IsInf")) (by decide) S ht (as := [.setType "IsInf", .onnx]) (by simp) (by simp) ?_
  have hd : isInfActs (g.setType r "IsInf") r = .ok [] ∨ ∃ e, isInfActs (g.setType r "IsInf") r = .error e := by
    by_cases hc : code t = 1 ∨ code t = 11
    · left; acts [isInfActs, S.setType_node, hx, hc]
    · right; exact ⟨"dtype is not supported", by acts [isInfActs, S.setType_node, hx, hc]⟩
  rcases hd with hd | ⟨e, he⟩
  · exact entry_renamed S h hd
  · simp [MapInfo.convert, entry, G.handle, he, bind, Except.bind] at h

end Verif.Graph
