import Verif.Props.C49_Binary
import Verif.Props.C17_Cast
/-!
# C47: converting comparisons
-/
namespace Verif.Graph
open Verif Verif.Elem Verif.Cast

variable {v : Nat} {I : Interp (Ten Val)} {K T : Kern Val} {cast : DT → Val → Val}
  {fresh : Nat → String} {g g' : G} {r : Ref} {name op : String} {attr : Dict String Attr} {x y o : String} {t : DT}

/-- Comparisons. -/
def cmps : List String := ["Greater", "Less", "GreaterOrEqual", "LessOrEqual", "Equal"]

theorem cmps_facts : ∀ op ∈ cmps, op ∈ onnxBin ∧ op ∈ boolOps ∧ op ∉ ["Placeholder", "PlaceholderWithDefault", "PlaceholderV2"] := by decide

/-- The negation of another comparison. -/
theorem not_step (on : OnnxOps v I K cast) (tf : TfOps I T) (el : ElemLaws T K) (hf : FreshTensors fresh) {op op' : String}
    (hop : op ∈ tfBin ∧ op ∈ boolOps) (hop' : op' ∈ cmps) (S : Site fresh g r name op attr [x, y] o) (hno : o ∉ g.outputs)
    (ht : onnxTypes v op' t) {P : Val → Val → Prop} {b : Val → Val → Bool}
    (hK : ∀ u w, K.bin op' t u w = bval (b u w)) (hT : ∀ u w, P u w → T.bin op t u w = bval (!b u w))
    (h : G.runActs fresh g r [.onnx, .setType op', .make (.mk' "Not" [o]), .insertOut o] g = .ok g') :
    ConvStep I (Two t P) fresh g r g' := by
  have hox : x ≠ o ∧ y ≠ o := ⟨fun h => S.own (by simp [h]), fun h => S.own (by simp [h])⟩
  have hp := cmps_facts op' hop'
  refine site_step hf S h ?_ (by simp)
    (self := some ⟨name, op', "", attr, [x, y], [o]⟩)
    (news := [(g.heap.length, ⟨fresh g.heap.length, "Not", "", [], [o], [port fresh g.heap.length]⟩)])
    (out := port fresh g.heap.length) (len := g.heap.length + 1) (miss := []) (top := false)
    ?_ (fun h => absurd h hno) (by simp) (List.Perm.refl _) ?_ ?_ ?_ ?_
  · grp []
  · grp [hox.1, hox.2]
  · simp [Fed]
  · have := hp.2.2
    simp at this
    simp [Node.isGraphInput, this]
  · simp
  · rintro e he hD
    obtain ⟨hx, hy, ha, hb, -, -, hc, hP⟩ := Two.elim hD
    simp [Eqs, argVals, hx, hy, argVal_ne S.oe] at he ⊢
    obtain ⟨h1, h2⟩ := he
    rw [on.bin op' hp.1 _ _ _ (by rw [ha]; exact ht) (hb.trans ha.symm) hc] at h1
    rw [h1, on.un "Not" (by decide) _ _ (by simp [onnxTypes, onnxFloatUn, onnxFloatUn9, resType, hp.2.1])] at h2
    rw [h2, tf.bin op hop.1 _ _ _ (hb.trans ha.symm) hc]
    have hb' : resType op (e x).dt = .bool := by simp [resType, hop.2]
    refine Ten.ext_at (by rw [Ten.map_dt, Ten.zip_dt, hb']; rfl) rfl (fun i => ?_)
    simp only [Ten.map_at, Ten.get_zip, Ten.zip_at, Ten.zip_dt, ha]
    rw [hK, hT _ _ (hP i), el.not]

/-- The comparison of the operands cast to another type, which represents them. -/
theorem cast_step (on : OnnxOps v I K cast) (tf : TfOps I T) (hf : FreshTensors fresh) {op : String}
    (hop : op ∈ tfBin ∧ op ∈ boolOps) (hop' : op ∈ cmps) (S : Site fresh g r name op attr [x, y] o) {u : DT}
    (ht : onnxTypes v op u) {P : Val → Val → Prop} (hP : ∀ a b, P a b → HasType u a ∧ HasType u b)
    (hT : ∀ a b, T.bin op t a b = K.bin op u a b)
    (h : G.runActs fresh g r (.onnx :: castAll fresh (code u) g.heap.length 0 [x, y]) g = .ok g') :
    ConvStep I (Two t P) fresh g r g' := by
  have hp := cmps_facts op hop'
  have n0 : ¬ (x = fresh g.heap.length ++ ":0") ∧ ¬ (y = fresh g.heap.length ++ ":0") := by
    have := (S.mine (Nat.le_refl _) (Or.inr rfl)).1
    simp only [List.mem_cons, List.not_mem_nil, or_false, not_or] at this
    exact ⟨fun h => this.1 h.symm, fun h => this.2 h.symm⟩
  have n1 : ¬ (x = fresh (g.heap.length + 1) ++ ":0") ∧ ¬ (y = fresh (g.heap.length + 1) ++ ":0") := by
    have := (S.mine (Nat.le_succ _) (Or.inr rfl)).1
    simp only [List.mem_cons, List.not_mem_nil, or_false, not_or] at this
    exact ⟨fun h => this.1 h.symm, fun h => this.2 h.symm⟩
  refine site_step hf S h ?_ (by simp [castAll])
    (self := some ⟨name, op, "", attr, [port fresh g.heap.length, port fresh (g.heap.length + 1)], [o]⟩)
    (news := [(g.heap.length, ⟨fresh g.heap.length, "Cast", "", [("to", .int (code u))], [x], [port fresh g.heap.length]⟩),
      (g.heap.length + 1, ⟨fresh (g.heap.length + 1), "Cast", "", [("to", .int (code u))], [y], [port fresh (g.heap.length + 1)]⟩)])
    (out := o) (len := g.heap.length + 2) (miss := [x, y]) (top := true)
    ?_ (fun _ => rfl) ?_ (perm_of_idx (idx := [1, 2, 0]) (by decide : [1, 2, 0].Perm (List.range 3))) ?_ ?_ ?_ ?_
  · grp [castAll]
  · grp [castAll, n0.1, n1.1, n1.2]
  · simp [port, n0.1, n0.2, n1.1, n1.2]
  · simp [Fed]
  · have := hp.2.2
    simp at this
    simp [Node.isGraphInput, this]
  · simp
  · rintro e he hD
    obtain ⟨hx, hy, ha, hb, -, -, hc, hPe⟩ := Two.elim hD
    simp [Eqs, argVals, hx, hy, port] at he ⊢
    obtain ⟨h1, h2, h3⟩ := he
    rw [on.isCast _ u _ rfl] at h1 h2
    rw [h1, h2, on.bin op hp.1 _ _ _ (by simpa using ht) (by simp) (by simpa using hc)] at h3
    rw [h3, tf.bin op hop.1 _ _ _ (hb.trans ha.symm) hc]
    refine Ten.ext_at (by simp [resType, hop.2]) rfl (fun i => ?_)
    obtain ⟨p1, p2⟩ := hP _ _ (hPe i)
    simp only [Ten.zip_at, Ten.get_map, Ten.map_dt, ha, on.conf.exact _ _ p1, on.conf.exact _ _ p2, hT]

/-- The negation of another comparison of the operands cast to another type. -/
theorem cast_not_step (on : OnnxOps v I K cast) (tf : TfOps I T) (el : ElemLaws T K) (hf : FreshTensors fresh) {op op' : String}
    (hop : op ∈ tfBin ∧ op ∈ boolOps) (hop' : op' ∈ cmps) (S : Site fresh g r name op attr [x, y] o) (hno : o ∉ g.outputs) {u : DT}
    (ht : onnxTypes v op' u) {P : Val → Val → Prop} (hP : ∀ a b, P a b → HasType u a ∧ HasType u b) {b : Val → Val → Bool}
    (hK : ∀ a c, K.bin op' u a c = bval (b a c)) (hT : ∀ a c, P a c → T.bin op t a c = bval (!b a c))
    (h : G.runActs fresh g r (.onnx :: (castAll fresh (code u) g.heap.length 0 [x, y] ++
      [.setType op', .make (.mk' "Not" [o]), .insertOut o])) g = .ok g') :
    ConvStep I (Two t P) fresh g r g' := by
  have hp := cmps_facts op' hop'
  have hox : x ≠ o ∧ y ≠ o := ⟨fun h => S.own (by simp [h]), fun h => S.own (by simp [h])⟩
  have hox' : o ≠ x ∧ o ≠ y := ⟨hox.1.symm, hox.2.symm⟩
  have n0 : ¬ (x = fresh g.heap.length ++ ":0") ∧ ¬ (y = fresh g.heap.length ++ ":0") := by
    have := (S.mine (Nat.le_refl _) (Or.inr rfl)).1
    simp only [List.mem_cons, List.not_mem_nil, or_false, not_or] at this
    exact ⟨fun h => this.1 h.symm, fun h => this.2 h.symm⟩
  have n1 : ¬ (x = fresh (g.heap.length + 1) ++ ":0") ∧ ¬ (y = fresh (g.heap.length + 1) ++ ":0") := by
    have := (S.mine (Nat.le_succ _) (Or.inr rfl)).1
    simp only [List.mem_cons, List.not_mem_nil, or_false, not_or] at this
    exact ⟨fun h => this.1 h.symm, fun h => this.2 h.symm⟩
  have n2 : fresh g.heap.length ++ ":0" ≠ o := (S.mine (Nat.le_refl _) (Or.inr rfl)).2
  have n3 : fresh (g.heap.length + 1) ++ ":0" ≠ o := (S.mine (Nat.le_succ _) (Or.inr rfl)).2
  refine site_step hf S h ?_ (by simp [castAll])
    (self := some ⟨name, op', "", attr, [port fresh g.heap.length, port fresh (g.heap.length + 1)], [o]⟩)
    (news := [(g.heap.length, ⟨fresh g.heap.length, "Cast", "", [("to", .int (code u))], [x], [port fresh g.heap.length]⟩),
      (g.heap.length + 1, ⟨fresh (g.heap.length + 1), "Cast", "", [("to", .int (code u))], [y], [port fresh (g.heap.length + 1)]⟩),
      (g.heap.length + 2, ⟨fresh (g.heap.length + 2), "Not", "", [], [o], [port fresh (g.heap.length + 2)]⟩)])
    (out := port fresh (g.heap.length + 2)) (len := g.heap.length + 3) (miss := [x, y]) (top := false)
    ?_ (fun h => absurd h hno) ?_ (perm_of_idx (idx := [1, 2, 0, 3]) (by decide : [1, 2, 0, 3].Perm (List.range 4))) ?_ ?_ ?_ ?_
  · grp [castAll, n0.1, n1.1, n1.2, hox'.1, hox'.2]
  · grp [castAll, n0.1, n1.1, n1.2, hox.1, hox.2, n2, n3]
  · simp [port, n0.1, n0.2, n1.1, n1.2]
  · simp [Fed]
  · have := hp.2.2
    simp at this
    simp [Node.isGraphInput, this]
  · simp
  · rintro e he hD
    obtain ⟨hx, hy, ha, hb, -, -, hc, hPe⟩ := Two.elim hD
    simp [Eqs, argVals, hx, hy, port, argVal_ne S.oe] at he ⊢
    obtain ⟨h1, h2, h3, h4⟩ := he
    rw [on.isCast _ u _ rfl] at h1 h2
    rw [h1, h2, on.bin op' hp.1 _ _ _ (by simpa using ht) (by simp) (by simpa using hc)] at h3
    rw [h3, on.un "Not" (by decide) _ _ (by simp [onnxTypes, onnxFloatUn, onnxFloatUn9, resType, hp.2.1])] at h4
    rw [h4, tf.bin op hop.1 _ _ _ (hb.trans ha.symm) hc]
    have hb' : resType op (e x).dt = .bool := by simp [resType, hop.2]
    refine Ten.ext_at (by rw [Ten.map_dt, Ten.zip_dt, hb']; rfl) rfl (fun i => ?_)
    obtain ⟨p1, p2⟩ := hP _ _ (hPe i)
    simp only [Ten.map_at, Ten.zip_at, Ten.get_zip, Ten.get_map, Ten.map_dt, ha, on.conf.exact _ _ p1, on.conf.exact _ _ p2]
    rw [hK, hT _ _ (hPe i), el.not]

/-! ## `Greater`, `Less` -/

theorem ConvStep.mono {V : Type} {I : Interp V} {D D' : List (Option V) → Prop} (s : ConvStep I D fresh g r g') (h : ∀ l, D' l → D l) :
    ConvStep I D' fresh g r g' := { s with run := fun env e hs hd => s.run env e hs (h _ hd) }

theorem Two.mono {P Q : Val → Val → Prop} {l : List (Option (Ten Val))} (h : Two t P l)
    (hPQ : ∀ u w, HasType t u → HasType t w → P u w → Q u w) : Two t Q l := by
  obtain ⟨a, b, h1, h2, h3, h4, h5, h6, h7⟩ := h
  exact ⟨a, b, h1, h2, h3, h4, h5, h6, fun i => hPQ _ _ (h2 ▸ h4.get i) (h3 ▸ h5.get i) (h7 i)⟩

theorem fl3_code : (code t ∈ floatCodes) ↔ fl3 t = true := by cases t <;> simp [code, floatCodes, fl3]

theorem addCasts_skip {l : List Nat} {u : Nat} (hin : (g.node r).input = [x, y]) (hx : g.dtypes.get x = some (code t))
    (hy : g.dtypes.get y = some (code t)) (ht : code t ∈ l) : addCastsActs fresh l u g r = [] := by
  simp [addCastsActs, hin, G.dtypeIn, hx, hy, ht]

theorem addCasts_cast {l : List Nat} {u : Nat} (hin : (g.node r).input = [x, y]) (hx : g.dtypes.get x = some (code t))
    (ht : code t ∉ l) : addCastsActs fresh l u g r = castAll fresh u g.heap.length 0 [x, y] := by
  simp [addCastsActs, hin, G.dtypeIn, hx, ht]

/-- `Greater` and `Less` from operator set 7 on: exact for floating operands, and for others where the elements are `float` values. -/
theorem greaterLess7_converts_partial (on : OnnxOps v I K cast) (tf : TfOps I T) (el : ElemLaws T K) (hf : FreshTensors fresh)
    (hop : op ∈ ["Greater", "Less"]) (S : Site fresh g r name op attr [x, y] o) (hx : g.dtypes.get x = some (code t))
    (hy : g.dtypes.get y = some (code t)) (h : G.handle fresh (greaterLess7Acts fresh) g r = .ok g') :
    ConvStep I (Two t (fun u w => fl3 t ∨ HasType .float u ∧ HasType .float w)) fresh g r g' := by
  have hin : (g.node r).input = [x, y] := by rw [S.node]
  have hsame : ∀ op ∈ ["Greater", "Less"], (op, op) ∈ sameBin ∧ op ∈ tfBin ∧ op ∈ boolOps ∧ op ∈ cmps := by decide
  obtain ⟨h1, h2, h3, h4⟩ := hsame op hop
  have hty : ∀ u, fl3 u → onnxTypes v op u := by
    intro u hu
    simp only [List.mem_cons, List.not_mem_nil, or_false] at hop
    rcases hop with rfl | rfl <;> tys [hu]
  have hk : ∀ t' u a b, K.bin op t' a b = K.bin op u a b := by
    intro t' u a b
    simp only [List.mem_cons, List.not_mem_nil, or_false] at hop
    rcases hop with rfl | rfl <;> simp [el.gt, el.lt]
  by_cases hfl : fl3 t = true
  · refine (same_bin_step on tf el hf (p := (op, op)) h1 S (hty t hfl) (as := [.onnx]) (by simp) (fun _ => rfl)
      (handle_run h (by acts [greaterLess7Acts, addCasts_skip hin hx hy (fl3_code.2 hfl)]))).mono (fun l hl => Two.mono hl (fun _ _ _ _ _ => trivial))
  · refine (cast_step on tf hf ⟨h2, h3⟩ h4 S (u := .float) (P := fun u w => HasType .float u ∧ HasType .float w) (hty _ rfl) (fun _ _ h => h)
      (fun a b => (el.same2 _ h1 t a b).trans (hk _ _ _ _))
      (handle_run h (by acts [greaterLess7Acts, addCasts_cast hin hx (fun h => hfl (fl3_code.1 h))]; rfl))).mono
        (fun l hl => Two.mono hl (fun _ _ _ _ h => h.resolve_left hfl))

/-- Small integers and booleans are `float` values. -/
theorem small_isFloat {w : Val} (ht : t ∈ [DT.int8, .int16, .uint8, .uint16, .bool]) (h : HasType t w) : HasType .float w := by
  simp only [List.mem_cons, List.not_mem_nil, or_false] at ht
  rcases ht with rfl | rfl | rfl | rfl | rfl
  · exact embeds_int.1 _ (by simp) _ h
  · exact embeds_int.1 _ (by simp) _ h
  · exact embeds_int.1 _ (by simp) _ h
  · exact embeds_int.1 _ (by simp) _ h
  · cases w with
    | num q =>
      rcases h with ⟨r, hr, _⟩ | ⟨f, hf, _⟩ | ⟨-, h⟩
      · simp [intRange] at hr
      · simp [floatFormat] at hf
      · refine Or.inr (Or.inl ⟨_, rfl, ?_⟩)
        rcases h with rfl | rfl
        · exact ⟨0, 0, by norm_num, by norm_num, by norm_num⟩
        · exact ⟨1, 149, by norm_num, by norm_num, by norm_num⟩
    | _ => simp [HasType, floatFormat] at h

/-- `Greater` and `Less` of small integers and booleans: exact. -/
theorem greaterLess7_small_converts (on : OnnxOps v I K cast) (tf : TfOps I T) (el : ElemLaws T K) (hf : FreshTensors fresh)
    (hop : op ∈ ["Greater", "Less"]) (S : Site fresh g r name op attr [x, y] o) (hx : g.dtypes.get x = some (code t))
    (hy : g.dtypes.get y = some (code t)) (ht : t ∈ [DT.int8, .int16, .uint8, .uint16, .bool])
    (h : G.handle fresh (greaterLess7Acts fresh) g r = .ok g') : ConvStep I (Two t (fun _ _ => True)) fresh g r g' :=
  (greaterLess7_converts_partial on tf el hf hop S hx hy h).mono
    (fun _ hl => Two.mono hl (fun _ _ hu hw _ => Or.inr ⟨small_isFloat ht hu, small_isFloat ht hw⟩))

/-! ## `GreaterEqual`, `LessEqual` -/

/-- `GreaterEqual` and `LessEqual` at operator sets 7 to 11: exact where no operand is NaN, and for types that are not floating, where
elements are `float` values. -/
theorem greaterLessEqual7_converts_partial (on : OnnxOps v I K cast) (tf : TfOps I T) (el : ElemLaws T K) (hf : FreshTensors fresh)
    (hop : op ∈ ["GreaterEqual", "LessEqual"]) (S : Site fresh g r name op attr [x, y] o) (hno : o ∉ g.outputs)
    (hx : g.dtypes.get x = some (code t)) (hy : g.dtypes.get y = some (code t))
    (h : G.handle fresh (greaterLessEqual7Acts fresh) g r = .ok g') :
    ConvStep I (Two t (fun u w => Comparable u ∧ Comparable w ∧ (fl3 t ∨ HasType .float u ∧ HasType .float w))) fresh g r g' := by
  have hin : (g.node r).input = [x, y] := by rw [S.node]
  have hfacts : ∀ op ∈ ["GreaterEqual", "LessEqual"], op ∈ tfBin ∧ op ∈ boolOps ∧ (if op = "GreaterEqual" then "Less" else "Greater") ∈ cmps := by decide
  obtain ⟨h1, h2, h3⟩ := hfacts op hop
  have hty : ∀ u, fl3 u → onnxTypes v (if op = "GreaterEqual" then "Less" else "Greater") u := by
    intro u hu
    simp only [List.mem_cons, List.not_mem_nil, or_false] at hop
    rcases hop with rfl | rfl <;> tys [hu]
  have hK : ∀ u a c, K.bin (if op = "GreaterEqual" then "Less" else "Greater") u a c = bval (if op = "GreaterEqual" then vlt a c else vlt c a) := by
    intro u a c
    simp only [List.mem_cons, List.not_mem_nil, or_false] at hop
    rcases hop with rfl | rfl <;> simp [el.gt, el.lt]
  have hT : ∀ a c, Comparable a ∧ Comparable c → T.bin op t a c = bval (!if op = "GreaterEqual" then vlt a c else vlt c a) := by
    rintro a c ⟨ha, hc⟩
    simp only [List.mem_cons, List.not_mem_nil, or_false] at hop
    rcases hop with rfl | rfl
    · rw [el.same2 ("GreaterEqual", "GreaterOrEqual") (by decide), el.ge, veq_comm, vle_not_lt hc ha]
      simp
    · rw [el.same2 ("LessEqual", "LessOrEqual") (by decide), el.le, vle_not_lt ha hc]
      simp
  by_cases hfl : fl3 t = true
  · refine (not_step on tf el hf ⟨h1, h2⟩ h3 S hno (hty t hfl) (hK t) hT
      (handle_run h (by acts [greaterLessEqual7Acts, addCasts_skip hin hx hy (fl3_code.2 hfl), S.node]))).mono
      (fun l hl => Two.mono hl (fun _ _ _ _ h => ⟨h.1, h.2.1⟩))
  · refine (cast_not_step on tf el hf ⟨h1, h2⟩ h3 S hno (u := .float)
      (P := fun a c => (Comparable a ∧ Comparable c) ∧ HasType .float a ∧ HasType .float c) (hty _ rfl) (fun _ _ h => h.2)
      (hK _) (fun a c h => hT a c h.1)
      (handle_run h (by acts [greaterLessEqual7Acts, addCasts_cast hin hx (fun h => hfl (fl3_code.1 h)), S.node]; rfl))).mono
        (fun l hl => Two.mono hl (fun _ _ _ _ h => ⟨⟨h.1, h.2.1⟩, h.2.2.resolve_left hfl⟩))

/-- `GreaterEqual` and `LessEqual` from operator set 12 on: exact for all numeric types. -/
theorem greaterLessEqual12_converts (on : OnnxOps v I K cast) (tf : TfOps I T) (el : ElemLaws T K) (hf : FreshTensors fresh) (hv : 12 ≤ v)
    (hop : op ∈ ["GreaterEqual", "LessEqual"]) (S : Site fresh g r name op attr [x, y] o) (ht : numeric t)
    (h : G.handle fresh greaterLessEqual12Acts g r = .ok g') : ConvStep I (Two t (fun _ _ => True)) fresh g r g' := by
  have hsame : ∀ op ∈ ["GreaterEqual", "LessEqual"], (op, if op = "GreaterEqual" then "GreaterOrEqual" else "LessOrEqual") ∈ sameBin := by decide
  refine same_bin_step on tf el hf (hsame op hop) S ?_ (as := [.onnx, .setType (if op = "GreaterEqual" then "GreaterOrEqual" else "LessOrEqual")])
    (by simp) (by simp) (handle_run h (by acts [greaterLessEqual12Acts, S.node]))
  simp only [List.mem_cons, List.not_mem_nil, or_false] at hop
  rcases hop with rfl | rfl <;> tys [hv, ht]

/-! ## `Equal`, `NotEqual` -/

/-- `NotEqual` of a tensor and itself becomes `IsNaN` of it, at operator sets 7 to 10: exact for floating operands (`IsNaN` takes no others, and
exists from operator set 9 on). -/
theorem notEqual_self_converts (on : OnnxOps v I K cast) (tf : TfOps I T) (el : ElemLaws T K) (hf : FreshTensors fresh) (hv : 9 ≤ v)
    (S : Site fresh g r name "NotEqual" attr [x, x] o) (ht : fl3 t) (hown : ∀ q ∈ g.nodes, (g.node q).name ∉ (g.node q).input)
    (h : G.handle fresh (equal7Acts fresh) g r = .ok g') : ConvStep I (Two t (fun _ _ => True)) fresh g r g' := by
  refine site_step hf S (as := [.onnx, .setType "IsNaN", .inputs [x]]) (handle_run h (by acts [equal7Acts, S.node])) ?_ (fun _ => hown)
    (self := some ⟨name, "IsNaN", "", attr, [x], [o]⟩) (news := []) (out := o) (len := g.heap.length) (miss := []) (top := false)
    ?_ (fun _ => rfl) (by simp) (List.Perm.refl _) ?_ ?_ ?_ ?_
  · grp []
  · grp []
  · simp [Fed]
  · simp [Node.isGraphInput]
  · simp
  · rintro e he hD
    obtain ⟨hx, -, ha, -, -, -, hc, -⟩ := Two.elim hD
    simp [Eqs, argVals, hx] at he ⊢
    rw [on.un "IsNaN" (by decide) _ _ (by tys [ha, ht, hv])] at he
    rw [he, tf.bin "NotEqual" (by decide) _ _ _ rfl hc]
    refine Ten.ext_at (by tys []) (by simp) (fun i => ?_)
    simp only [Ten.map_at, Ten.zip_at, el.ne, el.nan]
    congr 1
    cases (e x).get i <;> simp [veq, vnan]

/-- `Equal` and `NotEqual` of different tensors at operator sets 7 to 10: exact for `bool`, `int32` and `int64` operands, and for elements that
are `int32` values. -/
theorem equal7_converts_partial (on : OnnxOps v I K cast) (tf : TfOps I T) (el : ElemLaws T K) (hf : FreshTensors fresh)
    (hop : op ∈ ["Equal", "NotEqual"]) (S : Site fresh g r name op attr [x, y] o) (hno : o ∉ g.outputs) (hxy : op = "NotEqual" → x ≠ y)
    (hx : g.dtypes.get x = some (code t)) (hy : g.dtypes.get y = some (code t))
    (h : G.handle fresh (equal7Acts fresh) g r = .ok g') :
    ConvStep I (Two t (fun u w => t ∈ [DT.bool, .int32, .int64] ∨ HasType .int32 u ∧ HasType .int32 w)) fresh g r g' := by
  have hin : (g.node r).input = [x, y] := by rw [S.node]
  have hcode : code t ∈ [9, 6, 7] ↔ t ∈ [DT.bool, .int32, .int64] := by cases t <;> simp [code]
  have hty : ∀ u ∈ [DT.bool, .int32, .int64], onnxTypes v "Equal" u := by
    intro u hu
    have : u = .bool ∨ u = .int32 ∨ u = .int64 := by simpa using hu
    tys [this]
  simp only [List.mem_cons, List.not_mem_nil, or_false] at hop
  by_cases ht : t ∈ [DT.bool, .int32, .int64]
  · have hs := addCasts_skip (fresh := fresh) (u := 6) hin hx hy (hcode.2 ht)
    rcases hop with rfl | rfl
    · refine (same_bin_step on tf el hf (p := ("Equal", "Equal")) (by decide) S (hty t ht) (as := [.onnx]) (by simp) (fun _ => rfl)
        (handle_run h (by acts [equal7Acts, hs, S.node, equalNotActs]))).mono (fun l hl => Two.mono hl (fun _ _ _ _ _ => trivial))
    · refine (not_step on tf el hf (op := "NotEqual") (op' := "Equal") (P := fun _ _ => True) (by decide) (by decide) S hno (hty t ht)
        (fun u w => el.eq t u w) (fun u w _ => el.ne t u w)
        (handle_run h (by acts [equal7Acts, hs, S.node, equalNotActs, hxy rfl]))).mono (fun l hl => Two.mono hl (fun _ _ _ _ _ => trivial))
  · have hs := addCasts_cast (fresh := fresh) (u := 6) hin hx (fun h => ht (hcode.1 h))
    rcases hop with rfl | rfl
    · refine (cast_step on tf hf (by decide) (by decide) S (u := .int32) (P := fun u w => HasType .int32 u ∧ HasType .int32 w) (hty _ (by simp))
        (fun _ _ h => h) (fun a b => by rw [el.same2 ("Equal", "Equal") (by decide), el.eq, el.eq])
        (handle_run h (by acts [equal7Acts, hs, S.node, equalNotActs]; rfl))).mono (fun l hl => Two.mono hl (fun _ _ _ _ h => h.resolve_left ht))
    · refine (cast_not_step on tf el hf (op := "NotEqual") (op' := "Equal") (by decide) (by decide) S hno (u := .int32)
        (P := fun u w => HasType .int32 u ∧ HasType .int32 w) (hty _ (by simp)) (fun _ _ h => h)
        (fun u w => el.eq _ u w) (fun u w _ => el.ne t u w)
        (handle_run h (by acts [equal7Acts, hs, S.node, equalNotActs, hxy rfl]; rfl))).mono (fun l hl => Two.mono hl (fun _ _ _ _ h => h.resolve_left ht))

/-- `Equal` and `NotEqual` from operator set 11 on: exact for numeric operands and booleans. (Strings are cast to int32, which raises.) -/
theorem equal11_converts_partial (on : OnnxOps v I K cast) (tf : TfOps I T) (el : ElemLaws T K) (hf : FreshTensors fresh) (hv : 11 ≤ v)
    (hop : op ∈ ["Equal", "NotEqual"]) (S : Site fresh g r name op attr [x, y] o) (hno : o ∉ g.outputs)
    (hx : g.dtypes.get x = some (code t)) (hy : g.dtypes.get y = some (code t)) (ht : numeric t ∨ t = .bool)
    (h : G.handle fresh (equal11Acts fresh) g r = .ok g') : ConvStep I (Two t (fun _ _ => True)) fresh g r g' := by
  have hcode : code t ∈ equal11Codes := by revert ht; cases t <;> simp [code, equal11Codes, numeric, fl3, int8s]
  have hty : onnxTypes v "Equal" t := by
    rcases ht with ht | rfl
    · tys [hv, ht]
    · tys []
  simp only [List.mem_cons, List.not_mem_nil, or_false] at hop
  rcases hop with rfl | rfl
  · exact same_bin_step on tf el hf (p := ("Equal", "Equal")) (by decide) S hty (as := [.onnx]) (by simp) (fun _ => rfl)
      (handle_run h (by acts [equal11Acts, S.node, equalNotActs, G.dtypeIn, hx, hy, hcode, castSame]))
  · exact not_step on tf el hf (op := "NotEqual") (op' := "Equal") (P := fun _ _ => True) (by decide) (by decide) S hno hty
      (fun u w => el.eq t u w) (fun u w _ => el.ne t u w)
      (handle_run h (by acts [equal11Acts, S.node, equalNotActs, G.dtypeIn, hx, hy, hcode, castSame]))

end Verif.Graph
