import Verif.Props.C53_Base
/-!
# C53: operators with an axis, a permutation or a target shape
-/
namespace Verif.Graph
open Verif Verif.Elem Verif.Cast

variable {v : Nat} {I : Interp (Ten Val)} {A : Arr} {K T : Kern Val} {cast : DT → Val → Val}
  {fresh : Nat → String} {g g' : G} {r : Ref} {name op op' : String} {attr attr' : Dict String Attr} {x y c o : String} {xs xs' : List String}
  {t t' : DT} {W : Tensor}

/-- A handler that changes operator, attributes and inputs of the node and makes no other node. -/
theorem self_step (hf : FreshTensors fresh) (S : Site fresh g r name op attr xs o) {as : List Act} (h : G.runActs fresh g r as g = .ok g')
    (hok : Grp.allOk fresh o as (Grp.start ⟨name, op, "tf", attr, xs, [o]⟩ g.heap.length o))
    (hown : (∃ xs, .inputs xs ∈ as) → ∀ q ∈ g.nodes, (g.node q).name ∉ (g.node q).input) {miss : List String} {top : Bool}
    (hσ : Grp.run fresh as (Grp.start ⟨name, op, "tf", attr, xs, [o]⟩ g.heap.length o) =
      ⟨some ⟨name, op', "", attr', xs', [o]⟩, [], o, g.heap.length, miss, false, top⟩)
    (hmiss : ∀ i ∈ miss, i ∈ xs' → ConstOut g i) (hsub : ∀ i ∈ xs', i ∈ xs)
    (hop : op' ∉ ["Placeholder", "PlaceholderWithDefault", "PlaceholderV2"]) {D : List (Option (Ten Val)) → Prop}
    (law : ∀ env e, Sat I env e g.nodeList → D (xs.map (argVal e)) → I op' "" attr' (xs'.map (argVal e)) 0 = I op "tf" attr (xs.map (argVal e)) 0) :
    ConvStep I D fresh g r g' := by
  refine ConvStep.using (D := fun args => D args ∧ ∃ env e, Sat I env e g.nodeList ∧ args = xs.map (argVal e)) ?_ ?_
  · refine site_step hf S h hok hown hσ (fun _ => rfl) ?_ (List.Perm.refl _) ?_ ?_ ?_ ?_
    · rintro i hi ⟨n, hn, hin⟩
      cases hn
      exact Or.inl (hmiss i hi hin)
    · simp only [Option.toList, List.map_nil, List.append_nil, Fed, and_true]
      exact fun i hi => Or.inr (hsub i hi)
    · simpa [Node.isGraphInput, not_or, and_assoc] using hop
    · exact ⟨⟨name, op', "", attr', xs', [o]⟩, by simp, rfl⟩
    · rintro e he ⟨hD, env, e', hs, hargs⟩
      simp only [Eqs, argVals, Option.toList, List.map_nil, List.append_nil, List.headD, and_true] at he
      rw [he]
      have hsame : ∀ i ∈ xs, argVal e i = argVal e' i := by
        intro i hi
        exact List.map_inj_left.1 hargs i hi
      have : xs'.map (argVal e) = xs'.map (argVal e') := List.map_congr_left fun i hi => hsame i (hsub i hi)
      rw [this, hargs]
      exact law env e' hs (by rw [← hargs]; exact hD)
  · intro env e hs hd
    refine ⟨hd, env, e, hs, ?_⟩
    rw [S.node]
    rfl

/-! ## ArgMax, ArgMin -/

/-- A tensor of type `t` and an axis. -/
def AxisArgs (t : DT) (P : Ten Val → Prop) (args : List (Option (Ten Val))) : Prop :=
  ∃ a ax : Ten Val, args = [some a, some ax] ∧ a.dt = t ∧ P a

/-- A constant that is one integer, as a scalar. -/
def IsInt (W : Tensor) (t : DT) (z : Int) : Prop := W.dtype = code t ∧ W.dims = [] ∧ W.data = [z]

theorem IsInt.vec {z : Int} (h : IsInt W t z) : IsVec W t := ⟨h.1, Or.inl ⟨h.2.1, by rw [h.2.2]; rfl⟩⟩

theorem IsInt.int {z : Int} (h : IsInt W t z) : W.int = .ok z := by simp [Tensor.int, h.2.1, h.2.2]

theorem argAxis_ok {n : Nat} {z : Int} : argAxis (some n) z = normAxis n z := by
  unfold argAxis normAxis
  by_cases e : z < 0 <;> simp [e]
  omega

/-- **`ArgMax`, `ArgMin` with INT64 result**: the axis becomes an attribute; a negative axis needs a recorded shape (not a scalar). -/
theorem arg_converts (on : OnnxAxisOps v I A) (tf : TfAxisOps I A) (co : ConstOps I) (hf : FreshTensors fresh)
    (hop : op ∈ ["ArgMax", "ArgMin"]) (S : Site fresh g r name op attr [x, c] o) (hty : attr.get "output_type" = some (.int 7)) {z : Int}
    (hw : IsInt W t' z) (hc : ConstIn g c W) (hz : z < 0 → ∃ n, g.rankOf x = some n) (ht : numeric t = true)
    (h : G.handle fresh argActs g r = .ok g') :
    ConvStep I (AxisArgs t (fun a => AxisOk a.rank z ∧ RankOk g x a.rank)) fresh g r g' := by
  have hop' : op ∉ ["Placeholder", "PlaceholderWithDefault", "PlaceholderV2"] :=
    (by decide : ∀ op ∈ ["ArgMax", "ArgMin"], op ∉ ["Placeholder", "PlaceholderWithDefault", "PlaceholderV2"]) op hop
  refine self_step hf S (handle_run h (as := [.setAttr "axis" (.int (argAxis (g.rankOf x) z)), .setAttr "keepdims" (.int 0), .dropInput 1]) ?_) ?_
    (by simp) (op' := op) (attr' := (attr.set "axis" (.int (argAxis (g.rankOf x) z))).set "keepdims" (.int 0)) (xs' := [x]) (miss := [c]) (top := false)
    ?_ ?_ (by simp) hop' ?_
  · acts [argActs, S.constAt (i := 1) rfl hc, hw.int, S.node, hty]
  · grp []
  · grp []
  · intro i hi _
    rw [List.mem_singleton.1 hi]
    exact hc.out
  · rintro env e hs ⟨a, ax, hargs, ha, hax, hrk⟩
    simp only [List.map_cons, List.map_nil] at hargs ⊢
    obtain ⟨h1, h2, rfl, rfl⟩ := args2 hargs
    have hh := (hc.val co hs hw.vec).2.2
    rw [hw.2.2] at hh
    have hn : OnnxAxis v (e x).rank (argAxis (g.rankOf x) z) ∧ axisOf (e x).rank (argAxis (g.rankOf x) z) = axisOf (e x).rank z := by
      by_cases hneg : z < 0
      · obtain ⟨n, hn⟩ := hz hneg
        obtain rfl := hrk n hn
        rw [hn, argAxis_ok]
        exact ⟨⟨hax.norm.2, fun _ => hax.norm.1⟩, axisOf_norm hax⟩
      · simp only [argAxis, hneg, if_false]
        exact ⟨⟨hax, fun _ => by omega⟩, trivial⟩
    rw [h1, h2, on.arg op hop _ _ _ (by simp) (by simp) hn.1 (by rw [ha]; exact ht), hn.2, tf.arg64 op hop _ _ _ z hty hh hax]

/-- **`ArgMax`, `ArgMin` with INT32 result**: the same, and the indices are cast. -/
theorem arg32_converts (on : OnnxAxisOps v I A) (oe : OnnxOps v I K cast) (tf : TfAxisOps I A) (co : ConstOps I) (al : ArrLaws A)
    (hf : FreshTensors fresh) (hop : op ∈ ["ArgMax", "ArgMin"]) (S : Site fresh g r name op attr [x, c] o) (hno : o ∉ g.outputs)
    (hty : attr.get "output_type" = some (.int 6)) {z : Int}
    (hw : IsInt W t' z) (hc : ConstIn g c W) (hz : z < 0 → ∃ n, g.rankOf x = some n) (ht : numeric t = true)
    (h : G.handle fresh argActs g r = .ok g') :
    ConvStep I (AxisArgs t (fun a => AxisOk a.rank z ∧ RankOk g x a.rank ∧ a.size (axisOf a.rank z) ≠ 0 ∧ a.size (axisOf a.rank z) ≤ 2 ^ 31))
      fresh g r g' := by
  have hop' : op ∉ ["Placeholder", "PlaceholderWithDefault", "PlaceholderV2"] :=
    (by decide : ∀ op ∈ ["ArgMax", "ArgMin"], op ∉ ["Placeholder", "PlaceholderWithDefault", "PlaceholderV2"]) op hop
  have hox : x ≠ o ∧ c ≠ o := ⟨fun h => S.own (by simp [h]), fun h => S.own (by simp [h])⟩
  refine ConvStep.using (D := fun args => AxisArgs t (fun a => AxisOk a.rank z ∧ RankOk g x a.rank ∧ a.size (axisOf a.rank z) ≠ 0 ∧
    a.size (axisOf a.rank z) ≤ 2 ^ 31) args ∧ ∃ a ax, args = [some a, some ax] ∧ Holds ax [z]) ?_ ?_
  · refine site_step hf S (handle_run h (as := [.make (castSpec o 6), .insertOut o, .setAttr "axis" (.int (argAxis (g.rankOf x) z)),
        .setAttr "keepdims" (.int 0), .dropInput 1]) ?_) ?_ (by simp)
      (self := some ⟨name, op, "", (attr.set "axis" (.int (argAxis (g.rankOf x) z))).set "keepdims" (.int 0), [x], [o]⟩)
      (news := [(g.heap.length, ⟨fresh g.heap.length, "Cast", "", [("to", .int 6)], [o], [port fresh g.heap.length]⟩)])
      (out := port fresh g.heap.length) (len := g.heap.length + 1) (miss := [c]) (top := false)
      ?_ (fun h => absurd h hno) ?_ (List.Perm.refl _) ?_ ?_ ?_ ?_
    · acts [argActs, S.constAt (i := 1) rfl hc, hw.int, S.node, hty]
    · grp []
    · grp [hox.1, hox.2]
    · intro i hi _
      rw [List.mem_singleton.1 hi]
      exact Or.inl hc.out
    · simp [Fed]
    · simpa [Node.isGraphInput, not_or, and_assoc] using hop'
    · simp
    · rintro e he ⟨⟨a, ax, hargs, ha, hax, hrk, hne, hfit⟩, a', ax', hargs', hh⟩
      simp only [List.map_cons, List.map_nil] at hargs hargs'
      obtain ⟨h1, h2, rfl, rfl⟩ := args2 hargs
      obtain ⟨-, -, rfl, rfl⟩ := args2 hargs'
      simp only [Eqs, argVals, List.map_cons, List.map_nil, Option.toList, List.singleton_append, h1, h2, List.headD, argVal_ne S.oe] at he ⊢
      obtain ⟨e1, e2, -⟩ := he
      obtain ⟨a1, a2⟩ := al.arg op (axisOf (e x).rank z) (e x) hne
      have hn : OnnxAxis v (e x).rank (argAxis (g.rankOf x) z) ∧ axisOf (e x).rank (argAxis (g.rankOf x) z) = axisOf (e x).rank z := by
        by_cases hneg : z < 0
        · obtain ⟨n, hn⟩ := hz hneg
          obtain rfl := hrk n hn
          rw [hn, argAxis_ok]
          exact ⟨⟨hax.norm.2, fun _ => hax.norm.1⟩, axisOf_norm hax⟩
        · simp only [argAxis, hneg, if_false]
          exact ⟨⟨hax, fun _ => by omega⟩, trivial⟩
      rw [on.arg op hop _ _ _ (by simp) (by simp) hn.1 (by rw [ha]; exact ht), hn.2] at e1
      rw [oe.isCast _ .int32 _ rfl, e1] at e2
      rw [e2, tf.arg32 op hop _ _ _ z hty hh hax]
      refine Ten.ext_at rfl rfl (fun i => ?_)
      obtain ⟨n, hn1, hn2⟩ := a2 (fun k => if dim (A.arg op (axisOf (e x).rank z) (e x)).sh k = 1 then 0 else i k)
      have hg : (A.arg op (axisOf (e x).rank z) (e x)).get i = .num n := hn1
      simp only [Ten.map_at, hg, id]
      refine oe.conf.exact _ _ (Or.inl ⟨_, rfl, (n : Int), by simp, ?_, ?_⟩)
      · simp only []; omega
      · simp only []; omega
  · intro env e hs hd
    refine ⟨hd, ?_⟩
    rw [S.node] at hd ⊢
    obtain ⟨a, ax, hargs, -⟩ := hd
    obtain ⟨h1, h2, rfl, rfl⟩ := args2 hargs
    have hh := (hc.val co hs hw.vec).2.2
    rw [hw.2.2] at hh
    exact ⟨_, _, hargs, hh⟩

/-- A negative axis of a tensor without a recorded shape stays negative: no axis before operator set 11. -/
theorem arg_axis_unknown {z : Int} (hz : z < 0) (hn : g.rankOf x = none) (hv : v < 11) (n : Nat) : ¬ OnnxAxis v n (argAxis (g.rankOf x) z) := by
  rintro ⟨-, h⟩
  have := h hv
  simp [argAxis, hz, hn] at this
  omega

/-! ## Squeeze -/

/-- One operand of type `t`. -/
def OneArg (t : DT) (P : Ten Val → Prop) (args : List (Option (Ten Val))) : Prop := ∃ a : Ten Val, args = [some a] ∧ a.dt = t ∧ P a

theorem args1 {V : Type} {e : String → V} {x : String} {a : V} (h : [argVal e x] = [some a]) : argVal e x = some (e x) ∧ a = e x := by
  obtain ⟨h1, -⟩ := List.cons.inj h
  obtain ⟨-, h3⟩ := argVal_some h1
  exact ⟨by rw [h1, h3], h3.symm⟩

/-- **`Squeeze` of all dimensions of size 1.** -/
theorem squeeze_all_converts (on : OnnxAxisOps v I A) (tf : TfAxisOps I A) (hf : FreshTensors fresh) (S : Site fresh g r name "Squeeze" attr [x] o)
    (hd : attr.get "squeeze_dims" = none ∨ attr.get "squeeze_dims" = some (.ints [])) (hax : attr.get "axes" = none) (ht : moveTypes v t = true)
    (h : G.handle fresh (squeezeActs fresh v) g r = .ok g') : ConvStep I (OneArg t (fun _ => True)) fresh g r g' := by
  have law : ∀ attr' : Dict String Attr, attr'.get "axes" = none → ∀ env e, Sat I env e g.nodeList → OneArg t (fun _ => True) ([x].map (argVal e)) →
      I "Squeeze" "" attr' ([x].map (argVal e)) 0 = I "Squeeze" "tf" attr ([x].map (argVal e)) 0 := by
    rintro attr' ha' env e - ⟨a, hargs, ha, -⟩
    simp only [List.map_cons, List.map_nil] at hargs ⊢
    obtain ⟨h1, rfl⟩ := args1 hargs
    rw [h1, on.squeezeAll _ _ ha' (by rw [ha]; exact ht), tf.squeezeAll _ _ hd]
  rcases hd with hd | hd
  · refine self_step hf S (handle_run h (as := []) ?_) ?_ (by simp) (op' := "Squeeze") (attr' := attr) (xs' := [x]) (miss := []) (top := false)
      ?_ (by simp) (by simp) (by decide) (law attr hax)
    · acts [squeezeActs, S.node, hd]
    · grp []
    · grp []
  · refine self_step hf S (handle_run h (as := [.attrs (attr.erase "squeeze_dims")]) ?_) ?_ (by simp) (op' := "Squeeze")
      (attr' := attr.erase "squeeze_dims") (xs' := [x]) (miss := []) (top := false)
      ?_ (by simp) (by simp) (by decide) (law _ (by simp [hax]))
    · acts [squeezeActs, S.node, hd]
    · grp []
    · grp []

/-- What `Squeeze` computes for the axes before operator set 13. -/
theorem squeezeActs_attr (S : Site fresh g r name "Squeeze" attr [x] o) (hv : v < 13) {l : List Int} (hd : attr.get "squeeze_dims" = some (.ints l))
    (hl : l ≠ []) {as : List Act} (h : squeezeActs fresh v g r = .ok as) :
    ∃ l', as = [.attrs (attr.erase "squeeze_dims"), .setAttr "axes" (.ints l')] ∧
      (l' = l ∧ (v < 11 → ∀ a ∈ l, 0 ≤ a) ∨ ∃ n, g.rankOf x = some n ∧ l' = addRank n l) := by
  simp only [squeezeActs, G.inp, S.node, bind, Except.bind, List.getElem?_cons_zero, hd, hl, if_false, hv, if_true] at h
  by_cases e : (l.any (fun a => a < 0) && decide (v < 11)) = true
  · rw [if_pos e] at h
    cases hn : g.rankOf x with
    | none => rw [hn] at h; cases h
    | some n =>
      rw [hn] at h
      simp only [Except.ok.injEq] at h
      exact ⟨_, h.symm, Or.inr ⟨n, rfl, rfl⟩⟩
  · rw [if_neg e] at h
    simp only [Except.ok.injEq] at h
    refine ⟨l, h.symm, Or.inl ⟨rfl, fun hv' a ha => ?_⟩⟩
    by_contra hn
    exact e (by simp only [hv', decide_true, Bool.and_true, List.any_eq_true]; exact ⟨a, ha, by simp; omega⟩)

theorem addRank_eq' (n : Nat) (l : List Int) : addRank n l = l.map (normAxis n) := rfl

/-- **`Squeeze` of given dimensions before operator set 13**: the axes are an attribute. -/
theorem squeeze_attr_converts (on : OnnxAxisOps v I A) (tf : TfAxisOps I A) (hf : FreshTensors fresh) (hv : v < 13)
    (S : Site fresh g r name "Squeeze" attr [x] o) {l : List Int} (hd : attr.get "squeeze_dims" = some (.ints l)) (hl : l ≠ [])
    (ht : moveTypes v t = true) (h : G.handle fresh (squeezeActs fresh v) g r = .ok g') :
    ConvStep I (OneArg t (fun a => AxesOk a.rank l ∧ SqueezeOk a l ∧ RankOk g x a.rank)) fresh g r g' := by
  cases hda : squeezeActs fresh v g r with
  | error m => simp [G.handle, hda, bind, Except.bind] at h
  | ok as =>
  obtain ⟨l', rfl, hl'⟩ := squeezeActs_attr S hv hd hl hda
  refine self_step hf S (handle_run h hda) ?_ (by simp) (op' := "Squeeze")
    (attr' := (attr.erase "squeeze_dims").set "axes" (.ints l')) (xs' := [x]) (miss := []) (top := false)
    ?_ (by simp) (by simp) (by decide) ?_
  · grp []
  · grp []
  · rintro env e - ⟨a, hargs, ha, hax, hsq, hrk⟩
    simp only [List.map_cons, List.map_nil] at hargs ⊢
    obtain ⟨h1, rfl⟩ := args1 hargs
    have hne' : l' ≠ [] := by
      rcases hl' with ⟨rfl, -⟩ | ⟨n, -, rfl⟩
      · exact hl
      · simpa [addRank_eq'] using hl
    have hl2 : OnnxAxes v (e x).rank l' ∧ axisSet (e x).rank l' = axisSet (e x).rank l ∧ SqueezeOk (e x) l' := by
      rcases hl' with ⟨rfl, hneg⟩ | ⟨n, hn, rfl⟩
      · exact ⟨⟨hax, hneg⟩, rfl, hsq⟩
      · obtain rfl := hrk n hn
        rw [addRank_eq']
        refine ⟨hax.norm v, axisSet_norm hax.ok, fun z hz => ?_⟩
        obtain ⟨w, hw, rfl⟩ := List.mem_map.1 hz
        rw [axisOf_norm (hax.ok w hw)]
        exact hsq w hw
    rw [h1, on.squeezeAttr _ _ l' hv (by simp) hne' hl2.1 hl2.2.2 (by rw [ha]; exact ht), hl2.2.1, tf.squeeze _ _ l hd hl hax hsq]

/-- **`Squeeze` of given dimensions from operator set 13 on**: the axes are a constant input. -/
theorem squeeze_in_converts (on : OnnxAxisOps v I A) (tf : TfAxisOps I A) (co : ConstOps I) (hf : FreshTensors fresh) (hv : 13 ≤ v)
    (S : Site fresh g r name "Squeeze" attr [x] o) (hown : ∀ q ∈ g.nodes, (g.node q).name ∉ (g.node q).input)
    {l : List Int} (hd : attr.get "squeeze_dims" = some (.ints l)) (hl : l ≠ []) (h : G.handle fresh (squeezeActs fresh v) g r = .ok g') :
    ConvStep I (OneArg t (fun a => AxesOk a.rank l ∧ SqueezeOk a l)) fresh g r g' := by
  have hv' : ¬ v < 13 := by omega
  have hv'' : ¬ v < 11 := by omega
  refine site_step hf S (handle_run h (as := [.attrs (attr.erase "squeeze_dims"), .make (.const ⟨7, [l.length], l⟩), .inputs [x, fresh g.heap.length]])
      ?_) ?_ (fun _ => hown)
    (self := some ⟨name, "Squeeze", "", attr.erase "squeeze_dims", [x, fresh g.heap.length], [o]⟩)
    (news := [(g.heap.length, ⟨fresh g.heap.length, "Const", "", [("value", .tensor ⟨7, [l.length], l⟩)], [], [fresh g.heap.length]⟩)])
    (out := o) (len := g.heap.length + 1) (miss := []) (top := true)
    ?_ (fun _ => rfl) (by simp) (perm_of_idx (idx := [1, 0]) (by decide : [1, 0].Perm (List.range 2))) ?_ ?_ ?_ ?_
  · acts [squeezeActs, S.node, hd, hl, hv', hv'']
  · grp []
  · grp []
  · simp [Fed]
  · simp [Node.isGraphInput]
  · simp
  · rintro e he ⟨a, hargs, ha, hax, hsq⟩
    simp only [List.map_cons, List.map_nil] at hargs
    obtain ⟨h1, rfl⟩ := args1 hargs
    simp [Eqs, argVals, h1, argVal_ne (hf.ne _)] at he ⊢
    obtain ⟨e1, e2⟩ := he
    obtain ⟨c1, c2, c3⟩ := co.const "" [("value", .tensor ⟨7, [l.length], l⟩)] .int64 ⟨7, [l.length], l⟩ (Or.inl rfl) rfl rfl (by simp)
    rw [← e1] at c1 c2 c3
    rw [e2, on.squeezeIn _ _ _ l hv c3 (by simp [Ten.rank, c2]) c1 hl hax hsq, tf.squeeze _ _ l hd hl hax hsq]

/-! ## Transpose, Gather -/

/-- **`Transpose` by a constant permutation.** -/
theorem transpose_converts (on : OnnxAxisOps v I A) (tf : TfAxisOps I A) (co : ConstOps I) (hf : FreshTensors fresh)
    (S : Site fresh g r name "Transpose" attr [x, c] o) (hw : IsVec W t') (hc : ConstIn g c W) (ht : moveTypes v t = true)
    (h : G.handle fresh transposeActs g r = .ok g') : ConvStep I (AxisArgs t (fun a => PermOk a.rank W.data)) fresh g r g' := by
  refine self_step hf S (handle_run h (as := [.dropInput 1, .setAttr "perm" (.ints W.data)]) ?_) ?_
    (by simp) (op' := "Transpose") (attr' := attr.set "perm" (.ints W.data)) (xs' := [x]) (miss := [c]) (top := false) ?_ ?_ (by simp) (by decide) ?_
  · acts [transposeActs, S.constAt (i := 1) rfl hc, hw.vec, S.node]
  · grp []
  · grp []
  · intro i hi _
    rw [List.mem_singleton.1 hi]
    exact hc.out
  · rintro env e hs ⟨a, ax, hargs, ha, hp⟩
    simp only [List.map_cons, List.map_nil] at hargs ⊢
    obtain ⟨h1, h2, rfl, rfl⟩ := args2 hargs
    rw [h1, h2, on.transpose _ _ W.data (by simp) hp (by rw [ha]; exact ht), tf.transpose _ _ _ _ (hc.val co hs hw).2.2 hp]

/-- **`Gather`**: rows. -/
theorem gather_converts (on : OnnxAxisOps v I A) (tf : TfAxisOps I A) (hf : FreshTensors fresh)
    (S : Site fresh g r name "Gather" attr [x, y] o) (hax : attr.get "axis" = none) (ht : moveTypes v t = true)
    (h : G.handle fresh gatherActs g r = .ok g') :
    ConvStep I (fun args => ∃ a ix : Ten Val, args = [some a, some ix] ∧ a.dt = t ∧ a.rank ≠ 0 ∧ IdxOk a ix 0) fresh g r g' := by
  refine self_step hf S (handle_run h (as := [.setType "Gather"]) rfl) ?_
    (by simp) (op' := "Gather") (attr' := attr) (xs' := [x, y]) (miss := []) (top := false) ?_ (by simp) (by simp) (by decide) ?_
  · grp []
  · grp []
  · rintro env e hs ⟨a, ix, hargs, ha, hr, hi⟩
    simp only [List.map_cons, List.map_nil] at hargs ⊢
    obtain ⟨h1, h2, rfl, rfl⟩ := args2 hargs
    rw [h1, h2, on.gather0 _ _ _ hax hr hi (by rw [ha]; exact ht), tf.gather _ _ _ hr hi]

theorem args3 {V : Type} {e : String → V} {x y z : String} {a b c : V} (h : [argVal e x, argVal e y, argVal e z] = [some a, some b, some c]) :
    argVal e x = some (e x) ∧ argVal e y = some (e y) ∧ argVal e z = some (e z) ∧ a = e x ∧ b = e y ∧ c = e z := by
  obtain ⟨h1, h2⟩ := List.cons.inj h
  obtain ⟨h2, h3⟩ := List.cons.inj h2
  obtain ⟨h3, -⟩ := List.cons.inj h3
  obtain ⟨-, k1⟩ := argVal_some h1
  obtain ⟨-, k2⟩ := argVal_some h2
  obtain ⟨-, k3⟩ := argVal_some h3
  exact ⟨by rw [h1, k1], by rw [h2, k2], by rw [h3, k3], k1.symm, k2.symm, k3.symm⟩

/-- **`GatherV2`** with a constant axis and no batch dimensions. -/
theorem gatherV2_converts (on : OnnxAxisOps v I A) (tf : TfAxisOps I A) (co : ConstOps I) (hf : FreshTensors fresh)
    (S : Site fresh g r name "GatherV2" attr [x, y, c] o) (hb : attr.get "batch_dims" = none ∨ attr.get "batch_dims" = some (.int 0)) {z : Int}
    (hw : IsInt W t' z) (hc : ConstIn g c W) (ht : moveTypes v t = true) (h : G.handle fresh gatherV2Acts g r = .ok g') :
    ConvStep I (fun args => ∃ a ix ax : Ten Val, args = [some a, some ix, some ax] ∧ a.dt = t ∧ AxisOk a.rank z ∧ IdxOk a ix (axisOf a.rank z))
      fresh g r g' := by
  refine self_step hf S (handle_run h (as := [.setType "Gather", .dropInput 2, .setAttr "axis" (.int z)]) ?_) ?_
    (by simp) (op' := "Gather") (attr' := attr.set "axis" (.int z)) (xs' := [x, y]) (miss := [c]) (top := false) ?_ ?_ (by simp) (by decide) ?_
  · acts [gatherV2Acts, S.constAt (i := 2) rfl hc, hw.int, S.node, hb]
  · grp []
  · grp []
  · intro i hi _
    rw [List.mem_singleton.1 hi]
    exact hc.out
  · rintro env e hs ⟨a, ix, ax, hargs, ha, hax, hi⟩
    simp only [List.map_cons, List.map_nil] at hargs ⊢
    obtain ⟨h1, h2, h3, rfl, rfl, rfl⟩ := args3 hargs
    have hh := (hc.val co hs hw.vec).2.2
    rw [hw.2.2] at hh
    rw [h1, h2, h3, on.gather _ z _ _ (by simp) hax hi (by rw [ha]; exact ht), tf.gatherV2 _ _ _ _ z hb hh hax hi]

end Verif.Graph
