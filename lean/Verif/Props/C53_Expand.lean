import Verif.Props.C53_Shape
/-!
# C53: `ExpandDims`
-/
namespace Verif.Graph
open Verif Verif.Elem Verif.Cast

variable {v : Nat} {I : Interp (Ten Val)} {A : Arr} {K T : Kern Val} {cast : DT → Val → Val}
  {fresh : Nat → String} {g g' : G} {r : Ref} {name op op' : String} {attr attr' : Dict String Attr} {x y c o : String} {xs xs' : List String}
  {t t' : DT} {W : Tensor}

/-- **`ExpandDims` before operator set 13**: the axis becomes an attribute; the recorded rank of the result is used for a negative axis before 11. -/
theorem expandDims_attr_converts (on : OnnxAxisOps v I A) (tf : TfAxisOps I A) (co : ConstOps I) (hf : FreshTensors fresh) (hv : v < 13)
    (S : Site fresh g r name "ExpandDims" attr [x, c] o) {z : Int} (hw : IsVec W t') (hz : W.data = [z]) (hc : ConstIn g c W)
    (ht : moveTypes v t = true) (h : G.handle fresh (expandDimsActs v) g r = .ok g') :
    ConvStep I (AxisArgs t (fun a => AxisOk (a.rank + 1) z ∧ RankOk g o (a.rank + 1))) fresh g r g' := by
  cases hda : expandDimsActs v g r with
  | error m => simp [G.handle, hda, bind, Except.bind] at h
  | ok as =>
  have hcases : ∃ z', as = [.setType "Unsqueeze", .setAttr "axes" (.ints [z']), .dropInput 1] ∧
      (z' = z ∧ (v < 11 → 0 ≤ z) ∨ ∃ n : Nat, g.rankOf o = some n ∧ z < 0 ∧ z' = z + n) := by
    simp only [expandDimsActs, S.constAt (i := 1) rfl hc, G.outp, S.node, hz, bind, Except.bind] at hda
    by_cases e : z < 0 ∧ v < 11
    · simp only [List.getElem?_cons_zero] at hda
      rw [if_pos e] at hda
      cases hn : g.rankOf o with
      | none => rw [hn] at hda; cases hda
      | some n =>
        rw [hn] at hda
        simp only [Except.ok.injEq] at hda
        exact ⟨_, hda.symm, Or.inr ⟨n, rfl, e.1, rfl⟩⟩
    · simp only [List.getElem?_cons_zero] at hda
      rw [if_neg e] at hda
      simp only [Except.ok.injEq] at hda
      exact ⟨_, hda.symm, Or.inl ⟨rfl, fun hv => by by_contra hn; exact e ⟨by omega, hv⟩⟩⟩
  obtain ⟨z', rfl, hz'⟩ := hcases
  refine self_step hf S (handle_run h hda) ?_ (by simp) (op' := "Unsqueeze") (attr' := attr.set "axes" (.ints [z'])) (xs' := [x]) (miss := [c])
    (top := false) ?_ ?_ (by simp) (by decide) ?_
  · grp []
  · grp []
  · intro i hi _
    rw [List.mem_singleton.1 hi]
    exact hc.out
  · rintro env e hs ⟨a, ax, hargs, ha, hax, hrk⟩
    simp only [List.map_cons, List.map_nil] at hargs ⊢
    obtain ⟨h1, h2, rfl, rfl⟩ := args2 hargs
    have hh := (hc.val co hs hw).2.2
    rw [hz] at hh
    have hn : OnnxAxis v ((e x).rank + 1) z' ∧ axisOf ((e x).rank + 1) z' = axisOf ((e x).rank + 1) z := by
      rcases hz' with ⟨rfl, hn⟩ | ⟨n, hn, hneg, rfl⟩
      · exact ⟨⟨hax, hn⟩, rfl⟩
      · obtain rfl := hrk n hn
        have e : z + (((e x).rank + 1 : Nat) : Int) = normAxis ((e x).rank + 1) z := by simp [normAxis, hneg]
        rw [e]
        exact ⟨⟨hax.norm.2, fun _ => hax.norm.1⟩, axisOf_norm hax⟩
    rw [h1, h2, on.unsqueezeAttr _ _ z' hv (by simp) hn.1 (by rw [ha]; exact ht), hn.2, tf.expandDims _ _ _ z hh hax]

/-- A tensor and an axis of the result that may be computed by the graph; what is recorded of the axis is right. -/
def ExpandArgs (g : G) (c : String) (args : List (Option (Ten Val))) : Prop :=
  ∃ (a ax : Ten Val) (z : Int), args = [some a, some ax] ∧ Holds ax [z] ∧ AxisOk (a.rank + 1) z ∧ HasType .int64 (.num z) ∧
    (g.dtypes.get c = some 7 → ax.dt = .int64) ∧ RankOk g c ax.rank

/-- **`ExpandDims` from operator set 13 on**: the axis stays an input, cast to INT64 and made a vector where needed. -/
theorem expandDims_in_converts (on : OnnxAxisOps v I A) (oe : OnnxOps v I K cast) (tf : TfAxisOps I A) (co : ConstOps I) (al : ArrLaws A)
    (hf : FreshTensors fresh) (hv : 13 ≤ v) (S : Site fresh g r name "ExpandDims" attr [x, c] o) (hxc : x ≠ c)
    (hown : ∀ q ∈ g.nodes, (g.node q).name ∉ (g.node q).input) {infer : Bool} (h : G.handle fresh (expandDims13Acts fresh infer) g r = .ok g') :
    ConvStep I (ExpandArgs g c) fresh g r g' := by
  have hi := findIdx_second hxc
  have p1 : ∀ k, g.heap.length ≤ k → port fresh k ≠ x ∧ port fresh k ≠ c := by
    intro k hk
    have := (S.mine hk (Or.inr rfl)).1
    simp only [List.mem_cons, not_or] at this
    exact ⟨this.1, this.2.1⟩
  obtain ⟨px, p0⟩ := p1 _ (Nat.le_refl _)
  have ex : g.inp r 1 = .ok c := by simp [G.inp, S.node]
  have hport : ∀ k, port fresh k ≠ "" := fun k => Mine.ne hf (k := k) (Or.inr rfl)
  have fc : ∀ k, g.heap.length ≤ k → fresh k ≠ c := by
    intro k hk
    have := (S.mine hk (Or.inl rfl)).1
    simp only [List.mem_cons, not_or] at this
    exact this.2.1
  have ff : ∀ {j k : Nat} {z : String}, Mine fresh j z → j ≠ k → fresh k ≠ z := fun hz hjk e => hjk (Mine.inj hf hz (Or.inl e.symm))
  have hr1 : g.shapeOf c = some [1] → g.rankOf c = some 1 := by
    intro hs
    have := shapeOf_rank g c
    rw [hs] at this
    simpa using this.symm
  by_cases h7 : g.dtypes.get c = some 7
  · by_cases h1 : g.shapeOf c = some [1]
    · refine self_step hf S (handle_run h (as := [.setType "Unsqueeze"]) ?_) ?_ (by simp) (op' := "Unsqueeze") (attr' := attr) (xs' := [x, c]) (miss := [])
        (top := false) ?_ (by simp) (by simp) (by decide) ?_
      · simp [expandDims13Acts, ex, bind, Except.bind, castIns, castActs, castLen, castShape, S.node, h7, h1]
      · grp []
      · grp []
      · rintro env e - ⟨a, ax, z, hargs, hl, hax, hz, hd, hrk⟩
        simp only [List.map_cons, List.map_nil] at hargs ⊢
        obtain ⟨q1, q2, rfl, rfl⟩ := args2 hargs
        rw [q1, q2, on.unsqueezeIn _ _ _ z hv hl (hrk 1 (hr1 h1)).symm (hd h7) hax, tf.expandDims _ _ _ z hl hax]
    · refine site_step hf S (handle_run h (as := [.make (.const ⟨7, [1], [1]⟩), .make (.mk' "Reshape" [c, fresh g.heap.length]),
          .inputs [x, port fresh (g.heap.length + 1)], .setType "Unsqueeze"]) ?_) ?_ (fun _ => hown)
        (self := some ⟨name, "Unsqueeze", "", attr, [x, port fresh (g.heap.length + 1)], [o]⟩)
        (news := [(g.heap.length, ⟨fresh g.heap.length, "Const", "", [("value", .tensor ⟨7, [1], [1]⟩)], [], [fresh g.heap.length]⟩),
          (g.heap.length + 1, ⟨fresh (g.heap.length + 1), "Reshape", "", [], [c, fresh g.heap.length], [port fresh (g.heap.length + 1)]⟩)])
        (out := o) (len := g.heap.length + 2) (miss := []) (top := true)
        ?_ (fun _ => rfl) (by simp) (perm_of_idx (idx := [1, 2, 0]) (by decide : [1, 2, 0].Perm (List.range 3))) ?_ ?_ ?_ ?_
      · simp [expandDims13Acts, ex, bind, Except.bind, castIns, castActs, castLen, castShape, S.node, h7, h1]
      · grp []
        exact ⟨fc _ (by omega), ff (j := g.heap.length) (Or.inl rfl) (by omega)⟩
      · grp []
      · simp [Fed]
      · simp [Node.isGraphInput]
      · simp
      · rintro e he ⟨a, ax, z, hargs, hl, hax, hz, hd, hrk⟩
        simp only [List.map_cons, List.map_nil] at hargs
        obtain ⟨q1, q2, rfl, rfl⟩ := args2 hargs
        simp [Eqs, argVals, q1, q2, argVal_ne (hf.ne _), argVal_ne (hport _)] at he ⊢
        obtain ⟨e1, e2, e3⟩ := he
        obtain ⟨c1, c2, c3⟩ := co.const "" [("value", .tensor ⟨7, [1], [1]⟩)] .int64 ⟨7, [1], [1]⟩ (Or.inl rfl) rfl rfl (by simp)
        rw [← e1] at c1 c2 c3
        obtain ⟨d1, d2, d3⟩ := al.flat1 _ _ hl
        rw [on.reshape _ _ _ [1] rfl c3 (by simp [Ten.rank, c2]) c1 ⟨by simp, by simp⟩ (by simp [moveTypes, hd h7])
          (fun k hk => absurd (List.mem_of_getElem? hk) (by decide)), copyZeros_one] at e2
        rw [e3, e2, on.unsqueezeIn _ _ _ z hv d1 d2 (d3.trans (hd h7)) hax, tf.expandDims _ _ _ z hl hax]
  · by_cases h1 : infer = true ∧ g.shapeOf c = some [1]
    · refine site_step hf S (handle_run h (as := [.make (castSpec c 7), .inputAt 1 (port fresh g.heap.length), .setType "Unsqueeze"]) ?_) ?_ (by simp)
        (self := some ⟨name, "Unsqueeze", "", attr, [x, port fresh g.heap.length], [o]⟩)
        (news := [(g.heap.length, ⟨fresh g.heap.length, "Cast", "", [("to", .int 7)], [c], [port fresh g.heap.length]⟩)])
        (out := o) (len := g.heap.length + 1) (miss := [c]) (top := true)
        ?_ (fun _ => rfl) ?_ (perm_of_idx (idx := [1, 0]) (by decide : [1, 0].Perm (List.range 2))) ?_ ?_ ?_ ?_
      · simp [expandDims13Acts, ex, bind, Except.bind, castIns, castActs, castLen, castShape, S.node, h7, h1, onFirst, subFirst, hi]
      · grp []
      · grp [show c ≠ fresh g.heap.length ++ ":0" from p0.symm]
      · simp [Ne.symm hxc, p0.symm]
      · simp [Fed]
      · simp [Node.isGraphInput]
      · simp
      · rintro e he ⟨a, ax, z, hargs, hl, hax, hz, hd, hrk⟩
        simp only [List.map_cons, List.map_nil] at hargs
        obtain ⟨q1, q2, rfl, rfl⟩ := args2 hargs
        simp [Eqs, argVals, q1, q2, argVal_ne (hport _)] at he ⊢
        obtain ⟨e1, e2⟩ := he
        rw [oe.isCast _ .int64 _ rfl] at e1
        have hl2 := hl.cast oe.conf (by simpa using hz)
        rw [e2, e1, on.unsqueezeIn _ _ _ z hv hl2 (hrk 1 (hr1 h1.2)).symm rfl hax, tf.expandDims _ _ _ z hl hax]
    · refine site_step hf S (handle_run h (as := [.make (castSpec c 7), .inputAt 1 (port fresh g.heap.length), .make (.const ⟨7, [1], [1]⟩),
          .make (.mk' "Reshape" [port fresh g.heap.length, fresh (g.heap.length + 1)]), .inputs [x, port fresh (g.heap.length + 2)],
          .setType "Unsqueeze"]) ?_) ?_ (fun _ => hown)
        (self := some ⟨name, "Unsqueeze", "", attr, [x, port fresh (g.heap.length + 2)], [o]⟩)
        (news := [(g.heap.length, ⟨fresh g.heap.length, "Cast", "", [("to", .int 7)], [c], [port fresh g.heap.length]⟩),
          (g.heap.length + 1, ⟨fresh (g.heap.length + 1), "Const", "", [("value", .tensor ⟨7, [1], [1]⟩)], [], [fresh (g.heap.length + 1)]⟩),
          (g.heap.length + 2, ⟨fresh (g.heap.length + 2), "Reshape", "", [], [port fresh g.heap.length, fresh (g.heap.length + 1)],
            [port fresh (g.heap.length + 2)]⟩)])
        (out := o) (len := g.heap.length + 3) (miss := [c]) (top := true)
        ?_ (fun _ => rfl) ?_ (perm_of_idx (idx := [1, 2, 3, 0]) (by decide : [1, 2, 3, 0].Perm (List.range 4))) ?_ ?_ ?_ ?_
      · by_cases hin : infer = true
        · have h1' : g.shapeOf c ≠ some [1] := fun e => h1 ⟨hin, e⟩
          simp [expandDims13Acts, ex, bind, Except.bind, castIns, castActs, castLen, castShape, S.node, h7, h1', onFirst, subFirst, hi, p0, hin]
        · simp [expandDims13Acts, ex, bind, Except.bind, castIns, castActs, castLen, castShape, S.node, h7, onFirst, subFirst, hi, p0, hin]
      · grp []
        exact ⟨fc _ (by omega), ff (j := g.heap.length) (Or.inr rfl) (by omega), ff (j := g.heap.length + 1) (Or.inl rfl) (by omega)⟩
      · grp [show c ≠ fresh g.heap.length ++ ":0" from p0.symm]
      · simp [Ne.symm hxc, p0.symm, (p1 (g.heap.length + 2) (by omega)).2.symm]
      · simp [Fed]
      · simp [Node.isGraphInput]
      · simp
      · rintro e he ⟨a, ax, z, hargs, hl, hax, hz, hd, hrk⟩
        simp only [List.map_cons, List.map_nil] at hargs
        obtain ⟨q1, q2, rfl, rfl⟩ := args2 hargs
        simp [Eqs, argVals, q1, q2, argVal_ne (hf.ne _), argVal_ne (hport _)] at he ⊢
        obtain ⟨e0, e1, e2, e3⟩ := he
        obtain ⟨c1, c2, c3⟩ := co.const "" [("value", .tensor ⟨7, [1], [1]⟩)] .int64 ⟨7, [1], [1]⟩ (Or.inl rfl) rfl rfl (by simp)
        rw [← e1] at c1 c2 c3
        rw [oe.isCast _ .int64 _ rfl] at e0
        have hl2 := hl.cast oe.conf (by simpa using hz)
        rw [← e0] at hl2
        have ht2 : (e (port fresh g.heap.length)).dt = .int64 := by rw [e0]; rfl
        obtain ⟨d1, d2, d3⟩ := al.flat1 _ _ hl2
        rw [on.reshape _ _ _ [1] rfl c3 (by simp [Ten.rank, c2]) c1 ⟨by simp, by simp⟩ (by simp [moveTypes, ht2])
          (fun k hk => absurd (List.mem_of_getElem? hk) (by decide)), copyZeros_one] at e2
        rw [e3, e2, on.unsqueezeIn _ _ _ z hv d1 d2 (d3.trans ht2) hax, tf.expandDims _ _ _ z hl hax]

end Verif.Graph
