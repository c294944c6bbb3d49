import Verif.Props.C53_Base
/-!
# C53: reductions
-/
namespace Verif.Graph
open Verif Verif.Elem Verif.Cast

variable {v : Nat} {I : Interp (Ten Val)} {A : Arr} {K T : Kern Val} {cast : DT → Val → Val}
  {fresh : Nat → String} {g g' : G} {r : Ref} {name op : String} {attr : Dict String Attr} {x y c o : String} {t : DT} {W : Tensor}

/-- Operands of a reduction over the axes `l`: a tensor of type `t` that has these dimensions, each named once, and whose recorded rank is right. -/
def RedArgs (t : DT) (l : List Int) (R : Nat → Prop) (args : List (Option (Ten Val))) : Prop :=
  ∃ a ax : Ten Val, args = [some a, some ax] ∧ a.dt = t ∧ AxesOk a.rank l ∧ R a.rank

/-- The axes of a reduction before operator set 13 (`Sum`) or 18: what the handler writes. -/
theorem reduceAttr_acts (S : Site fresh g r name op attr [x, c] o) {k : Int} (hk : attr.get "keep_dims" = some (.int k)) (hw : IsVec W t)
    (hc : ConstIn g c W) {as : List Act} (h : reduceAttrActs v (g.setType r ("Reduce" ++ op)) r = .ok as) :
    ∃ l, as = [.setAttr "axes" (.ints l), .dropInput 1, .setAttr "keepdims" (.int k),
        .attrs (((attr.set "axes" (.ints l)).set "keepdims" (.int k)).erase "keep_dims")] ∧
      (g.rankOf x = none ∧ l = W.data ∧ (v < 11 → ∀ a ∈ l, 0 ≤ a) ∨ ∃ n, g.rankOf x = some n ∧ l = addRank n W.data) := by
  have h1 : (g.setType r ("Reduce" ++ op)).inp r 0 = .ok x := by simp [G.inp, S.setType_node]
  have h2 : (g.setType r ("Reduce" ++ op)).keepDims r = .ok (.int k) := by simp [G.keepDims, S.setType_node, hk]
  simp only [reduceAttrActs, S.constAt_setType (i := 1) rfl hc, hw.vec, h1, h2, bind, Except.bind, setType_rankOf, S.setType_node] at h
  cases hr : g.rankOf x with
  | none =>
    rw [hr] at h
    simp only at h
    by_cases e : (W.data.any (fun a => a < 0) && decide (v < 11)) = true
    · rw [if_pos e] at h; cases h
    · rw [if_neg e] at h
      simp only [Except.ok.injEq] at h
      refine ⟨W.data, h.symm, Or.inl ⟨rfl, rfl, fun hv a ha => ?_⟩⟩
      by_contra hn
      exact e (by simp only [hv, decide_true, Bool.and_true, List.any_eq_true]; exact ⟨a, ha, by simp; omega⟩)
  | some n =>
    rw [hr] at h
    simp only [Except.ok.injEq] at h
    exact ⟨_, h.symm, Or.inr ⟨n, rfl, rfl⟩⟩

theorem addRank_eq (n : Nat) (l : List Int) : addRank n l = l.map (normAxis n) := rfl

/-- **Reductions before operator set 13 (`Sum`) or 18 (`Max`, `Mean`, `Min`, `Prod`)**: constant axes, negative ones included, become the attribute
`axes` and mean the same dimensions. There must be at least one axis. -/
theorem reduce_attr_converts (on : OnnxAxisOps v I A) (tf : TfAxisOps I A) (co : ConstOps I) (hf : FreshTensors fresh) (hop : op ∈ redOps)
    (hv : v < redInputFrom op) (S : Site fresh g r name op attr [x, c] o) {k : Int} (hk : attr.get "keep_dims" = some (.int k)) {t' : DT}
    (hw : IsVec W t') (hne : W.data ≠ []) (hc : ConstIn g c W) (ht : redTypes v op t = true)
    (h : (entry fresh (some ("Reduce" ++ op)) (reduceAttrActs v)).convert g r = .ok g') :
    ConvStep I (RedArgs t W.data (RankOk g x)) fresh g r g' := by
  cases hd : reduceAttrActs v (g.setType r ("Reduce" ++ op)) r with
  | error m => simp [MapInfo.convert, entry, G.handle, hd, bind, Except.bind] at h
  | ok as =>
  obtain ⟨l, rfl, hl⟩ := reduceAttr_acts S hk hw hc hd
  have hne' : l ≠ [] := by
    rcases hl with ⟨-, rfl, -⟩ | ⟨n, -, rfl⟩
    · exact hne
    · simpa [addRank_eq] using hne
  have hop' : ("Reduce" ++ op) ∉ ["Placeholder", "PlaceholderWithDefault", "PlaceholderV2"] :=
    (by decide : ∀ op ∈ redOps, ("Reduce" ++ op) ∉ ["Placeholder", "PlaceholderWithDefault", "PlaceholderV2"]) op hop
  refine ConvStep.using (D := fun args => RedArgs t W.data (RankOk g x) args ∧ ∃ a ax, args = [some a, some ax] ∧ Holds ax W.data) ?_ ?_
  · refine site_step hf S (entry_renamed S h hd) ?_ (by simp)
      (self := some ⟨name, "Reduce" ++ op, "", ((attr.set "axes" (.ints l)).set "keepdims" (.int k)).erase "keep_dims", [x], [o]⟩)
      (news := []) (out := o) (len := g.heap.length) (miss := [c]) (top := false)
      ?_ (fun _ => rfl) ?_ (List.Perm.refl _) ?_ ?_ ?_ ?_
    · grp []
    · grp []
    · intro i hi _
      simp only [List.mem_singleton] at hi
      exact Or.inl (hi ▸ hc.out)
    · simp [Fed]
    · simpa [Node.isGraphInput, not_or, and_assoc] using hop'
    · simp
    · rintro e he ⟨⟨a, ax, hargs, ha, hax, hrk⟩, a', ax', hargs', hh⟩
      simp only [List.map_cons, List.map_nil] at hargs hargs'
      obtain ⟨h1, h2, rfl, rfl⟩ := args2 hargs
      obtain ⟨-, -, rfl, rfl⟩ := args2 hargs'
      simp only [Eqs, argVals, List.map_cons, List.map_nil, Option.toList, List.append_nil, h1, h2, List.headD] at he ⊢
      have hl' : OnnxAxes v (e x).rank l ∧ axisSet (e x).rank l = axisSet (e x).rank W.data := by
        rcases hl with ⟨-, rfl, hneg⟩ | ⟨n, hn, rfl⟩
        · exact ⟨⟨hax, hneg⟩, rfl⟩
        · obtain rfl := hrk n hn
          rw [addRank_eq]
          exact ⟨hax.norm v, axisSet_norm hax.ok⟩
      rw [he.1, on.redAttr op hop hv _ l k _ (by simp) (by simp) hne' hl'.1 (by rw [ha]; exact ht), hl'.2, tf.reduce op hop _ k _ _ _ hk hh hax]
  · intro env e hs hd
    refine ⟨hd, ?_⟩
    rw [S.node] at hd ⊢
    obtain ⟨a, ax, hargs, -⟩ := hd
    obtain ⟨h1, h2, rfl, rfl⟩ := args2 hargs
    exact ⟨_, _, hargs, (hc.val co hs hw).2.2⟩

/-- The same handler when there are no axes: TensorFlow reduces nothing, the result reduces everything. -/
theorem reduce_attr_no_axes_wrong (on : OnnxAxisOps v I A) (tf : TfAxisOps I A) (al : ArrLaws A) (hop : op ∈ redOps) (hv : v < redInputFrom op)
    {attr' : Dict String Attr} {k : Int} (hk : attr.get "keep_dims" = some (.int k)) {a ax : Ten Val} (ht : redTypes v op a.dt = true) (hax : Holds ax [])
    (ha : attr' = ((attr.set "axes" (.ints [])).set "keepdims" (.int k)).erase "keep_dims") :
    I op "tf" attr [some a, some ax] 0 = a.self ∧ I ("Reduce" ++ op) "" attr' [some a] 0 = A.reduce op (k ≠ 0) {j | j < a.rank} a := by
  subst ha
  refine ⟨?_, on.redAll op hop hv _ k a (by simp) (by simp) ht⟩
  rw [tf.reduce op hop _ k a ax [] hk hax ⟨by simp, by simp⟩, axisSet_nil, al.reduce_none hop]

/-- Operands of a reduction whose axes may be computed by the graph: integers that fit into INT64; what is recorded is right. -/
def RedInArgs (g : G) (c : String) (t : DT) (args : List (Option (Ten Val))) : Prop :=
  ∃ (a ax : Ten Val) (l : List Int), args = [some a, some ax] ∧ a.dt = t ∧ Holds ax l ∧ AxesOk a.rank l ∧ (∀ z ∈ l, HasType .int64 (.num z)) ∧
    (g.dtypes.get c = some 7 → ax.dt = .int64) ∧ RankOk g c ax.rank

theorem shapeOf_rank (g : G) (x : String) : (g.shapeOf x).map List.length = g.rankOf x := by
  unfold G.shapeOf G.rankOf
  cases g.shapes.get x with
  | none => rfl
  | some s => cases s <;> simp

/-- What a reduction with its axes as an input computes. -/
theorem redIn_law (on : OnnxAxisOps v I A) (tf : TfAxisOps I A) (al : ArrLaws A) (hop : op ∈ redOps) (hv : redInputFrom op ≤ v) {k : Int}
    (hk : attr.get "keep_dims" = some (.int k)) {a ax ax' : Ten Val} {l : List Int} (ht : redTypes v op a.dt = true) (hl : Holds ax l) (hl' : Holds ax' l)
    (h1 : ax'.rank = 1) (h2 : ax'.dt = .int64) (hax : AxesOk a.rank l) :
    I ("Reduce" ++ op) "" (((attr.set "keepdims" (.int k)).erase "keep_dims").set "noop_with_empty_axes" (.int 1)) [some a, some ax'] 0 =
      I op "tf" attr [some a, some ax] 0 := by
  rw [on.redIn op hop hv _ l k a ax' (by simp) (by simp) hl' h1 h2 hax ht, tf.reduce op hop _ k a ax l hk hl hax]
  split
  · rename_i e
    subst e
    rw [axisSet_nil, al.reduce_none hop]
  · rfl

/-- **Reductions from operator set 13 (`Sum`) or 18 on**: the axes stay an input, cast to INT64 and flattened where needed; no axes: nothing is reduced,
as in TensorFlow. The axes need not be constant, but must not be the reduced tensor itself. -/
theorem reduce_in_converts (on : OnnxAxisOps v I A) (oe : OnnxOps v I K cast) (tf : TfAxisOps I A) (co : ConstOps I) (al : ArrLaws A)
    (hf : FreshTensors fresh) (hop : op ∈ redOps) (hv : redInputFrom op ≤ v) (S : Site fresh g r name op attr [x, c] o) (hxc : x ≠ c)
    {k : Int} (hk : attr.get "keep_dims" = some (.int k)) (ht : redTypes v op t = true) {infer : Bool}
    (h : (entry fresh (some ("Reduce" ++ op)) (reduceInActs fresh infer)).convert g r = .ok g') :
    ConvStep I (RedInArgs g c t) fresh g r g' := by
  have hop' : ("Reduce" ++ op) ∉ ["Placeholder", "PlaceholderWithDefault", "PlaceholderV2"] :=
    (by decide : ∀ op ∈ redOps, ("Reduce" ++ op) ∉ ["Placeholder", "PlaceholderWithDefault", "PlaceholderV2"]) op hop
  have hi : [x, c].findIdx? (· = c) = some 1 := by simp [List.findIdx?_cons, hxc]
  have p1 : ∀ k, g.heap.length ≤ k → port fresh k ≠ x ∧ port fresh k ≠ c := by
    intro k hk
    have := (S.mine hk (Or.inr rfl)).1
    simp only [List.mem_cons, not_or] at this
    exact ⟨this.1, this.2.1⟩
  obtain ⟨px, p0⟩ := p1 _ (Nat.le_refl _)
  have pp : port fresh g.heap.length ≠ port fresh (g.heap.length + 2) := fun h =>
    absurd (Mine.inj hf (Or.inr rfl : Mine fresh g.heap.length (port fresh g.heap.length)) (Or.inr h)) (by omega)
  have hj : [x, port fresh g.heap.length].findIdx? (· = port fresh g.heap.length) = some 1 := by simp [List.findIdx?_cons, px.symm]
  have ek : (g.setType r ("Reduce" ++ op)).keepDims r = .ok (.int k) := by simp [G.keepDims, S.setType_node, hk]
  have ex : (g.setType r ("Reduce" ++ op)).inp r 1 = .ok c := by simp [G.inp, S.setType_node]
  have hport : ∀ k, port fresh k ≠ "" := fun k => Mine.ne hf (k := k) (Or.inr rfl)
  by_cases h7 : g.dtypes.get c = some 7
  · by_cases h1 : g.rankOf c = some 1
    · refine site_step hf S (entry_renamed S h (as := [.setAttr "keepdims" (.int k), .attrs ((attr.set "keepdims" (.int k)).erase "keep_dims"),
          .setAttr "noop_with_empty_axes" (.int 1)]) ?_) ?_ (by simp)
        (self := some ⟨name, "Reduce" ++ op, "", ((attr.set "keepdims" (.int k)).erase "keep_dims").set "noop_with_empty_axes" (.int 1), [x, c], [o]⟩)
        (news := []) (out := o) (len := g.heap.length) (miss := []) (top := false)
        ?_ (fun _ => rfl) (by simp) (List.Perm.refl _) ?_ ?_ ?_ ?_
      · simp [reduceInActs, ek, ex, bind, Except.bind, castIns, castActs, castLen, castShape, S.setType_node, h7, shapeOf_rank, h1]
      · grp []
      · grp []
      · simp [Fed]
      · simpa [Node.isGraphInput, not_or, and_assoc] using hop'
      · simp
      · rintro e he ⟨a, ax, l, hargs, ha, hl, hax, hz, hd, hrk⟩
        simp only [List.map_cons, List.map_nil] at hargs
        obtain ⟨q1, q2, rfl, rfl⟩ := args2 hargs
        simp only [Eqs, argVals, List.map_cons, List.map_nil, Option.toList, List.append_nil, q1, q2, List.headD] at he ⊢
        rw [he.1]
        exact redIn_law on tf al hop hv hk (by rw [ha]; exact ht) hl hl (hrk 1 h1).symm (hd h7) hax
    · refine site_step hf S (entry_renamed S h (as := [.setAttr "keepdims" (.int k), .attrs ((attr.set "keepdims" (.int k)).erase "keep_dims"),
          .setAttr "noop_with_empty_axes" (.int 1), .make (.const ⟨7, [1], [-1]⟩), .make (.mk' "Reshape" [c, fresh g.heap.length]),
          .inputAt 1 (port fresh (g.heap.length + 1))]) ?_) ?_ (by simp)
        (self := some ⟨name, "Reduce" ++ op, "", ((attr.set "keepdims" (.int k)).erase "keep_dims").set "noop_with_empty_axes" (.int 1),
          [x, port fresh (g.heap.length + 1)], [o]⟩)
        (news := [(g.heap.length, ⟨fresh g.heap.length, "Const", "", [("value", .tensor ⟨7, [1], [-1]⟩)], [], [fresh g.heap.length]⟩),
          (g.heap.length + 1, ⟨fresh (g.heap.length + 1), "Reshape", "", [], [c, fresh g.heap.length], [port fresh (g.heap.length + 1)]⟩)])
        (out := o) (len := g.heap.length + 2) (miss := [c]) (top := true)
        ?_ (fun _ => rfl) ?_ (perm_of_idx (idx := [1, 2, 0]) (by decide : [1, 2, 0].Perm (List.range 3))) ?_ ?_ ?_ ?_
      · simp [reduceInActs, ek, ex, bind, Except.bind, castIns, castActs, castLen, castShape, S.setType_node, h7, shapeOf_rank, h1, onFirst, hi]
      · grp []
      · grp [show c ≠ fresh (g.heap.length + 1) ++ ":0" from (p1 (g.heap.length + 1) (by omega)).2.symm]
      · simp [Ne.symm hxc, (p1 (g.heap.length + 1) (by omega)).2.symm]
      · simp [Fed]
      · simpa [Node.isGraphInput, not_or, and_assoc] using hop'
      · simp
      · rintro e he ⟨a, ax, l, hargs, ha, hl, hax, hz, hd, hrk⟩
        simp only [List.map_cons, List.map_nil] at hargs
        obtain ⟨q1, q2, rfl, rfl⟩ := args2 hargs
        simp [Eqs, argVals, q1, q2, argVal_ne (hf.ne _), argVal_ne (hport _)] at he ⊢
        obtain ⟨e1, e2, e3⟩ := he
        obtain ⟨c1, c2, c3⟩ := co.const "" [("value", .tensor ⟨7, [1], [-1]⟩)] .int64 ⟨7, [1], [-1]⟩ (Or.inl rfl) rfl rfl (by simp)
        rw [← e1] at c1 c2 c3
        obtain ⟨d1, d2, d3⟩ := al.flat _ _ hl
        rw [on.reshape _ _ _ [-1] rfl c3 (by simp [Ten.rank, c2]) c1 ⟨by simp, by simp⟩ (by simp [moveTypes, hd h7]) (fun k hk => absurd (List.mem_of_getElem? hk) (by decide)), copyZeros_flat] at e2
        rw [e3, e2]
        exact redIn_law on tf al hop hv hk (by rw [ha]; exact ht) hl d1 d2 (d3.trans (hd h7)) hax
  · have hcast : ∀ (a : Ten Val) (l : List Int), Holds a l → (∀ z ∈ l, HasType .int64 (.num z)) →
        Holds (Ten.map .int64 (cast .int64) a) l := fun a l hl hz => hl.cast oe.conf hz
    by_cases h1 : infer = true ∧ g.rankOf c = some 1
    · refine site_step hf S (entry_renamed S h (as := [.setAttr "keepdims" (.int k), .attrs ((attr.set "keepdims" (.int k)).erase "keep_dims"),
          .setAttr "noop_with_empty_axes" (.int 1), .make (castSpec c 7), .inputAt 1 (port fresh g.heap.length)]) ?_) ?_ (by simp)
        (self := some ⟨name, "Reduce" ++ op, "", ((attr.set "keepdims" (.int k)).erase "keep_dims").set "noop_with_empty_axes" (.int 1),
          [x, port fresh g.heap.length], [o]⟩)
        (news := [(g.heap.length, ⟨fresh g.heap.length, "Cast", "", [("to", .int 7)], [c], [port fresh g.heap.length]⟩)])
        (out := o) (len := g.heap.length + 1) (miss := [c]) (top := true)
        ?_ (fun _ => rfl) ?_ (perm_of_idx (idx := [1, 0]) (by decide : [1, 0].Perm (List.range 2))) ?_ ?_ ?_ ?_
      · simp [reduceInActs, ek, ex, bind, Except.bind, castIns, castActs, castLen, castShape, S.setType_node, h7, shapeOf_rank, h1, onFirst, subFirst, hi]
      · grp []
      · grp [show c ≠ fresh g.heap.length ++ ":0" from p0.symm]
      · simp [Ne.symm hxc, p0.symm]
      · simp [Fed]
      · simpa [Node.isGraphInput, not_or, and_assoc] using hop'
      · simp
      · rintro e he ⟨a, ax, l, hargs, ha, hl, hax, hz, hd, hrk⟩
        simp only [List.map_cons, List.map_nil] at hargs
        obtain ⟨q1, q2, rfl, rfl⟩ := args2 hargs
        simp [Eqs, argVals, q1, q2, argVal_ne (hport _)] at he ⊢
        obtain ⟨e1, e2⟩ := he
        rw [oe.isCast _ .int64 _ rfl] at e1
        rw [e2, e1]
        exact redIn_law on tf al hop hv hk (by rw [ha]; exact ht) hl (hcast _ _ hl hz) (hrk 1 h1.2).symm rfl hax
    · have p1' := p1 (g.heap.length + 2) (by omega)
      refine site_step hf S (entry_renamed S h (as := [.setAttr "keepdims" (.int k), .attrs ((attr.set "keepdims" (.int k)).erase "keep_dims"),
          .setAttr "noop_with_empty_axes" (.int 1), .make (castSpec c 7), .inputAt 1 (port fresh g.heap.length),
          .make (.const ⟨7, [1], [-1]⟩), .make (.mk' "Reshape" [port fresh g.heap.length, fresh (g.heap.length + 1)]),
          .inputAt 1 (port fresh (g.heap.length + 2))]) ?_) ?_ (by simp)
        (self := some ⟨name, "Reduce" ++ op, "", ((attr.set "keepdims" (.int k)).erase "keep_dims").set "noop_with_empty_axes" (.int 1),
          [x, port fresh (g.heap.length + 2)], [o]⟩)
        (news := [(g.heap.length, ⟨fresh g.heap.length, "Cast", "", [("to", .int 7)], [c], [port fresh g.heap.length]⟩),
          (g.heap.length + 1, ⟨fresh (g.heap.length + 1), "Const", "", [("value", .tensor ⟨7, [1], [-1]⟩)], [], [fresh (g.heap.length + 1)]⟩),
          (g.heap.length + 2, ⟨fresh (g.heap.length + 2), "Reshape", "", [], [port fresh g.heap.length, fresh (g.heap.length + 1)],
            [port fresh (g.heap.length + 2)]⟩)])
        (out := o) (len := g.heap.length + 3) (miss := [c, port fresh g.heap.length]) (top := true)
        ?_ (fun _ => rfl) ?_ (perm_of_idx (idx := [1, 2, 3, 0]) (by decide : [1, 2, 3, 0].Perm (List.range 4))) ?_ ?_ ?_ ?_
      · by_cases hin : infer = true
        · have h1' : g.rankOf c ≠ some 1 := fun e => h1 ⟨hin, e⟩
          simp [reduceInActs, ek, ex, bind, Except.bind, castIns, castActs, castLen, castShape, S.setType_node, h7, shapeOf_rank, h1', onFirst, subFirst,
            hi, hj, p0, hin]
        · simp [reduceInActs, ek, ex, bind, Except.bind, castIns, castActs, castLen, castShape, S.setType_node, h7, onFirst, subFirst, hi, hj, p0, hin]
      · grp []
      · grp [show c ≠ fresh g.heap.length ++ ":0" from p0.symm, show c ≠ fresh (g.heap.length + 2) ++ ":0" from p1'.2.symm,
          show fresh g.heap.length ++ ":0" ≠ fresh (g.heap.length + 2) ++ ":0" from pp]
      · simp [Ne.symm hxc, p1'.2.symm, px, pp]
      · simp [Fed]
      · simpa [Node.isGraphInput, not_or, and_assoc] using hop'
      · simp
      · rintro e he ⟨a, ax, l, hargs, ha, hl, hax, hz, hd, hrk⟩
        simp only [List.map_cons, List.map_nil] at hargs
        obtain ⟨q1, q2, rfl, rfl⟩ := args2 hargs
        simp [Eqs, argVals, q1, q2, argVal_ne (hf.ne _), argVal_ne (hport _)] at he ⊢
        obtain ⟨e0, e1, e2, e3⟩ := he
        obtain ⟨c1, c2, c3⟩ := co.const "" [("value", .tensor ⟨7, [1], [-1]⟩)] .int64 ⟨7, [1], [-1]⟩ (Or.inl rfl) rfl rfl (by simp)
        rw [← e1] at c1 c2 c3
        rw [oe.isCast _ .int64 _ rfl] at e0
        have hl2 := hcast _ _ hl hz
        rw [← e0] at hl2
        have ht2 : (e (port fresh g.heap.length)).dt = .int64 := by rw [e0]; rfl
        obtain ⟨d1, d2, d3⟩ := al.flat _ _ hl2
        rw [on.reshape _ _ _ [-1] rfl c3 (by simp [Ten.rank, c2]) c1 ⟨by simp, by simp⟩ (by simp [moveTypes, ht2]) (fun k hk => absurd (List.mem_of_getElem? hk) (by decide)), copyZeros_flat] at e2
        rw [e3, e2]
        exact redIn_law on tf al hop hv hk (by rw [ha]; exact ht) hl d1 d2 (d3.trans ht2) hax

/-- Which of the two forms the handler writes for operator set `v`. -/
theorem reduceActs_which (S : Site fresh g r name op attr [x, c] o) (hop : op ∈ redOps) (infer : Bool) :
    reduceActs fresh infer v (g.setType r ("Reduce" ++ op)) r =
      if redInputFrom op ≤ v then reduceInActs fresh infer (g.setType r ("Reduce" ++ op)) r else reduceAttrActs v (g.setType r ("Reduce" ++ op)) r := by
  have h1 : ((g.setType r ("Reduce" ++ op)).node r).op = "Reduce" ++ op := by rw [S.setType_node]
  unfold reduceActs
  rw [h1]
  have h2 : ("Reduce" ++ op = "ReduceSum") ↔ op = "Sum" :=
    (by decide : ∀ op ∈ redOps, ("Reduce" ++ op = "ReduceSum") ↔ op = "Sum") op hop
  have h3 : (18 ≤ v ∨ 13 ≤ v ∧ "Reduce" ++ op = "ReduceSum") ↔ redInputFrom op ≤ v := by
    rw [h2]
    unfold redInputFrom
    by_cases e : op = "Sum" <;> simp [e]
    omega
  by_cases e : redInputFrom op ≤ v
  · rw [if_pos (h3.2 e), if_pos e]
  · rw [if_neg (fun h => e (h3.1 h)), if_neg e]

/-- **Reductions over constant axes, in every operator set.** The axes may be negative, and below operator set 13 or 18 there must be at least one. -/
theorem reduce_converts (on : OnnxAxisOps v I A) (oe : OnnxOps v I K cast) (tf : TfAxisOps I A) (co : ConstOps I) (al : ArrLaws A)
    (hf : FreshTensors fresh) (hop : op ∈ redOps) (S : Site fresh g r name op attr [x, c] o) {k : Int} (hk : attr.get "keep_dims" = some (.int k))
    {t' : DT} (hw : IsVec W t') (hne : v < redInputFrom op → W.data ≠ []) (hxc : redInputFrom op ≤ v → x ≠ c) (hc : ConstIn g c W)
    (hty : g.dtypes.get c = some 7 → t' = .int64) (hsh : RankOk g c W.dims.length) (hfit : ∀ z ∈ W.data, HasType .int64 (.num z))
    (ht : redTypes v op t = true) {infer : Bool}
    (h : (entry fresh (some ("Reduce" ++ op)) (reduceActs fresh infer v)).convert g r = .ok g') :
    ConvStep I (RedArgs t W.data (RankOk g x)) fresh g r g' := by
  have hw' := reduceActs_which (v := v) S hop infer
  by_cases e : redInputFrom op ≤ v
  · rw [if_pos e] at hw'
    have h' : (entry fresh (some ("Reduce" ++ op)) (reduceInActs fresh infer)).convert g r = .ok g' := by
      simpa [MapInfo.convert, entry, G.handle, hw'] using h
    refine (reduce_in_converts on oe tf co al hf hop e S (hxc e) hk ht h').using ?_
    intro env e' hs hd
    rw [S.node] at hd ⊢
    obtain ⟨a, ax, hargs, h1, h2, h3⟩ := hd
    obtain ⟨-, -, rfl, rfl⟩ := args2 hargs
    obtain ⟨k1, k2, k3⟩ := hc.val co hs hw
    exact ⟨_, _, _, hargs, h1, k3, h2, hfit, fun h7 => k1.trans (hty h7), by rw [Ten.rank, k2]; exact hsh⟩
  · rw [if_neg e] at hw'
    have h' : (entry fresh (some ("Reduce" ++ op)) (reduceAttrActs v)).convert g r = .ok g' := by
      simpa [MapInfo.convert, entry, G.handle, hw'] using h
    exact reduce_attr_converts on tf co hf hop (by omega) S hk hw (hne (by omega)) hc ht h'

/-- The axes of a reduction of a tensor by its own elements: the `Cast` of the axes lands on the tensor, the axes stay INT32. -/
theorem reduce_in_own_axes_acts (S : Site fresh g r name "Sum" attr [x, x] o) {k : Int} (hk : attr.get "keep_dims" = some (.int k)) {infer : Bool}
    (h7 : g.dtypes.get x ≠ some 7) (h1 : g.rankOf x = some 1) :
    reduceInActs fresh infer (g.setType r "ReduceSum") r = .ok [.setAttr "keepdims" (.int k), .attrs ((attr.set "keepdims" (.int k)).erase "keep_dims"),
      .setAttr "noop_with_empty_axes" (.int 1), .make (castSpec x 7), .inputAt 0 (port fresh g.heap.length)] := by
  have ek : (g.setType r "ReduceSum").keepDims r = .ok (.int k) := by simp [G.keepDims, S.setType_node, hk]
  have ex : (g.setType r "ReduceSum").inp r 1 = .ok x := by simp [G.inp, S.setType_node]
  simp [reduceInActs, ek, ex, bind, Except.bind, castIns, castActs, castLen, castShape, S.setType_node, h7, shapeOf_rank, h1, onFirst, subFirst,
    List.findIdx?_cons]

end Verif.Graph
