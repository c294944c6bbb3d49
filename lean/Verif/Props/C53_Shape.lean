import Verif.Props.C53_Reduce
import Verif.Props.C53_Tensor
/-!
# C53: operators with a target shape, `ExpandDims`, `EnsureShape`, `Size`
-/
namespace Verif.Graph
open Verif Verif.Elem Verif.Cast

variable {v : Nat} {I : Interp (Ten Val)} {A : Arr} {K T : Kern Val} {cast : DT → Val → Val}
  {fresh : Nat → String} {g g' : G} {r : Ref} {name op op' : String} {attr attr' : Dict String Attr} {x y c o : String} {xs xs' : List String}
  {t t' : DT} {W : Tensor}

/-- Input 1 is cast to INT64. -/
theorem slotCast_step (oe : OnnxOps v I K cast) (hf : FreshTensors fresh) (S : Site fresh g r name op attr [x, c] o) (hxc : x ≠ c) {pre : List Act}
    (hpre : pre = [] ∧ op' = op ∨ pre = [.setType op']) (hop : op' ∉ ["Placeholder", "PlaceholderWithDefault", "PlaceholderV2"])
    (h : G.runActs fresh g r (.onnx :: pre ++ [.make (castSpec c 7), .inputAt 1 (port fresh g.heap.length)]) g = .ok g')
    {D : Ten Val → Ten Val → Prop}
    (law : ∀ a s, D a s → I op' "" attr [some a, some (Ten.map .int64 (cast .int64) s)] 0 = I op "tf" attr [some a, some s] 0) :
    ConvStep I (fun args => ∃ a s : Ten Val, args = [some a, some s] ∧ D a s) fresh g r g' := by
  have hport : ∀ k, port fresh k ≠ "" := fun k => Mine.ne hf (k := k) (Or.inr rfl)
  have p0 : port fresh g.heap.length ≠ x ∧ port fresh g.heap.length ≠ c := by
    have := (S.mine (Nat.le_refl _) (Or.inr rfl)).1
    simp only [List.mem_cons, not_or] at this
    exact ⟨this.1, this.2.1⟩
  have fin : ∀ e : String → Ten Val,
      Eqs I e [⟨fresh g.heap.length, "Cast", "", [("to", .int 7)], [c], [port fresh g.heap.length]⟩,
        ⟨name, op', "", attr, [x, port fresh g.heap.length], [o]⟩] →
      (∃ a s : Ten Val, [argVal e x, argVal e c] = [some a, some s] ∧ D a s) → e o = I op "tf" attr ([x, c].map (argVal e)) 0 := by
    rintro e he ⟨a, s, hargs, hd⟩
    obtain ⟨q1, q2, rfl, rfl⟩ := args2 hargs
    simp [Eqs, argVals, q1, q2, argVal_ne (hport _)] at he ⊢
    obtain ⟨e1, e2⟩ := he
    rw [oe.isCast _ .int64 _ rfl] at e1
    rw [e2, e1, law _ _ hd]
  refine site_step hf S h ?_ ?_
    (self := some ⟨name, op', "", attr, [x, port fresh g.heap.length], [o]⟩)
    (news := [(g.heap.length, ⟨fresh g.heap.length, "Cast", "", [("to", .int 7)], [c], [port fresh g.heap.length]⟩)])
    (out := o) (len := g.heap.length + 1) (miss := [c]) (top := true)
    ?_ (fun _ => rfl) ?_ (perm_of_idx (idx := [1, 0]) (by decide : [1, 0].Perm (List.range 2))) ?_ ?_ ?_ ?_
  · rcases hpre with ⟨rfl, rfl⟩ | rfl
    · grp []
    · grp []
  · rcases hpre with ⟨rfl, rfl⟩ | rfl <;> simp
  · rcases hpre with ⟨rfl, rfl⟩ | rfl
    · grp [show c ≠ fresh g.heap.length ++ ":0" from p0.2.symm]
    · grp [show c ≠ fresh g.heap.length ++ ":0" from p0.2.symm]
  · simp [Ne.symm hxc, p0.2.symm]
  · simp [Fed]
  · simpa [Node.isGraphInput, not_or, and_assoc] using hop
  · simp
  · intro e he hd
    exact fin e (by simpa using he) hd

theorem findIdx_second (hxc : x ≠ c) : [x, c].findIdx? (· = c) = some 1 := by simp [List.findIdx?_cons, hxc]

theorem shapeCast_second (hxc : x ≠ c) : shapeCastActs fresh g [x, c] c = [.make (castSpec c 7), .inputAt 1 (port fresh g.heap.length)] := by
  unfold shapeCastActs onFirst
  rw [findIdx_second hxc]

/-- A tensor and integers that fit into INT64. -/
def ShapeArgs (P : Ten Val → List Int → Prop) (a s : Ten Val) : Prop :=
  ∃ l : List Int, Holds s l ∧ s.rank = 1 ∧ (∀ z ∈ l, HasType .int64 (.num z)) ∧ P a l

theorem ShapeArgs.fit {P : Ten Val → List Int → Prop} {a s : Ten Val} (hc : Conforming cast) (h : ShapeArgs P a s) :
    ∃ l, Holds s l ∧ Holds (Ten.map .int64 (cast .int64) s) l ∧ (Ten.map .int64 (cast .int64) s).rank = 1 ∧ P a l := by
  obtain ⟨l, h1, h2, h3, h4⟩ := h
  exact ⟨l, h1, h1.cast hc h3, h2, h4⟩

/-- **`Tile`**: the counts may be computed by the graph. -/
theorem tile_converts (on : OnnxAxisOps v I A) (oe : OnnxOps v I K cast) (tf : TfAxisOps I A) (hf : FreshTensors fresh)
    (S : Site fresh g r name "Tile" attr [x, c] o) (hxc : x ≠ c) (h : G.handle fresh (tileActs fresh) g r = .ok g') :
    ConvStep I (fun args => ∃ a s : Ten Val, args = [some a, some s] ∧
      ShapeArgs (fun a l => moveTypes v a.dt = true ∧ l.length = a.rank ∧ ∀ z ∈ l, 0 ≤ z) a s) fresh g r g' := by
  refine slotCast_step oe hf S hxc (op' := "Tile") (pre := []) (Or.inl ⟨rfl, rfl⟩) (by decide) (handle_run h (as := [.make (castSpec c 7), .inputAt 1 (port fresh g.heap.length)]) ?_) ?_
  · acts [tileActs, S.node, shapeCast_second hxc]
  · intro a s hd
    obtain ⟨l, h1, h2, h3, h4, h5, h6⟩ := hd.fit oe.conf
    rw [on.tile _ _ _ l h2 h3 rfl h5 h6 h4, tf.tile _ _ _ l h1 h5 h6]

/-- **`BroadcastTo`**: `Expand`. The dimensions may be computed by the graph. -/
theorem broadcastTo_converts (on : OnnxAxisOps v I A) (oe : OnnxOps v I K cast) (tf : TfAxisOps I A) (hf : FreshTensors fresh) (hv : 8 ≤ v)
    (S : Site fresh g r name "BroadcastTo" attr [x, c] o) (hxc : x ≠ c) (h : G.handle fresh (broadcastToActs fresh) g r = .ok g') :
    ConvStep I (fun args => ∃ a s : Ten Val, args = [some a, some s] ∧
      ShapeArgs (fun a l => moveTypes v a.dt = true ∧ ∀ z ∈ l, 0 ≤ z) a s) fresh g r g' := by
  refine slotCast_step oe hf S hxc (op' := "Expand") (pre := [.setType "Expand"]) (Or.inr rfl) (by decide) (handle_run h (as := [.setType "Expand", .make (castSpec c 7), .inputAt 1 (port fresh g.heap.length)]) ?_) ?_
  · acts [broadcastToActs, S.node, shapeCast_second hxc]
  · intro a s hd
    obtain ⟨l, h1, h2, h3, h4, h6⟩ := hd.fit oe.conf
    rw [on.expand _ _ _ l hv h2 h3 rfl h6 h4, tf.broadcastTo _ _ _ l h1 h6]

/-! ## Reshape -/

/-- The target is written only with sizes ONNX reads the same way: 0 only where the operand has size 0. -/
def ZerosOk (a : Ten Val) (l : List Int) : Prop := ∀ k : Nat, l[k]? = some 0 → k < a.rank ∧ a.size k = 0

/-- The recorded shape of `x` is right. -/
def ShapeOk (g : G) (x : String) (a : Ten Val) : Prop :=
  ∀ d, g.shapeOf x = some d → d.length = a.rank ∧ ∀ (k : Nat) (z : Int), d[k]? = some z → z = -1 ∨ z = a.size k

/-- What `Reshape` decides. -/
theorem reshapeActs_cases (S : Site fresh g r name "Reshape" attr [x, c] o) {as : List Act} (h : reshapeActs fresh g r = .ok as) :
    as = shapeCastActs fresh g [x, c] c ∨ as = [.setType "Identity", .inputs [x]] ∧ ∃ W, g.constAt r 1 = .ok W ∧ W.dims.length = 1 ∧ g.shapeOf x = some W.data := by
  have e0 : g.inp r 0 = .ok x := by simp [G.inp, S.node]
  have e1 : g.inp r 1 = .ok c := by simp [G.inp, S.node]
  have e2 : (g.node r).input = [x, c] := by rw [S.node]
  simp only [reshapeActs, e0, e1, e2, bind, Except.bind, Except.ok.injEq] at h
  cases hc : g.constAt r 1 with
  | error m => rw [hc] at h; exact Or.inl (by simpa using h.symm)
  | ok W =>
    rw [hc] at h
    by_cases e : (decide (W.dims.length = 1) && decide (g.shapeOf x = some W.data)) = true
    · rw [if_pos e] at h
      rw [Bool.and_eq_true, decide_eq_true_iff, decide_eq_true_iff] at e
      exact Or.inr ⟨h.symm, W, rfl, e.1, e.2⟩
    · rw [if_neg e] at h
      exact Or.inl h.symm


/-- **`Reshape`**, from operator set 8 on: the target is cast to INT64, or the node becomes an `Identity` if the operand is recorded to have the target
shape. -/
theorem reshape_converts (on : OnnxAxisOps v I A) (oe : OnnxOps v I K cast) (tf : TfAxisOps I A) (co : ConstOps I) (al : ArrLaws A)
    (hf : FreshTensors fresh) (S : Site fresh g r name "Reshape" attr [x, c] o) (haz : attr.get "allowzero" = none) (hxc : x ≠ c)
    (hown : ∀ q ∈ g.nodes, (g.node q).name ∉ (g.node q).input)
    (hcst : ∀ W, g.constAt r 1 = .ok W → ∃ t', IsVec W t' ∧ ConstIn g c W) (h : G.handle fresh (reshapeActs fresh) g r = .ok g') :
    ConvStep I (fun args => ∃ a s : Ten Val, args = [some a, some s] ∧ ShapeOk g x a ∧
      ShapeArgs (fun a l => moveTypes v a.dt = true ∧ TargetOk l ∧ ZerosOk a l) a s) fresh g r g' := by
  cases hda : reshapeActs fresh g r with
  | error m => simp [G.handle, hda, bind, Except.bind] at h
  | ok as =>
  rcases reshapeActs_cases S hda with rfl | ⟨rfl, W, hW, hd1, hsh⟩
  · rw [shapeCast_second hxc] at hda
    refine slotCast_step oe hf S hxc (op' := "Reshape") (pre := []) (Or.inl ⟨rfl, rfl⟩) (by decide) (handle_run h hda) ?_
    rintro a s ⟨-, hd⟩
    obtain ⟨l, h1, h2, h3, h4, h5, h6⟩ := hd.fit oe.conf
    rw [on.reshape _ _ _ l haz h2 h3 rfl h5 h4 (fun k hk => (h6 k hk).1), copyZeros_self (fun k hk => (h6 k hk).2), tf.reshape _ _ _ l h1 h5]
  · obtain ⟨t', hv, hc⟩ := hcst W hW
    refine self_step hf S (handle_run h hda) ?_ (fun _ => hown) (op' := "Identity") (attr' := attr) (xs' := [x]) (miss := []) (top := false)
      ?_ (by simp) (by simp) (by decide) ?_
    · grp []
    · grp []
    · rintro env e hs ⟨a, s, hargs, hso, l, h1, h2, h3, h4, h5, h6⟩
      simp only [List.map_cons, List.map_nil] at hargs ⊢
      obtain ⟨q1, q2, rfl, rfl⟩ := args2 hargs
      have hh := (hc.val co hs hv).2.2
      obtain rfl := h1.inj hh
      obtain ⟨k1, k2⟩ := hso _ hsh
      rw [q1, q2, oe.identity, tf.reshape _ _ _ _ hh h5, al.same _ _ k1 h5.1 k2]

/-! ## EnsureShape, Size -/

/-- **`EnsureShape`** of a tensor that has the shape. -/
theorem ensureShape_converts (oe : OnnxOps v I K cast) (tf : TfAxisOps I A) (hf : FreshTensors fresh)
    (S : Site fresh g r name "EnsureShape" attr [x] o) (h : G.handle fresh ensureShapeActs g r = .ok g') :
    ConvStep I (OneArg t (fun _ => True)) fresh g r g' := by
  refine self_step hf S (handle_run h (as := [.setType "Identity"]) rfl) ?_ (by simp) (op' := "Identity") (attr' := attr) (xs' := [x]) (miss := [])
    (top := false) ?_ (by simp) (by simp) (by decide) ?_
  · grp []
  · grp []
  · rintro env e - ⟨a, hargs, ha, -⟩
    simp only [List.map_cons, List.map_nil] at hargs ⊢
    obtain ⟨h1, rfl⟩ := args1 hargs
    rw [h1, oe.identity, tf.ensureShape]

/-- **`Size`**: INT64, or cast to INT32. The recorded type of the result must be the type asked for. -/
theorem size_converts (on : OnnxAxisOps v I A) (oe : OnnxOps v I K cast) (tf : TfAxisOps I A) (hf : FreshTensors fresh)
    (S : Site fresh g r name "Size" attr [x] o) (hty : attr.get "out_type" = some (.int (code t'))) (hidx : idxType t' = true)
    (hrec : g.dtypes.get o = some (code t')) (hno : t' = .int32 → o ∉ g.outputs) (h : G.handle fresh sizeActs g r = .ok g') :
    ConvStep I (OneArg t (fun a => moveTypes v a.dt = true ∧ (t' = .int32 → A.size a < 2 ^ 31))) fresh g r g' := by
  by_cases e64 : t' = .int64
  · subst e64
    refine self_step hf S (handle_run h (as := []) ?_) ?_ (by simp) (op' := "Size") (attr' := attr) (xs' := [x]) (miss := []) (top := false)
      ?_ (by simp) (by simp) (by decide) ?_
    · acts [sizeActs, S.node, hrec, code]
    · grp []
    · grp []
    · rintro env e - ⟨a, hargs, ha, hm, -⟩
      simp only [List.map_cons, List.map_nil] at hargs ⊢
      obtain ⟨h1, rfl⟩ := args1 hargs
      rw [h1, on.size _ _ hm, tf.size _ .int64 _ hty rfl]
  · have e32 : t' = .int32 := by simpa [idxType, e64] using hidx
    subst e32
    have hno := hno rfl
    have hox : x ≠ o := fun h => S.own (by simp [h])
    refine site_step hf S (handle_run h (as := [.make (castSpec o 6), .insertOut o]) ?_) ?_ (by simp)
      (self := some ⟨name, "Size", "", attr, [x], [o]⟩)
      (news := [(g.heap.length, ⟨fresh g.heap.length, "Cast", "", [("to", .int 6)], [o], [port fresh g.heap.length]⟩)])
      (out := port fresh g.heap.length) (len := g.heap.length + 1) (miss := []) (top := false)
      ?_ (fun h => absurd h hno) (by simp) (List.Perm.refl _) ?_ ?_ ?_ ?_
    · acts [sizeActs, S.node, hrec, code]
    · grp []
    · grp [hox]
    · simp [Fed]
    · simp [Node.isGraphInput]
    · simp
    · rintro e he ⟨a, hargs, ha, hm, hlt⟩
      simp only [List.map_cons, List.map_nil] at hargs
      obtain ⟨h1, rfl⟩ := args1 hargs
      simp only [Eqs, argVals, List.map_cons, List.map_nil, Option.toList, List.singleton_append, h1, List.headD, argVal_ne S.oe] at he ⊢
      obtain ⟨e1, e2, -⟩ := he
      rw [on.size _ _ hm] at e1
      rw [oe.isCast _ .int32 _ rfl, e1] at e2
      rw [e2, tf.size _ .int32 _ hty rfl]
      refine Ten.ext_at rfl rfl (fun i => ?_)
      have hlt := hlt rfl
      have hg : (Ten.scalar DT.int64 (Val.num (A.size (e x) : ℚ))).get i = .num (A.size (e x)) := rfl
      simp only [Ten.map_at, hg]
      refine oe.conf.exact _ _ (Or.inl ⟨_, rfl, (A.size (e x) : Int), by simp, ?_, ?_⟩)
      · simp only []; omega
      · simp only []; omega

end Verif.Graph
