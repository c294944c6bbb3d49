import Verif.Props.C53_Shape
import Verif.Props.C49_Unary
import Verif.Props.C47_Compare
/-!
# C53: `All`, `Any` before operator set 13
-/
namespace Verif.Graph
open Verif Verif.Elem Verif.Cast

variable {v : Nat} {I : Interp (Ten Val)} {A : Arr} {K T : Kern Val} {cast : DT → Val → Val}
  {fresh : Nat → String} {g g' : G} {r : Ref} {name op op' : String} {attr attr' : Dict String Attr} {x y c o : String} {xs xs' : List String}
  {t t' : DT} {W : Tensor}

theorem bool_bval {w : Val} (h : HasType .bool w) : ∃ b, w = bval b := by
  cases w <;> simp [HasType, intRange, floatFormat] at h
  rename_i q
  rcases h with rfl | rfl
  · exact ⟨false, by simp [bval]⟩
  · exact ⟨true, by simp [bval]⟩

/-- The smallest of some truth values. -/
theorem foldl_vmin_bits (l : List Val) (hl : ∀ w ∈ l, ∃ b, w = bval b) : ∀ b, l.foldl vmin (bval b) = bval (b && l.all (fun w => !vzero w)) := by
  induction l with
  | nil => intro b; simp
  | cons w l ih =>
    intro b
    obtain ⟨d, rfl⟩ := hl w (by simp)
    have hm : vmin (bval b) (bval d) = bval (b && d) := by cases b <;> cases d <;> simp [vmin, bval, vlt]
    rw [List.foldl_cons, hm, ih (fun w hw => hl w (by simp [hw]))]
    cases b <;> cases d <;> simp [vzero, bval]

theorem min_bits (al : ArrLaws A) {l : List Val} (hl : ∀ w ∈ l, ∃ b, w = bval b) (hne : l ≠ []) :
    bval (vlt (.num 0) (A.red "Min" .float l)) = A.red "All" .bool l := by
  cases l with
  | nil => exact absurd rfl hne
  | cons w l =>
    obtain ⟨b, rfl⟩ := hl w (by simp)
    rw [al.min, foldl_vmin_bits l (fun w hw => hl w (by simp [hw])), al.all]
    congr 1
    rw [List.all_cons]
    generalize l.all (fun w => !vzero w) = d
    cases b <;> cases d <;> simp [vlt, bval, vzero]

theorem sum_bits (al : ArrLaws A) {l : List Val} (hl : ∀ w ∈ l, ∃ b, w = bval b) : bval (vlt (.num 0) (A.red "Sum" .float l)) = A.red "Any" .bool l := by
  obtain ⟨q, hq, hpos⟩ := al.sum .float l rfl (by
    intro w hw
    obtain ⟨b, rfl⟩ := hl w hw
    cases b <;> simp [bval])
  rw [hq, al.any]
  congr 1
  rw [Bool.eq_iff_iff]
  simp only [vlt, decide_eq_true_iff, hpos, List.any_eq_true]
  constructor
  · intro h
    exact ⟨_, h, by simp [vzero]⟩
  · rintro ⟨w, hw, hz⟩
    obtain ⟨b, rfl⟩ := hl w hw
    cases b
    · simp [vzero, bval] at hz
    · simpa [bval] using hw

/-- What is written instead of `All` and `Any`. -/
def boolRed (op : String) : String := if op = "All" then "Min" else "Sum"

/-- The elements that are reduced, for each position of the result. -/
def NoEmpty (A : Arr) (keep : Bool) (s : Set Nat) (a : Ten Val) : Prop := ∀ i, A.cells keep s a.sh i ≠ []

/-- A reduction of floats compared with 0. -/
theorem boolRed_law (al : ArrLaws A) (el : ElemLaws T K) (hc : Conforming cast) (hop : op ∈ ["All", "Any"]) {a : Ten Val} (ha : a.dt = .bool) (hty : a.Typed) {keep : Bool}
    {s : Set Nat} (hne : op = "All" → NoEmpty A keep s a) :
    Ten.zip .bool (K.bin "Greater" .float) (A.reduce (boolRed op) keep s (Ten.map .float (cast .float) a)) (Ten.scalar .float (.num 0)) = A.reduce op keep s a := by
  have hcast : ∀ i, cast .float (a.get i) = a.get i := by
    intro i
    refine hc.exact _ _ (small_isFloat (t := .bool) (by decide) ?_)
    rw [← ha]
    exact hty.get i
  have hget : ∀ i, (Ten.map .float (cast .float) a).get i = a.get i := fun i => by rw [Ten.get_map, hcast]
  have hgf : (Ten.map .float (cast .float) a).get = a.get := funext hget
  have hb : ∀ (p : List (Nat → Nat)), ∀ w ∈ p.map a.get, ∃ b, w = bval b := by
    intro p w hw
    obtain ⟨i, -, rfl⟩ := List.mem_map.1 hw
    exact bool_bval (by rw [← ha]; exact hty.get i)
  refine Ten.ext_at (by simp [Arr.reduce, ha]) (by simp [Arr.reduce]) (fun i => ?_)
  rw [Ten.zip_at, Arr.get_reduce, Ten.get_scalar, el.gt]
  simp only [Arr.reduce, Ten.map_dt, Ten.map_sh, hgf, ha]
  simp only [List.mem_cons, List.not_mem_nil, or_false] at hop
  rcases hop with rfl | rfl
  · exact min_bits al (hb _) (by simpa using hne rfl _)
  · exact sum_bits al (hb _)

/-- A tensor of truth values and axes. -/
def BoolArgs (A : Arr) (op : String) (keep : Bool) (l : List Int) (P : Nat → Prop) (args : List (Option (Ten Val))) : Prop :=
  ∃ a ax : Ten Val, args = [some a, some ax] ∧ a.dt = .bool ∧ a.Typed ∧ AxesOk a.rank l ∧ P a.rank ∧
    (op = "All" → NoEmpty A keep (axisSet a.rank l) a)

/-- **`All`, `Any` before operator set 13**: a `Cast` to FLOAT, `ReduceMin` or `ReduceSum`, and `Greater` than 0. At least one axis; for `All` no result may
come from no element. -/
theorem allAny6_converts_partial (on : OnnxAxisOps v I A) (oe : OnnxOps v I K cast) (tf : TfAxisOps I A) (co : ConstOps I) (al : ArrLaws A) (el : ElemLaws T K)
    (hf : FreshTensors fresh) (hv : v < 13) (hop : op ∈ ["All", "Any"]) (S : Site fresh g r name op attr [x, c] o) (hname : name ≠ "") {k : Int}
    (hk : attr.get "keep_dims" = some (.int k)) (hw : IsVec W t') (hne : W.data ≠ []) (hc : ConstIn g c W)
    (h : G.handle fresh (allAny6Acts fresh v) g r = .ok g') : ConvStep I (BoolArgs A op (k ≠ 0) W.data (RankOk g x)) fresh g r g' := by
  cases hda : allAny6Acts fresh v g r with
  | error m => simp [G.handle, hda, bind, Except.bind] at h
  | ok as =>
  have hcases : ∃ l', as = [.make (castSpec x 1), .make (.mk' ("Reduce" ++ boolRed op) [port fresh g.heap.length] [("axes", .ints l'), ("keepdims", .int k)]),
      .make (scalarSpec 1 0), .remove, .makeOut "Greater" [port fresh (g.heap.length + 1), fresh (g.heap.length + 2)] [] name o] ∧
      (l' = W.data ∧ (v < 11 → ∀ z ∈ W.data, 0 ≤ z) ∨ ∃ n, g.rankOf x = some n ∧ l' = addRank n W.data) := by
    have e0 : g.inp r 0 = .ok x := by simp [G.inp, S.node]
    have e1 : g.outp r = .ok o := by simp [G.outp, S.node]
    have e2 : g.keepDims r = .ok (.int k) := by simp [G.keepDims, S.node, hk]
    have e3 : (if op = "All" then "ReduceMin" else "ReduceSum") = "Reduce" ++ boolRed op :=
      (by decide : ∀ op ∈ ["All", "Any"], (if op = "All" then "ReduceMin" else "ReduceSum") = "Reduce" ++ boolRed op) op hop
    simp only [allAny6Acts, S.constAt (i := 1) rfl hc, hw.vec, e0, e1, e2, S.node, bind, Except.bind, e3] at hda
    by_cases e : v < 11 ∧ (allAnyAxes v (g.rankOf x) W.data).any (· < 0) = true
    · rw [if_pos e] at hda; cases hda
    · rw [if_neg e] at hda
      simp only [Except.ok.injEq] at hda
      refine ⟨_, hda.symm, ?_⟩
      by_cases h11 : v < 11
      · simp only [allAnyAxes, h11, if_true, true_and] at e ⊢
        cases hn : g.rankOf x with
        | some n => exact Or.inr ⟨n, rfl, rfl⟩
        | none =>
          rw [hn] at e
          refine Or.inl ⟨rfl, fun _ z hz => ?_⟩
          by_contra hneg
          exact e (List.any_eq_true.2 ⟨z, hz, by simp; omega⟩)
      · simp only [allAnyAxes, h11, if_false]
        exact Or.inl ⟨trivial, fun h => h.elim⟩
  obtain ⟨l', rfl, hl'⟩ := hcases
  have hport : ∀ k, port fresh k ≠ "" := fun k => Mine.ne hf (k := k) (Or.inr rfl)
  have hrop : boolRed op ∈ redOps := (by decide : ∀ op ∈ ["All", "Any"], boolRed op ∈ redOps) op hop
  have hvr : v < redInputFrom (boolRed op) := by
    have : 13 ≤ redInputFrom (boolRed op) := (by decide : ∀ op ∈ ["All", "Any"], 13 ≤ redInputFrom (boolRed op)) op hop
    omega
  have hpl : ("Reduce" ++ boolRed op) ∉ ["Placeholder", "PlaceholderWithDefault", "PlaceholderV2"] :=
    (by decide : ∀ op ∈ ["All", "Any"], ("Reduce" ++ boolRed op) ∉ ["Placeholder", "PlaceholderWithDefault", "PlaceholderV2"]) op hop
  refine ConvStep.using (D := fun args => BoolArgs A op (k ≠ 0) W.data (RankOk g x) args ∧ ∃ a ax, args = [some a, some ax] ∧ Holds ax W.data) ?_ ?_
  · refine site_step hf S (handle_run h hda) ?_ (by simp) (self := none)
      (news := [(g.heap.length, ⟨fresh g.heap.length, "Cast", "", [("to", .int 1)], [x], [port fresh g.heap.length]⟩),
        (g.heap.length + 1, ⟨fresh (g.heap.length + 1), "Reduce" ++ boolRed op, "", [("axes", .ints l'), ("keepdims", .int k)], [port fresh g.heap.length],
          [port fresh (g.heap.length + 1)]⟩),
        (g.heap.length + 2, ⟨fresh (g.heap.length + 2), "Const", "", [("value", .tensor ⟨1, [], [0]⟩)], [], [fresh (g.heap.length + 2)]⟩),
        (g.heap.length + 3, ⟨name, "Greater", "", [], [port fresh (g.heap.length + 1), fresh (g.heap.length + 2)], [o]⟩)])
      (out := o) (len := g.heap.length + 4) (miss := []) (top := false)
      ?_ (fun _ => rfl) (by simp) (List.Perm.refl _) ?_ ?_ ?_ ?_
    · grp [hname]
    · grp []
    · simp [Fed]
    · simp at hpl
      simp [Node.isGraphInput, hpl]
    · simp
    · rintro e he ⟨⟨a, ax, hargs, ha, hty, hax, hrk, hnoe⟩, a', ax', hargs', hh⟩
      simp only [List.map_cons, List.map_nil] at hargs hargs'
      obtain ⟨h1, h2, rfl, rfl⟩ := args2 hargs
      obtain ⟨-, -, rfl, rfl⟩ := args2 hargs'
      simp [Eqs, argVals, h1, h2, argVal_ne (hf.ne _), argVal_ne (hport _)] at he ⊢
      obtain ⟨e1, e2, e3, e4⟩ := he
      have hl2 : OnnxAxes v (e x).rank l' ∧ axisSet (e x).rank l' = axisSet (e x).rank W.data ∧ l' ≠ [] := by
        rcases hl' with ⟨rfl, hneg⟩ | ⟨n, hn, rfl⟩
        · exact ⟨⟨hax, hneg⟩, rfl, hne⟩
        · obtain rfl := hrk n hn
          rw [addRank_eq']
          exact ⟨hax.norm v, axisSet_norm hax.ok, by simpa using hne⟩
      rw [oe.isCast _ .float _ rfl] at e1
      have hr2 : (e (port fresh g.heap.length)).rank = (e x).rank := by rw [e1]; rfl
      rw [on.redAttr _ hrop hvr _ l' k _ rfl rfl hl2.2.2 (by rw [hr2]; exact hl2.1) (by rw [e1]; simp [redTypes, fl3]), hr2, hl2.2.1, e1] at e2
      rw [oe.isConst _ .float 0 rfl] at e3
      rw [e4, e2, e3, oe.bin "Greater" (by decide) _ _ _ (by tys [Arr.reduce, fl3]) (by simp [Arr.reduce]) (Compat.nil _)]
      rw [tf.allAny op hop _ k _ _ _ hk hh hax ha]
      exact boolRed_law al el oe.conf hop ha hty hnoe
  · intro env e hs hd
    refine ⟨hd, ?_⟩
    rw [S.node] at hd ⊢
    obtain ⟨a, ax, hargs, -⟩ := hd
    obtain ⟨h1, h2, rfl, rfl⟩ := args2 hargs
    exact ⟨_, _, hargs, (hc.val co hs hw).2.2⟩

end Verif.Graph
