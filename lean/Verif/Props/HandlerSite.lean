import Verif.Props.HandlerActs
import Verif.Props.C48_Mapping
import Verif.Model.HandlersElem
import Verif.Spec.ElemOps
/-!
# The generic theorem, for a TensorFlow node with one output
-/
namespace Verif.Graph
open Verif Verif.Elem Verif.Cast

variable {fresh : Nat → String} {g g' : G} {r : Ref} {name op : String} {attr : Dict String Attr} {xs : List String} {o : String}

/-- A TensorFlow node with one output in a graph the conversion may start from or has reached. -/
structure Site (fresh : Nat → String) (g : G) (r : Ref) (name op : String) (attr : Dict String Attr) (xs : List String) (o : String) : Prop where
  inv : HInv fresh g
  mem : r ∈ g.nodes
  node : g.node r = ⟨name, op, "tf", attr, xs, [o]⟩
  oe : o ≠ ""
  name : name ≠ ""
  plain : op ∉ ["Const", "Placeholder", "PlaceholderWithDefault", "PlaceholderV2"]

theorem Site.own (S : Site fresh g r name op attr xs o) : o ∉ xs := by
  intro h
  obtain ⟨ρ, hρ⟩ := S.inv.ranked
  have := hρ r S.mem r S.mem ⟨o, S.oe, by rw [S.node]; exact h, by rw [S.node]; simp⟩
  exact absurd this (Nat.lt_irrefl _)

theorem Site.mine (S : Site fresh g r name op attr xs o) {k : Nat} {z : String} (hk : g.heap.length ≤ k) (hz : Mine fresh k z) :
    z ∉ xs ∧ z ≠ o := by
  have h1 := (S.inv.unread k z hk hz).1 r S.mem
  have h2 := S.inv.unmade k z hk hz r S.mem
  rw [S.node] at h1 h2
  exact ⟨h1, by simpa using h2⟩

theorem Site.nin (S : Site fresh g r name op attr xs o) : (g.node r).isGraphInput = false := by
  have := S.plain
  simp only [List.mem_cons, not_or] at this
  rw [S.node]
  simp [Node.isGraphInput, this]

/-- The calls of a handler, first of all those that are made by the loop. -/
theorem runActs_cast {as : List Act} {g0 g1 g : G} (hn : (g0.node r).name = (g1.node r).name) (hs : g0.shapes = g1.shapes)
    (hd : g0.dtypes = g1.dtypes) : G.runActs fresh g0 r as g = G.runActs fresh g1 r as g := by
  induction as generalizing g with
  | nil => rfl
  | cons a as ih =>
    have h1 : G.act fresh g0 r g a = G.act fresh g1 r g a := by
      cases a <;> simp only [G.act, hn]
      simp only [G.copyInfo, hs, hd]
    simp only [G.runActs, h1]
    congr
    funext g
    exact ih

/-- **A handler that is a sequence of calls, on a TensorFlow node with one output.** -/
theorem site_step {V : Type} {I : Interp V} {D : List (Option V) → Prop} (hf : FreshTensors fresh)
    (S : Site fresh g r name op attr xs o) {as : List Act} (h : G.runActs fresh g r as g = .ok g')
    (hok : Grp.allOk fresh o as (Grp.start ⟨name, op, "tf", attr, xs, [o]⟩ g.heap.length o))
    (hown : (∃ xs, .inputs xs ∈ as) → ∀ q ∈ g.nodes, (g.node q).name ∉ (g.node q).input)
    {self : Option Node} {news : List (Ref × Node)} {out : String} {len : Nat} {miss : List String} {top : Bool}
    (hσ : Grp.run fresh as (Grp.start ⟨name, op, "tf", attr, xs, [o]⟩ g.heap.length o) = ⟨self, news, out, len, miss, false, top⟩)
    (hkept : o ∈ g.outputs → out = o)
    (hmiss : ∀ i ∈ miss, (∃ n, self = some n ∧ i ∈ n.input) → ConstOut g i ∨ ∃ p ∈ news, p.2.op = "Const" ∧ i ∈ p.2.output)
    {L : List Node} (hL : L.Perm (self.toList ++ news.map Prod.snd)) (fed : Fed xs L) (plain : ∀ m ∈ L, m.isGraphInput = false)
    (hz : ∃ m ∈ L, m.output = [out])
    (law : ∀ e, Eqs I e L → D (xs.map (argVal e)) → e out = I op "tf" attr (xs.map (argVal e)) 0) :
    ConvStep I D fresh g r g' := by
  have hc : (g.node r).op ≠ "Const" := by
    have := S.plain
    simp only [List.mem_cons, not_or] at this
    rw [S.node]; exact this.1
  have hn := S.node
  refine acts_step (o := o) (σ := ⟨self, news, out, len, miss, false, top⟩) hf S.inv S.mem S.nin hc (by rw [hn]) S.oe h (by rw [hn]; exact hok) hown (by rw [hn]; exact hσ) rfl hkept
    ?_ hL (by rw [hn]; exact fed) plain hz ?_
  · intro i hi hin
    refine hmiss i hi ?_
    cases hs : self with
    | none => simp [Grp.input, hs] at hin
    | some n => exact ⟨n, rfl, by simpa [Grp.input, hs] using hin⟩
  · intro e he hd
    rw [S.node] at hd ⊢
    exact law e he hd

theorem Site.lt (S : Site fresh g r name op attr xs o) : r < g.heap.length := S.inv.reach.wf.valid r S.mem

theorem Site.setType_node (S : Site fresh g r name op attr xs o) (op' : String) :
    (g.setType r op').node r = ⟨name, op', "tf", attr, xs, [o]⟩ := by
  rw [G.setType, node_setNode_self S.lt, S.node]

@[simp] theorem setType_shapes (g : G) (r : Ref) (op' : String) : (g.setType r op').shapes = g.shapes := rfl
@[simp] theorem setType_dtypes (g : G) (r : Ref) (op' : String) : (g.setType r op').dtypes = g.dtypes := rfl
@[simp] theorem setType_len (g : G) (r : Ref) (op' : String) : (g.setType r op').heap.length = g.heap.length := by simp [G.setType]

/-- An entry of the table that renames the node first. -/
theorem entry_renamed {decide : G → Ref → Except String (List Act)} {op' : String} {as : List Act}
    (S : Site fresh g r name op attr xs o) (h : (entry fresh (some op') decide).convert g r = .ok g')
    (hd : decide (g.setType r op') r = .ok as) : G.runActs fresh g r (.setType op' :: .onnx :: as) g = .ok g' := by
  simp only [MapInfo.convert, entry, G.handle, hd] at h
  have : G.runActs fresh g r (.setType op' :: .onnx :: as) g = G.runActs fresh g r (.onnx :: as) (g.setType r op') := rfl
  rw [this, ← runActs_cast (g0 := g.setType r op')]
  · exact h
  · rw [S.setType_node, S.node]
  · rfl
  · rfl

/-- An entry of the table that does not. -/
theorem entry_run {decide : G → Ref → Except String (List Act)} {as : List Act} (h : (entry fresh none decide).convert g r = .ok g')
    (hd : decide g r = .ok as) : G.runActs fresh g r (.onnx :: as) g = .ok g' := by
  simp only [MapInfo.convert, entry, G.handle, hd] at h
  exact h

/-- The calls of a handler. -/
theorem handle_run {decide : G → Ref → Except String (List Act)} {as : List Act} (h : G.handle fresh decide g r = .ok g')
    (hd : decide g r = .ok as) : G.runActs fresh g r (.onnx :: as) g = .ok g' := by
  simp only [G.handle, hd] at h
  exact h

/-- What a handler decides. -/
macro "acts" "[" xs:Lean.Parser.Tactic.simpLemma,* "]" : tactic =>
  `(tactic| simp [G.inp, G.outp, bind, Except.bind, $xs,*])

variable {x y : String} {t : DT}

theorem argVal_some {V : Type} {e : String → V} {x : String} {a : V} (h : argVal e x = some a) : x ≠ "" ∧ e x = a := by
  unfold argVal at h
  split at h
  · cases h
  · exact ⟨by assumption, Option.some.inj h⟩

theorem One.elim {e : String → Ten Val} {P : Val → Prop} (h : One t P [argVal e x]) :
    argVal e x = some (e x) ∧ (e x).dt = t ∧ (e x).Typed ∧ ∀ i, P ((e x).get i) := by
  obtain ⟨a, ha, h⟩ := h
  obtain ⟨-, rfl⟩ := argVal_some (List.cons.inj ha).1
  exact ⟨(List.cons.inj ha).1, h⟩

theorem Two.elim {e : String → Ten Val} {P : Val → Val → Prop} (h : Two t P [argVal e x, argVal e y]) :
    argVal e x = some (e x) ∧ argVal e y = some (e y) ∧ (e x).dt = t ∧ (e y).dt = t ∧ (e x).Typed ∧ (e y).Typed ∧
      Compat (e x).sh (e y).sh ∧ ∀ i, P ((e x).get i) ((e y).get i) := by
  obtain ⟨a, b, ha, h⟩ := h
  obtain ⟨-, rfl⟩ := argVal_some (List.cons.inj ha).1
  obtain ⟨-, rfl⟩ := argVal_some (List.cons.inj (List.cons.inj ha).2).1
  exact ⟨(List.cons.inj ha).1, (List.cons.inj (List.cons.inj ha).2).1, h⟩

theorem argVal_ne {V : Type} {e : String → V} (h : x ≠ "") : argVal e x = some (e x) := by simp [argVal, h]

/-- What the calls do to the group. -/
macro "grp" "[" xs:Lean.Parser.Tactic.simpLemma,* "]" : tactic =>
  `(tactic| simp [Grp.allOk, Grp.ok, Grp.run, Grp.act, Grp.start, Grp.input, Node.redirect, Node.setInput, Spec.node, Spec.mk', Spec.const, scalarSpec,
    castSpec, lastOut, redirectInit, port, $xs,*])

/-- Types of operands and results. -/
macro "tys" "[" xs:Lean.Parser.Tactic.simpLemma,* "]" : tactic =>
  `(tactic| simp [onnxTypes, onnxFloatUn, onnxFloatUn9, resType, boolOps, $xs,*])

end Verif.Graph
