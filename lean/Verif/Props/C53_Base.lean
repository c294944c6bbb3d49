import Verif.Model.HandlersAxis
import Verif.Props.HandlerSite
import Verif.Spec.AxisOps
/-!
# C53: axes, permutations and target shapes: common part
-/
namespace Verif.Graph
open Verif Verif.Elem Verif.Cast

variable {v : Nat} {I : Interp (Ten Val)} {A : Arr} {K T : Kern Val} {cast : DT → Val → Val}
  {fresh : Nat → String} {g g' : G} {r : Ref} {name op : String} {attr : Dict String Attr} {x y c o : String} {t : DT}

/-- The tensor `x` is made by a constant with the value `T`. -/
def ConstIn (g : G) (x : String) (T : Tensor) : Prop :=
  x ≠ "" ∧ ∃ q ∈ g.nodes, ∃ nm dom attr, g.node q = ⟨nm, "Const", dom, attr, [], [x]⟩ ∧ (dom = "" ∨ dom = "tf") ∧ attr.get "value" = some (.tensor T)

theorem ConstIn.out {W : Tensor} (h : ConstIn g x W) : ConstOut g x := by
  obtain ⟨-, q, hq, nm, dom, attr, hn, -⟩ := h
  exact ⟨q, hq, by rw [hn], by rw [hn]; simp⟩

theorem constAt_of {W : Tensor} (hv : HInv fresh g) {i : Nat} (hx : (g.node r).input[i]? = some x) (h : ConstIn g x W) : g.constAt r i = .ok W := by
  obtain ⟨hne, q, hq, nm, dom, attr, hn, -, ha⟩ := h
  have : g.getNodeByOutput x = some q := (hv.reach.wf.getNodeByOutput hne q).2 ⟨hq, by rw [hn]; simp⟩
  simp [G.constAt, G.inputNode, hx, this, hn, Node.tensorValue, ha]

theorem Site.constAt_setType {W : Tensor} {xs : List String} (S : Site fresh g r name op attr xs o) {i : Nat} (hx : xs[i]? = some x)
    (h : ConstIn g x W) (op' : String) : (g.setType r op').constAt r i = .ok W := by
  obtain ⟨hne, q, hq, nm, dom, attr', hn, -, ha⟩ := h
  have h1 : g.getNodeByOutput x = some q := (S.inv.reach.wf.getNodeByOutput hne q).2 ⟨hq, by rw [hn]; simp⟩
  have h2 : (g.setType r op').getNodeByOutput x = some q := h1
  have hqr : q ≠ r := by
    rintro rfl
    have h3 := S.node
    rw [hn] at h3
    have h4 := S.plain
    have h5 : "Const" = op := congrArg Node.op h3
    rw [← h5] at h4
    simp at h4
  have h3 : (g.setType r op').node q = g.node q := node_setNode_ne (fun e => hqr e.symm)
  simp [G.constAt, G.inputNode, S.setType_node, hx, h2, h3, hn, Node.tensorValue, ha]

theorem Site.constAt {W : Tensor} {xs : List String} (S : Site fresh g r name op attr xs o) {i : Nat} (hx : xs[i]? = some x)
    (h : ConstIn g x W) : g.constAt r i = .ok W := constAt_of S.inv (by rw [S.node]; exact hx) h

theorem Site.reads {xs : List String} (S : Site fresh g r name op attr xs o) (op' : String) :
    ((g.setType r op').node r).input = xs ∧ ((g.setType r op').node r).attr = attr := by
  rw [S.setType_node]; exact ⟨rfl, rfl⟩

@[simp] theorem setType_rankOf (g : G) (r : Ref) (op' : String) (x : String) : (g.setType r op').rankOf x = g.rankOf x := rfl
@[simp] theorem setType_shapeOf (g : G) (r : Ref) (op' : String) (x : String) : (g.setType r op').shapeOf x = g.shapeOf x := rfl

/-- A scalar or a vector of type `t` with these values. -/
def IsVec (W : Tensor) (t : DT) : Prop := W.dtype = code t ∧ (W.dims = [] ∧ W.data.length = 1 ∨ W.dims = [W.data.length])

theorem IsVec.vec {W : Tensor} (h : IsVec W t) : W.vec = .ok W.data := by
  rcases h.2 with ⟨h1, h2⟩ | h1
  · obtain ⟨z, hz⟩ := List.length_eq_one_iff.1 h2
    simp [Tensor.vec, h1, hz]
  · simp [Tensor.vec, h1]

theorem ConstIn.val {W : Tensor} (co : ConstOps I) {env e : String → Ten Val} (hs : Sat I env e g.nodeList) (h : ConstIn g x W) (hw : IsVec W t) :
    (e x).dt = t ∧ (e x).sh = W.dims ∧ Holds (e x) W.data := by
  obtain ⟨hne, q, hq, nm, dom, attr, hn, hd, ha⟩ := h
  have h1 := hs.1 _ (List.mem_map.2 ⟨q, hq, rfl⟩)
  rw [hn] at h1
  have h2 : e x = I "Const" dom attr [] 0 := by
    simpa [Node.isGraphInput, argVals] using h1 0 x rfl hne
  rw [h2]
  exact co.const dom attr t W hd ha hw.1 hw.2

/-- What the graph says of the arguments may be used. -/
theorem ConvStep.using {V : Type} {I : Interp V} {D D' : List (Option V) → Prop} (h : ConvStep I D fresh g r g')
    (hD : ∀ env e, Sat I env e g.nodeList → D' (argVals e (g.node r)) → D (argVals e (g.node r))) : ConvStep I D' fresh g r g' :=
  { h with run := fun env e he hd => h.run env e he (hD env e he hd) }

/-- Arguments. -/
theorem args2 {V : Type} {e : String → V} {x y : String} {a b : V} (h : [argVal e x, argVal e y] = [some a, some b]) :
    argVal e x = some (e x) ∧ argVal e y = some (e y) ∧ a = e x ∧ b = e y := by
  obtain ⟨h1, h2⟩ := List.cons.inj h
  obtain ⟨h2, -⟩ := List.cons.inj h2
  obtain ⟨-, h3⟩ := argVal_some h1
  obtain ⟨-, h4⟩ := argVal_some h2
  exact ⟨by rw [h1, h3], by rw [h2, h4], h3.symm, h4.symm⟩

/-- The recorded rank of `x`, if there is one, is right. -/
def RankOk (g : G) (x : String) (n : Nat) : Prop := ∀ m, g.rankOf x = some m → m = n

end Verif.Graph
