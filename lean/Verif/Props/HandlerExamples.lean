import Verif.Props.HandlerKit
import Verif.Props.C43_QDQ
import Verif.Spec.Elem
/-!
# Concrete graphs and meanings for the examples of the handler properties
-/
namespace Verif.Graph
open Verif Verif.Elem Verif.Cast

theorem exFresh_tensors : FreshTensors exFresh where
  toFreshNames := exFresh_fresh
  sep := by
    intro i j h
    have h0 : '0' ∈ (outName exFresh j).toList := by simp [outName, String.toList_append]
    rw [← h] at h0
    simp [exFresh, String.toList_append] at h0

theorem exFresh_long (k : Nat) (x : String) (h : Mine exFresh k x) : 3 ≤ x.length := by
  have h3 : "new".length = 3 := rfl
  rcases h with rfl | rfl <;> simp only [outName, exFresh, String.length_append, h3] <;> omega

/-- A graph made by a script, of tensors with short names, meets the invariant. -/
theorem HInv.of_script {s : List Edit} (hs : ∀ e ∈ s, Building e) {g : G} (h : G.run {} s = .ok g) (hx : Executable g.nodeList)
    (hi : ∀ r ∈ g.inputs, (g.node r).isGraphInput = true ∧ r ∈ g.nodes)
    (hshort : ∀ r ∈ g.nodes, (∀ y ∈ (g.node r).input, y.length < 3) ∧ ∀ y ∈ (g.node r).output, y.length < 3)
    (ho : ∀ y ∈ g.outputs, y.length < 3) : HInv exFresh g := by
  have hsafe := run_building hs .empty h
  refine ⟨hsafe.reachable, fun q hq i hi _ => hsafe.idx.complete q hq i hi, Acyclic.ranked hsafe.reachable.wf ⟨_, .refl _, hx⟩,
    fun r hr => (hi r hr).1, fun r hr => (hi r hr).2, ?_, ?_⟩
  · intro k x _ hx
    have := exFresh_long k x hx
    refine ⟨fun r hr hc => ?_, fun hc => ?_⟩
    · have := (hshort r hr).1 _ hc; omega
    · have := ho _ hc; omega
  · intro k x _ hx r hr hc
    have := exFresh_long k x hx
    have := (hshort r hr).2 _ hc; omega

/-- The graph of a script. -/
def graphOf (s : List Edit) : G := match G.run {} s with
  | .ok g => g
  | .error _ => {}

/-- All element types. -/
def allDT : List DT := [.float, .float16, .double, .bfloat16, .int8, .int16, .int32, .int64, .uint8, .uint16, .uint32, .uint64, .string,
  .bool, .complex64, .complex128]

theorem code_find (t : DT) : (allDT.find? (fun t' => (code t' : Int) = code t)).getD .float = t := by cases t <;> rfl

/-- A graph in which the result of one node can be read off: `e` is a valuation of the nodes. -/
theorem sat_value {V : Type} {I : Interp V} {g : G} {env e : String → V} (h : Sat I env e g.nodeList) (r : Ref) (hr : r ∈ g.nodes)
    {o : String} (ho : (g.node r).output = [o]) (hoe : o ≠ "") :
    e o = if (g.node r).isGraphInput then env o else I (g.node r).op (g.node r).domain (g.node r).attr (argVals e (g.node r)) 0 :=
  h.1 _ (mem_nodeList.2 ⟨r, hr, rfl⟩) 0 o (by rw [ho]; rfl) hoe

end Verif.Graph
