import Verif.Props.C50_If
/-!
# `inline_subgraph`: the copy of a function becomes part of a graph (used by C51)
-/
namespace Verif.Graph
open Verif
variable {V : Type}

/-- No node and no tensor of the graph has the name of a node or tensor of the copy of `f`. -/
structure Apart (P f : G) (scope : String) : Prop where
  names : ∀ n ∈ P.nodeList, ∀ m ∈ f.nodeList, n.name ≠ scopedName scope m.name
  outputs : ∀ n ∈ P.nodeList, ∀ m ∈ f.nodeList, ∀ x ∈ n.output, x ∉ ports (scopedName scope m.name) m.output.length
  inputs : ∀ n ∈ P.nodeList, ∀ m ∈ f.nodeList, ∀ x ∈ n.input, x ∉ ports (scopedName scope m.name) m.output.length

theorem Node.wired_name (n : Node) (scope : String) (β ρ : String → String) : (n.wired scope β ρ).name = scopedName scope n.name := by
  unfold Node.wired; split <;> rfl

theorem Node.wired_output (n : Node) (scope : String) (β ρ : String → String) :
    (n.wired scope β ρ).output = ports (scopedName scope n.name) n.output.length := by
  unfold Node.wired; split <;> rfl

theorem recordAll_same {src : G} (os : List String) (g : G) :
    (G.recordAll src os g).heap = g.heap ∧ (G.recordAll src os g).nodes = g.nodes ∧ (G.recordAll src os g).inputs = g.inputs ∧
      (G.recordAll src os g).outputs = g.outputs := by
  induction os generalizing g with
  | nil => exact ⟨rfl, rfl, rfl, rfl⟩
  | cons o os ih =>
    simp only [G.recordAll]
    obtain ⟨h1, h2, h3, h4⟩ := ih { g with
      shapes := match src.shapes.get o with | some s => g.shapes.set o s | none => Dict.erase g.shapes o
      dtypes := match src.dtypes.get o with | some t => g.dtypes.set o t | none => Dict.erase g.dtypes o }
    exact ⟨h1, h2, h3, h4⟩

/-- The parent after another graph has moved in. -/
structure Adopted (P f P' : G) : Prop where
  wf : WF P'
  idx : Idx P'
  nodeList : P'.nodeList = P.nodeList ++ f.nodeList
  nodes : ∃ R, P'.nodes = P.nodes ++ R
  old : ∀ r ∈ P.nodes, P'.node r = P.node r
  inputs : P'.inputs = P.inputs
  outputs : P'.outputs = P.outputs

theorem adopt_spec {P f P' : G} (hP : WF P) (hf : WF f) (hname : ∀ n ∈ P.nodeList, ∀ m ∈ f.nodeList, n.name ≠ m.name)
    (hout : ∀ n ∈ P.nodeList, ∀ m ∈ f.nodeList, ∀ x ∈ n.output, x ≠ "" → x ∉ m.output) (h : P.adopt f = .ok P') : Adopted P f P' := by
  unfold G.adopt at h
  simp only at h
  obtain ⟨c1, c2, c3, c4⟩ := recordAll_same (src := f) (f.nodes.flatMap (fun r => (f.node r).output)) { P with heap := P.heap ++ f.heap }
  generalize hQ : G.recordAll f (f.nodes.flatMap (fun r => (f.node r).output)) { P with heap := P.heap ++ f.heap } = Q at *
  simp only at c1 c2 c3 c4
  have n1 : ∀ r ∈ P.nodes, Q.node r = P.node r := by
    intro r hr
    have := hP.valid r hr
    simp only [G.node, c1]
    rw [List.getElem?_append_left this]
  have n2 : ∀ r ∈ f.nodes, Q.node (P.heap.length + r) = f.node r := by
    intro r hr
    simp only [G.node, c1]
    rw [List.getElem?_append_right (by omega)]
    simp
  have hcase : ∀ a ∈ P.nodes ++ f.nodes.map (P.heap.length + ·),
      (a ∈ P.nodes ∧ Q.node a = P.node a) ∨ ∃ r ∈ f.nodes, a = P.heap.length + r ∧ Q.node a = f.node r := by
    intro a ha
    rcases List.mem_append.1 ha with ha | ha
    · exact Or.inl ⟨ha, n1 a ha⟩
    · obtain ⟨r, hr, rfl⟩ := List.mem_map.1 ha
      exact Or.inr ⟨r, hr, rfl, n2 r hr⟩
  have rs := resetNodes_reset' (g := Q) (ops := P.nodes ++ f.nodes.map (P.heap.length + ·))
    (by
      intro a ha b hb e
      rcases hcase a ha with ⟨ha1, ha2⟩ | ⟨r, hr, rfl, ha2⟩ <;> rcases hcase b hb with ⟨hb1, hb2⟩ | ⟨q, hq, rfl, hb2⟩ <;> rw [ha2, hb2] at e
      · exact hP.name_inj ha1 hb1 e
      · exact (hname _ (node_mem ha1) _ (node_mem hq) e).elim
      · exact (hname _ (node_mem hb1) _ (node_mem hr) e.symm).elim
      · rw [hf.name_inj hr hq e])
    (by
      intro o ho a ha b hb e e'
      rcases hcase a ha with ⟨ha1, ha2⟩ | ⟨r, hr, rfl, ha2⟩ <;> rcases hcase b hb with ⟨hb1, hb2⟩ | ⟨q, hq, rfl, hb2⟩ <;>
        rw [ha2] at e <;> rw [hb2] at e'
      · exact hP.out_inj ho ha1 hb1 e e'
      · exact (hout _ (node_mem ha1) _ (node_mem hq) o e ho e').elim
      · exact (hout _ (node_mem hb1) _ (node_mem hr) o e' ho e).elim
      · rw [hf.out_inj ho hr hq e e']) h
  have hlist : P'.nodeList = P.nodeList ++ f.nodeList := by
    unfold G.nodeList
    rw [rs.nodes, List.map_append]
    congr 1
    · exact List.map_congr_left (fun r hr => by rw [rs.node, n1 r hr])
    · rw [List.map_map]
      exact List.map_congr_left (fun r hr => by show P'.node _ = _; rw [rs.node, n2 r hr])
  refine ⟨?_, rs.idx, hlist, ⟨_, rs.nodes⟩, fun r hr => by rw [rs.node, n1 r hr], by rw [rs.inputs, c3], by rw [rs.outputs, c4]⟩
  have hfrom : ∀ r ∈ P'.nodes, P'.node r ∈ P.nodeList ++ f.nodeList := fun r hr => by rw [← hlist]; exact node_mem hr
  refine { valid := ?_, nodup := ?_, nameNe := ?_, byName := ?_, outs := ?_, outNodup := ?_ }
  · intro r hr
    rw [rs.nodes] at hr
    rw [rs.heap, c1, List.length_append]
    rcases List.mem_append.1 hr with hr | hr
    · have := hP.valid r hr; exact Nat.lt_of_lt_of_le this (Nat.le_add_right _ _)
    · obtain ⟨q, hq, rfl⟩ := List.mem_map.1 hr
      have := hf.valid q hq
      exact Nat.add_lt_add_left this _
  · rw [rs.nodes, List.nodup_append]
    refine ⟨hP.nodup, hf.nodup.map (fun a b e => Nat.add_left_cancel e), ?_⟩
    intro a ha b hb e
    obtain ⟨q, hq, rfl⟩ := List.mem_map.1 hb
    have := hP.valid a ha
    rw [e] at this
    exact absurd this (Nat.not_lt.2 (Nat.le_add_right _ _))
  · intro r hr
    rcases List.mem_append.1 (hfrom r hr) with h | h
    · obtain ⟨q, hq, e⟩ := mem_nodeList.1 h; rw [← e]; exact hP.nameNe q hq
    · obtain ⟨q, hq, e⟩ := mem_nodeList.1 h; rw [← e]; exact hf.nameNe q hq
  · intro n r; rw [rs.byName, rs.nodes, rs.node]
  · intro o n ho; rw [rs.outs o n ho, rs.nodes]; simp only [rs.node]
  · intro r hr
    rcases List.mem_append.1 (hfrom r hr) with h | h
    · obtain ⟨q, hq, e⟩ := mem_nodeList.1 h; rw [← e]; exact hP.outNodup q hq
    · obtain ⟨q, hq, e⟩ := mem_nodeList.1 h; rw [← e]; exact hf.outNodup q hq

theorem Adopted.same {P f P' P'' : G} (a : Adopted P f P') (s : Same P' P'') (h : P''.heap = P'.heap) (hc : P''.consumers = P'.consumers) :
    Adopted P f P'' :=
  ⟨s.wf a.wf, a.idx.congr h s.nodes (fun i => by simp only [G.cons, hc]), (s.nodeList h).trans a.nodeList, by rw [s.nodes]; exact a.nodes,
    fun r hr => (Same.heap_node h r).trans (a.old r hr), s.inputs.trans a.inputs, s.outputs.trans a.outputs⟩

theorem inlineSubgraph_spec {P f P' : G} {outs : List String} (hP : WF P) (hw : WF f) (hf : Func f) {scope : String} {b : Dict String String}
    {β : String → String} (hb : ∀ x ∈ f.params, boundTo b x = some (β x)) (hcap : Uncaptured f β) (hap : Apart P f scope)
    (h : P.inlineSubgraph f scope b = .ok (P', outs)) :
    ∃ f', Wired f scope β f' ∧ Adopted P f' P' ∧ outs = f'.outputs := by
  simp only [G.inlineSubgraph, bind, Except.bind] at h
  split at h
  · cases h
  rename_i f1 h1
  split at h
  · cases h
  rename_i P1 h2
  split at h
  · cases h
  rename_i P2 h3
  cases h
  have w := bindAndPrefix_spec hw hf hb hcap h1
  obtain ⟨a1, a2, a3⟩ := copyInfos_same h3
  refine ⟨f1, w, (adopt_spec hP w.wf ?_ ?_ h2).same a1 a2 a3, rfl⟩
  · intro n hn m hm
    rw [w.nodes] at hm
    obtain ⟨m0, hm0, rfl⟩ := List.mem_map.1 hm
    rw [Node.wired_name]
    exact hap.names n hn m0 hm0
  · intro n hn m hm x hx _
    rw [w.nodes] at hm
    obtain ⟨m0, hm0, rfl⟩ := List.mem_map.1 hm
    rw [Node.wired_output]
    exact hap.outputs n hn m0 hm0 x hx

/-- Tensors of the parent are not produced by the copy. -/
theorem Wired.apart {P f f' : G} {scope : String} {β : String → String} (w : Wired f scope β f') (hap : Apart P f scope) {n : Node}
    (hn : n ∈ P.nodeList) {x : String} (hx : x ∈ n.output ∨ x ∈ n.input) : ¬ f'.Produces x := by
  rintro ⟨m, hm, hxm⟩
  rw [w.nodes] at hm
  obtain ⟨m0, hm0, rfl⟩ := List.mem_map.1 hm
  rw [Node.wired_output] at hxm
  rcases hx with hx | hx
  · exact hap.outputs n hn m0 hm0 x hx hxm
  · exact hap.inputs n hn m0 hm0 x hx hxm

end Verif.Graph
