import Verif.Props.GraphReplaceAll
/-!
# C06: lookup tables agree with the node list; C07: `find_output_consumers` is exact

A *history* is a sequence of successful edits starting from the empty graph, each called legally (`Legal`): node
objects passed in belong to the graph, new nodes get a non-empty name and distinct output names, `reset_nodes` is
given distinct nodes of the graph.
-/
namespace Verif.Graph
open Verif

/-- What a caller of the edit API must respect. -/
def Legal (g : G) : Edit → Prop
  | .makeNode _ _ name output _ _ => name ≠ "" ∧ (output.filter (· ≠ "")).Nodup
  | .removeNode _ => True
  | .resetNodes ops => ops.Nodup ∧ ∀ r ∈ ops, r ∈ g.nodes
  | .replaceInputAt r _ _ _ => r ∈ g.nodes
  | .replaceInput r _ _ => r ∈ g.nodes
  | .replaceInputs r _ => r ∈ g.nodes
  | .removeInputAt r _ _ => r ∈ g.nodes
  | .removeInput r _ => r ∈ g.nodes
  | .replaceAllInputs _ _ ops => ∀ l, ops = some l → ∀ r ∈ l, r ∈ g.nodes
  | .setOutputs r _ => r ∈ g.nodes
  | .insertNewNodeOnInput r _ _ name _ => r ∈ g.nodes ∧ name ≠ ""
  | .insertNodeOnOutput r _ => r ∈ g.nodes
  | .insertNewNodeOnOutput _ _ name _ => name ≠ ""
  | .setAttr r _ _ => r ∈ g.nodes
  | .setType r _ => r ∈ g.nodes
  | .rawInputs r _ => r ∈ g.nodes
  | .rawFields r _ _ => r ∈ g.nodes
  | .setShape _ _ => True
  | .setDtype _ _ => True
  | .changeNodeName r newName newOuts => r ∈ g.nodes ∧ newName ≠ "" ∧ (newOuts.filter (· ≠ "")).Nodup
  | .addGraphInput nodeName _ => nodeName ≠ ""
  | .addGraphOutput _ => True

/-- Graphs obtainable from an empty graph, or from the constructor on well-named nodes, by legal, successful edits. -/
inductive Reachable : G → Prop
  | empty : Reachable {}
  | load {ns inputs outputs shapes dtypes} {g : G} : WellNamed ns →
      G.load ns inputs outputs shapes dtypes = .ok g → Reachable g
  | step {g g' : G} {e : Edit} : Reachable g → Legal g e → g.apply e = .ok g' → Reachable g'

/-- Edits that cannot make the consumer index lose a consumer: a slot is redirected or deleted only if the tensor is
read through that slot alone, a directly mutated input list names only tensors the node is registered for, and
`replace_inputs` is not called while another node is named like one of the old
tensors and reads it. -/
def IndexSafe (g : G) : Edit → Prop
  | .replaceInputAt r old new _ => old = new ∨ (g.node r).input.count old ≤ 1
  | .removeInputAt r x _ => (g.node r).input.count x ≤ 1
  | .replaceInputs r _ => ∀ r' ∈ g.nodes, r' ≠ r → (g.node r').name ∈ (g.node r).input →
      (g.node r').name ∉ (g.node r').input
  | .insertNewNodeOnInput r _ i _ _ => ∀ x, i.head? = some x → (g.node r).input.count x ≤ 1
  | .rawInputs r xs => ∀ x ∈ xs, (g.node r).name ∈ (g.consumers.get x).getD []
  | _ => True

/-- Graphs obtainable likewise by legal, successful, index-safe edits. -/
inductive ReachableSafe : G → Prop
  | empty : ReachableSafe {}
  | load {ns inputs outputs shapes dtypes} {g : G} : WellNamed ns →
      G.load ns inputs outputs shapes dtypes = .ok g → ReachableSafe g
  | step {g g' : G} {e : Edit} : ReachableSafe g → Legal g e → IndexSafe g e → g.apply e = .ok g' → ReachableSafe g'

theorem ReachableSafe.reachable {g : G} (h : ReachableSafe g) : Reachable g := by
  induction h with
  | empty => exact .empty
  | load hn h => exact .load hn h
  | step _ hl _ he ih => exact .step ih hl he

/-- What one edit preserves. -/
structure Kept (safe : Prop) (g g' : G) : Prop where
  wf : WF g'
  consNodup : (∀ i, (g.cons i).Nodup) → ∀ i, (g'.cons i).Nodup
  idx : safe → Idx g → Idx g'

theorem moveOutputs_kept (ps : List (String × String)) {g g' : G} (hw : WF g) (h : g.moveOutputs ps = .ok g') :
    Kept True g g' := by
  induction ps generalizing g with
  | nil => simp [G.moveOutputs] at h; subst h; exact ⟨hw, id, fun _ => id⟩
  | cons p ps ih =>
    obtain ⟨old, new⟩ := p
    simp only [G.moveOutputs, bind, Except.bind] at h
    split at h
    · cases h
    · rename_i g1 hg1
      have hw0 : WF { g with outputs := renameFirst old new g.outputs } := hw.congr rfl rfl rfl rfl
      obtain ⟨a1, _, a3, a4⟩ := replaceAllInputs_spec hw0 (by intro l hl r hr; cases hl; exact hr) hg1
      have := ih (a1.wf hw0) h
      exact ⟨this.wf, fun hn => this.consNodup (a4 hn),
        fun _ hi => this.idx trivial (a3 (hi.congr rfl rfl (fun _ => rfl)))⟩

theorem apply_kept {g g' : G} {e : Edit} (hw : WF g) (hl : Legal g e) (h : g.apply e = .ok g') :
    Kept (IndexSafe g e) g g' := by
  cases e with
  | makeNode op input name output attr domain =>
    simp only [G.apply] at h
    cases hm : g.makeNode op input name output attr domain with
    | error e => rw [hm] at h; cases h
    | ok p =>
      rw [hm] at h; cases h
      have m := makeNode_made (r := p.2) (g' := p.1) hm
      exact ⟨m.wf hw hl.1 hl.2, m.consNodup, fun _ hi => m.idx hw hi⟩
  | removeNode name =>
    obtain ⟨r, _, m⟩ := removeNode_removed hw h
    exact ⟨m.wf hw, m.consNodup, fun _ hi => m.idx hw hi⟩
  | resetNodes ops =>
    have m := resetNodes_reset hw hl.2 h
    exact ⟨m.wf hw hl.1 hl.2, fun _ => m.consNodup, fun _ _ => m.idx⟩
  | replaceInputAt r old new idx =>
    obtain ⟨_, a2, _, _, a5⟩ := replaceInputAt_spec h
    exact ⟨a2.wf hw, a5, fun hs hi => replaceInputAt_idx hw hl hi hs h⟩
  | replaceInput r old new =>
    cases h
    obtain ⟨a1, _, _, a4⟩ := replaceInput_spec g r old new
    exact ⟨a1.wf hw, a4, fun _ hi => replaceInput_idx hw hl hi⟩
  | replaceInputs r new =>
    cases h
    obtain ⟨a1, _, _, a4⟩ := replaceInputs_spec g r new
    exact ⟨a1.wf hw, a4, fun hs hi => replaceInputs_idx hw hl hi hs⟩
  | removeInputAt r x idx =>
    obtain ⟨_, a2, _, _, a5⟩ := removeInputAt_spec h
    exact ⟨a2.wf hw, a5, fun hs hi => removeInputAt_idx hw hl hi hs h⟩
  | removeInput r x =>
    refine ⟨?_, ?_, fun _ hi => removeInput_idx hw hl hi h⟩
    · rcases removeInput_spec h with ⟨rfl, _⟩ | ⟨_, a2, _, _, _⟩
      · exact hw
      · exact a2.wf hw
    · rcases removeInput_spec h with ⟨rfl, _⟩ | ⟨_, _, _, _, a5⟩
      · exact id
      · exact a5
  | replaceAllInputs old new ops =>
    obtain ⟨a1, _, a3, a4⟩ := replaceAllInputs_spec hw hl h
    exact ⟨a1.wf hw, a4, fun _ => a3⟩
  | setOutputs r outs =>
    obtain ⟨a1, _, _, a4, a5⟩ := setOutputs_spec hw hl h
    exact ⟨a1, fun hn i => by rw [a5]; exact hn i, fun _ => a4⟩
  | insertNewNodeOnInput r op inputName name newOut =>
    simp only [G.apply, G.insertNewNodeOnInput, bind, Except.bind] at h
    cases hm : g.makeNode op inputName name [newOut] with
    | error e => rw [hm] at h; cases h
    | ok p =>
      rw [hm] at h
      simp only at h
      have m := makeNode_made (r := p.2) (g' := p.1) hm
      have hw1 : WF p.1 := m.wf hw hl.2 (by by_cases e : newOut = "" <;> simp [e])
      have hr1 : r ∈ p.1.nodes := by rw [m.nodes]; simp [hl.1]
      cases inputName with
      | nil => cases h
      | cons i0 rest =>
        simp only at h
        split at h
        · cases h; exact ⟨hw1, m.consNodup, fun _ hi => m.idx hw hi⟩
        · rename_i i hi
          cases hrep : p.1.replaceInputAt r i0 newOut i with
          | error e => rw [hrep] at h; cases h
          | ok g2 =>
            rw [hrep] at h; cases h
            obtain ⟨_, a2, _, _, a5⟩ := replaceInputAt_spec hrep
            refine ⟨a2.wf hw1, fun hn => a5 (m.consNodup hn), fun hs hix => ?_⟩
            refine replaceInputAt_idx hw1 hr1 (m.idx hw hix) (Or.inr ?_) hrep
            rw [node_append_lt (hw.valid r hl.1) _ _ m.heap]
            exact hs i0 rfl
  | insertNodeOnOutput r o =>
    obtain ⟨newOut, rest, _, h'⟩ := insertNodeOnOutput_eq h
    obtain ⟨a1, _, a3, a4⟩ := replaceAllInputs_spec hw (by
      intro l hl' r' hr'
      cases hl'
      exact consumerRefs_mem hw (List.mem_of_mem_filter hr')) h'
    exact ⟨a1.wf hw, a4, fun _ => a3⟩
  | insertNewNodeOnOutput op o name newOut =>
    simp only [G.apply, G.insertNewNodeOnOutput, bind, Except.bind] at h
    cases hm : g.makeNode op [o] name [newOut] with
    | error e => rw [hm] at h; cases h
    | ok p =>
      rw [hm] at h
      simp only at h
      have m := makeNode_made (r := p.2) (g' := p.1) hm
      have hw1 : WF p.1 := m.wf hw hl (by by_cases e : newOut = "" <;> simp [e])
      cases hins : p.1.insertNodeOnOutput p.2 o with
      | error e => rw [hins] at h; cases h
      | ok g2 =>
        rw [hins] at h; cases h
        obtain ⟨newOut', rest, _, h'⟩ := insertNodeOnOutput_eq hins
        obtain ⟨a1, _, a3, a4⟩ := replaceAllInputs_spec hw1 (by
          intro l hl' r' hr'
          cases hl'
          exact consumerRefs_mem hw1 (List.mem_of_mem_filter hr')) h'
        exact ⟨a1.wf hw1, fun hn => a4 (m.consNodup hn), fun _ hi => a3 (m.idx hw hi)⟩
  | setAttr r k v =>
    cases h
    have hs : Same g (g.setAttr r k v) := by apply Same.setNode <;> rfl
    refine ⟨hs.wf hw, id, fun _ hi => ⟨?_, hi.setNodup⟩⟩
    intro r' hr' i hin
    rw [hs.name]
    apply hi.complete r' hr' i
    by_cases e : r = r'
    · subst e; simp only [G.setAttr] at hin; rw [node_setNode_self (hw.valid _ hl)] at hin; exact hin
    · simp only [G.setAttr] at hin; rw [node_setNode_ne e] at hin; exact hin
  | setType r op =>
    cases h
    have hs : Same g (g.setType r op) := by apply Same.setNode <;> rfl
    refine ⟨hs.wf hw, id, fun _ hi => ⟨?_, hi.setNodup⟩⟩
    intro r' hr' i hin
    rw [hs.name]
    apply hi.complete r' hr' i
    by_cases e : r = r'
    · subst e; simp only [G.setType] at hin; rw [node_setNode_self (hw.valid _ hl)] at hin; exact hin
    · simp only [G.setType] at hin; rw [node_setNode_ne e] at hin; exact hin
  | rawInputs r xs =>
    cases h
    have hs : Same g (g.rawInputs r xs) := by apply Same.setNode <;> rfl
    refine ⟨hs.wf hw, id, fun hsafe hi => ⟨?_, hi.setNodup⟩⟩
    intro r' hr' i hin
    rw [hs.name]
    by_cases e : r = r'
    · subst e
      simp only [G.rawInputs] at hin
      rw [node_setNode_self (hw.valid _ hl)] at hin
      exact hsafe i hin
    · simp only [G.rawInputs] at hin
      rw [node_setNode_ne e] at hin
      exact hi.complete r' hr' i hin
  | rawFields r attr domain =>
    cases h
    have hs : Same g (g.rawFields r attr domain) := by apply Same.setNode <;> rfl
    refine ⟨hs.wf hw, id, fun _ hi => ⟨?_, hi.setNodup⟩⟩
    intro r' hr' i hin
    rw [hs.name]
    apply hi.complete r' hr' i
    by_cases e : r = r'
    · subst e; simp only [G.rawFields] at hin; rw [node_setNode_self (hw.valid _ hl)] at hin; exact hin
    · simp only [G.rawFields] at hin; rw [node_setNode_ne e] at hin; exact hin
  | setShape name s =>
    simp only [G.apply, G.setShape] at h
    split at h
    · cases h
    · cases h
      exact ⟨hw.congr rfl rfl rfl rfl, id, fun _ hi => hi.congr rfl rfl (fun _ => rfl)⟩
  | setDtype name s =>
    simp only [G.apply, G.setDtype] at h
    split at h
    · cases h
    · cases h
      exact ⟨hw.congr rfl rfl rfl rfl, id, fun _ hi => hi.congr rfl rfl (fun _ => rfl)⟩
  | changeNodeName r newName newOuts =>
    simp only [G.apply, G.changeNodeName, bind, Except.bind] at h
    split at h
    · cases h
    · cases hrm : g.removeNode (g.node r).name with
      | error e => rw [hrm] at h; cases h
      | ok g1 =>
        rw [hrm] at h
        simp only at h
        obtain ⟨_, _, m1⟩ := removeNode_removed hw hrm
        have hw1 := m1.wf hw
        cases hm : g1.makeNode (g.node r).op (g.node r).input newName newOuts (g.node r).attr with
        | error e => rw [hm] at h; cases h
        | ok p =>
          rw [hm] at h
          have m := makeNode_made (r := p.2) (g' := p.1) hm
          have hw2 : WF p.1 := m.wf hw1 hl.2.1 hl.2.2
          have k := moveOutputs_kept _ hw2 h
          exact ⟨k.wf, fun hn => k.consNodup (m.consNodup (m1.consNodup hn)),
            fun _ hi => k.idx trivial (m.idx hw1 (m1.idx hw hi))⟩
  | addGraphInput nodeName name =>
    simp only [G.apply, G.addGraphInput, bind, Except.bind] at h
    cases hm : g.makeNode "Placeholder" [] nodeName [name] with
    | error e => rw [hm] at h; cases h
    | ok p =>
      rw [hm] at h; cases h
      have m := makeNode_made (r := p.2) (g' := p.1) hm
      have hw1 : WF p.1 := m.wf hw hl (by by_cases e : name = "" <;> simp [e])
      exact ⟨hw1.congr rfl rfl rfl rfl, fun hn => m.consNodup hn,
        fun _ hi => (m.idx hw hi).congr rfl rfl (fun _ => rfl)⟩
  | addGraphOutput name =>
    simp only [G.apply, G.addGraphOutput] at h
    split at h
    · cases h
    · split at h
      · cases h
      · cases h
        exact ⟨hw.congr rfl rfl rfl rfl, id, fun _ hi => hi.congr rfl rfl (fun _ => rfl)⟩

theorem wf_empty : WF {} where
  valid := by simp
  nodup := by simp
  nameNe := by simp
  byName := by simp
  outs := by simp
  outNodup := by simp

theorem Reachable.wf {g : G} (h : Reachable g) : WF g := by
  induction h with
  | empty => exact wf_empty
  | load hn h => exact (load_spec hn h).1
  | step _ hl he ih => exact (apply_kept ih hl he).wf

theorem Reachable.consNodup {g : G} (h : Reachable g) : ∀ i, (g.cons i).Nodup := by
  induction h with
  | empty => intro i; simp [G.cons]
  | load hn h => exact (load_spec hn h).2.1.setNodup
  | step hr hl he ih => exact (apply_kept hr.wf hl he).consNodup ih

theorem ReachableSafe.idx {g : G} (h : ReachableSafe g) : Idx g := by
  induction h with
  | empty => exact ⟨by simp, by intro i; simp [G.cons]⟩
  | load hn h => exact (load_spec hn h).2.1
  | step hr hl hs he ih => exact (apply_kept hr.reachable.wf hl he).idx hs ih

/-! ## C06 -/

/-- After any history, `get_node_by_name(n)` returns a node exactly when it is the node of the list with that name. -/
theorem get_node_by_name_exact {g : G} (h : Reachable g) (n : String) (r : Ref) :
    g.getNodeByName n = some r ↔ r ∈ g.nodes ∧ (g.node r).name = n := h.wf.getNodeByName n r

/-- After any history, `get_node_by_output(o)` returns a node exactly when that node of the list lists `o` among its
outputs (`o` not the empty string, which marks an absent output). -/
theorem get_node_by_output_exact {g : G} (h : Reachable g) (o : String) (ho : o ≠ "") (r : Ref) :
    g.getNodeByOutput o = some r ↔ r ∈ g.nodes ∧ o ∈ (g.node r).output := h.wf.getNodeByOutput ho r

/-- After any history, node names are unique. -/
theorem node_names_unique {g : G} (h : Reachable g) : (g.nodes.map (fun r => (g.node r).name)).Nodup :=
  (List.nodup_map_iff_inj_on h.wf.nodup).2 (fun _ hr _ hr' e => h.wf.name_inj hr hr' e)

theorem nodup_flatMap_aux {α : Type} (f : α → List String) (l : List α) (hn : l.Nodup)
    (h1 : ∀ a ∈ l, (f a).Nodup) (h2 : ∀ a ∈ l, ∀ b ∈ l, ∀ x, x ∈ f a → x ∈ f b → a = b) :
    (l.flatMap f).Nodup := by
  induction l with
  | nil => simp
  | cons a l ih =>
    rw [List.flatMap_cons, List.nodup_append]
    have hn' := List.nodup_cons.1 hn
    refine ⟨h1 a (by simp), ih hn'.2 (fun b hb => h1 b (by simp [hb]))
      (fun b hb c hc => h2 b (by simp [hb]) c (by simp [hc])), ?_⟩
    intro x hx y hy e
    subst e
    obtain ⟨b, hb, hxb⟩ := List.mem_flatMap.1 hy
    have := h2 a (by simp) b (by simp [hb]) x hx hxb
    subst this
    exact hn'.1 hb

/-- After any history, the (non-empty) tensor names produced by the nodes of the graph are pairwise distinct. -/
theorem output_names_unique {g : G} (h : Reachable g) :
    (g.nodes.flatMap (fun r => (g.node r).output.filter (· ≠ ""))).Nodup := by
  refine nodup_flatMap_aux _ _ h.wf.nodup h.wf.outNodup ?_
  intro a ha b hb x hx hx'
  simp only [ne_eq, decide_not, List.mem_filter, Bool.not_eq_eq_eq_not, Bool.not_true, decide_eq_false_iff_not] at hx hx'
  exact h.wf.out_inj hx.2 ha hb hx.1 hx'.1

/-! ## C07 -/

theorem mem_findOutputConsumers {g : G} (hw : WF g) (o : String) (r : Ref) :
    r ∈ g.findOutputConsumers o ↔ r ∈ g.nodes ∧ o ∈ (g.node r).input ∧ (g.node r).name ∈ g.cons o := by
  simp only [G.findOutputConsumers, List.mem_filter, decide_eq_true_eq, G.consumerRefs, List.mem_filterMap]
  constructor
  · rintro ⟨⟨n, hn, hr⟩, hin⟩
    obtain ⟨h1, h2⟩ := (hw.getNodeByName n r).1 hr
    exact ⟨h1, hin, by rw [h2]; exact hn⟩
  · rintro ⟨h1, h2, h3⟩
    exact ⟨⟨_, h3, (hw.getNodeByName _ r).2 ⟨h1, rfl⟩⟩, h2⟩

/-- After any history, everything `find_output_consumers(o)` returns is a node of the graph that reads `o`, and nothing
is returned twice. -/
theorem find_output_consumers_sound {g : G} (h : Reachable g) (o : String) :
    (g.findOutputConsumers o).Nodup ∧
    ∀ r ∈ g.findOutputConsumers o, r ∈ g.nodes ∧ o ∈ (g.node r).input := by
  constructor
  · unfold G.findOutputConsumers G.consumerRefs
    apply List.Nodup.filter
    apply List.Nodup.filterMap
    · intro a a' b hb hb'
      have h1 := ((h.wf.getNodeByName a b).1 hb).2
      have h2 := ((h.wf.getNodeByName a' b).1 hb').2
      rw [← h1, ← h2]
    · exact h.consNodup o
  · intro r hr
    have := (mem_findOutputConsumers h.wf o r).1 hr
    exact ⟨this.1, this.2.1⟩

/-- After any index-safe history, `find_output_consumers(o)` returns precisely the nodes that read `o`, each once.
Missing for the full property: histories with edits that are not `IndexSafe`; for these the property is false, see
`find_output_consumers_violated`. -/
theorem find_output_consumers_exact_partial {g : G} (h : ReachableSafe g) (o : String) :
    (g.findOutputConsumers o).Nodup ∧
    ∀ r, r ∈ g.findOutputConsumers o ↔ r ∈ g.nodes ∧ o ∈ (g.node r).input := by
  refine ⟨(find_output_consumers_sound h.reachable o).1, fun r => ?_⟩
  rw [mem_findOutputConsumers h.reachable.wf]
  constructor
  · rintro ⟨h1, h2, _⟩; exact ⟨h1, h2⟩
  · rintro ⟨h1, h2⟩; exact ⟨h1, h2, h.idx.complete r h1 o h2⟩

/-- Run a script of edits. -/
def G.run (g : G) : List Edit → Except String G
  | [] => .ok g
  | e :: es => do
    let g ← g.apply e
    g.run es

/-- A decidable version of `Legal` holds along the script. -/
def legalRun (g : G) : List Edit → Prop
  | [] => True
  | e :: es => Legal g e ∧ ∀ g', g.apply e = .ok g' → legalRun g' es

theorem Reachable.run {es : List Edit} {g g' : G} (h : Reachable g) (hl : legalRun g es) (he : g.run es = .ok g') :
    Reachable g' := by
  induction es generalizing g with
  | nil => simp [G.run] at he; subst he; exact h
  | cons e es ih =>
    simp only [G.run, bind, Except.bind] at he
    cases ha : g.apply e with
    | error x => rw [ha] at he; cases he
    | ok g1 =>
      rw [ha] at he
      exact ih (.step h hl.1 ha) (hl.2 g1 ha) he

/-- x and y are placeholders, m = Mul(x, x); then one slot of m is redirected to y. -/
def mulScript : List Edit :=
  [.makeNode "Placeholder" [] "nx" ["x"] [] "", .makeNode "Placeholder" [] "ny" ["y"] [] "",
   .makeNode "Mul" ["x", "x"] "m" ["z"] [] "", .replaceInputAt 2 "x" "y" 0]

/-- The state after `mulScript`. -/
def mulGraph : G :=
  { heap := [⟨"nx", "Placeholder", "", [], [], ["x"]⟩, ⟨"ny", "Placeholder", "", [], [], ["y"]⟩,
             ⟨"m", "Mul", "", [], ["y", "x"], ["z"]⟩]
    nodes := [0, 1, 2]
    byName := [("nx", 0), ("ny", 1), ("m", 2)]
    outToName := [("x", "nx"), ("y", "ny"), ("z", "m")]
    consumers := [("x", []), ("y", ["m"])] }

theorem mulScript_run : G.run {} mulScript = .ok mulGraph := rfl

theorem mulGraph_reachable : Reachable mulGraph := by
  refine Reachable.run .empty ?_ mulScript_run
  refine ⟨by simp [Legal], fun g1 h1 => ⟨by simp [Legal], fun g2 h2 => ⟨by simp [Legal], fun g3 h3 => ⟨?_, fun _ _ => trivial⟩⟩⟩⟩
  cases h1; cases h2; cases h3
  simp only [Legal]
  decide

/-- C07 fails in general: after `replace_input(node, old, new, idx)` on a node that also reads `old` through another
slot, `find_output_consumers(old)` no longer returns the node. -/
theorem find_output_consumers_violated :
    ∃ g, Reachable g ∧ ∃ o r, r ∈ g.nodes ∧ o ∈ (g.node r).input ∧ r ∉ g.findOutputConsumers o :=
  ⟨mulGraph, mulGraph_reachable, "x", 2, by decide⟩

/-- A non-trivial history meets the hypotheses of the exactness theorem: a node is removed and an input redirected. -/
def safeScript : List Edit :=
  [.makeNode "Placeholder" [] "nx" ["x"] [] "", .makeNode "Relu" ["x"] "a" ["u"] [] "",
   .makeNode "Add" ["u", "x"] "b" ["v"] [] "", .replaceInputAt 2 "x" "u" 1, .replaceAllInputs "u" "x" none,
   .removeNode "a"]

example : ∃ g, G.run {} safeScript = .ok g ∧ g.nodes = [0, 2] ∧ g.findOutputConsumers "x" = [2] ∧
    g.getNodeByName "a" = none ∧ g.getNodeByOutput "u" = none ∧ g.getNodeByOutput "v" = some 2 :=
  ⟨_, rfl, by decide⟩

example : ∃ g, ReachableSafe g ∧ g.nodes = [0, 2] ∧ g.findOutputConsumers "x" = [2] := by
  have h0 := ReachableSafe.empty
  have h1 : ReachableSafe _ := h0.step (e := .makeNode "Placeholder" [] "nx" ["x"] [] "") (by simp [Legal]) trivial rfl
  have h2 : ReachableSafe _ := h1.step (e := .makeNode "Relu" ["x"] "a" ["u"] [] "") (by simp [Legal]) trivial rfl
  have h3 : ReachableSafe _ := h2.step (e := .makeNode "Add" ["u", "x"] "b" ["v"] [] "") (by simp [Legal]) trivial rfl
  have h4 : ReachableSafe _ := h3.step (e := .replaceInputAt 2 "x" "u" 1) (by simp only [Legal]; decide)
    (by simp only [IndexSafe]; decide) rfl
  have h5 : ReachableSafe _ := h4.step (e := .replaceAllInputs "u" "x" none) (by simp [Legal]) trivial rfl
  have h6 : ReachableSafe _ := h5.step (e := .removeNode "a") (by simp [Legal]) trivial rfl
  exact ⟨_, h6, by decide⟩

end Verif.Graph
