import Verif.Model.Pipeline
import Verif.Props.C14_Merge
import Verif.Props.C20_Driver
import Verif.Props.C52_Tidy
/-!
# C52: from a TensorFlow graph to an ONNX model in executable order
-/
namespace Verif.Graph
open Verif

variable {g g' g'' : G}

/-! ## Deleting and sorting -/

theorem keep_get {β : Type} (d : Dict String β) {outs : List String} {o : String} (h : o ∈ outs) : (keep d outs).get o = d.get o := by
  unfold keep
  suffices hs : ∀ (l : List String) (acc : Dict String β), (o ∈ l ∨ acc.get o = d.get o) → (∀ v, acc.get o = some v → d.get o = some v) →
      (l.foldl (fun acc o => match d.get o with | some v => acc.set o v | none => acc) acc).get o = d.get o from
    hs outs [] (Or.inl h) (by simp)
  intro l
  induction l with
  | nil => rintro acc (h | h) _; · cases h
           · exact h
  | cons a l ih =>
    intro acc h hv
    rw [List.foldl_cons]
    apply ih
    · by_cases ha : a = o
      · subst ha
        right
        split
        · rename_i v hd; rw [Dict.get_set, if_pos rfl, hd]
        · rename_i hd
          rw [hd]
          cases hc : acc.get a with
          | none => rfl
          | some v => rw [hv v hc] at hd; cases hd
      · rcases h with h | h
        · rcases List.mem_cons.1 h with h | h
          · exact absurd h.symm ha
          · exact Or.inl h
        · right
          split
          · rw [Dict.get_set, if_neg ha, h]
          · exact h
    · intro v hv'
      split at hv'
      · rename_i w hd
        rw [Dict.get_set] at hv'
        split at hv'
        · rename_i e; subst e; rw [hd, ← hv']
        · exact hv v hv'
      · exact hv v hv'

theorem foldl_outs_isSome (node : Ref → Node) (ops : List Ref) (o : String) : ∀ (d : Dict String String),
    ((ops.foldl (fun d r => (node r).output.foldl (fun d o => d.set o (node r).name) d) d).get o).isSome = true ↔
      (d.get o).isSome = true ∨ ∃ r ∈ ops, o ∈ (node r).output := by
  have inner : ∀ (l : List String) (n : String) (d : Dict String String),
      ((l.foldl (fun d o => d.set o n) d).get o).isSome = true ↔ (d.get o).isSome = true ∨ o ∈ l := by
    intro l n
    induction l with
    | nil => simp
    | cons a l ih =>
      intro d
      rw [List.foldl_cons, ih, Dict.get_set]
      by_cases h : a = o
      · simp [h]
      · simp [h, Ne.symm h]
  induction ops with
  | nil => simp
  | cons r ops ih =>
    intro d
    rw [List.foldl_cons, ih, inner]
    simp [or_assoc]

theorem resetNodes_outToName (g : G) (ops : List Ref) (g0 : G) (o : String) :
    (((ops.foldl (fun g' r => g'.registerInputs (g.node r).input (g.node r).name) g0).outToName.get o).isSome) = (g0.outToName.get o).isSome := by
  obtain ⟨-, -, -, h4, -⟩ := foldl_register g ops g0
  rw [h4]

/-- `reset_nodes` succeeds exactly when all inputs and outputs of the graph are still there. -/
theorem resetNodes_ok_iff (g : G) (ops : List Ref) :
    (∃ g', g.resetNodes ops = .ok g') ↔ (∀ r ∈ g.inputs, r ∈ ops) ∧ ∀ o ∈ g.outputs, ∃ r ∈ ops, o ∈ (g.node r).output := by
  have hs := foldl_outs_isSome g.node ops
  unfold G.resetNodes
  simp only
  constructor
  · rintro ⟨g', h⟩
    split at h
    · cases h
    rename_i h1
    split at h
    · cases h
    rename_i h2
    refine ⟨by simpa using h1, fun o ho => ?_⟩
    simp only [List.any_eq_true, not_exists, not_and] at h2
    have := h2 o ho
    rw [Option.isNone_iff_eq_none, ← Option.not_isSome_iff_eq_none, not_not, resetNodes_outToName] at this
    simpa using (hs o []).1 this
  · rintro ⟨h1, h2⟩
    rw [if_neg (by simpa using h1), if_neg]
    · exact ⟨_, rfl⟩
    · simp only [List.any_eq_true, not_exists, not_and]
      intro o ho
      rw [Option.isNone_iff_eq_none, ← Option.not_isSome_iff_eq_none, not_not, resetNodes_outToName]
      exact (hs o []).2 (Or.inr (h2 o ho))

theorem resetNodes_tables {ops : List Ref} (h : g.resetNodes ops = .ok g') :
    g'.shapes = keep g.shapes (ops.flatMap (fun r => (g.node r).output)) ∧ g'.dtypes = keep g.dtypes (ops.flatMap (fun r => (g.node r).output)) := by
  unfold G.resetNodes at h
  simp only at h
  split at h
  · cases h
  · split at h
    · cases h
    · cases h; exact ⟨rfl, rfl⟩

/-- `g'` is what `reset_nodes` leaves of `g`: nodes that contain the producers of what they read, and of the outputs. -/
structure Cut (g g' : G) : Prop where
  reset : Reset g g' g'.nodes
  reach : Reachable g'
  sub : ∀ r ∈ g'.nodes, r ∈ g.nodes
  closed : ∀ r ∈ g'.nodes, ∀ x ∈ (g.node r).input, x ≠ "" → ∀ p ∈ g.nodes, x ∈ (g.node p).output → p ∈ g'.nodes
  outs : ∀ o ∈ g.outputs, o ≠ "" → ∀ p ∈ g.nodes, o ∈ (g.node p).output → p ∈ g'.nodes
  outsMade : ∀ o ∈ g'.outputs, ∃ p ∈ g'.nodes, o ∈ (g'.node p).output
  dtypes : ∀ p ∈ g'.nodes, ∀ o ∈ (g.node p).output, g'.dtypes.get o = g.dtypes.get o
  shapes : ∀ p ∈ g'.nodes, ∀ o ∈ (g.node p).output, g'.shapes.get o = g.shapes.get o

theorem Cut.of_reset (hr : Reachable g) {ops : List Ref} (hnd : ops.Nodup) (hsub : ∀ r ∈ ops, r ∈ g.nodes)
    (hcl : ∀ r ∈ ops, ∀ x ∈ (g.node r).input, x ≠ "" → ∀ p ∈ g.nodes, x ∈ (g.node p).output → p ∈ ops)
    (hout : ∀ o ∈ g.outputs, o ≠ "" → ∀ p ∈ g.nodes, o ∈ (g.node p).output → p ∈ ops) (h : g.resetNodes ops = .ok g') : Cut g g' := by
  have m := resetNodes_reset hr.wf hsub h
  have hn := m.nodes
  obtain ⟨t1, t2⟩ := resetNodes_tables h
  have hmade := ((resetNodes_ok_iff g ops).1 ⟨g', h⟩).2
  refine ⟨by rw [hn]; exact m, .step (e := .resetNodes ops) hr ⟨hnd, hsub⟩ h, by rw [hn]; exact hsub, by rw [hn]; exact hcl, by rw [hn]; exact hout, ?_, ?_, ?_⟩
  · intro o ho
    rw [m.outputs] at ho
    obtain ⟨p, hp, hx⟩ := hmade o ho
    exact ⟨p, by rw [hn]; exact hp, by rw [m.node]; exact hx⟩
  · intro p hp o ho
    rw [hn] at hp
    rw [t2, keep_get _ (List.mem_flatMap.2 ⟨p, hp, ho⟩)]
  · intro p hp o ho
    rw [hn] at hp
    rw [t1, keep_get _ (List.mem_flatMap.2 ⟨p, hp, ho⟩)]

theorem deleteUnused_cut (hr : Reachable g) (hne : g.outputs ≠ []) (h : g.deleteUnusedNodes (fun _ => []) g.outputs = .ok g') : Cut g g' := by
  have hw := hr.wf
  unfold G.deleteUnusedNodes at h
  rw [if_neg hne] at h
  obtain ⟨h1, h2⟩ := extractSubGraphNodes_spec hw (fun _ => []) g.outputs
  refine Cut.of_reset hr h1 ?_ ?_ ?_ h
  · intro r hr'
    obtain ⟨o, s, _, hs, hreach⟩ := (h2 r).1 hr'
    cases hreach with
    | refl => exact getNodeByOutput_mem hw hs
    | tail _ hab => obtain ⟨x, _, hx⟩ := hab; exact getNodeByOutput_mem hw hx
  · intro r hr' x hx hxe p hp hxp
    obtain ⟨o, s, ho, hs, hreach⟩ := (h2 r).1 hr'
    exact (h2 p).2 ⟨o, s, ho, hs, hreach.tail ⟨x, by simp [hx], (hw.getNodeByOutput hxe p).2 ⟨hp, hxp⟩⟩⟩
  · intro o ho hoe p hp hop
    exact (h2 p).2 ⟨o, p, Or.inl ho, (hw.getNodeByOutput hoe p).2 ⟨hp, hop⟩, .refl⟩

theorem sort_cut (hr : Reachable g) (h : g.topologicalSort (fun _ => []) g.nodes = .ok g') : Cut g g' ∧ ReadsMade g := by
  have hw := hr.wf
  simp only [G.topologicalSort, bind, Except.bind] at h
  split at h
  · cases h
  rename_i ret hret
  obtain ⟨h1, h2⟩ := sortNodes_ordered hw hret
  have hmem : ∀ r, r ∈ ret ↔ r ∈ g.nodes := fun r => h1.mem_iff
  refine ⟨Cut.of_reset hr (h1.nodup_iff.2 hw.nodup) (fun r => (hmem r).1) (fun _ _ _ _ _ p hp _ => (hmem p).2 hp) (fun _ _ _ p hp _ => (hmem p).2 hp) h, ?_⟩
  intro r hr' x hx hxe
  simp only [G.sortNodes, bind, Except.bind] at hret
  split at hret
  · cases hret
  rename_i es hes
  obtain ⟨-, h3⟩ := edges_ok _ hes
  obtain ⟨j, hj, -⟩ := h3 r ((sortByName_perm g g.nodes).mem_iff.2 hr') x (mem_allInputs.2 ⟨Or.inl hx, hxe⟩)
  have := (hw.getNodeByOutput hxe j).1 hj
  exact ⟨j, this.1, this.2⟩

theorem Cut.node (c : Cut g g') (r : Ref) : g'.node r = g.node r := c.reset.node r

theorem Cut.carry (c : Cut g g') : Carry g g' := by
  refine ⟨c.sub, fun q _ => by rw [c.node], fun q _ => by rw [c.node], fun q _ => by rw [c.node], fun q _ => by rw [c.node],
    fun q _ => by rw [c.node]; exact id, fun q _ => by rw [c.node]; exact id, ?_⟩
  intro hm r hr x hx hxe
  rw [c.node] at hx
  obtain ⟨p, hp, hxp⟩ := hm r (c.sub r hr) x hx hxe
  exact ⟨p, c.closed r hr x hx hxe p hp hxp, by rw [c.node]; exact hxp⟩

theorem Cut.ranked (c : Cut g g') {ρ : Ref → Nat} (h : RankedBy g ρ) : RankedBy g' ρ := by
  rintro r hr q hq ⟨x, hx, h1, h2⟩
  rw [c.node] at h1 h2
  exact h r (c.sub r hr) q (c.sub q hq) ⟨x, hx, h1, h2⟩

theorem Cut.hinv {fresh : Nat → String} (c : Cut g g') (h : HInv fresh g) : HInv fresh g' := by
  obtain ⟨ρ, hρ⟩ := h.ranked
  refine ⟨c.reach, fun q hq i hi _ => c.reset.idx.complete q hq i hi, ⟨ρ, c.ranked hρ⟩, ?_, ?_, ?_, ?_⟩
  · intro r hr
    rw [c.reset.inputs] at hr
    rw [c.node]
    exact h.inputs r hr
  · intro r hr
    rw [c.reset.inputs] at hr
    exact c.reset.inputsIn r hr
  · intro k x hk hm
    rw [c.reset.heap] at hk
    obtain ⟨a, b⟩ := h.unread k x hk hm
    exact ⟨fun r hr => by rw [c.node]; exact a r (c.sub r hr), by rw [c.reset.outputs]; exact b⟩
  · intro k x hk hm r hr
    rw [c.reset.heap] at hk
    rw [c.node]
    exact h.unmade k x hk hm r (c.sub r hr)

/-- A valuation of the whole graph gives one of the part, in which the nodes see the same values. -/
theorem Cut.run (c : Cut g g') {V : Type} {I : Interp V} {env e : String → V} (h : Sat I env e g.nodeList) :
    ∃ e', Sat I env e' g'.nodeList ∧ (∀ o ∈ g.outputs, e' o = e o) ∧ ∀ r ∈ g'.nodes, argVals e' (g'.node r) = argVals e (g.node r) := by
  have hnl : ∀ n, n ∈ g'.nodeList ↔ ∃ r ∈ g'.nodes, g.node r = n := by
    intro n; rw [mem_nodeList]; simp only [c.node]
  have hnl0 : ∀ n, n ∈ g.nodeList ↔ ∃ r ∈ g.nodes, g.node r = n := fun n => mem_nodeList
  have hsub : ∀ n ∈ g'.nodeList, n ∈ g.nodeList := by
    intro n hn
    obtain ⟨r, hr, rfl⟩ := (hnl n).1 hn
    exact (hnl0 _).2 ⟨r, c.sub r hr, rfl⟩
  have hcl : ∀ n ∈ g'.nodeList, ∀ i ∈ n.input, i ≠ "" → ∀ m ∈ g.nodeList, i ∈ m.output → m ∈ g'.nodeList := by
    intro n hn i hi hie m hm him
    obtain ⟨r, hr, rfl⟩ := (hnl n).1 hn
    obtain ⟨p, hp, rfl⟩ := (hnl0 m).1 hm
    exact (hnl _).2 ⟨p, c.closed r hr i hi hie p hp him, rfl⟩
  obtain ⟨e', he', hag⟩ := sat_restrict hsub hcl h
  have key : ∀ x, (∀ p ∈ g.nodes, x ≠ "" → x ∈ (g.node p).output → p ∈ g'.nodes) → e' x = e x := by
    intro x hx
    apply hag
    by_cases hu : Unproduced g.nodeList x
    · exact Or.inr hu
    · left
      simp only [Unproduced, not_or, not_forall, not_not] at hu
      obtain ⟨hxe, n, hn, hxn⟩ := hu
      obtain ⟨p, hp, rfl⟩ := (hnl0 n).1 hn
      exact ⟨g.node p, (hnl _).2 ⟨p, hx p hp hxe hxn, rfl⟩, hxn⟩
  refine ⟨e', he', fun o ho => key o fun p hp hoe hx => c.outs o ho hoe p hp hx, fun r hr => ?_⟩
  rw [c.node]
  apply argVals_congr
  intro i hi hie
  exact key i fun p hp _ hx => c.closed r hr i hi hie p hp hx

theorem Cut.sameModel (c : Cut g g') (hr : Reachable g) {ρ : Ref → Nat} (h : RankedBy g ρ) (P : ∀ V : Type, Interp V → Prop) :
    SameModel P g g' := by
  refine ⟨c.reset.outputs, ?_, fun V I _ env out => ?_⟩
  · rw [c.reset.inputs]
    exact List.map_congr_left fun r _ => by rw [c.node]
  · refine computes_of_transport hr h.acyclic (c.ranked h).acyclic c.reset.outputs (fun e he => ?_) out
    obtain ⟨e', h1, h2, _⟩ := c.run he
    exact ⟨e', h1, h2⟩

/-- A valuation of the part comes from one of the whole graph. -/
theorem Cut.back (c : Cut g g') (hr : Reachable g) {ρ : Ref → Nat} (h : RankedBy g ρ) {V : Type} {I : Interp V} {env e' : String → V}
    (he' : Sat I env e' g'.nodeList) :
    ∃ e, Sat I env e g.nodeList ∧ ∀ r ∈ g'.nodes, argVals e' (g'.node r) = argVals e (g.node r) := by
  obtain ⟨e, he⟩ := sat_exists (I := I) (env := env) hr.uniqueOutputs h.acyclic
  obtain ⟨f, h1, _, h3⟩ := c.run he
  rw [sat_unique (c.ranked h).acyclic he' h1]
  exact ⟨e, he, h3⟩

open Verif.Elem Verif.Cast in
theorem Cut.elemNode (c : Cut g g') (hm : ReadsMade g') {v : Nat} {r : Ref} (hr : r ∈ g'.nodes) {t : DT} (h : ElemNode v g r t) :
    ElemNode v g' r t := by
  have tab : ∀ x ∈ (g.node r).input, x ≠ "" → g'.dtypes.get x = g.dtypes.get x ∧ g'.shapes.get x = g.shapes.get x := by
    intro x hx hxe
    obtain ⟨p, hp, hxp⟩ := hm r hr x (by rw [c.node]; exact hx) hxe
    rw [c.node] at hxp
    exact ⟨c.dtypes p hp x hxp, c.shapes p hp x hxp⟩
  obtain ⟨h1, h2, h3, h4, h5, h6⟩ := h
  have hn := c.node r
  refine ⟨by rw [hn]; exact h1, by rw [hn]; exact h2, by rw [hn]; exact h3, ?_, ?_, by rw [hn, c.reset.outputs]; exact h6⟩
  · rw [hn]
    intro ho
    obtain ⟨x, hi, hx, hd⟩ := h4 ho
    exact ⟨x, hi, hx, by rw [(tab x (by simp [hi]) hx).1]; exact hd⟩
  · rw [hn]
    intro ho
    obtain ⟨x, y, hi, hx, hy, hd, hd', hs⟩ := h5 ho
    have a := tab x (by simp [hi]) hx
    have b := tab y (by simp [hi]) hy
    refine ⟨x, y, hi, hx, hy, by rw [a.1]; exact hd, by rw [b.1]; exact hd', fun ho => ?_⟩
    rw [a.2, b.2]
    exact hs ho

end Verif.Graph
