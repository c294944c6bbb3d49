import Verif.Props.CFSem
/-!
# C50: conditionals. The converted branches and the node `If` compute what the functions and the node of the input model compute.
-/
namespace Verif.Graph
open Verif
variable {V : Type}

/-! ## Binding parameters to names -/

theorem bindLoop_spec {sv : Dict String String} (ks : List String) {ins : List String} {b0 b : Dict String String} (hn : ks.Nodup)
    (h : bindLoop sv ks ins b0 = .ok b) :
    (∀ k, k ∉ ks → b.get k = b0.get k) ∧ (∀ k ∈ ks, ∀ x, sv.get k = some x → b.get k = some x) ∧
      (ks.filter (fun k => (sv.get k).isNone)).map (fun k => b.get k) = ins.map some := by
  induction ks generalizing ins b0 with
  | nil =>
    cases ins with
    | nil => simp [bindLoop] at h; subst h; simp
    | cons i is => simp [bindLoop] at h
  | cons k ks ih =>
    rw [List.nodup_cons] at hn
    simp only [bindLoop] at h
    split at h
    · rename_i x hx
      obtain ⟨h1, h2, h3⟩ := ih hn.2 h
      refine ⟨?_, ?_, ?_⟩
      · intro q hq
        simp only [List.mem_cons, not_or] at hq
        rw [h1 q hq.2, Dict.get_set, if_neg (Ne.symm hq.1)]
      · intro q hq y hy
        rcases List.mem_cons.1 hq with rfl | hq
        · rw [h1 q hn.1, Dict.get_set, if_pos rfl, ← hx, hy]
        · exact h2 q hq y hy
      · simpa [hx] using h3
    · rename_i hx
      split at h
      · cases h
      · rename_i i is
        obtain ⟨h1, h2, h3⟩ := ih hn.2 h
        refine ⟨?_, ?_, ?_⟩
        · intro q hq
          simp only [List.mem_cons, not_or] at hq
          rw [h1 q hq.2, Dict.get_set, if_neg (Ne.symm hq.1)]
        · intro q hq y hy
          rcases List.mem_cons.1 hq with rfl | hq
          · rw [hx] at hy; cases hy
          · exact h2 q hq y hy
        · simp only [hx, Option.isNone_none, List.filter_cons_of_pos, List.map_cons, h3]
          congr 1
          rw [h1 k hn.1, Dict.get_set, if_pos rfl]

theorem Func.inputNames {f : G} (hf : Func f) : f.inputNames = f.params := by rw [hf.params]; rfl

theorem Func.params_nodup {f : G} (hf : Func f) (hw : WF f) : f.params.Nodup := by
  rw [hf.params]
  refine List.Nodup.map_on ?_ hf.nodup
  intro r hr q hq e
  obtain ⟨hr1, _, _, x, hx⟩ := hf.inputs r hr
  obtain ⟨hq1, _, _, y, hy⟩ := hf.inputs q hq
  rw [hx, hy] at e
  simp only [List.headD_cons] at e
  subst e
  have hne : x ≠ "" := fun e => hf.named _ (node_mem hr1) (by rw [hx]; simp [e])
  exact hw.out_inj hne hr1 hq1 (by rw [hx]; simp) (by rw [hy]; simp)

/-- The tensor bound to a parameter. -/
def bound (b : Dict String String) (x : String) : String := (b.get x).getD ""

theorem binding_plain {f : G} (hf : Func f) (hw : WF f) {ins : List String} {b : Dict String String} (h : parameterBinding f ins = .ok b) :
    f.params.map (bound b) = ins := by
  unfold parameterBinding at h
  rw [hf.inputNames] at h
  obtain ⟨_, _, h3⟩ := bindLoop_spec _ (hf.params_nodup hw) h
  have : f.params.filter (fun k => (Dict.get ([] : Dict String String) k).isNone) = f.params :=
    List.filter_eq_self.2 (fun _ _ => rfl)
  rw [this] at h3
  have h4 := congrArg (List.map (fun o : Option String => o.getD "")) h3
  have h5 : f.params.map (fun x => (b.get x).getD "") = ins := by simpa [List.map_map, Function.comp_def] using h4
  exact h5

theorem boundTo_of {b : Dict String String} {x : String} (h1 : bound b x ≠ "") (h2 : bound b x ≠ "@@ALLOC") : boundTo b x = some (bound b x) := by
  unfold bound at *
  unfold boundTo
  cases h : Dict.get b x with
  | none => simp [h] at h1
  | some p => simp [h] at h1 h2; simp [h1, h2]

theorem uncaptured_of {f : G} (hf : Func f) {β : String → String} (h : NoCapture f (f.params.map β)) : Uncaptured f β := by
  intro a n b hs hin m hm x hx
  have hn : n ∈ f.nodeList := by rw [hs]; simp
  obtain ⟨y, hy, hyp⟩ := hf.input_of hn hin
  rw [hy] at hx
  simp only [List.mem_singleton] at hx
  subst hx
  refine h a n b hs x (by rw [hy]; simp) (β x) ?_ m hm
  rw [List.zip_map_right]
  exact List.mem_map.2 ⟨(x, x), by rw [List.zip_eq_zipWith, List.zipWith_self]; exact List.mem_map.2 ⟨x, hyp, rfl⟩, rfl⟩

/-! ## A branch -/

theorem putInfo_same {g g' : G} {o : String} {s : Option Shapes.Shape} {t : Option Nat} (h : g.putInfo o s t = .ok g') :
    Same g g' ∧ g'.heap = g.heap ∧ g'.consumers = g.consumers := by
  unfold G.putInfo at h
  split at h
  · cases h
  · cases h; exact ⟨Same.of_heap rfl rfl rfl rfl rfl rfl, rfl, rfl⟩

theorem setInfos_same {ps : List (Option Shapes.Shape × Option Nat)} : ∀ {os : List String} {g g' : G}, G.setInfos ps os g = .ok g' →
    Same g g' ∧ g'.heap = g.heap ∧ g'.consumers = g.consumers := by
  induction ps with
  | nil =>
    intro os g g' h
    simp [G.setInfos] at h
    subst h; exact ⟨.refl _, rfl, rfl⟩
  | cons p ps ih =>
    intro os g g' h
    obtain ⟨s, t⟩ := p
    cases os with
    | nil => simp [G.setInfos] at h; subst h; exact ⟨.refl _, rfl, rfl⟩
    | cons o os =>
      simp only [G.setInfos, bind, Except.bind] at h
      split at h
      · cases h
      rename_i g1 hg1
      obtain ⟨a1, a2, a3⟩ := putInfo_same hg1
      obtain ⟨b1, b2, b3⟩ := ih h
      exact ⟨a1.trans b1, b2.trans a2, b3.trans a3⟩

theorem Same.nodeList {g g' : G} (s : Same g g') (h : g'.heap = g.heap) : g'.nodeList = g.nodeList := by
  unfold G.nodeList
  rw [s.nodes]
  exact List.map_congr_left (fun r _ => Same.heap_node h r)

theorem Wired.same {f f' f'' : G} {scope : String} {β : String → String} (w : Wired f scope β f') (s : Same f' f'') (h : f''.heap = f'.heap)
    (hc : f''.consumers = f'.consumers) : Wired f scope β f'' :=
  ⟨s.wf w.wf, fun hi => (w.idx hi).congr h s.nodes (fun i => by simp only [G.cons, hc]), (s.nodeList h).trans w.nodes,
    s.outputs.trans w.outputs, s.inputs.trans w.inputs, w.names⟩

theorem wireIfBranch_wired {f f' : G} (hw : WF f) (hf : Func f) {args : List String} {infos : List (Option Shapes.Shape × Option Nat)}
    {scope : String} (ha : Passable args) (hcap : NoCapture f args) (h : f.wireIfBranch args infos scope = .ok f') :
    ∃ β : String → String, f.params.map β = args ∧ Wired f scope β f' := by
  simp only [G.wireIfBranch, bind, Except.bind] at h
  split at h
  · cases h
  rename_i b hb
  split at h
  · cases h
  rename_i f1 hf1
  have hmap := binding_plain hf hw hb
  have hmem : ∀ x ∈ f.params, bound b x ∈ args := fun x hx => by rw [← hmap]; exact List.mem_map.2 ⟨x, hx, rfl⟩
  refine ⟨bound b, hmap, ?_⟩
  have w := bindAndPrefix_spec hw hf (β := bound b)
    (fun x hx => boundTo_of (fun e => ha.1 (e ▸ hmem x hx)) (fun e => ha.2 (e ▸ hmem x hx)))
    (uncaptured_of hf (by rw [hmap]; exact hcap)) hf1
  obtain ⟨a1, a2, a3⟩ := setInfos_same h
  exact w.same a1 a2 a3

/-- A branch made by `wire_if_branch` has no inputs and returns what the function returns when called with the tensors `args`. -/
theorem branch_returns {f f' : G} (hr : Reachable f) (hf : Func f) (hp : Plain f) {args : List String}
    {infos : List (Option Shapes.Shape × Option Nat)} {scope : String} (ha : Passable args) (hcap : NoCapture f args)
    (h : f.wireIfBranch args infos scope = .ok f') (hout : ∀ x ∈ args, ¬ f'.Produces x) {I : Interp V} (hI : IdentityLaw V I)
    (outer : String → V) (outs : List V) :
    f'.inputs = [] ∧ (Returns I outer f' [] outs ↔ Returns I outer f (args.map outer) outs) := by
  obtain ⟨β, hβ, w⟩ := wireIfBranch_wired hr.wf hf ha hcap h
  have hmem : ∀ x ∈ f.params, β x ∈ args := fun x hx => by rw [← hβ]; exact List.mem_map.2 ⟨x, hx, rfl⟩
  refine ⟨w.inputs, ?_⟩
  rw [w.returns hf hp hI (fun x hx e => ha.1 (e ▸ hmem x hx)) (fun x hx => hout _ (hmem x hx))]
  rw [show f.params.map (fun x => outer (β x)) = args.map outer by rw [← hβ, List.map_map]; rfl]

/-! ## The node -/

theorem copyInfos_same {src : G} {os : List String} : ∀ {g g' : G}, g.copyInfos src os = .ok g' →
    Same g g' ∧ g'.heap = g.heap ∧ g'.consumers = g.consumers := by
  induction os with
  | nil => intro g g' h; simp [G.copyInfos] at h; subst h; exact ⟨.refl _, rfl, rfl⟩
  | cons o os ih =>
    intro g g' h
    simp only [G.copyInfos, bind, Except.bind] at h
    split at h
    · cases h
    rename_i g1 hg1
    obtain ⟨a1, a2, a3, -⟩ := copyInfo_spec hg1
    obtain ⟨b1, b2, b3⟩ := ih h
    exact ⟨a1.trans b1, b2.trans a2, b3.trans a3⟩

/-- The graph after a node has been replaced by another of the same name with the same outputs. -/
structure Replaced (g g' : G) (r : Ref) (n : Node) : Prop where
  wf : WF g'
  idx : Idx g → Idx g'
  mem : ∀ m, m ∈ g'.nodeList ↔ (m ∈ g.nodeList ∧ m.name ≠ (g.node r).name) ∨ m = n
  outputs : g'.outputs = g.outputs
  inputs : g'.inputs = g.inputs.erase r

theorem replaced_of {g g1 g2 g' : G} (hw : WF g) {r r' : Ref} (hr : r ∈ g.nodes) (h1 : g.removeNode (g.node r).name = .ok g1) {op : String}
    {input : List String} (h2 : g1.makeNode op input (g.node r).name (g.node r).output = .ok (g2, r')) {src : G} {os : List String}
    (h3 : g2.copyInfos src os = .ok g') :
    Replaced g g' r ⟨(g.node r).name, op, "", [], input, (g.node r).output⟩ := by
  obtain ⟨r0, e0, m⟩ := removeNode_removed hw h1
  have := hw.name_inj m.mem hr e0
  subst this
  have made := makeNode_made h2
  obtain ⟨a1, a2, a3⟩ := copyInfos_same h3
  have hw1 := m.wf hw
  have hw2 := made.wf hw1 (hw.nameNe r0 hr) (hw.outNodup r0 hr)
  refine ⟨a1.wf hw2, fun hi => ?_, ?_, ?_, ?_⟩
  · exact (made.idx hw1 (m.idx hw hi)).congr a2 a1.nodes (fun i => by simp only [G.cons, a3])
  · intro q
    rw [a1.nodeList a2]
    have hl : g2.nodeList = (g.nodes.erase r0).map g.node ++ [⟨(g.node r0).name, op, "", [], input, (g.node r0).output⟩] := by
      unfold G.nodeList
      rw [made.nodes, m.nodes, List.map_append]
      congr 1
      · refine List.map_congr_left (fun x hx => ?_)
        have hx' := hw1.valid x (by rw [m.nodes]; exact hx)
        rw [node_append_lt hx' _ _ made.heap]
        exact Same.heap_node m.heap x
      · simp [made.self]
    rw [hl, List.mem_append, List.mem_singleton]
    have : q ∈ (g.nodes.erase r0).map g.node ↔ q ∈ g.nodeList ∧ q.name ≠ (g.node r0).name := by
      rw [List.mem_map, mem_nodeList]
      constructor
      · rintro ⟨x, hx, rfl⟩
        have hxg := List.mem_of_mem_erase hx
        refine ⟨⟨x, hxg, rfl⟩, fun e => ?_⟩
        have := hw.name_inj hxg hr e
        subst this
        exact hw.nodup.not_mem_erase hx
      · rintro ⟨⟨x, hx, rfl⟩, hne⟩
        exact ⟨x, (List.mem_erase_of_ne (fun e => hne (by rw [e]))).2 hx, rfl⟩
    rw [this]
  · rw [a1.outputs, made.outputs, m.outputs]
  · rw [a1.inputs, made.inputs, m.inputs]

/-- Same equations around the replaced node. -/
theorem Replaced.satWith {g g' : G} {r : Ref} {n : Node} (hw : WF g) (hr : r ∈ g.nodes) (p : Replaced g g' r n) (hname : n.name = (g.node r).name)
    (hout : n.output = (g.node r).output) (I : Interp V) (env e : String → V) (R : List V → Prop) :
    SatWith I env e g'.nodeList (g.node r).name R ↔ SatWith I env e g.nodeList (g.node r).name R := by
  have huniq : ∀ m ∈ g.nodeList, m.name = (g.node r).name → m = g.node r := by
    intro m hm e
    obtain ⟨x, hx, rfl⟩ := mem_nodeList.1 hm
    rw [hw.name_inj hx hr e]
  have hun : ∀ x, Unproduced g'.nodeList x ↔ Unproduced g.nodeList x := by
    intro x
    unfold Unproduced
    refine or_congr Iff.rfl ⟨fun h m hm => ?_, fun h m hm => ?_⟩
    · by_cases e : m.name = (g.node r).name
      · rw [huniq m hm e, ← hout]; exact h n ((p.mem n).2 (Or.inr rfl))
      · exact h m ((p.mem m).2 (Or.inl ⟨hm, e⟩))
    · rcases (p.mem m).1 hm with ⟨hm, _⟩ | rfl
      · exact h m hm
      · rw [hout]; exact h _ (node_mem hr)
  constructor
  · rintro ⟨h1, h2, h3⟩
    refine ⟨fun m hm hne => h1 m ((p.mem m).2 (Or.inl ⟨hm, hne⟩)) hne, ?_, fun x hx => h3 x ((hun x).2 hx)⟩
    intro m hm e
    rw [huniq m hm e, ← hout]
    exact h2 n ((p.mem n).2 (Or.inr rfl)) hname
  · rintro ⟨h1, h2, h3⟩
    refine ⟨?_, ?_, fun x hx => h3 x ((hun x).1 hx)⟩
    · intro m hm hne
      rcases (p.mem m).1 hm with ⟨hm, _⟩ | rfl
      · exact h1 m hm hne
      · exact (hne hname).elim
    · intro m hm e
      rcases (p.mem m).1 hm with ⟨_, hne⟩ | rfl
      · exact (hne e).elim
      · rw [hout]; exact h2 _ (node_mem hr) rfl

/-- The parts of a successful conversion. -/
theorem convertIf_parts {g g' gt gt' ge ge' : G} {r : Ref} {ft fe : String} (hw : WF g) (hr : r ∈ g.nodes)
    (h : g.convertIf r ft gt fe ge = .ok (g', gt', ge')) :
    gt.wireIfBranch (g.node r).input.tail (g.infos r) ft = .ok gt' ∧ ge.wireIfBranch (g.node r).input.tail (g.infos r) fe = .ok ge' ∧
      Replaced g g' r ⟨(g.node r).name, "If", "", [], (g.node r).input.take 1, (g.node r).output⟩ := by
  simp only [G.convertIf, bind, Except.bind] at h
  split at h
  · cases h
  rename_i g1 h1
  split at h
  · cases h
  rename_i gt1 ht
  split at h
  · cases h
  rename_i ge1 he
  split at h
  · cases h
  rename_i q h2
  obtain ⟨g2, r2⟩ := q
  simp only at h
  split at h
  · cases h
  rename_i g3 h3
  cases h
  exact ⟨ht, he, replaced_of hw hr h1 h2 h3⟩

/-- What a function must be for the handler, called with the tensors `args`, converted to the branch `f'`. -/
structure Branch (f : G) (args : List String) (f' : G) : Prop where
  reach : Reachable f
  func : Func f
  plain : Plain f
  nocap : NoCapture f args
  outer : ∀ x ∈ args, ¬ f'.Produces x

/-- C50. A converted conditional: the graph keeps its outputs, its inputs and all its other nodes; the node keeps its name and outputs, becomes `If`
and reads only the condition; the branches have no inputs; and the graph has the same results as the graph of the input model, where the node
calls the function the condition selects with the node's other inputs. -/
theorem if_converts {g g' gt gt' ge ge' : G} {r : Ref} {ft fe c : String} {args : List String} (hg : Reachable g) (hr : r ∈ g.nodes)
    (hin : (g.node r).input = c :: args) (hgi : r ∉ g.inputs) (ha : Passable args) (bt : Branch gt args gt') (be : Branch ge args ge')
    (h : g.convertIf r ft gt fe ge = .ok (g', gt', ge')) :
    g'.outputs = g.outputs ∧ g'.inputs = g.inputs ∧ gt'.inputs = [] ∧ ge'.inputs = [] ∧
    (∀ m, m ∈ g'.nodeList ↔ (m ∈ g.nodeList ∧ m.name ≠ (g.node r).name) ∨ m = ⟨(g.node r).name, "If", "", [], [c], (g.node r).output⟩) ∧
    ∀ (V : Type) (I : Interp V), IdentityLaw V I → ∀ (truth : V → Bool) (env : String → V) (out : List V),
      (∃ e, SatWith I env e g'.nodeList (g.node r).name
          (OnnxIf truth (e c) (Returns I e gt' []) (Returns I e ge' [])) ∧ out = g'.outputs.map e) ↔
      ∃ e, SatWith I env e g.nodeList (g.node r).name
          (TfIf truth (e c) (Returns I e gt) (Returns I e ge) (args.map e)) ∧ out = g.outputs.map e := by
  obtain ⟨ht, he, p⟩ := convertIf_parts hg.wf hr h
  rw [hin, List.tail_cons] at ht he
  rw [hin] at p
  have i1 := (wireIfBranch_wired bt.reach.wf bt.func ha bt.nocap ht).choose_spec.2.inputs
  have i2 := (wireIfBranch_wired be.reach.wf be.func ha be.nocap he).choose_spec.2.inputs
  refine ⟨p.outputs, by rw [p.inputs, List.erase_of_not_mem hgi], i1, i2, p.mem, ?_⟩
  intro V I hI truth env out
  refine exists_congr (fun e => ?_)
  rw [p.outputs, p.satWith hg.wf hr rfl rfl]
  have : OnnxIf truth (e c) (Returns I e gt' []) (Returns I e ge' []) = TfIf truth (e c) (Returns I e gt) (Returns I e ge) (args.map e) := by
    funext outs
    unfold OnnxIf TfIf
    rw [(branch_returns bt.reach bt.func bt.plain ha bt.nocap ht bt.outer hI e outs).2,
      (branch_returns be.reach be.func be.plain ha be.nocap he be.outer hI e outs).2]
  rw [this]

end Verif.Graph
