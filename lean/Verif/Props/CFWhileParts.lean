import Verif.Props.CFWhile
/-!
# `While.version_7`: what the conversion leaves (used by C51)
-/
namespace Verif.Graph
open Verif
variable {V : Type}

/-- A loop that can be converted: `r` is the node `While` with inputs `x0` (counter), `x1` (bound), `xs` (loop variables) and outputs `y0`, `y1`, `ys`. -/
structure WhileSite (g : G) (r : Ref) (x0 x1 : String) (xs : List String) (y0 y1 : String) (ys : List String) : Prop where
  mem : r ∈ g.nodes
  notInput : r ∉ g.inputs
  input : (g.node r).input = x0 :: x1 :: xs
  output : (g.node r).output = y0 :: y1 :: ys
  same : ys.length = xs.length
  named : "" ∉ (g.node r).output
  passable : Passable (x0 :: x1 :: xs)
  /-- nodes read tensors of the graph -/
  closed : ∀ n ∈ g.nodeList, ∀ i ∈ n.input, i ≠ "" → g.Produces i
  /-- the results are tensors of the graph, not of the loop -/
  results : ∀ o ∈ g.outputs, g.Produces o ∧ o ∉ (g.node r).output
  /-- nobody reads the counter and the bound the loop returns -/
  unread : ∀ n ∈ g.nodeList, y0 ∉ n.input ∧ y1 ∉ n.input
  /-- the loop does not read its own outputs -/
  acyclic : ∀ x ∈ x0 :: x1 :: xs, x ∉ (g.node r).output
  /-- no tensor lists -/
  lists : ∀ n ∈ g.nodeList, n.op ≠ "TensorListReserve"
  placeholders : ∀ q ∈ g.inputs, (g.node q).isConst = false
  /-- a constant bound is a constant like any other, not a result of the graph, not a loop variable too -/
  bound : ∀ n ∈ g.nodeList, x1 ∈ n.output → n.isConst = true → n.input = [] ∧ n.output = [x1] ∧ x1 ∉ g.outputs ∧ x1 ∉ x0 :: xs

/-- The names the conversion of a loop relies on: the tensors it makes have names of their own, tensors passed to the functions are not captured. -/
structure WhileNames (g : G) (r : Ref) (x0 x1 : String) (xs : List String) (cond body : G) (cf fresh condName : String) : Prop where
  own : fresh ≠ "" ∧ fresh ≠ "@@ALLOC" ∧ ¬ g.Produces fresh
  loop : ∀ p ∈ ports ((g.node r).name ++ "_loop") xs.length, ¬ g.Produces p
  apart : Apart g cond cf
  new : ∀ x ∈ [x1, fresh, (g.node r).name ++ "_cast", (g.node r).name ++ "_cast:0"], ∀ m ∈ cond.nodeList,
    x ≠ scopedName cf m.name ∧ x ∉ ports (scopedName cf m.name) m.output.length
  nocap : ∀ b ∈ [x1, fresh], NoCapture cond (x0 :: b :: xs)
  names : ∀ b ∈ [x1, fresh], LoopNames body cond b condName
  input : condName ≠ ""

/-- The node `Loop`. -/
def loopNode (name trip c : String) (xs : List String) : Node := ⟨name ++ "_loop", "Loop", "", [], trip :: c :: xs, ports (name ++ "_loop") xs.length⟩

/-- Nodes of the graph after the conversion, before its consumers are redirected. -/
def WhileNew (g : G) (r : Ref) (D T : List Node) (cond' : G) (L m : Node) : Prop :=
  (m ∈ g.nodeList ∧ m ≠ g.node r ∧ m ∉ D) ∨ m ∈ T ∨ m ∈ cond'.nodeList ∨ m = L

/-- The parts of a converted loop. -/
structure WhileParts (g : G) (r : Ref) (x0 : String) (xs ys : List String) (cond : G) (cf : String) (g' : G) (rl : Ref) (mName trip c : String)
    (D T : List Node) (cond' : G) (β : String → String) : Prop where
  wired : Wired cond cf β cond'
  args : cond.params.map β = x0 :: mName :: xs
  result : ∃ cs, cond'.outputs = c :: cs
  outputs : g'.outputs = g.outputs
  inputs : g'.inputs = g.inputs
  loop : rl ∈ g'.nodes ∧ g'.node rl = (loopNode (g.node r).name trip c xs).mapIn (seqRen (ys.zip (ports ((g.node r).name ++ "_loop") xs.length)))
  list : ∀ m, m ∈ g'.nodeList ↔ ∃ m0, WhileNew g r D T cond' (loopNode (g.node r).name trip c xs) m0 ∧
    m = m0.mapIn (seqRen (ys.zip (ports ((g.node r).name ++ "_loop") xs.length)))
  names : ∀ m0, WhileNew g r D T cond' (loopNode (g.node r).name trip c xs) m0 → m0.name = (g.node r).name ++ "_loop" →
    m0 = loopNode (g.node r).name trip c xs
  fresh : ∀ m0, (m0 ∈ g.nodeList ∧ m0 ≠ g.node r ∧ m0 ∉ D) ∨ m0 ∈ T ∨ m0 ∈ cond'.nodeList →
    ∀ p ∈ ports ((g.node r).name ++ "_loop") xs.length, p ∉ m0.output

theorem BoundCase.new {g gA : G} {r : Ref} {x1 fresh mName trip : String} {D T : List Node}
    (b : BoundCase g r x1 fresh gA mName trip D T) :
    (mName = x1 ∨ mName = fresh) ∧ ∀ t ∈ T, (t.name ∈ [x1, fresh, (g.node r).name ++ "_cast"]) ∧
      (∀ x ∈ t.output, x = x1 ∧ D ≠ [] ∨ x ∈ [fresh, (g.node r).name ++ "_cast:0"]) ∧ ∀ x ∈ t.input, x = x1 := by
  cases b with
  | unlimited => exact ⟨Or.inl rfl, by simp⟩
  | own => exact ⟨Or.inl rfl, by simp [tripConst]⟩
  | shared => exact ⟨Or.inr rfl, by simp [tripConst]⟩
  | dynamic => exact ⟨Or.inl rfl, by simp [tripCast]⟩

theorem WhileSite.x1_at {g : G} {r : Ref} {x0 x1 y0 y1 : String} {xs ys : List String} (s : WhileSite g r x0 x1 xs y0 y1 ys) :
    (g.node r).input[1]? = some x1 := by rw [s.input]; rfl

theorem convertWhile_parts {g g' cond body body' : G} {r rl : Ref} {x0 x1 y0 y1 cf fresh condName : String} {xs ys : List String} (hw : WF g)
    (hi : Idx g) (s : WhileSite g r x0 x1 xs y0 y1 ys) (hwc : WF cond) (hfc : Func cond) (hn : WhileNames g r x0 x1 xs cond body cf fresh condName)
    (h : g.convertWhile r cf cond body fresh condName = .ok (g', rl, body')) :
    ∃ gA mName trip c D T cond' β, BoundCase g r x1 fresh gA mName trip D T ∧
      WhileParts g r x0 xs ys cond cf g' rl mName trip c D T cond' β ∧ body.wireWhileBody cond mName condName = .ok body' := by
  have hx1 := s.x1_at
  have hne : x1 ≠ "" := fun e => s.passable.1 (by simp [e])
  simp only [G.convertWhile, bind, Except.bind] at h
  split at h
  · cases h
  rename_i q hq
  obtain ⟨gA, mName, trip⟩ := q
  simp only at h
  obtain ⟨D, T, bc⟩ := loopBound_cases hw hi s.mem hx1 hne hn.own.1 (s.acyclic x1 (by simp)) hq
  have bd := bc.bounded hw s.mem hx1
  obtain ⟨bm, bt⟩ := bc.new
  have hinA : (gA.node r).input = x0 :: mName :: xs := by
    rw [bd.node]
    simp [Node.rebound, Node.setInput, s.input]
  rw [hinA] at h
  have hnameA : (gA.node r).name = (g.node r).name := by rw [bd.node]; rfl
  have houtA : (gA.node r).output = (g.node r).output := by rw [bd.node]; rfl
  split at h
  · cases h
  rename_i gB hB
  split at h
  · cases h
  rename_i b hb
  split at h
  · cases h
  rename_i q hC
  obtain ⟨gC, outs⟩ := q
  simp only at h
  cases houts : outs with
  | nil => rw [houts] at h; cases h
  | cons c cs =>
  rw [houts] at h
  simp only at h
  split at h
  · cases h
  rename_i q hM
  obtain ⟨gD, r1⟩ := q
  simp only at h
  split at h
  · cases h
  rename_i gE hE
  split at h
  · cases h
  rename_i gF hF
  split at h
  · cases h
  rename_i bd' hbody
  cases h
  -- the node is removed
  rw [← hnameA] at hB
  obtain ⟨r', e', rem⟩ := removeNode_removed bd.wf hB
  have := bd.wf.name_inj rem.mem bd.mem e'
  subst this
  have hwB := rem.wf bd.wf
  have hBlist : ∀ m, m ∈ gB.nodeList ↔ (m ∈ g.nodeList ∧ m ≠ g.node r' ∧ m ∉ D) ∨ m ∈ T := by
    intro m
    rw [rem.mem_list bd.wf, bd.list]
    constructor
    · rintro ⟨h1 | h1 | h1, h2⟩
      · exact Or.inl h1
      · exact Or.inr h1
      · exact (h2 h1).elim
    · rintro (h1 | h1)
      · refine ⟨Or.inl h1, fun e => h1.2.1 ?_⟩
        rw [← hw.node_eq s.mem h1.1, e, hnameA]
      · refine ⟨Or.inr (Or.inl h1), fun e => bd.ne m h1 ?_⟩
        rw [e, hnameA]
  -- the condition is inlined
  have hmap := binding_plain hfc hwc hb
  have hpass : Passable (x0 :: mName :: xs) := by
    obtain ⟨p1, p2⟩ := s.passable
    simp only [List.mem_cons, not_or] at p1 p2
    rcases bm with e | e
    · rw [e]; exact s.passable
    · constructor
      · simp only [List.mem_cons, not_or]; exact ⟨p1.1, by rw [e]; exact Ne.symm hn.own.1, p1.2.2⟩
      · simp only [List.mem_cons, not_or]; exact ⟨p2.1, by rw [e]; exact Ne.symm hn.own.2.1, p2.2.2⟩
  have hmem : ∀ x ∈ cond.params, bound b x ∈ x0 :: mName :: xs := fun x hx => by rw [← hmap]; exact List.mem_map.2 ⟨x, hx, rfl⟩
  have hap : Apart gB cond cf := by
    have key : ∀ n ∈ gB.nodeList, ∀ m ∈ cond.nodeList, n.name ≠ scopedName cf m.name ∧
        (∀ x ∈ n.output, x ∉ ports (scopedName cf m.name) m.output.length) ∧ ∀ x ∈ n.input, x ∉ ports (scopedName cf m.name) m.output.length := by
      intro n hn' m hm
      rcases (hBlist n).1 hn' with h1 | h1
      · exact ⟨hn.apart.names n h1.1 m hm, hn.apart.outputs n h1.1 m hm, hn.apart.inputs n h1.1 m hm⟩
      · obtain ⟨t1, t2, t3⟩ := bt n h1
        have hx1in : x1 ∉ ports (scopedName cf m.name) m.output.length :=
          hn.apart.inputs _ (node_mem s.mem) m hm x1 (by rw [s.input]; simp)
        refine ⟨?_, ?_, ?_⟩
        · simp only [List.mem_cons, List.not_mem_nil, or_false] at t1
          rcases t1 with e | e | e
          · rw [e]; exact (hn.new _ (by simp) m hm).1
          · rw [e]; exact (hn.new _ (by simp) m hm).1
          · rw [e]; exact (hn.new _ (by simp) m hm).1
        · intro x hxo
          rcases t2 x hxo with e | e
          · rw [e.1]; exact hx1in
          · simp only [List.mem_cons, List.not_mem_nil, or_false] at e
            rcases e with e | e
            · rw [e]; exact (hn.new _ (by simp) m hm).2
            · rw [e]; exact (hn.new _ (by simp) m hm).2
        · intro x hxi
          rw [t3 x hxi]; exact hx1in
    exact ⟨fun n hn m hm => (key n hn m hm).1, fun n hn m hm => (key n hn m hm).2.1, fun n hn m hm => (key n hn m hm).2.2⟩
  obtain ⟨cond', w, ad, ho⟩ := inlineSubgraph_spec hwB hwc hfc (β := bound b)
    (fun x hx => boundTo_of (fun e => hpass.1 (e ▸ hmem x hx)) (fun e => hpass.2 (e ▸ hmem x hx)))
    (uncaptured_of hfc (by rw [hmap]; exact hn.nocap mName (by rcases bm with e | e <;> simp [e]))) hap hC
  -- the loop
  have hk : (g.node r').output.length - 2 = xs.length := by rw [s.output, ← s.same]; simp
  have made := makeNode_made hM
  simp only [hk, List.drop_succ_cons, List.drop_zero] at made hE hF
  rw [s.output] at hF
  simp only [List.drop_succ_cons, List.drop_zero] at hF
  have hwD := made.wf ad.wf (by intro e; have := congrArg String.length e; simp at this)
    ((nodup_ports _ _).sublist List.filter_sublist)
  have hiD := made.idx ad.wf ad.idx
  obtain ⟨e1, e2, e3⟩ := setInfos_same hE
  have hiE : Idx gE := hiD.congr e2 e1.nodes (fun i => by simp only [G.cons, e3])
  obtain ⟨f1, f2⟩ := shiftConsumers_spec _ (e1.wf hwD) hiE hF
  have hlistE : gE.nodeList = gB.nodeList ++ cond'.nodeList ++ [loopNode (g.node r').name trip c xs] := by
    rw [e1.nodeList e2, made.nodeList ad.wf, ad.nodeList]
    rfl
  have hnew : ∀ m0, m0 ∈ gE.nodeList ↔ WhileNew g r' D T cond' (loopNode (g.node r').name trip c xs) m0 := by
    intro m0
    rw [hlistE]
    simp only [List.mem_append, List.mem_singleton, hBlist]
    unfold WhileNew
    tauto
  have hold : ∀ m0 ∈ gE.nodeList, m0 = loopNode (g.node r').name trip c xs ∨ m0 ∈ gC.nodeList := by
    intro m0 hm
    rw [hlistE] at hm
    rw [ad.nodeList]
    simp only [List.mem_append, List.mem_singleton] at hm ⊢
    tauto
  refine ⟨gA, mName, trip, c, D, T, cond', bound b, bc, ⟨w, hmap, ⟨cs, by rw [← ho, houts]⟩, ?_, ?_, ⟨?_, ?_⟩, ?_, ?_, ?_⟩, hbody⟩
  · rw [f1.outputs, e1.outputs, made.outputs, ad.outputs, rem.outputs, bd.outputs]
  · have hin : gA.inputs = g.inputs := by
      refine bd.inputs s.notInput (fun d hd q hq e => ?_)
      have : d.isConst = true := by
        cases bc with
        | unlimited => simp at hd
        | own _ _ hc => rw [List.mem_singleton.1 hd]; exact hc
        | shared => simp at hd
        | dynamic => simp at hd
      rw [← e, s.placeholders q hq] at this
      cases this
    rw [f1.inputs, e1.inputs, made.inputs, ad.inputs, rem.inputs, hin, List.erase_of_not_mem s.notInput]
  · rw [f1.nodes, e1.nodes, made.nodes]; simp
  · rw [f2 _ (by rw [e1.nodes, made.nodes]; simp), Same.heap_node e2, made.self]
    rfl
  · intro m
    rw [mem_nodeList, f1.nodes]
    constructor
    · rintro ⟨q, hq, rfl⟩
      exact ⟨gE.node q, (hnew _).1 (node_mem hq), f2 q hq⟩
    · rintro ⟨m0, h0, rfl⟩
      obtain ⟨q, hq, rfl⟩ := mem_nodeList.1 ((hnew _).2 h0)
      exact ⟨q, hq, f2 q hq⟩
  · intro m0 h0 hname
    rcases hold m0 ((hnew _).2 h0) with e | hC'
    · exact e
    · obtain ⟨q, hq, rfl⟩ := mem_nodeList.1 hC'
      have hfn := made.freshName
      have := (ad.wf.getNodeByName ((g.node r').name ++ "_loop") q).2 ⟨hq, hname⟩
      simp only at hfn
      rw [this] at hfn
      cases hfn
  · intro m0 h0 p hp hpo
    have hC' : m0 ∈ gC.nodeList := by
      rw [ad.nodeList, List.mem_append, hBlist]
      tauto
    exact produces_fresh ad.wf made hp (port_ne hp) ⟨m0, hC', hpo⟩

end Verif.Graph
