import Verif.Props.CFInline
/-!
# C51: the body of a loop. The converted body does one step of the loop and evaluates the condition for the next.
-/
namespace Verif.Graph
open Verif
variable {V : Type}

theorem bindOne_spec {g : G} {r : Ref} {p : String} (hr : r < g.heap.length) :
    Frame g ((g.setType r "Identity").replaceInputs r [p]) ∧ ((g.setType r "Identity").replaceInputs r [p]).outputs = g.outputs ∧
      ((g.setType r "Identity").replaceInputs r [p]).node r = (g.node r).bound p ∧
      (∀ q, q ≠ r → ((g.setType r "Identity").replaceInputs r [p]).node q = g.node q) := by
  have f1 : Frame g (g.setType r "Identity") := Frame.setNode rfl rfl
  obtain ⟨h1, h2, -, -⟩ := replaceInputs_spec (g.setType r "Identity") r [p]
  have hn : ∀ q, ((g.setType r "Identity").replaceInputs r [p]).node q =
      ((g.setType r "Identity").setNode r { (g.setType r "Identity").node r with input := [p] }).node q := node_of_heap_set h2
  have hrl : r < (g.setType r "Identity").heap.length := by rw [f1.len]; exact hr
  refine ⟨f1.trans h1.frame, h1.outputs, ?_, ?_⟩
  · rw [hn, node_setNode_self hrl, show (g.setType r "Identity").node r = _ from node_setNode_self hr]; rfl
  · intro q hq
    rw [hn, node_setNode_ne (Ne.symm hq)]
    exact node_setNode_ne (Ne.symm hq)

theorem bindState_spec {b : Dict String String} (l : List Ref) {g : G} (hw : WF g) (hl : l.Nodup) (hsub : ∀ r ∈ l, r ∈ g.nodes) :
    Frame g (G.bindState b l g) ∧ (G.bindState b l g).outputs = g.outputs ∧
      (∀ r ∈ l, (G.bindState b l g).node r = match b.get ((g.node r).output.headD "") with | some p => (g.node r).bound p | none => g.node r) ∧
      (∀ r, r ∉ l → (G.bindState b l g).node r = g.node r) := by
  induction l generalizing g with
  | nil => exact ⟨.refl _, rfl, by simp, fun _ _ => rfl⟩
  | cons r rs ih =>
    rw [List.nodup_cons] at hl
    have hrm := hsub r (by simp)
    have hne : ∀ q ∈ rs, q ≠ r := fun q hq e => hl.1 (e ▸ hq)
    simp only [G.bindState]
    cases hb : Dict.get b ((g.node r).output.headD "") with
    | none =>
      obtain ⟨a1, a2, a3, a4⟩ := ih hw hl.2 (fun q hq => hsub q (by simp [hq]))
      refine ⟨a1, a2, ?_, fun q hq => a4 q (fun h => hq (by simp [h]))⟩
      intro q hq
      rcases List.mem_cons.1 hq with rfl | hq
      · simp only [hb]; exact a4 q hl.1
      · exact a3 q hq
    | some p =>
      obtain ⟨c1, c2, c3, c4⟩ := bindOne_spec (p := p) (hw.valid r hrm)
      obtain ⟨a1, a2, a3, a4⟩ := ih (g := (g.setType r "Identity").replaceInputs r [p]) (c1.wf hw) hl.2
        (fun q hq => by rw [c1.nodes]; exact hsub q (by simp [hq]))
      refine ⟨c1.trans a1, a2.trans c2, ?_, ?_⟩
      · intro q hq
        rcases List.mem_cons.1 hq with rfl | hq
        · simp only [hb]; rw [a4 q hl.1, c3]
        · rw [a3 q hq, c4 q (hne q hq)]
      · intro q hq
        simp only [List.mem_cons, not_or] at hq
        rw [a4 q hq.2, c4 q hq.1]

/-- The placeholder of the bound reads the tensor of the outer graph instead. -/
def Node.stated (i1 mName : String) (n : Node) : Node := if i1 ∈ n.output then n.bound mName else n

theorem binding_state {f : G} (hf : Func f) (hw : WF f) {c0 c1 : String} {cs : List String} (hp : f.params = c0 :: c1 :: cs) {x0 m : String}
    {xs : List String} {b : Dict String String} (h : parameterBinding f (x0 :: xs) [(c1, m)] = .ok b) :
    f.params.map (bound b) = x0 :: m :: xs := by
  unfold parameterBinding at h
  rw [hf.inputNames] at h
  have hnd := hf.params_nodup hw
  obtain ⟨_, h2, h3⟩ := bindLoop_spec _ hnd h
  rw [hp] at hnd h2 h3 ⊢
  simp only [List.nodup_cons, List.mem_cons, not_or] at hnd
  obtain ⟨⟨n1, n2⟩, n3, n4⟩ := hnd
  have e0 : Dict.get [(c1, m)] c0 = none := by simp [Dict.get, Ne.symm n1]
  have e1 : Dict.get [(c1, m)] c1 = some m := by simp [Dict.get]
  have ec : ∀ k ∈ cs, (Dict.get [(c1, m)] k).isNone = true := by
    intro k hk
    have : c1 ≠ k := fun e => n3 (e ▸ hk)
    simp [Dict.get, this]
  have hfil : (c0 :: c1 :: cs).filter (fun k => (Dict.get [(c1, m)] k).isNone) = c0 :: cs := by
    simp only [List.filter_cons, e0, e1, Option.isNone_none, Option.isNone_some, if_true, Bool.false_eq_true, if_false]
    rw [List.filter_eq_self.2 ec]
  rw [hfil] at h3
  have h4 := congrArg (List.map (fun o : Option String => o.getD "")) h3
  have h5 : (c0 :: cs).map (bound b) = x0 :: xs := by
    have : (c0 :: cs).map (fun x => (b.get x).getD "") = x0 :: xs := by simpa [List.map_map, Function.comp_def] using h4
    exact this
  have h6 : bound b c1 = m := by
    have := h2 c1 (by simp) m e1
    simp [bound, this]
  simp only [List.map_cons, List.cons.injEq] at h5 ⊢
  exact ⟨h5.1, h6, h5.2⟩

/-- Names the conversion of a loop body relies on: the tensors passed to the condition exist and are not captured, and the copy of the condition,
the new input and the tensor holding the bound have names of their own. -/
structure LoopNames (body cond : G) (mName condName : String) : Prop where
  passable : Passable (mName :: body.params ++ body.outputs.drop 2)
  nocap : ∀ i0 i1 is, body.params = i0 :: i1 :: is → NoCapture cond (i0 :: mName :: body.outputs.drop 2)
  apart : Apart body cond "cond__"
  fresh : ∀ m ∈ cond.nodeList, condName ≠ scopedName "cond__" m.name ∧ condName ++ ":0" ∉ ports (scopedName "cond__" m.name) m.output.length ∧
    mName ∉ ports (scopedName "cond__" m.name) m.output.length
  outer : ¬ body.Produces mName ∧ mName ≠ condName ++ ":0"

/-- The parts of a converted loop body. -/
structure BodyParts (body cond : G) (i0 i1 : String) (is : List String) (mName condName : String) (body' cond' : G) (β : String → String) : Prop where
  wired : Wired cond "cond__" β cond'
  args : cond.params.map β = i0 :: mName :: body.outputs.drop 2
  nodes : body'.nodeList = body.nodeList.map (Node.stated i1 mName) ++ [⟨condName, "Placeholder", "", [], [], [condName ++ ":0"]⟩] ++ cond'.nodeList
  params : body'.params = i0 :: (condName ++ ":0") :: is
  outputs : ∃ c cs, cond'.outputs = c :: cs ∧ body'.outputs = c :: body.outputs.drop 2
  newInput : ¬ body.Produces (condName ++ ":0")

theorem colon_ne (x : String) : x ++ ":0" ≠ "" := by
  intro e
  have := congrArg String.length e
  simp at this

theorem wireWhileBody_parts {body cond body' : G} (hwb : WF body) (hfb : Func body) (hwc : WF cond) (hfc : Func cond) {mName condName : String}
    (hcn : condName ≠ "") {i0 i1 : String} {is : List String} (hpb : body.params = i0 :: i1 :: is) {c0 c1 : String} {cs : List String}
    (hpc : cond.params = c0 :: c1 :: cs)
    (hn : LoopNames body cond mName condName) (h : body.wireWhileBody cond mName condName = .ok body') :
    ∃ cond' β, BodyParts body cond i0 i1 is mName condName body' cond' β := by
  have hnd := hfb.params_nodup hwb
  rw [hpb] at hnd
  simp only [List.nodup_cons, List.mem_cons, not_or] at hnd
  obtain ⟨⟨hd1, hd2⟩, hd3, hd4⟩ := hnd
  -- the node of a parameter
  have hparam : ∀ x ∈ body.params, x ≠ "" ∧ ∃ r ∈ body.nodes, (body.node r).output = [x] := by
    intro x hx
    obtain ⟨r, hr, hxr⟩ := List.mem_flatMap.1 hx
    obtain ⟨h1, _, _, y, hy⟩ := hfb.inputs r hr
    rw [hy, List.mem_singleton] at hxr
    subst hxr
    exact ⟨fun e => hfb.named _ (node_mem h1) (by rw [hy]; simp [e]), r, h1, hy⟩
  have hi1 : i1 ∈ body.params := by rw [hpb]; simp
  simp only [G.wireWhileBody, hfb.inputNames, hfc.inputNames, hpb, hpc] at h
  obtain ⟨a1, a2, a3, a4⟩ := bindState_spec (b := [(i1, mName)]) body.inputs hwb hfb.nodup (fun r hr => (hfb.inputs r hr).1)
  generalize hB1 : G.bindState [(i1, mName)] body.inputs body = B1 at h a1 a2 a3 a4
  have hw1 := a1.wf hwb
  have hnode1 : ∀ r ∈ body.nodes, B1.node r = (body.node r).stated i1 mName := by
    intro r hr
    by_cases hri : r ∈ body.inputs
    · rw [a3 r hri]
      obtain ⟨_, _, _, x, hx⟩ := hfb.inputs r hri
      simp only [hx, List.headD_cons, Node.stated, List.mem_singleton, Dict.get]
      by_cases e : i1 = x <;> simp [e]
    · rw [a4 r hri]
      have : i1 ∉ (body.node r).output := by
        intro hm
        obtain ⟨q, hq, hqx⟩ := List.mem_flatMap.1 hi1
        have := hwb.out_inj (hparam i1 hi1).1 hr (hfb.inputs q hq).1 hm hqx
        exact hri (this ▸ hq)
      simp [Node.stated, this]
  simp only [bind, Except.bind] at h
  split at h
  · cases h
  rename_i q hmk
  obtain ⟨B2, rc⟩ := q
  simp only at h
  have made := makeNode_made hmk
  have hw2 : WF B2 := made.wf hw1 hcn (by simp)
  split at h
  · cases h
  rename_i B3 hs3
  split at h
  · cases h
  rename_i B4 hs4
  obtain ⟨b1, b2⟩ := setDtype_same hs3
  obtain ⟨b3, b4⟩ := setDtype_same hs4
  have hs := b1.trans b3
  have hheap : B4.heap = B2.heap := b4.trans b2
  have hw4 := hs.wf hw2
  have hvars : is.filter (fun x => decide (x ≠ i1)) = is :=
    List.filter_eq_self.2 (fun x hx => by simpa using (fun e => hd3 (e ▸ hx) : x ≠ i1))
  rw [hvars] at h
  have hlist4 : B4.nodeList = body.nodeList.map (Node.stated i1 mName) ++ [⟨condName, "Placeholder", "", [], [], [condName ++ ":0"]⟩] := by
    rw [hs.nodeList hheap]
    unfold G.nodeList
    rw [made.nodes, a1.nodes, List.map_append, List.map_map]
    congr 1
    · refine List.map_congr_left (fun r hr => ?_)
      rw [node_append_lt (hw1.valid r (by rw [a1.nodes]; exact hr)) _ _ made.heap]
      exact hnode1 r hr
    · simp [made.self]
  have hold : ∀ r ∈ body.nodes, r ∈ B4.nodes ∧ (B4.node r).output = (body.node r).output := by
    intro r hr
    refine ⟨by rw [hs.nodes, made.nodes, a1.nodes]; simp [hr], ?_⟩
    rw [Same.heap_node hheap, node_append_lt (hw1.valid r (by rw [a1.nodes]; exact hr)) _ _ made.heap, a1.output]
  have hrc : (B4.node rc).output = [condName ++ ":0"] := by rw [Same.heap_node hheap, made.self]
  have hget : ∀ x ∈ body.params, ∃ r, B4.getNodeByOutput x = some r ∧ (B4.node r).output = [x] := by
    intro x hx
    obtain ⟨hne, r, hr, ho⟩ := hparam x hx
    obtain ⟨h1, h2⟩ := hold r hr
    exact ⟨r, (hw4.getNodeByOutput hne r).2 ⟨h1, by rw [h2, ho]; simp⟩, by rw [h2, ho]⟩
  have hnew : ¬ body.Produces (condName ++ ":0") := by
    rintro ⟨n, hnm, hx⟩
    obtain ⟨r, hr, rfl⟩ := mem_nodeList.1 hnm
    have hno := made.freshOut (condName ++ ":0") (by simp)
    rw [(hw1.getNodeByOutput (colon_ne _) r).2 ⟨by rw [a1.nodes]; exact hr, by rw [a1.output]; exact hx⟩] at hno
    cases hno
  obtain ⟨r0, hr0, ho0⟩ := hget i0 (by rw [hpb]; simp)
  rw [hr0] at h
  simp only at h
  split at h
  · cases h
  split at h
  · cases h
  rename_i b hb
  split at h
  · cases h
  rename_i q hin
  obtain ⟨B5, outs⟩ := q
  simp only at h
  have hout4 : B4.outputs = body.outputs := by rw [hs.outputs, made.outputs, a2]
  simp only [hout4] at hb
  have hargs := binding_state hfc hwc hpc hb
  have hmem : ∀ x ∈ cond.params, bound b x ∈ i0 :: mName :: body.outputs.drop 2 := by
    intro x hx; rw [← hargs]; exact List.mem_map.2 ⟨x, hx, rfl⟩
  have hpass : ∀ y ∈ i0 :: mName :: body.outputs.drop 2, y ≠ "" ∧ y ≠ "@@ALLOC" := by
    intro y hy
    have : y ∈ mName :: body.params ++ body.outputs.drop 2 := by
      rw [hpb]
      simp only [List.mem_cons, List.cons_append, List.mem_append] at hy ⊢
      tauto
    exact ⟨fun e => hn.passable.1 (e ▸ this), fun e => hn.passable.2 (e ▸ this)⟩
  have hapart : Apart { B4 with inputs := r0 :: rc :: is.filterMap B4.getNodeByOutput } cond "cond__" := by
    have hl : G.nodeList { B4 with inputs := r0 :: rc :: is.filterMap B4.getNodeByOutput } = B4.nodeList := rfl
    have hcases : ∀ n ∈ B4.nodeList, (∃ m ∈ body.nodeList, n.name = m.name ∧ n.output = m.output ∧ (n.input = m.input ∨ n.input = [mName])) ∨
        n = ⟨condName, "Placeholder", "", [], [], [condName ++ ":0"]⟩ := by
      intro n hn'
      rw [hlist4] at hn'
      rcases List.mem_append.1 hn' with h' | h'
      · obtain ⟨m, hm, rfl⟩ := List.mem_map.1 h'
        refine Or.inl ⟨m, hm, ?_⟩
        unfold Node.stated Node.bound
        split <;> simp
      · exact Or.inr (List.mem_singleton.1 h')
    refine ⟨?_, ?_, ?_⟩ <;> rw [hl] <;> intro n hn' m hm
    · rcases hcases n hn' with ⟨k, hk, e1, e2, e3⟩ | rfl
      · rw [e1]; exact hn.apart.names k hk m hm
      · exact (hn.fresh m hm).1
    · rcases hcases n hn' with ⟨k, hk, e1, e2, e3⟩ | rfl
      · rw [e2]; exact hn.apart.outputs k hk m hm
      · intro x hx; rw [List.mem_singleton.1 hx]; exact (hn.fresh m hm).2.1
    · rcases hcases n hn' with ⟨k, hk, e1, e2, e3⟩ | rfl
      · rcases e3 with e3 | e3 <;> rw [e3]
        · exact hn.apart.inputs k hk m hm
        · intro x hx; rw [List.mem_singleton.1 hx]; exact (hn.fresh m hm).2.2
      · simp
  obtain ⟨cond', w, ad, ho⟩ := inlineSubgraph_spec (P := { B4 with inputs := r0 :: rc :: is.filterMap B4.getNodeByOutput })
    (hw4.congr rfl rfl rfl rfl) hwc hfc (β := bound b)
    (fun x hx => boundTo_of (hpass _ (hmem x hx)).1 (hpass _ (hmem x hx)).2)
    (uncaptured_of hfc (by rw [hargs]; exact hn.nocap i0 i1 is hpb)) hapart hin
  subst ho
  refine ⟨cond', bound b, ?_⟩
  split at h
  · cases h
  rename_i c cs' hc
  cases h
  refine ⟨w, hargs, ?_, ?_, ⟨c, cs', hc, ?_⟩, hnew⟩
  · show B5.nodeList = _
    rw [ad.nodeList]
    show B4.nodeList ++ _ = _
    rw [hlist4]
  · show B5.params = _
    unfold G.params
    rw [ad.inputs]
    have hfm : ∀ l : List String, (∀ x ∈ l, x ∈ body.params) →
        (l.filterMap B4.getNodeByOutput).flatMap (fun r => (B4.node r).output) = l := by
      intro l
      induction l with
      | nil => simp
      | cons x l ih =>
        intro hl
        obtain ⟨r, h1, h2⟩ := hget x (hl x (by simp))
        simp only [List.filterMap_cons, h1, List.flatMap_cons, h2, ih (fun y hy => hl y (by simp [hy]))]
        rfl
    have hsub : ∀ r ∈ r0 :: rc :: is.filterMap B4.getNodeByOutput, r ∈ B4.nodes := by
      intro r hr
      rcases List.mem_cons.1 hr with rfl | hr
      · exact ((hw4.getNodeByOutput (hparam i0 (by rw [hpb]; simp)).1 r).1 hr0).1
      rcases List.mem_cons.1 hr with rfl | hr
      · rw [hs.nodes, made.nodes]; simp
      · obtain ⟨x, hx, hxr⟩ := List.mem_filterMap.1 hr
        exact ((hw4.getNodeByOutput (hparam x (by rw [hpb]; simp [hx])).1 r).1 hxr).1
    have hsame : (r0 :: rc :: is.filterMap B4.getNodeByOutput).flatMap (fun r => (B5.node r).output) =
        (r0 :: rc :: is.filterMap B4.getNodeByOutput).flatMap (fun r => (B4.node r).output) :=
      List.flatMap_congr (fun r hr => by rw [ad.old r (hsub r hr)]; rfl)
    rw [hsame, List.flatMap_cons, List.flatMap_cons, ho0, hrc, hfm is (fun x hx => by rw [hpb]; simp [hx])]
    rfl
  · show c :: B5.outputs.drop 2 = _
    rw [ad.outputs]
    show c :: B4.outputs.drop 2 = _
    rw [hout4]

/-! ## One iteration -/

/-- Valuations that agree on what a node reads and produces satisfy the same equations. -/
theorem NodeSat.congr {I : Interp V} {env env' e e' : String → V} {n : Node} (hi : ∀ x ∈ n.input, x ≠ "" → e' x = e x)
    (ho : ∀ x ∈ n.output, e' x = e x) (henv : n.isGraphInput = true → ∀ x ∈ n.output, env' x = env x) (h : NodeSat I env e n) :
    NodeSat I env' e' n := by
  intro j o hj hne
  have hm := List.mem_of_getElem? hj
  rw [ho o hm, h j o hj hne]
  split
  · rename_i hin; exact (henv hin o hm).symm
  · congr 1
    unfold argVals
    refine List.map_congr_left (fun x hx => ?_)
    unfold argVal
    split
    · rfl
    · rename_i hx0; rw [hi x hx hx0]

theorem Func.param_node {f : G} (hf : Func f) {x : String} (h : x ∈ f.params) :
    ∃ n ∈ f.nodeList, n.isGraphInput = true ∧ n.output = [x] := by
  obtain ⟨r, hr, hx⟩ := List.mem_flatMap.1 h
  obtain ⟨h1, h2, _, y, hy⟩ := hf.inputs r hr
  rw [hy, List.mem_singleton] at hx
  subst hx
  exact ⟨f.node r, node_mem h1, h2, hy⟩

theorem Func.ne {f : G} (hf : Func f) {x : String} (h : f.Produces x) : x ≠ "" := fun e => hf.empty_not (e ▸ h)

theorem nodeSat_single {I : Interp V} {env e : String → V} {n : Node} {x : String} (ho : n.output = [x]) (hx : x ≠ "") :
    NodeSat I env e n ↔ e x = if n.isGraphInput then env x else I n.op n.domain n.attr (argVals e n) 0 := by
  unfold NodeSat
  rw [ho]
  constructor
  · intro h; exact h 0 x rfl hx
  · intro h j o hj _
    cases j with
    | zero => simp at hj; subst hj; exact h
    | succ j => simp at hj

section
variable {body cond body' cond' : G} {mName condName i0 i1 : String} {is : List String} {β : String → String}

theorem BodyParts.cases (p : BodyParts body cond i0 i1 is mName condName body' cond' β) (n : Node) :
    n ∈ body'.nodeList ↔ (∃ m ∈ body.nodeList, n = m.stated i1 mName) ∨ n = ⟨condName, "Placeholder", "", [], [], [condName ++ ":0"]⟩ ∨
      n ∈ cond'.nodeList := by
  rw [p.nodes]
  simp only [List.mem_append, List.mem_map, List.mem_singleton, or_assoc]
  refine or_congr ⟨?_, ?_⟩ Iff.rfl
  · rintro ⟨m, hm, e⟩; exact ⟨m, hm, e.symm⟩
  · rintro ⟨m, hm, e⟩; exact ⟨m, hm, e.symm⟩

theorem stated_output (n : Node) : (n.stated i1 mName).output = n.output := by unfold Node.stated; split <;> rfl

theorem BodyParts.produces (p : BodyParts body cond i0 i1 is mName condName body' cond' β) (x : String) :
    body'.Produces x ↔ body.Produces x ∨ x = condName ++ ":0" ∨ cond'.Produces x := by
  constructor
  · rintro ⟨n, hn, hx⟩
    rcases (p.cases n).1 hn with ⟨m, hm, rfl⟩ | rfl | hn
    · rw [stated_output] at hx; exact Or.inl ⟨m, hm, hx⟩
    · exact Or.inr (Or.inl (by simpa using hx))
    · exact Or.inr (Or.inr ⟨n, hn, hx⟩)
  · rintro (⟨m, hm, hx⟩ | rfl | ⟨n, hn, hx⟩)
    · exact ⟨_, (p.cases _).2 (Or.inl ⟨m, hm, rfl⟩), by rw [stated_output]; exact hx⟩
    · exact ⟨_, (p.cases _).2 (Or.inr (Or.inl rfl)), by simp⟩
    · exact ⟨n, (p.cases _).2 (Or.inr (Or.inr hn)), hx⟩

/-- One iteration: the converted body, given the iteration number, the old condition and the loop variables, returns the new condition and the new
loop variables exactly if the function `body`, given the iteration number, the bound and the loop variables, returns these variables (after a
counter and a bound), and the function `cond`, given the same iteration number, the bound and the new variables, returns the new condition. -/
theorem body_returns (hwb : WF body) (hfb : Func body) (hfc : Func cond) (hpc : Plain cond) (hpb : body.params = i0 :: i1 :: is)
    (hn : LoopNames body cond mName condName) {o0 o1 : String} {os : List String} (hob : body.outputs = o0 :: o1 :: os)
    {oc : String} (hoc : cond.outputs = [oc]) (p : BodyParts body cond i0 i1 is mName condName body' cond' β) {I : Interp V}
    (hI : IdentityLaw V I) (outer : String → V) (i k k' : V) (s s' : List V) :
    Returns I outer body' (i :: k :: s) (k' :: s') ↔
      ∃ c m, Returns I outer body (i :: outer mName :: s) (c :: m :: s') ∧ Returns I outer cond (i :: outer mName :: s') [k'] := by
  classical
  have hnd := hfb.params_nodup hwb
  rw [hpb] at hnd
  simp only [List.nodup_cons, List.mem_cons, not_or] at hnd
  obtain ⟨⟨hd1, hd2⟩, hd3, hd4⟩ := hnd
  have hmne : mName ≠ "" := fun e => hn.passable.1 (by simp [e])
  have hargs := p.args
  rw [hob] at hargs
  simp only [List.drop_succ_cons, List.drop_zero] at hargs
  obtain ⟨c, cs, hc1, hc2⟩ := p.outputs
  have hc' : cond'.outputs = [c] := by
    have := p.wired.outputs
    rw [hoc, List.map_singleton] at this
    rw [hc1] at this ⊢
    simp only [List.cons.injEq] at this
    rw [this.2]
  rw [hob] at hc2
  simp only [List.drop_succ_cons, List.drop_zero] at hc2
  -- tensors of the body and the bound are not produced by the copy of the condition
  have hcb : ∀ x, body.Produces x → ¬ cond'.Produces x := by
    rintro x ⟨n, hn', hx⟩
    exact p.wired.apart hn.apart hn' (Or.inl hx)
  have hcf : ∀ x, (∀ m ∈ cond.nodeList, x ∉ ports (scopedName "cond__" m.name) m.output.length) → ¬ cond'.Produces x := by
    rintro x hx ⟨m, hm, hxm⟩
    rw [p.wired.nodes] at hm
    obtain ⟨m0, hm0, rfl⟩ := List.mem_map.1 hm
    rw [Node.wired_output] at hxm
    exact hx m0 hm0 hxm
  have hcm : ¬ cond'.Produces mName := hcf mName (fun m hm => (hn.fresh m hm).2.2)
  have hcn : ¬ cond'.Produces (condName ++ ":0") := hcf _ (fun m hm => (hn.fresh m hm).2.1)
  have hβne : ∀ x ∈ cond.params, β x ≠ "" := by
    intro x hx
    have : β x ∈ i0 :: mName :: os := by rw [← hargs]; exact List.mem_map.2 ⟨x, hx, rfl⟩
    intro e
    rw [e] at this
    exact hn.passable.1 (by
      rw [hpb, hob]
      simp only [List.mem_cons, List.cons_append, List.mem_append, List.drop_succ_cons, List.drop_zero] at this ⊢
      tauto)
  have hbprod : ∀ x ∈ body.params, body.Produces x := fun x hx => hfb.param_produced hx
  have hi0p : i0 ∈ body.params := by rw [hpb]; simp
  have hi1p : i1 ∈ body.params := by rw [hpb]; simp
  have hisp : ∀ x ∈ is, x ∈ body.params := fun x hx => by rw [hpb]; simp [hx]
  have hosp : ∀ x ∈ os, body.Produces x := fun x hx => hfb.results x (by rw [hob]; simp [hx])
  have hβout : ∀ x ∈ cond.params, ¬ cond'.Produces (β x) := by
    intro x hx
    have : β x ∈ i0 :: mName :: os := by rw [← hargs]; exact List.mem_map.2 ⟨x, hx, rfl⟩
    simp only [List.mem_cons] at this
    rcases this with e | e | e
    · rw [e]; exact hcb _ (hbprod _ hi0p)
    · rw [e]; exact hcm
    · exact hcb _ (hosp _ e)
  have hmnot : ¬ body'.Produces mName := by
    rw [p.produces]
    rintro (h | h | h)
    · exact hn.outer.1 h
    · exact hn.outer.2 h
    · exact hcm h
  have hun' : ∀ x, x ≠ "" → ¬ body'.Produces x → Unproduced body'.nodeList x := fun x _ hx => Or.inr (fun n hn hxn => hx ⟨n, hn, hxn⟩)
  -- the placeholder of the bound
  have hother : ∀ n ∈ body.nodeList, n.isGraphInput = false → n.stated i1 mName = n := by
    intro n hn' hin
    unfold Node.stated
    rw [if_neg]
    intro h1
    obtain ⟨m, hm, hmin, hmo⟩ := hfb.param_node hi1p
    obtain ⟨r, hr, rfl⟩ := mem_nodeList.1 hn'
    obtain ⟨q, hq, rfl⟩ := mem_nodeList.1 hm
    have := hwb.out_inj (hfb.ne (hbprod _ hi1p)) hr hq h1 (by rw [hmo]; simp)
    subst this
    rw [hmin] at hin; cases hin
  have hin1 : ∀ n ∈ body.nodeList, n.isGraphInput = true → ∀ x, n.output = [x] → n.stated i1 mName = if x = i1 then n.bound mName else n := by
    intro n _ _ x hx
    unfold Node.stated
    rw [hx]
    simp only [List.mem_singleton, eq_comm]
  constructor
  · rintro ⟨env', h1, h2, e', ⟨hs1, hs2⟩, ho⟩
    rw [p.params] at h1 h2
    simp only [List.map_cons, List.cons.injEq] at h1
    obtain ⟨h10, h11, h1s⟩ := h1
    rw [hc2] at ho
    simp only [List.map_cons, List.cons.injEq] at ho
    obtain ⟨ho1, ho2⟩ := ho
    have hem : e' mName = outer mName := by
      rw [hs2 mName (hun' _ hmne hmnot)]
      refine h2 mName ?_
      simp only [List.mem_cons, not_or]
      exact ⟨fun e => hn.outer.1 (e ▸ hbprod _ hi0p), hn.outer.2, fun e => hn.outer.1 (hbprod _ (hisp _ e))⟩
    have hfed : ∀ x ∈ body.params, x ≠ i1 → e' x = env' x := by
      intro x hx hxne
      obtain ⟨n, hn', hin, hxo⟩ := hfb.param_node hx
      have := hs1 _ ((p.cases _).2 (Or.inl ⟨n, hn', rfl⟩))
      rw [hin1 n hn' hin x hxo, if_neg hxne, nodeSat_single hxo (hfb.ne (hbprod _ hx)), hin] at this
      simpa using this
    have hei1 : e' i1 = outer mName := by
      obtain ⟨n, hn', hin, hxo⟩ := hfb.param_node hi1p
      have := hs1 _ ((p.cases _).2 (Or.inl ⟨n, hn', rfl⟩))
      rw [hin1 n hn' hin i1 hxo, if_pos rfl, nodeSat_single (n := n.bound mName) hxo (hfb.ne (hbprod _ hi1p))] at this
      rw [this, ← hem]
      show I "Identity" n.domain n.attr _ 0 = _
      have : argVals e' (n.bound mName) = [some (e' mName)] := by simp [argVals, Node.bound, argVal, hmne]
      rw [this]
      exact hI _ _ _
    have hei0 : e' i0 = i := by rw [hfed i0 hi0p hd1, h10]
    have heis : is.map e' = s := by
      rw [← h1s]
      exact List.map_congr_left (fun x hx => hfed x (hisp x hx) (fun e => hd3 (e ▸ hx)))
    let env : String → V := fun x => if x ∈ body.params then e' x else outer x
    let eb : String → V := fun x => if body.Produces x then e' x else outer x
    have heb : ∀ x, body.Produces x → eb x = e' x := fun x hx => by simp [eb, hx]
    have hlast : [k'] = cond'.outputs.map e' := by rw [hc']; simp [ho1]
    refine ⟨e' o0, e' o1, ⟨env, ?_, fun x hx => by simp [env, hx], eb, ⟨?_, ?_⟩, ?_⟩, ?_⟩
    · rw [show body.params.map env = body.params.map e' from List.map_congr_left (fun x hx => by simp [env, hx]), hpb]
      simp only [List.map_cons, hei0, hei1, heis]
    · intro n hn'
      by_cases hin : n.isGraphInput = true
      · obtain ⟨x, hxo, hxp⟩ := hfb.input_of hn' hin
        rw [nodeSat_single hxo (hfb.ne (hbprod _ hxp)), hin, heb x (hbprod x hxp)]
        simp [env, hxp]
      · have hin' : n.isGraphInput = false := by simpa using hin
        have := hs1 _ ((p.cases _).2 (Or.inl ⟨n, hn', rfl⟩))
        rw [hother n hn' hin'] at this
        refine this.congr (fun x hx hne => ?_) (fun x hx => heb x ⟨n, hn', hx⟩) (fun h => absurd h hin)
        exact heb x (hfb.closed n hn' x hx hne)
    · intro x hx
      have hx' := hfb.unproduced.1 hx
      have : x ∉ body.params := fun h => hx' (hbprod x h)
      simp [eb, env, hx', this]
    · rw [hob]
      simp only [List.map_cons]
      rw [heb o0 (hfb.results _ (by rw [hob]; simp)), heb o1 (hfb.results _ (by rw [hob]; simp)), ho2]
      congr 2
      exact List.map_congr_left (fun x hx => (heb x (hosp x hx)).symm)
    · rw [hlast]
      have := p.wired.call hfc hpc hI hβne (env' := env') (e := e') (fun n hn' => hs1 n ((p.cases n).2 (Or.inr (Or.inr hn')))) outer
      rwa [show cond.params.map (fun x => e' (β x)) = i :: outer mName :: s' by
        have h3 : cond.params.map (fun x => e' (β x)) = (cond.params.map β).map e' := by rw [List.map_map]; rfl
        rw [h3, hargs]
        simp only [List.map_cons, hei0, hem, ho2]] at this
  · rintro ⟨cv, mv, ⟨envb, g1, g2, eb, ⟨gs1, gs2⟩, go⟩, hcond⟩
    rw [hpb] at g1
    simp only [List.map_cons, List.cons.injEq] at g1
    obtain ⟨g10, g11, g1s⟩ := g1
    rw [hob] at go
    simp only [List.map_cons, List.cons.injEq] at go
    obtain ⟨_, _, go2⟩ := go
    have hfed : ∀ x ∈ body.params, eb x = envb x := by
      intro x hx
      obtain ⟨n, hn', hin, hxo⟩ := hfb.param_node hx
      have := gs1 n hn'
      rw [nodeSat_single hxo (hfb.ne (hbprod _ hx)), hin] at this
      simpa using this
    let base : String → V := fun x => if x = condName ++ ":0" then k else if body.Produces x then eb x else outer x
    have hbase : ∀ x, body.Produces x → base x = eb x := by
      intro x hx
      have : x ≠ condName ++ ":0" := fun e => p.newInput (e ▸ hx)
      simp [base, this, hx]
    have hbm : base mName = outer mName := by simp [base, hn.outer.1, hn.outer.2]
    have hcond' : Returns I outer cond (cond.params.map (fun x => base (β x))) [k'] := by
      rwa [show cond.params.map (fun x => base (β x)) = i :: outer mName :: s' by
        have h3 : cond.params.map (fun x => base (β x)) = (cond.params.map β).map base := by rw [List.map_map]; rfl
        rw [h3, hargs]
        simp only [List.map_cons, hbm, hbase i0 (hbprod _ hi0p), hfed i0 hi0p, g10, go2]
        congr 2
        exact List.map_congr_left (fun x hx => hbase x (hosp x hx))]
    let env' : String → V := fun x => if x = condName ++ ":0" then k else if x ∈ body.params ∧ x ≠ i1 then envb x else outer x
    obtain ⟨e, x1, x2, x3⟩ := p.wired.extend hfc hpc hI hβne hβout hcond' env'
    have heb : ∀ x, body.Produces x → e x = eb x := fun x hx => by rw [x1 x (hcb x hx), hbase x hx]
    have hecn : e (condName ++ ":0") = k := by rw [x1 _ hcn]; simp [base]
    have hem : e mName = outer mName := by rw [x1 _ hcm, hbm]
    have hpcn : ∀ x ∈ body.params, x ≠ condName ++ ":0" := fun x hx e => p.newInput (e ▸ hbprod x hx)
    have henvp : ∀ x ∈ body.params, x ≠ i1 → env' x = envb x := fun x hx hne => by simp [env', hpcn x hx, hx, hne]
    refine ⟨env', ?_, ?_, e, ⟨?_, ?_⟩, ?_⟩
    · rw [p.params]
      simp only [List.map_cons]
      rw [henvp i0 hi0p hd1, g10, ← g1s]
      congr 2
      · simp [env']
      · exact List.map_congr_left (fun x hx => henvp x (hisp x hx) (fun e => hd3 (e ▸ hx)))
    · intro x hx
      rw [p.params] at hx
      simp only [List.mem_cons, not_or] at hx
      have : ¬ (x ∈ body.params ∧ x ≠ i1) := by
        rintro ⟨h1, h2⟩
        rw [hpb] at h1
        simp only [List.mem_cons] at h1
        tauto
      simp only [env', hx.2.1, this, if_false]
    · intro n hn'
      rcases (p.cases n).1 hn' with ⟨m, hm, rfl⟩ | rfl | hn'
      · by_cases hin : m.isGraphInput = true
        · obtain ⟨x, hxo, hxp⟩ := hfb.input_of hm hin
          rw [hin1 m hm hin x hxo]
          split
          · rename_i hxe
            subst hxe
            rw [nodeSat_single (n := m.bound mName) hxo (hfb.ne (hbprod _ hxp)), heb x (hbprod x hxp), hfed x hxp, g11, ← hem]
            show _ = I "Identity" m.domain m.attr _ 0
            have : argVals e (m.bound mName) = [some (e mName)] := by simp [argVals, Node.bound, argVal, hmne]
            rw [this]
            exact (hI _ _ _).symm
          · rename_i hxe
            rw [nodeSat_single hxo (hfb.ne (hbprod _ hxp)), hin, heb x (hbprod x hxp), hfed x hxp]
            simp only [if_true]
            exact (henvp x hxp hxe).symm
        · have hin' : m.isGraphInput = false := by simpa using hin
          rw [hother m hm hin']
          refine (gs1 m hm).congr (fun x hx hne => ?_) (fun x hx => heb x ⟨m, hm, hx⟩) (fun h => absurd h hin)
          exact heb x (hfb.closed m hm x hx hne)
      · rw [nodeSat_single (n := ⟨condName, "Placeholder", "", [], [], [condName ++ ":0"]⟩) rfl (colon_ne _), hecn]
        show k = if _ then env' _ else _
        have : (⟨condName, "Placeholder", "", [], [], [condName ++ ":0"]⟩ : Node).isGraphInput = true := rfl
        rw [this]
        simp [env']
      · exact x2 n hn'
    · intro x hx
      have hnp : ¬ body'.Produces x ∨ x = "" := by
        rcases hx with rfl | hx
        · exact Or.inr rfl
        · exact Or.inl (fun ⟨n, hn', hxn⟩ => hx n hn' hxn)
      have hempty : ¬ body'.Produces "" := by
        rw [p.produces]
        rintro (h | h | h)
        · exact hfb.empty_not h
        · exact colon_ne _ h.symm
        · obtain ⟨y, ⟨n, hn', hy⟩, e⟩ := p.wired.produces.1 h
          exact p.wired.names.ne n hn' y hy e
      have hnp' : ¬ body'.Produces x := by
        rcases hnp with h | rfl
        · exact h
        · exact hempty
      rw [p.produces] at hnp'
      simp only [not_or] at hnp'
      have hxp : x ∉ body.params := fun h => hnp'.1 (hbprod x h)
      rw [x1 x hnp'.2.2]
      simp [base, env', hnp'.1, hnp'.2.1, hxp]
    · rw [hc2]
      rw [hc'] at x3
      simp only [List.map_cons, List.map_nil, List.cons.injEq, and_true] at x3 ⊢
      refine ⟨x3, ?_⟩
      rw [go2]
      exact List.map_congr_left (fun x hx => (heb x (hosp x hx)).symm)
end

end Verif.Graph
