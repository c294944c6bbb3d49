import Verif.Props.CFPrefix
import Verif.Props.C13_Identity
/-!
# Binding the parameters of a function graph and copying it (used by C50, C51)
-/
namespace Verif.Graph
open Verif
variable {V : Type}

/-! ## Binding -/

theorem Frame.setNode {g : G} {r : Ref} {n : Node} (h1 : n.name = (g.node r).name) (h2 : n.output = (g.node r).output) :
    Frame g (g.setNode r n) := (Same.setNode h1 h2).frame

/-- The placeholder turned into a copy of `p`. -/
def Node.bound (n : Node) (p : String) : Node := { n with op := "Identity", input := [p] }

theorem bindInput_spec {g : G} {r : Ref} {p : String} (hr : r < g.heap.length) :
    Frame g (g.bindInput r p) ∧ (g.bindInput r p).outputs = g.outputs ∧ (g.bindInput r p).node r = (g.node r).bound p ∧
      (∀ q, q ≠ r → (g.bindInput r p).node q = g.node q) ∧
      (WF g → r ∈ g.nodes → (g.node r).input = [] → Idx g → Idx (g.bindInput r p)) := by
  obtain ⟨h1, h2, -, -⟩ := replaceInputs_spec g r [p]
  have hn : ∀ q, (g.replaceInputs r [p]).node q = (g.setNode r { g.node r with input := [p] }).node q := node_of_heap_set h2
  have hrl : r < (g.replaceInputs r [p]).heap.length := by rw [h1.len]; exact hr
  have hself : (g.replaceInputs r [p]).node r = { g.node r with input := [p] } := by rw [hn, node_setNode_self hr]
  refine ⟨h1.frame.trans (Frame.setNode ?_ ?_), h1.outputs, ?_, ?_, ?_⟩
  · rw [hself]
  · rw [hself]
  · show ((g.replaceInputs r [p]).setNode r _).node r = _
    rw [node_setNode_self hrl, hself]; rfl
  · intro q hq
    show ((g.replaceInputs r [p]).setNode r _).node q = _
    rw [node_setNode_ne (Ne.symm hq), hn, node_setNode_ne (Ne.symm hq)]
  · intro hw hrm hin hi
    have := replaceInputs_idx (new := [p]) hw hrm hi (by rw [hin]; simp)
    refine ⟨?_, this.setNodup⟩
    intro q hq i hqi
    have hq' : q ∈ (g.replaceInputs r [p]).nodes := hq
    by_cases e : q = r
    · subst e
      rw [show (g.bindInput q p).node q = _ from node_setNode_self hrl] at hqi ⊢
      exact this.complete q hq' i hqi
    · rw [show (g.bindInput r p).node q = _ from node_setNode_ne (Ne.symm e)] at hqi ⊢
      exact this.complete q hq' i hqi

theorem bindInputs_spec {b : Dict String String} {β : String → String} (l : List Ref) {g : G} (hw : WF g) (hl : l.Nodup)
    (hsub : ∀ r ∈ l, r ∈ g.nodes) (hb : ∀ r ∈ l, boundTo b ((g.node r).output.headD "") = some (β ((g.node r).output.headD ""))) :
    ∃ g', G.bindInputs b l g = (g', []) ∧ Frame g g' ∧ g'.outputs = g.outputs ∧
      (∀ r ∈ l, g'.node r = (g.node r).bound (β ((g.node r).output.headD ""))) ∧ (∀ r, r ∉ l → g'.node r = g.node r) ∧
      ((∀ r ∈ l, (g.node r).input = []) → Idx g → Idx g') := by
  induction l generalizing g with
  | nil => exact ⟨g, rfl, .refl _, rfl, by simp, fun _ _ => rfl, fun _ h => h⟩
  | cons r rs ih =>
    rw [List.nodup_cons] at hl
    have hrm := hsub r (by simp)
    have h1 := hb r (by simp)
    obtain ⟨a1, a2, a3, a4, a5⟩ := bindInput_spec (p := β ((g.node r).output.headD "")) (hw.valid r hrm)
    have hne : ∀ q ∈ rs, q ≠ r := fun q hq e => hl.1 (e ▸ hq)
    obtain ⟨g', b1, b2, b3, b4, b5, b6⟩ := ih (g := g.bindInput r (β ((g.node r).output.headD ""))) (a1.wf hw) hl.2
      (fun q hq => by rw [a1.nodes]; exact hsub q (by simp [hq]))
      (fun q hq => by rw [a4 q (hne q hq)]; exact hb q (by simp [hq]))
    refine ⟨g', ?_, a1.trans b2, b3.trans a2, ?_, ?_, ?_⟩
    · simp only [G.bindInputs, h1, b1]
    · intro q hq
      rcases List.mem_cons.1 hq with rfl | hq
      · rw [b5 q hl.1, a3]
      · rw [b4 q hq, a4 q (hne q hq)]
    · intro q hq
      simp only [List.mem_cons, not_or] at hq
      rw [b5 q hq.2, a4 q hq.1]
    · intro hin hi
      exact b6 (fun q hq => by rw [a4 q (hne q hq)]; exact hin q (by simp [hq])) (a5 hw hrm (hin r (by simp)) hi)

/-! ## The copy of a function -/

/-- A node of the copy: a placeholder reads the tensor it is bound to, any other node reads renamed tensors. -/
def Node.wired (scope : String) (β ρ : String → String) (n : Node) : Node :=
  if n.isGraphInput then (n.bound (β (n.output.headD ""))).copy scope id else n.copy scope ρ

/-- The new names of the tensors of a graph. -/
def G.rho (f : G) (scope : String) : String → String := renBy (f.nodeList.flatMap (copyPairs scope))

theorem copies_wired {scope : String} {β : String → String} (pre ns : List Node)
    (hx : Executable ns) (hcap : ∀ a n b, pre ++ ns = a ++ n :: b → n.isGraphInput = true → ∀ m ∈ a, β (n.output.headD "") ∉ m.output)
    (hnamed : ∀ n ∈ ns, "" ∉ n.output) :
    copies scope (pre.flatMap (copyPairs scope)) (ns.map (fun n => if n.isGraphInput then n.bound (β (n.output.headD "")) else n)) =
      ns.map (Node.wired scope β (renBy ((pre ++ ns).flatMap (copyPairs scope)))) := by
  induction ns generalizing pre with
  | nil => rfl
  | cons n ns ih =>
    have e1 : copyPairs scope (if n.isGraphInput then n.bound (β (n.output.headD "")) else n) = copyPairs scope n := by
      split <;> rfl
    have ih := ih (pre ++ [n]) hx.2 (by
      intro a m b h; exact hcap a m b (by rw [← h]; simp)) (fun m hm => hnamed m (by simp [hm]))
    simp only [List.map_cons, copies, e1]
    have e2 : pre.flatMap (copyPairs scope) ++ copyPairs scope n = (pre ++ [n]).flatMap (copyPairs scope) := by simp
    rw [e2, ih]
    have e3 : pre ++ [n] ++ ns = pre ++ n :: ns := by simp
    rw [e3]
    congr 1
    unfold Node.wired
    split
    · rename_i hin
      unfold Node.copy Node.bound
      congr 1
      simp only [List.map_cons, List.map_nil, id]
      rw [renBy_fixed]
      intro p hp e
      obtain ⟨m, hm, hp⟩ := List.mem_flatMap.1 hp
      exact hcap pre n ns rfl hin m hm (e ▸ (mem_copyPairs hp).1)
    · unfold Node.copy
      congr 1
      refine List.map_congr_left (fun i hi => ?_)
      have : Dict.get ((n :: ns).flatMap (copyPairs scope)) i = none := by
        refine get_none.2 (fun p hp e => ?_)
        obtain ⟨m, hm, hp⟩ := List.mem_flatMap.1 hp
        have hp1 := (mem_copyPairs hp).1
        rw [e] at hp1
        have hne : i ≠ "" := fun e' => hnamed m hm (e' ▸ hp1)
        exact hx.1 i hi hne m hm hp1
      unfold renBy
      rw [List.flatMap_append, get_append, this]
      simp

/-- The name bound to a placeholder is not that of a tensor produced before the placeholder. -/
def Uncaptured (f : G) (β : String → String) : Prop :=
  ∀ a n b, f.nodeList = a ++ n :: b → n.isGraphInput = true → ∀ m ∈ a, ∀ x ∈ n.output, β x ∉ m.output

/-- The facts about the new names. -/
structure CopyNames (f : G) (scope : String) : Prop where
  fresh : ∀ n ∈ f.nodeList, ∀ x ∈ n.output, ∀ m ∈ f.nodeList, f.rho scope x ∉ m.output
  outs : ∀ n ∈ f.nodeList, n.output.map (f.rho scope) = ports (scopedName scope n.name) n.output.length
  inj : ∀ n ∈ f.nodeList, ∀ m ∈ f.nodeList, ∀ x ∈ n.output, ∀ y ∈ m.output, f.rho scope x = f.rho scope y → x = y
  ne : ∀ n ∈ f.nodeList, ∀ x ∈ n.output, f.rho scope x ≠ ""

/-- What `bindAndPrefix` leaves of a function: only the copies. -/
structure Wired (f : G) (scope : String) (β : String → String) (f' : G) : Prop where
  wf : WF f'
  idx : Idx f → Idx f'
  nodes : f'.nodeList = f.nodeList.map (Node.wired scope β (f.rho scope))
  outputs : f'.outputs = f.outputs.map (f.rho scope)
  inputs : f'.inputs = []
  names : CopyNames f scope

theorem Func.params {f : G} (h : Func f) : f.params = f.inputs.map (fun r => (f.node r).output.headD "") := by
  have : ∀ l : List Ref, (∀ r ∈ l, r ∈ f.inputs) →
      l.flatMap (fun r => (f.node r).output) = l.map (fun r => (f.node r).output.headD "") := by
    intro l
    induction l with
    | nil => simp
    | cons r l ih =>
      intro hl
      obtain ⟨_, _, _, x, hx⟩ := h.inputs r (hl r (by simp))
      rw [List.flatMap_cons, List.map_cons, ih (fun q hq => hl q (by simp [hq])), hx]
      rfl
  exact this _ (fun _ h => h)

theorem node_mem {f : G} {r : Ref} (h : r ∈ f.nodes) : f.node r ∈ f.nodeList := mem_nodeList.2 ⟨r, h, rfl⟩

theorem WF.uniqueOutputs {g : G} (h : WF g) : UniqueOutputs g.nodeList := by
  unfold UniqueOutputs G.nodeList
  rw [List.flatMap_map, List.nodup_flatMap]
  refine ⟨h.outNodup, h.nodup.imp_of_mem ?_⟩
  intro a b ha hb hab x hx hx'
  simp only [List.mem_filter, decide_eq_true_eq] at hx hx'
  exact hab (h.out_inj hx.2 ha hb hx.1 hx'.1)

/-- With named tensors, all output names are distinct. -/
theorem Func.outs_nodup {f : G} (hf : Func f) (hw : WF f) : (f.nodeList.flatMap (fun n => n.output)).Nodup := by
  have := hw.uniqueOutputs
  unfold UniqueOutputs at this
  rwa [show f.nodeList.flatMap (fun n => n.output.filter (· ≠ "")) = f.nodeList.flatMap (fun n => n.output) from
    List.flatMap_congr (fun n hn => List.filter_eq_self.2 (fun x hx => by
      simpa using (fun e => hf.named n hn (e ▸ hx) : x ≠ "")))] at this

theorem get_of_nodup {D : List (String × String)} (h : (D.map Prod.fst).Nodup) {x y : String} (hm : (x, y) ∈ D) : Dict.get D x = some y := by
  induction D with
  | nil => simp at hm
  | cons p D ih =>
    obtain ⟨a, b⟩ := p
    simp only [List.map_cons, List.nodup_cons] at h
    simp only [Dict.get]
    rcases List.mem_cons.1 hm with e | hm
    · cases e; simp
    · have : a ≠ x := fun e => h.1 (List.mem_map.2 ⟨(x, y), hm, e.symm⟩)
      simp [this, ih h.2 hm]

theorem bindAndPrefix_spec {f f' : G} (hw : WF f) (hf : Func f) {scope : String} {b : Dict String String} {β : String → String}
    (hb : ∀ x ∈ f.params, boundTo b x = some (β x)) (hcap : Uncaptured f β) (h : f.bindAndPrefix scope b = .ok f') :
    Wired f scope β f' := by
  have hb' : ∀ r ∈ f.inputs, boundTo b ((f.node r).output.headD "") = some (β ((f.node r).output.headD "")) := by
    intro r hr
    refine hb _ ?_
    rw [hf.params]
    exact List.mem_map.2 ⟨r, hr, rfl⟩
  obtain ⟨f1, a1, a2, a3, a4, a5, a6⟩ := bindInputs_spec f.inputs hw hf.nodup (fun r hr => (hf.inputs r hr).1) hb'
  simp only [G.bindAndPrefix, a1, List.map_nil, G.removeAll, bind, Except.bind] at h
  have hw1 := a2.wf hw
  have hnode : ∀ r ∈ f.nodes, f1.node r = if (f.node r).isGraphInput then (f.node r).bound (β ((f.node r).output.headD "")) else f.node r := by
    intro r hr
    by_cases hin : (f.node r).isGraphInput = true
    · rw [if_pos hin, a4 r (hf.all r hr hin)]
    · rw [if_neg hin, a5 r (fun hr' => hin (hf.inputs r hr').2.1)]
  have hinner : ∀ r ∈ f.nodes, (f1.node r).isGraphInput = false := by
    intro r hr
    rw [hnode r hr]
    split
    · rfl
    · rename_i h; simpa using h
  have hall : f1.inner f1.nodes = f.nodes := by
    rw [a2.nodes]
    exact List.filter_eq_self.2 (fun r hr => by simp [hinner r hr])
  have hD : f1.renamings scope f1.nodes = f.nodeList.flatMap (copyPairs scope) := by
    rw [G.renamings, hall, G.nodeList, List.flatMap_map]
    refine List.flatMap_congr (fun r hr => ?_)
    simp only [copyPairs, a2.name, a2.output]
  have p := prefixGraph_spec hw1 (by rw [a3]; exact hf.distinct) h
  have hnone : f1.nodes.filter (fun r => (f1.node r).isGraphInput) = [] := by
    rw [a2.nodes]
    exact List.filter_eq_nil_iff.2 (fun r hr => by simp [hinner r hr])
  obtain ⟨R, hR1, hR2⟩ := p.nodes
  have hlist : f1.nodes.map f1.node = f.nodeList.map (fun n => if n.isGraphInput then n.bound (β (n.output.headD "")) else n) := by
    rw [a2.nodes, G.nodeList, List.map_map]
    exact List.map_congr_left (fun r hr => hnode r hr)
  have hnd : ((f.nodeList.flatMap (copyPairs scope)).map Prod.snd).Nodup := by rw [← hD]; exact p.sndNodup
  have hfr : ∀ q ∈ f.nodeList.flatMap (copyPairs scope), ∀ r ∈ f.nodes, q.2 ∉ (f.node r).output := by
    intro q hq r hr
    rw [← hD] at hq
    have := p.fresh q hq r (by rw [a2.nodes]; exact hr)
    rwa [a2.output] at this
  -- a produced tensor has a pair
  have hpair : ∀ n ∈ f.nodeList, ∀ x ∈ n.output, (x, f.rho scope x) ∈ f.nodeList.flatMap (copyPairs scope) := by
    intro n hn x hx
    unfold G.rho renBy
    cases hg : Dict.get (f.nodeList.flatMap (copyPairs scope)) x with
    | some y => exact get_mem hg
    | none =>
      exfalso
      obtain ⟨j, hj, hjx⟩ := List.mem_iff_getElem.1 hx
      have : (x, (ports (scopedName scope n.name) n.output.length)[j]'(by simp [length_ports, hj])) ∈ copyPairs scope n := by
        unfold copyPairs
        rw [List.mem_iff_getElem]
        exact ⟨j, by simp [length_ports, hj], by simp [hjx]⟩
      exact get_none.1 hg _ (List.mem_flatMap.2 ⟨n, hn, this⟩) rfl
  refine ⟨p.wf, fun hi => p.idx (a6 (fun r hr => (hf.inputs r hr).2.2.1) hi), ?_, ?_, ?_, ?_, ?_, ?_, ?_⟩
  · rw [hnone, List.nil_append] at hR1
    rw [G.nodeList, hR1, hR2, hall]
    rw [show f.nodes.map f1.node = f1.nodes.map f1.node by rw [a2.nodes], hlist]
    refine copies_wired [] f.nodeList hf.exec ?_ (fun n hn => hf.named n hn)
    intro a n b hs hin m hm
    refine hcap a n b hs hin m hm _ ?_
    have hn : n ∈ f.nodeList := by rw [show f.nodeList = a ++ n :: b from hs]; simp
    obtain ⟨r, hr, rfl⟩ := mem_nodeList.1 hn
    obtain ⟨_, _, _, x, hx⟩ := hf.inputs r (hf.all r hr hin)
    rw [hx]; simp
  · rw [p.outputs, a3, hD]; rfl
  · rw [p.inputs (by rw [a2.inputs, a2.nodes]; exact fun r hr => (hf.inputs r hr).1) (by rw [a2.inputs]; exact hf.nodup), a2.inputs]
    exact List.filter_eq_nil_iff.2 (fun r hr => by simp [hinner r (hf.inputs r hr).1])
  · intro n hn x hx m hm
    obtain ⟨r, hr, rfl⟩ := mem_nodeList.1 hm
    exact hfr _ (hpair n hn x hx) r hr
  · intro n hn
    have hfst : ((f.nodeList.flatMap (copyPairs scope)).map Prod.fst).Nodup := by
      rw [List.map_flatMap, show f.nodeList.flatMap (fun n => (copyPairs scope n).map Prod.fst) = f.nodeList.flatMap (fun n => n.output) from
        List.flatMap_congr (fun n _ => by rw [copyPairs, List.map_fst_zip (by simp [length_ports])])]
      exact hf.outs_nodup hw
    refine List.ext_getElem (by simp [length_ports]) (fun j h1 h2 => ?_)
    rw [List.getElem_map]
    have hj : j < n.output.length := by simpa using h1
    have : (n.output[j], (ports (scopedName scope n.name) n.output.length)[j]) ∈ f.nodeList.flatMap (copyPairs scope) := by
      refine List.mem_flatMap.2 ⟨n, hn, ?_⟩
      unfold copyPairs
      rw [List.mem_iff_getElem]
      exact ⟨j, by simp [length_ports, hj], by simp⟩
    unfold G.rho renBy
    rw [get_of_nodup hfst this]
    rfl
  · intro n hn m hm x hx y hy e
    have h1 := hpair n hn x hx
    have h2 := hpair m hm y hy
    rw [← e] at h2
    have := List.inj_on_of_nodup_map hnd h1 h2 rfl
    exact congrArg Prod.fst this
  · intro n hn x hx
    obtain ⟨m, _, hp⟩ := List.mem_flatMap.1 (hpair n hn x hx)
    exact port_ne (mem_copyPairs hp).2

end Verif.Graph
