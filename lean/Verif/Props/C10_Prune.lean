import Verif.Model.Prune
import Verif.Props.Exec
import Verif.Props.C11_Topo
/-!
# C10: deleting unused nodes keeps exactly what the outputs depend on, and the computed function
-/
namespace Verif.Graph
open Verif

/-- The lookup `extract_sub_graph_nodes` follows from one node to the next. -/
def Next (g : G) (implicit : Ref → List String) (a b : Ref) : Prop :=
  ∃ x, x ∈ (g.node a).input ++ implicit a ∧ g.getNodeByOutput x = some b

theorem pushInputs_spec {g : G} {res : List Ref} (xs : List String) (p : List Ref) :
    (∀ r, r ∈ g.pushInputs res xs p ↔ r ∈ p ∨ (r ∉ res ∧ ∃ x ∈ xs, g.getNodeByOutput x = some r)) ∧
    (p.Nodup → (g.pushInputs res xs p).Nodup) := by
  induction xs generalizing p with
  | nil => simp [G.pushInputs]
  | cons x xs ih =>
    simp only [G.pushInputs]
    split
    · rename_i hx
      refine ⟨fun r => ?_, (ih p).2⟩
      rw [(ih p).1]; simp [hx]
    · rename_i n hx
      split
      · rename_i hn
        refine ⟨fun r => ?_, (ih p).2⟩
        rw [(ih p).1]
        constructor
        · rintro (h | ⟨h1, y, hy, hy'⟩)
          · exact Or.inl h
          · exact Or.inr ⟨h1, y, by simp [hy], hy'⟩
        · rintro (h | ⟨h1, y, hy, hy'⟩)
          · exact Or.inl h
          · rcases List.mem_cons.1 hy with rfl | hy
            · rw [hx] at hy'; cases hy'; exact (h1 hn).elim
            · exact Or.inr ⟨h1, y, hy, hy'⟩
      · rename_i hn
        split
        · rename_i hp
          refine ⟨fun r => ?_, (ih p).2⟩
          rw [(ih p).1]
          constructor
          · rintro (h | ⟨h1, y, hy, hy'⟩)
            · exact Or.inl h
            · exact Or.inr ⟨h1, y, by simp [hy], hy'⟩
          · rintro (h | ⟨h1, y, hy, hy'⟩)
            · exact Or.inl h
            · rcases List.mem_cons.1 hy with rfl | hy
              · rw [hx] at hy'; cases hy'; exact Or.inl hp
              · exact Or.inr ⟨h1, y, hy, hy'⟩
        · rename_i hp
          refine ⟨fun r => ?_, fun h => (ih _).2 (List.nodup_cons.2 ⟨hp, h⟩)⟩
          rw [(ih _).1]
          constructor
          · rintro (h | ⟨h1, y, hy, hy'⟩)
            · rcases List.mem_cons.1 h with rfl | h
              · exact Or.inr ⟨hn, x, by simp, hx⟩
              · exact Or.inl h
            · exact Or.inr ⟨h1, y, by simp [hy], hy'⟩
          · rintro (h | ⟨h1, y, hy, hy'⟩)
            · exact Or.inl (by simp [h])
            · rcases List.mem_cons.1 hy with rfl | hy
              · rw [hx] at hy'; cases hy'; exact Or.inl (by simp)
              · exact Or.inr ⟨h1, y, hy, hy'⟩

/-- Loop invariant of the worklist. -/
structure EInv (g : G) (implicit : Ref → List String) (d : Ref) (p res : List Ref) : Prop where
  pNodup : p.Nodup
  rNodup : res.Nodup
  disj : ∀ r ∈ p, r ∉ res
  sub : ∀ r, r ∈ p ∨ r ∈ res → r ∈ g.nodes
  reach : ∀ r, r ∈ p ∨ r ∈ res → Relation.ReflTransGen (Next g implicit) d r
  closed : ∀ a ∈ res, ∀ b, Next g implicit a b → b ∈ p ∨ b ∈ res
  start : d ∈ p ∨ d ∈ res

theorem getNodeByOutput_mem {g : G} (hw : WF g) {x : String} {r : Ref} (h : g.getNodeByOutput x = some r) :
    r ∈ g.nodes := by
  unfold G.getNodeByOutput at h
  split at h
  · cases h
  · split at h
    · cases h
    · exact ((hw.byName _ r).1 h).1

theorem extractLoop_spec {g : G} (hw : WF g) {implicit : Ref → List String} {d : Ref} (fuel : Nat) (p res : List Ref)
    (hi : EInv g implicit d p res) (hf : g.nodes.length < fuel + res.length) :
    (g.extractLoop implicit fuel p res).Nodup ∧
    ∀ r, r ∈ g.extractLoop implicit fuel p res ↔ Relation.ReflTransGen (Next g implicit) d r := by
  induction fuel generalizing p res with
  | zero =>
    exfalso
    have : res.length ≤ g.nodes.length :=
      (List.subperm_of_subset hi.rNodup (fun r hr => hi.sub r (Or.inr hr))).length_le
    omega
  | succ fuel ih =>
    cases p with
    | nil =>
      simp only [G.extractLoop]
      refine ⟨hi.rNodup, fun r => ⟨fun h => hi.reach r (Or.inr h), fun h => ?_⟩⟩
      induction h with
      | refl => exact hi.start.resolve_left (by simp)
      | tail _ hab ihab => exact (hi.closed _ ihab _ hab).resolve_left (by simp)
    | cons t ps =>
      simp only [G.extractLoop]
      have ht : t ∉ res := hi.disj t (by simp)
      rw [if_neg ht]
      have hpn := List.nodup_cons.1 hi.pNodup
      obtain ⟨s1, s2⟩ := pushInputs_spec (g := g) (res := t :: res) ((g.node t).input ++ implicit t) ps
      apply ih
      · refine ⟨s2 hpn.2, List.nodup_cons.2 ⟨ht, hi.rNodup⟩, ?_, ?_, ?_, ?_, ?_⟩
        · intro r hr
          rcases (s1 r).1 hr with h | ⟨h, _⟩
          · intro hr'
            rcases List.mem_cons.1 hr' with rfl | hr'
            · exact hpn.1 h
            · exact hi.disj r (by simp [h]) hr'
          · exact h
        · rintro r (hr | hr)
          · rcases (s1 r).1 hr with h | ⟨_, x, _, hx⟩
            · exact hi.sub r (Or.inl (by simp [h]))
            · exact getNodeByOutput_mem hw hx
          · rcases List.mem_cons.1 hr with rfl | hr
            · exact hi.sub r (Or.inl (by simp))
            · exact hi.sub r (Or.inr hr)
        · rintro r (hr | hr)
          · rcases (s1 r).1 hr with h | ⟨_, x, hx, hx'⟩
            · exact hi.reach r (Or.inl (by simp [h]))
            · exact (hi.reach t (Or.inl (by simp))).tail ⟨x, hx, hx'⟩
          · rcases List.mem_cons.1 hr with rfl | hr
            · exact hi.reach r (Or.inl (by simp))
            · exact hi.reach r (Or.inr hr)
        · intro a ha b hab
          rcases List.mem_cons.1 ha with rfl | ha
          · by_cases hb : b ∈ a :: res
            · exact Or.inr hb
            · obtain ⟨x, hx, hx'⟩ := hab
              exact Or.inl ((s1 b).2 (Or.inr ⟨hb, x, hx, hx'⟩))
          · rcases hi.closed a ha b hab with h | h
            · rcases List.mem_cons.1 h with rfl | h
              · exact Or.inr (by simp)
              · exact Or.inl ((s1 b).2 (Or.inl h))
            · exact Or.inr (by simp [h])
        · rcases hi.start with h | h
          · rcases List.mem_cons.1 h with rfl | h
            · exact Or.inr (by simp)
            · exact Or.inl ((s1 d).2 (Or.inl h))
          · exact Or.inr (by simp [h])
      · simp only [List.length_cons]; omega

theorem extractFrom_spec {g : G} (hw : WF g) {implicit : Ref → List String} (d : Option Ref)
    (hd : ∀ r, d = some r → r ∈ g.nodes) :
    (g.extractFrom implicit d).Nodup ∧
    ∀ r, r ∈ g.extractFrom implicit d ↔ ∃ s, d = some s ∧ Relation.ReflTransGen (Next g implicit) s r := by
  cases d with
  | none => simp [G.extractFrom]
  | some s =>
    have := extractLoop_spec hw (implicit := implicit) (d := s) (g.nodes.length + 1) [s] []
      ⟨by simp, by simp, by simp, by intro r hr; simp at hr; subst hr; exact hd _ rfl,
       by intro r hr; simp at hr; subst hr; exact .refl, by simp, by simp⟩ (by simp)
    refine ⟨this.1, fun r => ?_⟩
    simp only [G.extractFrom]
    rw [this.2]
    simp

theorem nodup_unionRefs {a b : List Ref} (ha : a.Nodup) (hb : b.Nodup) : (unionRefs a b).Nodup := by
  unfold unionRefs
  rw [List.nodup_append]
  refine ⟨ha, List.Nodup.filter _ hb, ?_⟩
  intro x hx y hy e
  subst e
  simp only [List.mem_filter, decide_eq_true_eq] at hy
  exact hy.2 hx

theorem mem_unionRefs {a b : List Ref} {r : Ref} : r ∈ unionRefs a b ↔ r ∈ a ∨ r ∈ b := by
  unfold unionRefs
  simp only [List.mem_append, List.mem_filter, decide_eq_true_eq]
  by_cases h : r ∈ a <;> simp [h]

theorem foldl_union_spec {f : String → List Ref} (hf : ∀ o, (f o).Nodup) (l : List String) (acc : List Ref)
    (ha : acc.Nodup) :
    (l.foldl (fun res o => unionRefs res (f o)) acc).Nodup ∧
    ∀ r, r ∈ l.foldl (fun res o => unionRefs res (f o)) acc ↔ r ∈ acc ∨ ∃ o ∈ l, r ∈ f o := by
  induction l generalizing acc with
  | nil => simp [ha]
  | cons o l ih =>
    simp only [List.foldl_cons]
    obtain ⟨h1, h2⟩ := ih _ (nodup_unionRefs ha (hf o))
    refine ⟨h1, fun r => ?_⟩
    rw [h2, mem_unionRefs]
    simp only [List.mem_cons, exists_eq_or_imp, or_assoc]

/-- Names the pruned graph must still provide: the requested outputs and the first output of every graph input. -/
def roots (g : G) (outputs : List String) (o : String) : Prop :=
  o ∈ outputs ∨ ∃ r ∈ g.inputs, (g.node r).output.head? = some o

theorem extractSubGraphNodes_spec {g : G} (hw : WF g) (implicit : Ref → List String) (outputs : List String) :
    (g.extractSubGraphNodes implicit outputs).Nodup ∧
    ∀ r, r ∈ g.extractSubGraphNodes implicit outputs ↔
      ∃ o s, roots g outputs o ∧ g.getNodeByOutput o = some s ∧ Relation.ReflTransGen (Next g implicit) s r := by
  have hf := fun o => extractFrom_spec hw (implicit := implicit) (g.getNodeByOutput o)
    (fun r hr => getNodeByOutput_mem hw hr)
  obtain ⟨h1, h2⟩ := foldl_union_spec (f := fun o => g.extractFrom implicit (g.getNodeByOutput o))
    (fun o => (hf o).1) (outputs ++ g.inputs.filterMap (fun r => (g.node r).output.head?)) [] (by simp)
  refine ⟨h1, fun r => ?_⟩
  unfold G.extractSubGraphNodes
  rw [h2]
  simp only [List.not_mem_nil, false_or, List.mem_append, List.mem_filterMap, (hf _).2, roots]
  constructor
  · rintro ⟨o, ho, s, hs, hr⟩; exact ⟨o, s, ho, hs, hr⟩
  · rintro ⟨o, s, ho, hs, hr⟩; exact ⟨o, ho, s, hs, hr⟩

theorem next_iff_dependsOn {g : G} (hw : WF g) (hno : g.getNodeByOutput "" = none) {implicit : Ref → List String}
    {a b : Ref} : Next g implicit a b ↔ b ∈ g.nodes ∧ DependsOn g implicit a b := by
  constructor
  · rintro ⟨x, hx, hb⟩
    have hne : x ≠ "" := by rintro rfl; rw [hno] at hb; cases hb
    have := (hw.getNodeByOutput hne b).1 hb
    exact ⟨this.1, x, hne, by simpa using hx, this.2⟩
  · rintro ⟨hb, x, hne, hx, hout⟩
    exact ⟨x, by simpa using hx, (hw.getNodeByOutput hne b).2 ⟨hb, hout⟩⟩

/-- `delete_unused_nodes(outputs)` keeps exactly the nodes that produce a requested output or a graph input, and those
they depend on, directly or through bodies, in any number of steps. (No node lists the absent output `""` first:
`hno`.) -/
theorem delete_unused_keeps_exactly {g g' : G} (hr : Reachable g) (hno : g.getNodeByOutput "" = none)
    (implicit : Ref → List String) (outputs : List String) (hne : outputs ≠ [])
    (h : g.deleteUnusedNodes implicit outputs = .ok g') :
    g'.nodes.Nodup ∧ ∀ r, r ∈ g'.nodes ↔
      ∃ o s, o ≠ "" ∧ roots g outputs o ∧ s ∈ g.nodes ∧ o ∈ (g.node s).output ∧
        Relation.ReflTransGen (fun a b => b ∈ g.nodes ∧ DependsOn g implicit a b) s r := by
  have hw := hr.wf
  unfold G.deleteUnusedNodes at h
  rw [if_neg hne] at h
  obtain ⟨h1, h2⟩ := extractSubGraphNodes_spec hw implicit outputs
  have hsub : ∀ r ∈ g.extractSubGraphNodes implicit outputs, r ∈ g.nodes := by
    intro r hr'
    obtain ⟨o, s, _, hs, hreach⟩ := (h2 r).1 hr'
    cases hreach with
    | refl => exact getNodeByOutput_mem hw hs
    | tail _ hab => obtain ⟨x, _, hx⟩ := hab; exact getNodeByOutput_mem hw hx
  have m := resetNodes_reset hw hsub h
  rw [m.nodes]
  refine ⟨h1, fun r => ?_⟩
  rw [h2]
  have hrel : Next g implicit = (fun a b => b ∈ g.nodes ∧ DependsOn g implicit a b) := by
    funext a b; exact propext (next_iff_dependsOn hw hno)
  rw [hrel]
  constructor
  · rintro ⟨o, s, ho, hs, hreach⟩
    have hoe : o ≠ "" := by rintro rfl; rw [hno] at hs; cases hs
    have := (hw.getNodeByOutput hoe s).1 hs
    exact ⟨o, s, hoe, ho, this.1, this.2, hreach⟩
  · rintro ⟨o, s, hoe, ho, hs, hout, hreach⟩
    exact ⟨o, s, ho, (hw.getNodeByOutput hoe s).2 ⟨hs, hout⟩, hreach⟩

/-! ## The pruned graph computes the same values -/

theorem Executable.sublist {l l' : List Node} (h : l'.Sublist l) (hx : Executable l) : Executable l' := by
  induction h with
  | slnil => exact hx
  | cons a _ ih => exact ih hx.2
  | cons_cons a hs ih =>
    refine ⟨?_, ih hx.2⟩
    intro i hi hne m hm
    refine hx.1 i hi hne m ?_
    rcases List.mem_cons.1 hm with rfl | hm
    · simp
    · exact List.mem_cons_of_mem _ (hs.subset hm)

theorem Acyclic.subset {ns keep : List Node} (hn : ns.Nodup) (hk : keep.Nodup) (hsub : ∀ n ∈ keep, n ∈ ns)
    (h : Acyclic ns) : Acyclic keep := by
  obtain ⟨l, hp, hx⟩ := h
  refine ⟨l.filter (· ∈ keep), ?_, hx.sublist List.filter_sublist⟩
  rw [List.perm_ext_iff_of_nodup (List.Nodup.filter _ (hp.nodup_iff.2 hn)) hk]
  intro n
  simp only [List.mem_filter, decide_eq_true_eq]
  exact ⟨And.right, fun h => ⟨hp.mem_iff.2 (hsub n h), h⟩⟩

/-- A valuation of the whole graph restricts to one of a part that contains the producers of all it reads, without
changing any value the part produces. -/
theorem sat_restrict {V : Type} {I : Interp V} {env e : String → V} {ns keep : List Node}
    (hsub : ∀ n ∈ keep, n ∈ ns)
    (hclosed : ∀ n ∈ keep, ∀ i ∈ n.input, i ≠ "" → ∀ m ∈ ns, i ∈ m.output → m ∈ keep) (hs : Sat I env e ns) :
    ∃ e', Sat I env e' keep ∧ ∀ x, ((∃ m ∈ keep, x ∈ m.output) ∨ Unproduced ns x) → e' x = e x := by
  classical
  refine ⟨fun x => if (∃ m ∈ keep, x ∈ m.output) ∨ Unproduced ns x then e x else env x, ⟨?_, ?_⟩, ?_⟩
  · intro n hn j o hj ho
    have h1 := hs.1 n (hsub n hn) j o hj ho
    have harg : argVals (fun x => if (∃ m ∈ keep, x ∈ m.output) ∨ Unproduced ns x then e x else env x) n
        = argVals e n := by
      apply argVals_congr
      intro i hi hne
      have : (∃ m ∈ keep, i ∈ m.output) ∨ Unproduced ns i := by
        by_cases hu : Unproduced ns i
        · exact Or.inr hu
        · left
          simp only [Unproduced, not_or, not_forall, not_not] at hu
          obtain ⟨_, m, hm, hio⟩ := hu
          exact ⟨m, hclosed n hn i hi hne m hm hio, hio⟩
      simp [this]
    rw [harg]
    simp only
    rw [if_pos (Or.inl ⟨n, hn, List.mem_of_getElem? hj⟩)]
    exact h1
  · intro x hx
    simp only
    split
    · rename_i hc
      rcases hx with rfl | hx
      · exact hs.2 _ (Or.inl rfl)
      · rcases hc with ⟨m, hm, hxm⟩ | hu
        · exact (hx m hm hxm).elim
        · exact hs.2 x hu
    · rfl
  · intro x hx; simp only; rw [if_pos hx]

theorem G.nodup_nodeList {g : G} (hw : WF g) : g.nodeList.Nodup := by
  unfold G.nodeList
  rw [List.nodup_map_iff_inj_on hw.nodup]
  intro a ha b hb e
  exact hw.name_inj ha hb (by rw [e])

/-- Deleting unused nodes keeps the values of all requested outputs, whatever the operators mean: for acyclic graphs,
the pruned graph has exactly one valuation, and it agrees with the only valuation of the original graph on every
requested output. -/
theorem delete_unused_preserves_values {g g' : G} (hr : Reachable g) (implicit : Ref → List String)
    (outputs : List String) (h : g.deleteUnusedNodes implicit outputs = .ok g') (ha : Acyclic g.nodeList)
    {V : Type} (I : Interp V) (env : String → V) :
    ∃ e e', Sat I env e g.nodeList ∧ Sat I env e' g'.nodeList ∧ (∀ f, Sat I env f g.nodeList → f = e) ∧
      (∀ f, Sat I env f g'.nodeList → f = e') ∧ ∀ o ∈ outputs, e' o = e o := by
  have hw := hr.wf
  obtain ⟨e, he⟩ := sat_exists (I := I) (env := env) hr.uniqueOutputs ha
  unfold G.deleteUnusedNodes at h
  split at h
  · rename_i hnil
    cases h
    exact ⟨e, e, he, he, fun f hf => sat_unique ha hf he, fun f hf => sat_unique ha hf he, by simp [hnil]⟩
  · obtain ⟨h1, h2⟩ := extractSubGraphNodes_spec hw implicit outputs
    have hsub : ∀ r ∈ g.extractSubGraphNodes implicit outputs, r ∈ g.nodes := by
      intro r hr'
      obtain ⟨o, s, _, hs, hreach⟩ := (h2 r).1 hr'
      cases hreach with
      | refl => exact getNodeByOutput_mem hw hs
      | tail _ hab => obtain ⟨x, _, hx⟩ := hab; exact getNodeByOutput_mem hw hx
    have hlegal : Legal g (.resetNodes (g.extractSubGraphNodes implicit outputs)) := ⟨h1, hsub⟩
    have m := resetNodes_reset hw hsub h
    have hr' : Reachable g' := .step hr hlegal h
    have hnode : g'.node = g.node := by funext r; exact m.node r
    have hnl : g'.nodeList = (g.extractSubGraphNodes implicit outputs).map g.node := by
      unfold G.nodeList; rw [m.nodes, hnode]
    have hsubN : ∀ n ∈ g'.nodeList, n ∈ g.nodeList := by
      intro n hn
      rw [hnl] at hn
      obtain ⟨r, hr1, rfl⟩ := List.mem_map.1 hn
      exact List.mem_map.2 ⟨r, hsub r hr1, rfl⟩
    have hclosed : ∀ n ∈ g'.nodeList, ∀ i ∈ n.input, i ≠ "" → ∀ m ∈ g.nodeList, i ∈ m.output → m ∈ g'.nodeList := by
      intro n hn i hi hne k hk hik
      rw [hnl] at hn ⊢
      obtain ⟨r, hr1, rfl⟩ := List.mem_map.1 hn
      obtain ⟨q, hq, rfl⟩ := List.mem_map.1 hk
      refine List.mem_map.2 ⟨q, ?_, rfl⟩
      obtain ⟨o, s, ho, hs, hreach⟩ := (h2 r).1 hr1
      exact (h2 q).2 ⟨o, s, ho, hs, hreach.tail ⟨i, by simp [hi], (hw.getNodeByOutput hne q).2 ⟨hq, hik⟩⟩⟩
    have ha' : Acyclic g'.nodeList := ha.subset (G.nodup_nodeList hw) (G.nodup_nodeList hr'.wf) hsubN
    obtain ⟨e', he', hag⟩ := sat_restrict hsubN hclosed he
    refine ⟨e, e', he, he', fun f hf => sat_unique ha hf he, fun f hf => sat_unique ha' hf he', ?_⟩
    intro o ho
    apply hag
    by_cases hu : Unproduced g.nodeList o
    · exact Or.inr hu
    · left
      simp only [Unproduced, not_or, not_forall, not_not] at hu
      obtain ⟨hoe, n, hn, hon⟩ := hu
      obtain ⟨q, hq, rfl⟩ := List.mem_map.1 hn
      refine ⟨g.node q, ?_, hon⟩
      rw [hnl]
      exact List.mem_map.2 ⟨q, (h2 q).2 ⟨o, q, Or.inl ho, (hw.getNodeByOutput hoe q).2 ⟨hq, hon⟩, .refl⟩, rfl⟩

/-- A non-trivial case: `u` and `w` are not needed for `v`, and the unused graph input `y` is kept. -/
def pruneScript : List Edit :=
  [.addGraphInput "p" "x", .addGraphInput "q" "y", .makeNode "Relu" ["x"] "a" ["u"] [] "",
   .makeNode "Abs" ["u"] "b" ["w"] [] "", .makeNode "Neg" ["x"] "c" ["v"] [] "", .addGraphOutput "v"]

example : ∃ g g', G.run {} pruneScript = .ok g ∧ g.deleteUnusedNodes (fun _ => []) g.outputs = .ok g' ∧
    g.nodes = [0, 1, 2, 3, 4] ∧ g'.nodes = [0, 4, 1] ∧ g.getNodeByOutput "" = none :=
  ⟨_, _, rfl, rfl, by decide⟩

end Verif.Graph
