import Verif.Props.MatchFacts
/-!
# C44: `rewrite_leakyrelu` preserves the model
-/
namespace Verif.Graph
open Verif Matcher

/-! ## Specification -/

/-- Multiplying by a scalar constant `alpha < 1` (`ge1` is false of it) and taking the maximum with the other factor is a
leaky rectifier with that `alpha`, whichever way round the operands stand. -/
def LeakyLaw (ge1 : Tensor → Bool) (V : Type) (I : Interp V) : Prop :=
  ∀ (t : Tensor) (ca ma xa : Dict String Attr) (x : V), t.dims = [] → ge1 t = false → ca.get "value" = some (.tensor t) →
    let c := I "Const" "" ca [] 0
    ∀ m, (m = I "Mul" "" ma [some c, some x] 0 ∨ m = I "Mul" "" ma [some x, some c] 0) →
      I "Maximum" "" xa [some m, some x] 0 = I "LeakyRelu" "" [("alpha", .tensor t)] [some x] 0 ∧
      I "Maximum" "" xa [some x, some m] 0 = I "LeakyRelu" "" [("alpha", .tensor t)] [some x] 0

/-- Nodes of the given types look as TensorFlow's importer makes them: default domain, one named output, no missing inputs. -/
def PlainOps (g : G) (ops : List String) : Prop :=
  ∀ r ∈ g.nodes, (g.node r).op ∈ ops → (g.node r).domain = "" ∧ (∃ o, (g.node r).output = [o] ∧ o ≠ "") ∧ "" ∉ (g.node r).input

/-- `mx` is the maximum of `x` and of a constant times `x`. -/
def LeakyAt (g : G) (mx : Ref) (x : String) : Prop :=
  ∃ ml ∈ g.nodes, ∃ al ∈ g.nodes, ∃ u ∈ (g.node ml).output, ∃ a ∈ (g.node al).output,
    (g.node mx).op = "Maximum" ∧ ((g.node mx).input = [u, x] ∨ (g.node mx).input = [x, u]) ∧
    (g.node ml).op = "Mul" ∧ ((g.node ml).input = [a, x] ∨ (g.node ml).input = [x, a]) ∧ (g.node al).op = "Const"

theorem LeakyAt.reads {g : G} {mx : Ref} {x : String} (h : LeakyAt g mx x) : (g.node mx).op = "Maximum" ∧ x ∈ (g.node mx).input := by
  obtain ⟨_, _, _, _, _, _, _, _, h1, h2, _⟩ := h
  exact ⟨h1, by rcases h2 with e | e <;> simp [e]⟩

/-- Names of future nodes are not in use yet. -/
def Unused (fresh : Nat → String) (g : G) : Prop :=
  ∀ k, g.heap.length ≤ k → (∀ r ∈ g.nodes, outName fresh k ∉ (g.node r).input ∧ outName fresh k ∉ (g.node r).output) ∧
    outName fresh k ∉ g.outputs

theorem RwInv.start {fresh : Nat → String} {g : G} (hr : Reachable g) (hi : Idx g) (ha : Acyclic g.nodeList)
    (hin : ∀ r ∈ g.inputs, (g.node r).isGraphInput = true) (hu : Unused fresh g) : RwInv fresh g :=
  ⟨hr, hi, ha.ranked hr.wf, hin, fun k hk => ⟨fun r hr => ((hu k hk).1 r hr).1, (hu k hk).2⟩, fun k hk r hr => ((hu k hk).1 r hr).2⟩

/-! ## What a match says -/

theorem leaky_match {g : G} {fuel : Nat} {r : Ref} {m : Result Ref} (h : matchOp g.gr true fuel leakyPat r = .ok (some m)) :
    ∃ ml al u a x y, m.getOp "max" = some r ∧ m.getOp "mul" = some ml ∧ m.getOp "alpha" = some al ∧
      m.getTensor "max_input" = some x ∧ m.getTensor "mul_input" = some y ∧
      (g.node r).op = "Maximum" ∧ ((g.node r).input = [u, x] ∨ (g.node r).input = [x, u]) ∧
      g.getNodeByOutput u = some ml ∧ (g.node ml).op = "Mul" ∧ ((g.node ml).input = [a, y] ∨ (g.node ml).input = [y, a]) ∧
      g.getNodeByOutput a = some al ∧ (g.node al).op = "Const" := by
  obtain ⟨l, hM, hrec⟩ := match_op_recorded g.gr (gr_wellFormed g) true fuel leakyPat r m h
  have hrec := hrec (by decide) (by decide)
  obtain ⟨o, u, x, l1, l2, e1, t1, i1, m1, m2, mem1⟩ := matches_two hM (ts := ["Maximum"]) rfl rfl
  simp only [Option.some.injEq] at e1
  subst e1
  obtain ⟨r1, e1', ht1⟩ := typeOk_node t1 (by decide)
  simp only [Option.some.injEq] at e1'
  subst e1'
  obtain ⟨ml, a, y, l3, l4, e2, t2, i2, m3, m4, mem2⟩ := matches_two m1 (ts := ["Mul"]) rfl rfl
  simp only at e2
  obtain ⟨r2, e2', ht2⟩ := typeOk_node t2 (by decide)
  have : r2 = ml := by simp only at e2'; rw [e2] at e2'; exact (Option.some.inj e2').symm
  subst this
  obtain ⟨hl3, t3⟩ := matches_leaf m3 (ts := ["Const"]) rfl rfl
  obtain ⟨al, e3, ht3⟩ := typeOk_node t3 (by decide)
  simp only at e3
  obtain ⟨hl4, _⟩ := matches_leaf m4 (ts := ["*"]) rfl rfl
  obtain ⟨hl2, _⟩ := matches_leaf m2 (ts := ["*"]) rfl rfl
  subst hl2 hl3 hl4
  have k1 := hrec _ ((mem1 _).2 (Or.inl rfl)) "max" rfl
  have k2 := hrec _ ((mem1 _).2 (Or.inr (Or.inl ((mem2 _).2 (Or.inl rfl))))) "mul" rfl
  have k3 := hrec _ ((mem1 _).2 (Or.inr (Or.inl ((mem2 _).2 (Or.inr (Or.inl (List.mem_singleton_self _))))))) "alpha" rfl
  have k4 := hrec _ ((mem1 _).2 (Or.inr (Or.inl ((mem2 _).2 (Or.inr (Or.inr (List.mem_singleton_self _))))))) "mul_input" rfl
  have k5 := hrec _ ((mem1 _).2 (Or.inr (Or.inr (List.mem_singleton_self _)))) "max_input" rfl
  refine ⟨r2, al, u, a, x, y, k1.1, k2.1.trans e2, k3.1.trans e3, k5.2, k4.2, by simpa using ht1, ?_, e2, by simpa using ht2, ?_,
    e3, by simpa using ht3⟩
  · exact i1.imp id And.right
  · exact i2.imp id And.right

/-- The replacement that goes with a match. -/
def leakyRw (g : G) (m : Result Ref) : Rw :=
  match m.getOp "max", m.getOp "mul", m.getOp "alpha", m.getTensor "max_input", m.getTensor "mul_input" with
  | some mx, some ml, some al, some x, some y =>
    if x = y then
      ⟨mx, "LeakyRelu", [x], match constTensor (g.node al) with | .ok t => [("alpha", .tensor t)] | .error _ => [], [mx, ml, al],
        [mx, ml]⟩
    else ⟨mx, "", [], [], [], []⟩
  | _, _, _, _, _ => ⟨0, "", [], [], [], []⟩

theorem nodeSat_one {V : Type} {I : Interp V} {env e : String → V} {n : Node} {o : String} (h : NodeSat I env e n)
    (hout : n.output = [o]) (ho : o ≠ "") (hni : n.isGraphInput = false) (hd : n.domain = "") :
    e o = I n.op "" n.attr (argVals e n) 0 := by
  have := h 0 o (by simp [hout]) ho
  rwa [hni, hd] at this

theorem constTensor_ok {n : Node} {t : Tensor} (h : constTensor n = .ok t) : n.attr.get "value" = some (.tensor t) := by
  unfold constTensor at h
  split at h
  · split at h
    · rename_i h'
      cases h; exact h'
    · cases h
  · cases h

/-! ## The theorem -/

/-- `rewrite_leakyrelu`, when it succeeds, leaves a graph that is the same model: same inputs, same outputs, same results for
every feed, for every meaning of the operators in which `max(alpha * x, x)` with scalar `alpha < 1` is `LeakyRelu`. This holds for every
graph built by the graph API that is acyclic and whose `Maximum`, `Mul`, `Const` nodes are as the importer makes them, no
`Maximum` or `Mul` being a graph output directly, and in which no leaky rectifier is applied to another one directly. Missing
from the full property: such chains, where it is false (`leakyrelu_chain_violated`). -/
theorem leakyrelu_preserves_model_partial {fresh : Nat → String} (hf : FreshNames fresh) {order : List Ref → List Ref}
    (hord : SetOrder order) {ge1 : Tensor → Bool} {fuel : Nat} {g g' : G} (hr : Reachable g) (hi : Idx g)
    (ha : Acyclic g.nodeList) (hin : ∀ r ∈ g.inputs, (g.node r).isGraphInput = true) (hu : Unused fresh g)
    (hp : PlainOps g ["Maximum", "Mul", "Const"]) (hc : ∀ r ∈ g.nodes, (g.node r).op = "Const" → (g.node r).input = [])
    (hno : ∀ r ∈ g.nodes, (g.node r).op = "Maximum" ∨ (g.node r).op = "Mul" → ∀ o ∈ (g.node r).output, o ∉ g.outputs)
    (hchain : ∀ r ∈ g.nodes, ∀ q ∈ g.nodes, ∀ x y, LeakyAt g r x → LeakyAt g q y → y ∉ (g.node r).output)
    (h : g.rewriteLeakyRelu fresh order ge1 fuel = .ok g') : SameModel (LeakyLaw ge1) g g' := by
  have hw := hr.wf
  simp only [G.rewriteLeakyRelu, bind, Except.bind] at h
  split at h
  · cases h
  rename_i ms hms
  obtain ⟨l, hl1, hl2, hl3⟩ := matchOps_spec g.nodes hms
  have hlm : ∀ it ∈ l, it.2 ∈ g.nodes := fun it hit => hl2.subset (List.mem_map.2 ⟨it, hit, rfl⟩)
  have hne0 : ∀ {q : Ref} {x : String}, q ∈ g.nodes → (g.node q).op ∈ ["Maximum", "Mul", "Const"] → x ∈ (g.node q).input → x ≠ "" := by
    intro q x hq hop hx e
    subst e
    exact (hp q hq hop).2.2 hx
  -- everything known about a match
  have facts : ∀ it ∈ l, ∃ ml al u a x y o ou oa, it.1.getOp "max" = some it.2 ∧ it.1.getOp "mul" = some ml ∧
      it.1.getOp "alpha" = some al ∧ it.1.getTensor "max_input" = some x ∧ it.1.getTensor "mul_input" = some y ∧
      (g.node it.2).op = "Maximum" ∧ ((g.node it.2).input = [u, x] ∨ (g.node it.2).input = [x, u]) ∧
      (g.node ml).op = "Mul" ∧ ((g.node ml).input = [a, y] ∨ (g.node ml).input = [y, a]) ∧ (g.node al).op = "Const" ∧
      ml ∈ g.nodes ∧ al ∈ g.nodes ∧ (g.node it.2).output = [o] ∧ (g.node ml).output = [ou] ∧ (g.node al).output = [oa] ∧
      o ≠ "" ∧ u = ou ∧ a = oa ∧ u ≠ "" ∧ a ≠ "" ∧ x ≠ "" := by
    intro it hit
    obtain ⟨ml, al, u, a, x, y, k1, k2, k3, k4, k5, o1, i1, p1, o2, i2, p2, o3⟩ := leaky_match (hl3 it hit)
    have hrm := hlm it hit
    have hux : u ∈ (g.node it.2).input ∧ x ∈ (g.node it.2).input := by rcases i1 with e | e <;> simp [e]
    have hune := hne0 hrm (by simp [o1]) hux.1
    have hxne := hne0 hrm (by simp [o1]) hux.2
    obtain ⟨hml, hou⟩ := (hw.getNodeByOutput hune ml).1 p1
    have hane := hne0 hml (by simp [o2]) (show a ∈ (g.node ml).input by rcases i2 with e | e <;> simp [e])
    obtain ⟨hal, hoa⟩ := (hw.getNodeByOutput hane al).1 p2
    obtain ⟨_, ⟨o, ho, hone⟩, _⟩ := hp it.2 hrm (by simp [o1])
    obtain ⟨_, ⟨ou, ho2, _⟩, _⟩ := hp ml hml (by simp [o2])
    obtain ⟨_, ⟨oa, ho3, _⟩, _⟩ := hp al hal (by simp [o3])
    rw [ho2] at hou
    rw [ho3] at hoa
    exact ⟨ml, al, u, a, x, y, o, ou, oa, k1, k2, k3, k4, k5, o1, i1, o2, i2, o3, hml, hal, ho, ho2, ho3, hone,
      by simpa using hou, by simpa using hoa, hune, hane, hxne⟩
  have hnd : (l.map (·.2)).Nodup := hl2.nodup hw.nodup
  refine forMatches_sameModel hf hord (again := true) (RwInv.start hr hi ha hin hu) (l.map (fun it => (it.1, leakyRw g it.1))) ?_ ?_ ?_
    (by rw [List.map_map, show ((fun x => x.1) ∘ fun it : Result Ref × Ref => (it.1, leakyRw g it.1)) = (·.1) from rfl, hl1]; exact h)
  · -- the matched nodes are in the graph
    intro it' hit' p hp'
    obtain ⟨it, hit, rfl⟩ := List.mem_map.1 hit'
    obtain ⟨ml, al, u, a, x, y, o, ou, oa, k1, k2, k3, k4, k5, o1, i1, o2, i2, o3, hml, hal, _⟩ := facts it hit
    simp only [leakyRw, k1, k2, k3, k4, k5] at hp'
    split at hp'
    · simp only [List.mem_cons, List.not_mem_nil, or_false] at hp'
      rcases hp' with rfl | rfl | rfl
      · exact hlm it hit
      · exact hml
      · exact hal
    · simp at hp'
  · -- each iteration does nothing, or carries out a justified replacement
    intro it' hit' c c' hsame hf'
    obtain ⟨it, hit, rfl⟩ := List.mem_map.1 hit'
    obtain ⟨ml, al, u, a, x, y, o, ou, oa, k1, k2, k3, k4, k5, o1, i1, o2, i2, o3, hml, hal, ho, ho2, ho3, hone, rfl, rfl, hune,
      hane, hxne⟩ := facts it hit
    simp only [leakyRw, k1, k2, k3, k4, k5] at hsame ⊢
    simp only [G.leakyMatch, k1, k2, k3, k4, k5, bind, Except.bind] at hf'
    by_cases hxy : x = y
    · subst hxy
      simp only [if_true] at hsame hf' ⊢
      rw [hsame al (by simp)] at hf'
      cases hct : constTensor (g.node al) with
      | error z => rw [hct] at hf'; cases hf'
      | ok t =>
        rw [hct] at hf'
        simp only at hf' ⊢
        split at hf'
        · cases hf'
        rename_i hdims
        simp only [ne_eq, not_not] at hdims
        by_cases hge : ge1 t = true
        · rw [if_pos hge] at hf'
          cases hf'; exact Or.inl rfl
        · rw [if_neg hge] at hf'
          refine Or.inr ⟨?_, hf'⟩
          have hrm := hlm it hit
          have hni1 : (g.node it.2).isGraphInput = false := by simp [Node.isGraphInput, o1]
          have hni2 : (g.node ml).isGraphInput = false := by simp [Node.isGraphInput, o2]
          have hni3 : (g.node al).isGraphInput = false := by simp [Node.isGraphInput, o3]
          have hb1 : Below g [it.2, ml, al] it.2 ml :=
            .step .root (by simp) ⟨u, hune, by rcases i1 with e | e <;> simp [e], by simp [ho2]⟩
          refine ⟨?_, by simp, ⟨o, ho, hone⟩, ?_, ?_, by simp, by simp, ?_, ?_, ?_, by simp [Node.isGraphInput], ?_⟩
          · intro p hp'
            simp only [List.mem_cons, List.not_mem_nil, or_false] at hp'
            rcases hp' with rfl | rfl | rfl <;> assumption
          · intro p hp'
            simp only [List.mem_cons, List.not_mem_nil, or_false] at hp'
            rcases hp' with rfl | rfl | rfl
            · exact .root
            · exact hb1
            · exact .step hb1 (by simp) ⟨a, hane, by rcases i2 with e | e <;> simp [e], by simp [ho3]⟩
          · intro z hz _
            simp only [List.mem_singleton] at hz
            subst hz
            exact ⟨it.2, by simp, by rcases i1 with e | e <;> simp [e]⟩
          · intro d hd
            simp only [List.mem_cons, List.not_mem_nil, or_false] at hd
            rcases hd with rfl | rfl <;> assumption
          · intro d hd
            simp only [List.mem_cons, List.not_mem_nil, or_false] at hd
            rcases hd with rfl | rfl
            · exact hno _ hrm (Or.inl o1)
            · exact hno _ hml (Or.inr o2)
          · intro d hd hdr q hq hrd
            simp only [List.mem_cons, List.not_mem_nil, or_false] at hd hq
            rcases hd with rfl | rfl
            · exact (hdr rfl).elim
            · rcases hq with rfl | rfl
              · rfl
              · exfalso
                obtain ⟨z, hz1, hz2⟩ := hrd
                obtain ⟨ρ, hrk⟩ := ha.ranked hw
                have hz0 : z ≠ "" := hne0 hml (by simp [o2]) hz2
                have := hrk q hml q hml ⟨z, hz0, hz2, hz1⟩
                omega
          · intro V I hI env e he o' ho'
            rw [ho] at ho'
            simp only [List.cons.injEq, and_true] at ho'
            subst ho'
            have q1 := nodeSat_one (he it.2 (by simp)) ho hone hni1 (hp _ hrm (by simp [o1])).1
            have q2 := nodeSat_one (he ml (by simp)) ho2 hune hni2 (hp _ hml (by simp [o2])).1
            have q3 := nodeSat_one (he al (by simp)) ho3 hane hni3 (hp _ hal (by simp [o3])).1
            rw [o1] at q1; rw [o2] at q2; rw [o3] at q3
            have hc0 : argVals e (g.node al) = [] := by simp [argVals, hc al hal o3]
            rw [hc0] at q3
            have hge' : ge1 t = false := by simpa using hge
            have hL := hI t (g.node al).attr (g.node ml).attr (g.node it.2).attr (e x) hdims hge' (constTensor_ok hct)
            simp only [← q3] at hL
            have hm : e u = I "Mul" "" (g.node ml).attr [some (e a), some (e x)] 0 ∨
                e u = I "Mul" "" (g.node ml).attr [some (e x), some (e a)] 0 := by
              rcases i2 with e2 | e2
              · left; rw [q2]; simp [argVals, argVal, e2, hane, hxne]
              · right; rw [q2]; simp [argVals, argVal, e2, hane, hxne]
            obtain ⟨h1, h2⟩ := hL _ hm
            simp only [List.map_cons, List.map_nil, argVal, if_neg hxne]
            rw [q1]
            rcases i1 with e1 | e1
            · rw [← h1]; simp [argVals, argVal, e1, hune, hxne]
            · rw [← h2]; simp [argVals, argVal, e1, hune, hxne]
    · rw [if_neg hxy] at hf'
      cases hf'; exact Or.inl rfl
  · -- a replacement spares the later matches
    rw [List.pairwise_map]
    have hpw : l.Pairwise (fun a b => a.2 ≠ b.2) := by
      rw [List.nodup_iff_pairwise_ne, List.pairwise_map] at hnd
      exact hnd
    refine hpw.imp_of_mem ?_
    intro it jt hit hjt hne hval
    obtain ⟨ml, al, u, a, x, y, o, ou, oa, k1, k2, k3, k4, k5, o1, i1, o2, i2, o3, hml, hal, ho, ho2, ho3, hone, rfl, rfl, hune,
      hane, hxne⟩ := facts it hit
    obtain ⟨ml', al', u', a', x', y', o', ou', oa', k1', k2', k3', k4', k5', o1', i1', o2', i2', o3', hml', hal', ho', ho2', ho3', hone',
      rfl, rfl, hune', hane', hxne'⟩ := facts jt hjt
    have hrm := hlm it hit
    have hrm' := hlm jt hjt
    have hroot : (leakyRw g it.1).root = it.2 := by simp only [leakyRw, k1, k2, k3, k4, k5]; split <;> rfl
    have hdel : ∀ d ∈ (leakyRw g it.1).del, d = it.2 ∨ d = ml := by
      simp only [leakyRw, k1, k2, k3, k4, k5]
      split <;> simp
    have hxy0 : x = y := by
      by_contra hxy
      have := hval.root
      simp [leakyRw, k1, k2, k3, k4, k5, if_neg hxy] at this
    subst hxy0
    by_cases hxy : x' = y'
    · subst hxy
      have hpats : (leakyRw g jt.1).pats = [jt.2, ml', al'] := by simp only [leakyRw, k1', k2', k3', k4', k5', if_true]
      have hox : o ≠ x' := by
        rintro rfl
        exact hchain it.2 hrm jt.2 hrm' x o ⟨ml, hml, al, hal, u, by simp [ho2], a, by simp [ho3], o1, i1, o2, i2, o3⟩
          ⟨ml', hml', al', hal', u', by simp [ho2'], a', by simp [ho3'], o1', i1', o2', i2', o3'⟩ (by simp [ho])
      have hou : o ≠ u' := by
        rintro rfl
        have := hw.out_inj hone hrm hml' (by simp [ho]) (by simp [ho2'])
        rw [this, o2'] at o1
        exact absurd o1 (by decide)
      have hoa : o ≠ a' := by
        rintro rfl
        have := hw.out_inj hone hrm hal' (by simp [ho]) (by simp [ho3'])
        rw [this, o3'] at o1
        exact absurd o1 (by decide)
      have hmx : ml' ≠ it.2 := by rintro rfl; rw [o2'] at o1; exact absurd o1 (by decide)
      have hjm : jt.2 ≠ ml := by intro e; rw [← e, o1'] at o2; exact absurd o2 (by decide)
      refine ⟨?_, ?_⟩
      · rw [hroot, hpats, ho]
        intro p hp' z hz
        simp only [List.mem_singleton] at hz
        subst hz
        simp only [List.mem_cons, List.not_mem_nil, or_false] at hp'
        rcases hp' with rfl | rfl | rfl
        · rcases i1' with e | e <;> simp [e, hox, hou]
        · rcases i2' with e | e <;> simp [e, hox, hoa]
        · simp [hc _ hal' o3']
      · rw [hpats]
        intro p hp' hpd
        simp only [List.mem_cons, List.not_mem_nil, or_false] at hp'
        have hjd : jt.2 ∉ (leakyRw g it.1).del := by
          intro hc'
          rcases hdel _ hc' with e | e
          · exact hne e.symm
          · exact hjm e
        rcases hp' with rfl | rfl | rfl
        · exact (hjd hpd).elim
        · exact ⟨jt.2, by simp, hjd, u', by simp [ho2'], by rcases i1' with e | e <;> simp [e]⟩
        · exfalso
          rcases hdel _ hpd with e | e
          · rw [e, o1] at o3'; exact absurd o3' (by decide)
          · rw [e, o2] at o3'; exact absurd o3' (by decide)
    · have hpats : (leakyRw g jt.1).pats = [] := by simp only [leakyRw, k1', k2', k3', k4', k5', if_neg hxy]
      exact ⟨by rw [hpats]; simp, by rw [hpats]; simp⟩

end Verif.Graph
