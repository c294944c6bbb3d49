import Verif.Props.C44_Examples
/-!
# C45: `rewrite_thresholded_relu` preserves the model
-/
namespace Verif.Graph
open Verif Matcher

/-! ## Specification -/

/-- Multiplying `x` by the 0/1 value of `x > theta`, `theta` a scalar constant, is a thresholded rectifier, whichever way round the
factors stand. -/
def ThresholdedLaw (V : Type) (I : Interp V) : Prop :=
  ∀ (t : Tensor) (ca ga sa ma : Dict String Attr) (x : V), t.dims = [] → ca.get "value" = some (.tensor t) →
    let b := I "Cast" "" sa [some (I "Greater" "" ga [some x, some (I "Const" "" ca [] 0)] 0)] 0
    I "Mul" "" ma [some b, some x] 0 = I "ThresholdedRelu" "" [("alpha", .tensor t)] [some x] 0 ∧
    I "Mul" "" ma [some x, some b] 0 = I "ThresholdedRelu" "" [("alpha", .tensor t)] [some x] 0

/-- `ml` is the product of `x` and of the cast of a comparison of `x` with a constant. -/
def ThresholdedAt (g : G) (ml : Ref) (x : String) : Prop :=
  ∃ cs ∈ g.nodes, ∃ gt ∈ g.nodes, ∃ th ∈ g.nodes, ∃ u ∈ (g.node cs).output, ∃ v ∈ (g.node gt).output, ∃ c ∈ (g.node th).output,
    (g.node ml).op = "Mul" ∧ ((g.node ml).input = [u, x] ∨ (g.node ml).input = [x, u]) ∧
    (g.node cs).op = "Cast" ∧ (g.node cs).input = [v] ∧
    (g.node gt).op = "Greater" ∧ ((g.node gt).input = [x, c] ∨ (g.node gt).input = [c, x]) ∧ (g.node th).op = "Const"

theorem ThresholdedAt.reads {g : G} {ml : Ref} {x : String} (h : ThresholdedAt g ml x) :
    (g.node ml).op = "Mul" ∧ x ∈ (g.node ml).input := by
  obtain ⟨_, _, _, _, _, _, _, _, _, _, _, _, h1, h2, _⟩ := h
  exact ⟨h1, by rcases h2 with e | e <;> simp [e]⟩

/-! ## What a match says -/

theorem thresholded_match {g : G} {fuel : Nat} {r : Ref} {m : Result Ref}
    (h : matchOp g.gr true fuel thresholdedPat r = .ok (some m)) :
    ∃ cs gt th u v c x y, m.getOp "mul" = some r ∧ m.getOp "cast" = some cs ∧ m.getOp "theta" = some th ∧
      m.getTensor "greater_input" = some x ∧ m.getTensor "mul_input" = some y ∧
      (g.node r).op = "Mul" ∧ ((g.node r).input = [u, y] ∨ (g.node r).input = [y, u]) ∧
      g.getNodeByOutput u = some cs ∧ (g.node cs).op = "Cast" ∧ (g.node cs).input = [v] ∧
      g.getNodeByOutput v = some gt ∧ (g.node gt).op = "Greater" ∧ ((g.node gt).input = [x, c] ∨ (g.node gt).input = [c, x]) ∧
      g.getNodeByOutput c = some th ∧ (g.node th).op = "Const" := by
  obtain ⟨l, hM, hrec⟩ := match_op_recorded g.gr (gr_wellFormed g) true fuel thresholdedPat r m h
  have hrec := hrec (by decide) (by decide)
  obtain ⟨o, u, y, l1, l2, e1, t1, i1, m1, m2, mem1⟩ := matches_two hM (ts := ["Mul"]) rfl rfl
  simp only [Option.some.injEq] at e1
  subst e1
  obtain ⟨r1, e1', ht1⟩ := typeOk_node t1 (by decide)
  simp only [Option.some.injEq] at e1'
  subst e1'
  obtain ⟨cs, v, l3, e2, t2, i2, m3, mem2⟩ := matches_one m1 (ts := ["Cast"]) rfl rfl
  simp only at e2
  obtain ⟨r2, e2', ht2⟩ := typeOk_node t2 (by decide)
  have : r2 = cs := by simp only at e2'; rw [e2] at e2'; exact (Option.some.inj e2').symm
  subst this
  obtain ⟨gt, x, c, l4, l5, e3, t3, i3, m4, m5, mem3⟩ := matches_two m3 (ts := ["Greater"]) rfl rfl
  simp only at e3
  obtain ⟨r3, e3', ht3⟩ := typeOk_node t3 (by decide)
  have : r3 = gt := by simp only at e3'; rw [e3] at e3'; exact (Option.some.inj e3').symm
  subst this
  obtain ⟨hl5, t4⟩ := matches_leaf m5 (ts := ["Const"]) rfl rfl
  obtain ⟨th, e4, ht4⟩ := typeOk_node t4 (by decide)
  simp only at e4
  obtain ⟨hl4, _⟩ := matches_leaf m4 (ts := ["*"]) rfl rfl
  obtain ⟨hl2, _⟩ := matches_leaf m2 (ts := ["*"]) rfl rfl
  subst hl2 hl4 hl5
  have k1 := hrec _ ((mem1 _).2 (Or.inl rfl)) "mul" rfl
  have k2 := hrec _ ((mem1 _).2 (Or.inr (Or.inl ((mem2 _).2 (Or.inl rfl))))) "cast" rfl
  have j3 : ∀ x, x ∈ l3 → x ∈ l := fun x hx => (mem1 _).2 (Or.inr (Or.inl ((mem2 _).2 (Or.inr hx))))
  have k3 := hrec _ (j3 _ ((mem3 _).2 (Or.inr (Or.inr (List.mem_singleton_self _))))) "theta" rfl
  have k4 := hrec _ (j3 _ ((mem3 _).2 (Or.inr (Or.inl (List.mem_singleton_self _))))) "greater_input" rfl
  have k5 := hrec _ ((mem1 _).2 (Or.inr (Or.inr (List.mem_singleton_self _)))) "mul_input" rfl
  refine ⟨r2, r3, th, u, v, c, x, y, k1.1, k2.1.trans e2, k3.1.trans e4, k4.2, k5.2, by simpa using ht1, ?_, e2, by simpa using ht2, i2,
    e3, by simpa using ht3, ?_, e4, by simpa using ht4⟩
  · exact i1.imp id And.right
  · exact i3.imp id And.right

/-- The replacement that goes with a match. -/
def thresholdedRw (g : G) (m : Result Ref) : Rw :=
  match m.getOp "mul", m.getOp "cast", m.getOp "theta", m.getTensor "greater_input", m.getTensor "mul_input" with
  | some ml, some cs, some th, some x, some y =>
    if x = y then
      ⟨ml, "ThresholdedRelu", [y], match constTensor (g.node th) with | .ok t => [("alpha", .tensor t)] | .error _ => [],
        [ml, cs, (g.getNodeByOutput ((g.node cs).input.headD "")).getD 0, th], [cs, ml]⟩
    else ⟨ml, "", [], [], [], []⟩
  | _, _, _, _, _ => ⟨0, "", [], [], [], []⟩

/-! ## The theorem -/

/-- `rewrite_thresholded_relu`, when it succeeds, leaves a graph that is the same model: same inputs, same outputs, same results
for every feed, for every meaning of the operators in which `x * cast(x > theta)` is `ThresholdedRelu`. This holds for every
graph built by the graph API that is acyclic and whose `Mul`, `Cast`, `Greater`, `Const` nodes are as the importer makes them,
no `Mul` or `Cast` being a graph output directly, in which no `Greater` has a constant as its first operand or a
non-scalar constant as an operand, and no thresholded rectifier is applied to another one directly. Missing from the full property: those
cases; it is false for a constant first operand (`thresholded_flipped_violated`), for a constant that is not a scalar
(`thresholded_list_violated`) and for chains (`thresholded_chain_violated`). -/
theorem thresholded_preserves_model_partial {fresh : Nat → String} (hf : FreshNames fresh) {order : List Ref → List Ref}
    (hord : SetOrder order) {fuel : Nat} {g g' : G} (hr : Reachable g) (hi : Idx g)
    (ha : Acyclic g.nodeList) (hin : ∀ r ∈ g.inputs, (g.node r).isGraphInput = true) (hu : Unused fresh g)
    (hp : PlainOps g ["Mul", "Cast", "Greater", "Const"])
    (hc : ∀ r ∈ g.nodes, (g.node r).op = "Const" → (g.node r).input = [])
    (hno : ∀ r ∈ g.nodes, (g.node r).op = "Mul" ∨ (g.node r).op = "Cast" → ∀ o ∈ (g.node r).output, o ∉ g.outputs)
    (hfirst : ∀ r ∈ g.nodes, (g.node r).op = "Greater" → ∀ q ∈ g.nodes, (g.node q).op = "Const" → ∀ o ∈ (g.node q).output,
      (g.node r).input.head? ≠ some o)
    (hscalar : ∀ r ∈ g.nodes, (g.node r).op = "Greater" → ∀ q ∈ g.nodes, (g.node q).op = "Const" →
      (∃ o ∈ (g.node q).output, o ∈ (g.node r).input) → ∀ t, (g.node q).attr.get "value" = some (.tensor t) → t.dims = [])
    (hchain : ∀ r ∈ g.nodes, ∀ q ∈ g.nodes, ∀ x y, ThresholdedAt g r x → ThresholdedAt g q y → y ∉ (g.node r).output)
    (h : g.rewriteThresholdedRelu fresh order fuel = .ok g') : SameModel ThresholdedLaw g g' := by
  have hw := hr.wf
  simp only [G.rewriteThresholdedRelu, bind, Except.bind] at h
  split at h
  · cases h
  rename_i ms hms
  obtain ⟨l, hl1, hl2, hl3⟩ := matchOps_spec g.nodes hms
  have hlm : ∀ it ∈ l, it.2 ∈ g.nodes := fun it hit => hl2.subset (List.mem_map.2 ⟨it, hit, rfl⟩)
  have hne0 : ∀ {q : Ref} {x : String}, q ∈ g.nodes → (g.node q).op ∈ ["Mul", "Cast", "Greater", "Const"] → x ∈ (g.node q).input →
      x ≠ "" := by
    intro q x hq hop hx e
    subst e
    exact (hp q hq hop).2.2 hx
  -- everything known about a match
  have facts : ∀ it ∈ l, ∃ cs gt th u v c x y o, it.1.getOp "mul" = some it.2 ∧ it.1.getOp "cast" = some cs ∧
      it.1.getOp "theta" = some th ∧ it.1.getTensor "greater_input" = some x ∧ it.1.getTensor "mul_input" = some y ∧
      (g.getNodeByOutput ((g.node cs).input.headD "")).getD 0 = gt ∧
      (g.node it.2).op = "Mul" ∧ ((g.node it.2).input = [u, y] ∨ (g.node it.2).input = [y, u]) ∧
      (g.node cs).op = "Cast" ∧ (g.node cs).input = [v] ∧ (g.node gt).op = "Greater" ∧ (g.node gt).input = [x, c] ∧
      (g.node th).op = "Const" ∧ cs ∈ g.nodes ∧ gt ∈ g.nodes ∧ th ∈ g.nodes ∧
      (g.node it.2).output = [o] ∧ (g.node cs).output = [u] ∧ (g.node gt).output = [v] ∧ (g.node th).output = [c] ∧
      o ≠ "" ∧ u ≠ "" ∧ v ≠ "" ∧ c ≠ "" ∧ x ≠ "" ∧ y ≠ "" := by
    intro it hit
    obtain ⟨cs, gt, th, u, v, c, x, y, k1, k2, k3, k4, k5, o1, i1, p1, o2, i2, p2, o3, i3, p3, o4⟩ := thresholded_match (hl3 it hit)
    have hrm := hlm it hit
    have huy : u ∈ (g.node it.2).input ∧ y ∈ (g.node it.2).input := by rcases i1 with e | e <;> simp [e]
    have hune := hne0 hrm (by simp [o1]) huy.1
    have hyne := hne0 hrm (by simp [o1]) huy.2
    obtain ⟨hcs, hou⟩ := (hw.getNodeByOutput hune cs).1 p1
    have hvne := hne0 hcs (by simp [o2]) (show v ∈ (g.node cs).input by simp [i2])
    obtain ⟨hgt, hov⟩ := (hw.getNodeByOutput hvne gt).1 p2
    have hxc : x ∈ (g.node gt).input ∧ c ∈ (g.node gt).input := by rcases i3 with e | e <;> simp [e]
    have hxne := hne0 hgt (by simp [o3]) hxc.1
    have hcne := hne0 hgt (by simp [o3]) hxc.2
    obtain ⟨hth, hoc⟩ := (hw.getNodeByOutput hcne th).1 p3
    obtain ⟨_, ⟨o, ho, hone⟩, _⟩ := hp it.2 hrm (by simp [o1])
    obtain ⟨_, ⟨ou, ho2, _⟩, _⟩ := hp cs hcs (by simp [o2])
    obtain ⟨_, ⟨ov, ho3, _⟩, _⟩ := hp gt hgt (by simp [o3])
    obtain ⟨_, ⟨oc, ho4, _⟩, _⟩ := hp th hth (by simp [o4])
    have i3' : (g.node gt).input = [x, c] := by
      rcases i3 with e | e
      · exact e
      · exact (hfirst gt hgt o3 th hth o4 c hoc (by simp [e])).elim
    have e2 : ou = u := by rw [ho2] at hou; exact (List.mem_singleton.1 hou).symm
    have e3 : ov = v := by rw [ho3] at hov; exact (List.mem_singleton.1 hov).symm
    have e4 : oc = c := by rw [ho4] at hoc; exact (List.mem_singleton.1 hoc).symm
    subst e2 e3 e4
    exact ⟨cs, gt, th, ou, ov, oc, x, y, o, k1, k2, k3, k4, k5, by simp [i2, p2], o1, i1, o2, i2, o3, i3', o4, hcs, hgt, hth, ho,
      ho2, ho3, ho4, hone, hune, hvne, hcne, hxne, hyne⟩
  have hnd : (l.map (·.2)).Nodup := hl2.nodup hw.nodup
  refine forMatches_sameModel hf hord (again := false) (RwInv.start hr hi ha hin hu) (l.map (fun it => (it.1, thresholdedRw g it.1)))
    ?_ ?_ ?_
    (by rw [List.map_map, show ((fun x => x.1) ∘ fun it : Result Ref × Ref => (it.1, thresholdedRw g it.1)) = (·.1) from rfl, hl1]
        exact h)
  · intro it' hit' p hp'
    obtain ⟨it, hit, rfl⟩ := List.mem_map.1 hit'
    obtain ⟨cs, gt, th, u, v, c, x, y, o, k1, k2, k3, k4, k5, kg, o1, i1, o2, i2, o3, i3, o4, hcs, hgt, hth, _⟩ := facts it hit
    simp only [thresholdedRw, k1, k2, k3, k4, k5, kg] at hp'
    split at hp'
    · simp only [List.mem_cons, List.not_mem_nil, or_false] at hp'
      rcases hp' with rfl | rfl | rfl | rfl
      · exact hlm it hit
      all_goals assumption
    · simp at hp'
  · intro it' hit' cu cu' hsame hf'
    obtain ⟨it, hit, rfl⟩ := List.mem_map.1 hit'
    obtain ⟨cs, gt, th, u, v, c, x, y, o, k1, k2, k3, k4, k5, kg, o1, i1, o2, i2, o3, i3, o4, hcs, hgt, hth, ho, ho2, ho3, ho4, hone,
      hune, hvne, hcne, hxne, hyne⟩ := facts it hit
    simp only [thresholdedRw, k1, k2, k3, k4, k5, kg] at hsame ⊢
    simp only [G.thresholdedMatch, k1, k2, k3, k4, k5, bind, Except.bind] at hf'
    by_cases hxy : x = y
    · subst hxy
      simp only [if_true] at hsame hf' ⊢
      rw [hsame th (by simp)] at hf'
      cases hct : constTensor (g.node th) with
      | error z => rw [hct] at hf'; cases hf'
      | ok t =>
        rw [hct] at hf'
        simp only at hf' ⊢
        have hdims : t.dims = [] := hscalar gt hgt o3 th hth o4 ⟨c, by simp [ho4], by simp [i3]⟩ t (constTensor_ok hct)
        refine Or.inr ⟨?_, hf'⟩
        have hrm := hlm it hit
        have hni1 : (g.node it.2).isGraphInput = false := by simp [Node.isGraphInput, o1]
        have hni2 : (g.node cs).isGraphInput = false := by simp [Node.isGraphInput, o2]
        have hni3 : (g.node gt).isGraphInput = false := by simp [Node.isGraphInput, o3]
        have hni4 : (g.node th).isGraphInput = false := by simp [Node.isGraphInput, o4]
        have hb1 : Below g [it.2, cs, gt, th] it.2 cs :=
          .step .root (by simp) ⟨u, hune, by rcases i1 with e | e <;> simp [e], by simp [ho2]⟩
        have hb2 : Below g [it.2, cs, gt, th] it.2 gt := .step hb1 (by simp) ⟨v, hvne, by simp [i2], by simp [ho3]⟩
        have hb3 : Below g [it.2, cs, gt, th] it.2 th := .step hb2 (by simp) ⟨c, hcne, by simp [i3], by simp [ho4]⟩
        refine ⟨?_, by simp, ⟨o, ho, hone⟩, ?_, ?_, by simp, by simp, ?_, ?_, ?_, by simp [Node.isGraphInput], ?_⟩
        · intro p hp'
          simp only [List.mem_cons, List.not_mem_nil, or_false] at hp'
          rcases hp' with rfl | rfl | rfl | rfl <;> assumption
        · intro p hp'
          simp only [List.mem_cons, List.not_mem_nil, or_false] at hp'
          rcases hp' with rfl | rfl | rfl | rfl
          · exact .root
          all_goals assumption
        · intro z hz _
          simp only [List.mem_singleton] at hz
          subst hz
          exact ⟨it.2, by simp, by rcases i1 with e | e <;> simp [e]⟩
        · intro d hd
          simp only [List.mem_cons, List.not_mem_nil, or_false] at hd
          rcases hd with rfl | rfl <;> assumption
        · intro d hd
          simp only [List.mem_cons, List.not_mem_nil, or_false] at hd
          rcases hd with rfl | rfl
          · exact hno _ hcs (Or.inr o2)
          · exact hno _ hrm (Or.inl o1)
        · intro d hd hdr q hq hrd
          simp only [List.mem_cons, List.not_mem_nil, or_false] at hd hq
          rcases hd with rfl | rfl
          · rcases hq with rfl | rfl
            · exfalso
              obtain ⟨z, hz1, hz2⟩ := hrd
              obtain ⟨ρ, hrk⟩ := ha.ranked hw
              have hz0 : z ≠ "" := hne0 hcs (by simp [o2]) hz2
              have := hrk q hcs q hcs ⟨z, hz0, hz2, hz1⟩
              omega
            · rfl
          · exact (hdr rfl).elim
        · intro V I hI env e he o' ho'
          rw [ho] at ho'
          simp only [List.cons.injEq, and_true] at ho'
          subst ho'
          have q1 := nodeSat_one (he it.2 (by simp)) ho hone hni1 (hp _ hrm (by simp [o1])).1
          have q2 := nodeSat_one (he cs (by simp)) ho2 hune hni2 (hp _ hcs (by simp [o2])).1
          have q3 := nodeSat_one (he gt (by simp)) ho3 hvne hni3 (hp _ hgt (by simp [o3])).1
          have q4 := nodeSat_one (he th (by simp)) ho4 hcne hni4 (hp _ hth (by simp [o4])).1
          rw [o1] at q1; rw [o2] at q2; rw [o3] at q3; rw [o4] at q4
          have hc0 : argVals e (g.node th) = [] := by simp [argVals, hc th hth o4]
          rw [hc0] at q4
          have q2' : e u = I "Cast" "" (g.node cs).attr [some (e v)] 0 := by rw [q2]; simp [argVals, argVal, i2, hvne]
          have q3' : e v = I "Greater" "" (g.node gt).attr [some (e x), some (e c)] 0 := by
            rw [q3]; simp [argVals, argVal, i3, hxne, hcne]
          obtain ⟨h1, h2⟩ := hI t (g.node th).attr (g.node gt).attr (g.node cs).attr (g.node it.2).attr (e x) hdims (constTensor_ok hct)
          rw [← q4, ← q3', ← q2'] at h1 h2
          simp only [List.map_cons, List.map_nil, argVal, if_neg hxne]
          rw [q1]
          rcases i1 with e1 | e1
          · rw [← h1]; simp [argVals, argVal, e1, hune, hxne]
          · rw [← h2]; simp [argVals, argVal, e1, hune, hxne]
    · rw [if_neg hxy] at hf'
      cases hf'; exact Or.inl rfl
  · rw [List.pairwise_map]
    have hpw : l.Pairwise (fun a b => a.2 ≠ b.2) := by
      rw [List.nodup_iff_pairwise_ne, List.pairwise_map] at hnd
      exact hnd
    refine hpw.imp_of_mem ?_
    intro it jt hit hjt hne hval
    obtain ⟨cs, gt, th, u, v, c, x, y, o, k1, k2, k3, k4, k5, kg, o1, i1, o2, i2, o3, i3, o4, hcs, hgt, hth, ho, ho2, ho3, ho4, hone,
      hune, hvne, hcne, hxne, hyne⟩ := facts it hit
    obtain ⟨cs', gt', th', u', v', c', x', y', o', k1', k2', k3', k4', k5', kg', o1', i1', o2', i2', o3', i3', o4', hcs', hgt', hth',
      ho', ho2', ho3', ho4', hone', hune', hvne', hcne', hxne', hyne'⟩ := facts jt hjt
    have hrm := hlm it hit
    have hrm' := hlm jt hjt
    have hroot : (thresholdedRw g it.1).root = it.2 := by simp only [thresholdedRw, k1, k2, k3, k4, k5]; split <;> rfl
    have hdel : ∀ d ∈ (thresholdedRw g it.1).del, d = it.2 ∨ d = cs := by
      simp only [thresholdedRw, k1, k2, k3, k4, k5]
      split <;> simp
    have hxy0 : x = y := by
      by_contra hxy
      have := hval.root
      simp [thresholdedRw, k1, k2, k3, k4, k5, if_neg hxy] at this
    subst hxy0
    by_cases hxy : x' = y'
    · subst hxy
      have hpats : (thresholdedRw g jt.1).pats = [jt.2, cs', gt', th'] := by
        simp only [thresholdedRw, k1', k2', k3', k4', k5', kg', if_true]
      have hox : o ≠ x' := by
        rintro rfl
        exact hchain it.2 hrm jt.2 hrm' x o
          ⟨cs, hcs, gt, hgt, th, hth, u, by simp [ho2], v, by simp [ho3], c, by simp [ho4], o1, i1, o2, i2, o3, Or.inl i3, o4⟩
          ⟨cs', hcs', gt', hgt', th', hth', u', by simp [ho2'], v', by simp [ho3'], c', by simp [ho4'], o1', i1', o2', i2', o3',
            Or.inl i3', o4'⟩ (by simp [ho])
      have hother : ∀ (q : Ref) (z : String), q ∈ g.nodes → (g.node q).output = [z] → (g.node q).op ≠ "Mul" → o ≠ z := by
        rintro q z hq hz hop rfl
        have := hw.out_inj hone hrm hq (by simp [ho]) (by simp [hz])
        exact hop (by rw [← this]; exact o1)
      have hou := hother cs' u' hcs' ho2' (by simp [o2'])
      have hov := hother gt' v' hgt' ho3' (by simp [o3'])
      have hoc := hother th' c' hth' ho4' (by simp [o4'])
      have hjm : jt.2 ≠ cs := by intro e; rw [← e, o1'] at o2; exact absurd o2 (by decide)
      refine ⟨?_, ?_⟩
      · rw [hroot, hpats, ho]
        intro p hp' z hz
        simp only [List.mem_singleton] at hz
        subst hz
        simp only [List.mem_cons, List.not_mem_nil, or_false] at hp'
        rcases hp' with rfl | rfl | rfl | rfl
        · rcases i1' with e | e <;> simp [e, hox, hou]
        · simp [i2', hov]
        · simp [i3', hox, hoc]
        · simp [hc _ hth' o4']
      · rw [hpats]
        intro p hp' hpd
        simp only [List.mem_cons, List.not_mem_nil, or_false] at hp'
        have hjd : jt.2 ∉ (thresholdedRw g it.1).del := by
          intro hc'
          rcases hdel _ hc' with e | e
          · exact hne e.symm
          · exact hjm e
        rcases hp' with rfl | rfl | rfl | rfl
        · exact (hjd hpd).elim
        · exact ⟨jt.2, by simp, hjd, u', by simp [ho2'], by rcases i1' with e | e <;> simp [e]⟩
        · exfalso
          rcases hdel _ hpd with e | e
          · rw [e, o1] at o3'; exact absurd o3' (by decide)
          · rw [e, o2] at o3'; exact absurd o3' (by decide)
        · exfalso
          rcases hdel _ hpd with e | e
          · rw [e, o1] at o4'; exact absurd o4' (by decide)
          · rw [e, o2] at o4'; exact absurd o4' (by decide)
    · have hpats : (thresholdedRw g jt.1).pats = [] := by simp only [thresholdedRw, k1', k2', k3', k4', k5', if_neg hxy]
      exact ⟨by rw [hpats]; simp, by rw [hpats]; simp⟩

/-! ## Elementwise arithmetic satisfies the law -/

/-- The thresholded rectifier of one number, as ONNX defines it. -/
def thresholded (a x : Rat) : Rat := if a < x then x else 0

/-- `x > a` as a number. -/
def greaterNum (x a : Rat) : Rat := if a < x then 1 else 0

/-- `Const`, `Mul`, `Greater`, `Cast` of truth values, `ThresholdedRelu`, `Relu` on lists of numbers. A list-valued `alpha` is
not a valid attribute of `ThresholdedRelu`; it gets some fixed value. -/
def thresholdedInterp (val : Int → Rat) : Interp (List Rat) := fun op _ attr args _ =>
  if op = "Const" then
    match Dict.get attr "value" with
    | some (.tensor t) => if t.dims = [] then [litOf val t] else t.data.map val
    | _ => []
  else if op = "Mul" then bcast (· * ·) (operand args 0) (operand args 1)
  else if op = "Greater" then bcast greaterNum (operand args 0) (operand args 1)
  else if op = "ThresholdedRelu" then
    match Dict.get attr "alpha" with
    | some (.tensor t) => if t.dims = [] then (operand args 0).map (thresholded (litOf val t)) else []
    | _ => []
  else if op = "Relu" then (operand args 0).map (max 0)
  else operand args 0

theorem thresholdedInterp_law (val : Int → Rat) : ThresholdedLaw (List Rat) (thresholdedInterp val) := by
  intro t ca ga sa ma x hd hc b
  have hb : b = x.map (greaterNum · (litOf val t)) := by
    have hcv : thresholdedInterp val "Const" "" ca [] 0 = [litOf val t] := by simp [thresholdedInterp, hc, hd]
    show bcast greaterNum x (thresholdedInterp val "Const" "" ca [] 0) = _
    rw [hcv, bcast_scalar_right]
  have hr : thresholdedInterp val "ThresholdedRelu" "" [("alpha", .tensor t)] [some x] 0 = x.map (thresholded (litOf val t)) := by
    simp [thresholdedInterp, operand, Dict.get, hd]
  rw [hr, hb]
  have hpt : ∀ y : Rat, greaterNum y (litOf val t) * y = thresholded (litOf val t) y := by
    intro y; unfold greaterNum thresholded; split <;> simp
  constructor
  · show bcast (· * ·) (x.map _) x = _
    rw [bcast_map_left]
    exact List.map_congr_left fun y _ => hpt y
  · show bcast (· * ·) x (x.map _) = _
    rw [bcast_map_right]
    refine List.map_congr_left fun y _ => ?_
    rw [mul_comm]; exact hpt y

/-! ## A concrete case -/

/-- `out = Identity(r * cast(r > c))` with `r = Relu(cast(x > c) * x)`. -/
def thresholdedScript : List Edit :=
  [.addGraphInput "px" "x", .makeNode "Const" [] "cc" ["c"] [("value", .tensor ⟨1, [], [2]⟩)] "",
   .makeNode "Greater" ["x", "c"] "g1" ["b"] [] "", .makeNode "Cast" ["b"] "c1" ["f"] [("to", .int 1)] "",
   .makeNode "Mul" ["f", "x"] "m1" ["y"] [] "", .makeNode "Relu" ["y"] "rl" ["r"] [] "",
   .makeNode "Greater" ["r", "c"] "g2" ["d"] [] "", .makeNode "Cast" ["d"] "c2" ["h"] [("to", .int 1)] "",
   .makeNode "Mul" ["r", "h"] "m2" ["z"] [] "",
   .makeNode "Identity" ["z"] "id" ["out"] [] "", .addGraphOutput "out"]

/-- The graph of the script. -/
def thresholdedGraph : G := match G.run {} thresholdedScript with
  | .ok g => g
  | .error _ => {}

theorem thresholdedGraph_run : G.run {} thresholdedScript = .ok thresholdedGraph := rfl

theorem thresholdedGraph_nodes : thresholdedGraph.nodes = [0, 1, 2, 3, 4, 5, 6, 7, 8, 9] := rfl

theorem thresholdedGraph_rewritten : ∃ g', thresholdedGraph.rewriteThresholdedRelu exFresh exOrder 10 = .ok g' ∧
    g'.nodeList.map (fun n => (n.op, n.input, n.output)) =
      [("Placeholder", [], ["x"]), ("Const", [], ["c"]), ("Greater", ["x", "c"], ["b"]),
       ("Relu", ["new'''''''''':0"], ["r"]), ("Greater", ["r", "c"], ["d"]), ("Identity", ["new''''''''''':0"], ["out"]),
       ("ThresholdedRelu", ["x"], ["new'''''''''':0"]), ("ThresholdedRelu", ["r"], ["new''''''''''':0"])] := ⟨_, rfl, by decide⟩

/-- The theorem applies to the example. -/
example : ∃ g', thresholdedGraph.rewriteThresholdedRelu exFresh exOrder 10 = .ok g' ∧
    SameModel ThresholdedLaw thresholdedGraph g' := by
  have hsafe := run_building (s := thresholdedScript) (by decide) .empty thresholdedGraph_run
  obtain ⟨g', hg', _⟩ := thresholdedGraph_rewritten
  refine ⟨g', hg', thresholded_preserves_model_partial exFresh_fresh exOrder_set hsafe.reachable hsafe.idx ⟨_, .refl _, by decide⟩
    (by decide) (unused_of_short (by decide) (by decide)) ?_ (by decide) (by decide) (by decide) ?_ ?_ hg'⟩
  · intro r hr ho
    rw [thresholdedGraph_nodes] at hr
    simp only [List.mem_cons, List.not_mem_nil, or_false] at hr
    rcases hr with rfl | rfl | rfl | rfl | rfl | rfl | rfl | rfl | rfl | rfl
    · exact absurd ho (by decide)
    · exact ⟨rfl, ⟨"c", rfl, by decide⟩, by decide⟩
    · exact ⟨rfl, ⟨"b", rfl, by decide⟩, by decide⟩
    · exact ⟨rfl, ⟨"f", rfl, by decide⟩, by decide⟩
    · exact ⟨rfl, ⟨"y", rfl, by decide⟩, by decide⟩
    · exact absurd ho (by decide)
    · exact ⟨rfl, ⟨"d", rfl, by decide⟩, by decide⟩
    · exact ⟨rfl, ⟨"h", rfl, by decide⟩, by decide⟩
    · exact ⟨rfl, ⟨"z", rfl, by decide⟩, by decide⟩
    · exact absurd ho (by decide)
  · intro r _ _ q hq ho _ t ht
    have : q = 1 := by
      rw [thresholdedGraph_nodes] at hq
      simp only [List.mem_cons, List.not_mem_nil, or_false] at hq
      rcases hq with rfl | rfl | rfl | rfl | rfl | rfl | rfl | rfl | rfl | rfl
      · exact absurd ho (by decide)
      · rfl
      all_goals exact absurd ho (by decide)
    subst this
    have h2 : (thresholdedGraph.node 1).attr.get "value" = some (.tensor ⟨1, [], [2]⟩) := rfl
    rw [h2] at ht
    cases ht
    rfl
  · have hd : ∀ r ∈ thresholdedGraph.nodes, ∀ q ∈ thresholdedGraph.nodes, (thresholdedGraph.node r).op = "Mul" →
      (thresholdedGraph.node q).op = "Mul" → ∀ o ∈ (thresholdedGraph.node r).output, o ∉ (thresholdedGraph.node q).input := by decide
    exact fun r hr q hq x y h1 h2 ho => hd r hr q hq h1.reads.1 h2.reads.1 y ho h2.reads.2

/-! ## Where it is false -/

/-- `out = x * cast(c > x)`. -/
def flippedScript : List Edit :=
  [.addGraphInput "px" "x", .makeNode "Const" [] "cc" ["c"] [("value", .tensor ⟨1, [], [2]⟩)] "",
   .makeNode "Greater" ["c", "x"] "g1" ["b"] [] "", .makeNode "Cast" ["b"] "c1" ["f"] [("to", .int 1)] "",
   .makeNode "Mul" ["x", "f"] "m1" ["y"] [] "", .makeNode "Identity" ["y"] "id" ["out"] [] "", .addGraphOutput "out"]

/-- The rewriter takes `x * cast(c > x)` for a thresholded rectifier too, because the matcher reorders the operands of
`Greater`: the results change, with arithmetic as ONNX defines it. -/
theorem thresholded_flipped_violated : ∃ g g', G.run {} flippedScript = .ok g ∧ ReachableSafe g ∧ Acyclic g.nodeList ∧
    g.rewriteThresholdedRelu exFresh exOrder 10 = .ok g' ∧
    ∃ env out, Computes (thresholdedInterp (fun i => i)) g env out ∧ ¬ Computes (thresholdedInterp (fun i => i)) g' env out := by
  refine ⟨_, _, rfl, run_building (s := flippedScript) (by decide) .empty rfl, ⟨_, .refl _, by decide⟩, rfl,
    (fun _ => [1]), [[1]], ?_, ?_⟩
  · exact (computes_exec_order [0, 1, 2, 3, 4, 5] (by decide) (by decide) (by decide) _ _ _).2 (by decide +kernel)
  · intro h
    exact absurd ((computes_exec_order [0, 1, 2, 6, 5] (by decide) (by decide) (by decide) _ _ _).1 h) (by decide +kernel)

/-- `out = x * cast(x > [2, 3])`: one threshold per element. -/
def thresholdListScript : List Edit :=
  [.addGraphInput "px" "x", .makeNode "Const" [] "cc" ["c"] [("value", .tensor ⟨1, [2], [2, 3]⟩)] "",
   .makeNode "Greater" ["x", "c"] "g1" ["b"] [] "", .makeNode "Cast" ["b"] "c1" ["f"] [("to", .int 1)] "",
   .makeNode "Mul" ["x", "f"] "m1" ["y"] [] "", .makeNode "Identity" ["y"] "id" ["out"] [] "", .addGraphOutput "out"]

/-- The rewriter also accepts a constant that is not a scalar: the new `ThresholdedRelu` has a list as its `alpha`. -/
theorem thresholded_list_violated : ∃ g g', G.run {} thresholdListScript = .ok g ∧ ReachableSafe g ∧ Acyclic g.nodeList ∧
    g.rewriteThresholdedRelu exFresh exOrder 10 = .ok g' ∧
    ∃ r ∈ g'.nodes, (g'.node r).op = "ThresholdedRelu" ∧ ∃ t, (g'.node r).attr.get "alpha" = some (.tensor t) ∧ t.dims ≠ [] := by
  exact ⟨_, _, rfl, run_building (s := thresholdListScript) (by decide) .empty rfl, ⟨_, .refl _, by decide⟩, rfl, 6, by decide, by rfl,
    ⟨1, [2], [2, 3]⟩, rfl, by decide⟩

/-- Two thresholded rectifiers one after the other. -/
def thresholdChainScript : List Edit :=
  [.addGraphInput "px" "x", .makeNode "Const" [] "cc" ["c"] [("value", .tensor ⟨1, [], [2]⟩)] "",
   .makeNode "Greater" ["x", "c"] "g1" ["b"] [] "", .makeNode "Cast" ["b"] "c1" ["f"] [("to", .int 1)] "",
   .makeNode "Mul" ["f", "x"] "m1" ["y"] [] "",
   .makeNode "Greater" ["y", "c"] "g2" ["d"] [] "", .makeNode "Cast" ["d"] "c2" ["h"] [("to", .int 1)] "",
   .makeNode "Mul" ["h", "y"] "m2" ["z"] [] "",
   .makeNode "Identity" ["z"] "id" ["out"] [] "", .addGraphOutput "out"]

/-- The rewriter breaks a chain: the second `ThresholdedRelu` reads a tensor that no node of the resulting graph produces. -/
theorem thresholded_chain_violated : ∃ g g', G.run {} thresholdChainScript = .ok g ∧ ReachableSafe g ∧ Acyclic g.nodeList ∧
    g.rewriteThresholdedRelu exFresh exOrder 10 = .ok g' ∧
    ∃ r ∈ g'.nodes, (g'.node r).op = "ThresholdedRelu" ∧ ∃ x ∈ (g'.node r).input, x ≠ "" ∧
      (∃ q ∈ g.nodes, x ∈ (g.node q).output) ∧ ∀ q ∈ g'.nodes, x ∉ (g'.node q).output := by
  exact ⟨_, _, rfl, run_building (s := thresholdChainScript) (by decide) .empty rfl, ⟨_, .refl _, by decide⟩, rfl, 10, by decide, by rfl,
    "y", by decide, by decide, ⟨4, by decide, by decide⟩, by decide⟩

end Verif.Graph
