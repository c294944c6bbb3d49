import Verif.Props.C70_Vars
/-!
# C70: the body of the `Loop` node
-/
namespace Verif.While
variable {V : Type} {truth : V → Bool} {P : Plan} {ρ : String → Nat → Option V} {G₀ G : List (Node V)} {S : List String} {c i : String}
  {fresh : String → String → String → String} {vs : List Var}

/-- The nodes of the body. -/
def cellOf (G : List (Node V)) (vs : List Var) : List (Node V) := subgraph (cutOff G vs) false (vs.map Var.next)

/-- The nodes of the condition. -/
def condOf (G : List (Node V)) (vs : List Var) (i : String) : List (Node V) := subgraph (cutOff G vs) true [i]

/-- The graph of the body. -/
def bodyOf (G : List (Node V)) (vs : List Var) (i : String) : List (Node V) :=
  (cellOf G vs).map (Node.renamed (enterIn G) id) ++ (condOf G vs i).map (Node.renamed (condIn G vs) id)

theorem Setting.cutNodup (h : Setting truth P ρ fresh G₀ S G c i) : ((cutOff G vs).flatMap Node.outs).Nodup := filter_nodup h.inv.nodup _

/-- The nodes of the loop that are not of the body are not cut off. -/
theorem Setting.notCut (h : Setting truth P ρ fresh G₀ S G c i) (hv : Vars P G₀ G c vs) {n : Node V} (hn : n ∈ G) (hb : ∀ o ∈ n.outs, P.place o ≠ .body c) : n ∈ cutOff G vs := by
  refine mem_cutOff.2 ⟨hn, fun y hy hy' => ?_⟩
  obtain ⟨d, o0, o1, hs, hst⟩ := hv.stateIns hy
  exact hb y hy' (h.stateIn hs hst).1

/-- A `NextIteration` uses what the body returns. -/
theorem Setting.nextUses (h : Setting truth P ρ fresh G₀ S G c i) (hv : Vars P G₀ G c vs) {v : Var} (hvm : v ∈ vs) :
    P.place v.next = .body c ∧ Produced G₀ v.next ∧ ∃ n ∈ cutOff G vs, v.next ∈ n.ins := by
  obtain ⟨o0, o1, e, nx, hok⟩ := hv.ok v hvm
  obtain ⟨c', hc', hnx⟩ := h.made.nodes _ hok.next
  rw [hok.placeN] at hnx
  cases hnx
  have hb : P.place v.next = .body c := by
    rcases hc' with hc' | hc'
    · exact hc'
    · obtain ⟨c'', h''⟩ := h.plain.returned _ _ hok.next
      rw [hc'] at h''
      cases h''
  refine ⟨hb, h.made.closed _ hok.next _ (by simp [Node.ins]), .next v.next nx, ?_, by simp [Node.ins]⟩
  refine h.notCut hv (h.live hok.next (x := nx) (by simp [Node.outs]) (by rw [hok.placeN]; rfl)) ?_
  intro o ho
  simp only [Node.outs, List.mem_singleton] at ho
  rw [ho, hok.placeN]
  intro h'
  cases h'

/-- An operator of a part of the loop. -/
def OpAt (P : Plan) (G₀ : List (Node V)) (κ : Place) (c : String) (n : Node V) : Prop :=
  n ∈ G₀ ∧ ∃ t f ins outs, n = .op t f ins outs ∧ (∀ o ∈ outs, P.place o = κ) ∧ ∀ z ∈ ins, P.place z = κ ∨ P.place z = .entered c

/-- The search for the body. -/
theorem Setting.cell (h : Setting truth P ρ fresh G₀ S G c i) (hv : Vars P G₀ G c vs) :
    (∀ n ∈ cellOf G vs, n ∈ cutOff G vs ∧ OpAt P G₀ (.body c) c n ∧ stops false n = false ∧ ∃ o, o ∈ n.outs) ∧
    (∀ x ∈ vs.map Var.next, ∀ n, Verif.While.producer (cutOff G vs) x = some n → stops false n = false → n ∈ cellOf G vs) ∧
    (∀ n ∈ cellOf G vs, ∀ x ∈ n.ins, ∀ n', Verif.While.producer (cutOff G vs) x = some n' → stops false n' = false → n' ∈ cellOf G vs) := by
  have src : ∀ x n', P.place x = .body c → n' ∈ cutOff G vs → x ∈ n'.ins → Produced G₀ x → ∀ n, Verif.While.producer (cutOff G vs) x = some n → OpAt P G₀ (.body c) c n := by
    intro x n' hp hn' hx hprod n hn
    rcases h.bodyCases hv hp hn' hx hprod with ⟨-, h0⟩ | ⟨t, f, ins, outs, h0, -, -, h1, h2, h3⟩
    · rw [hn] at h0
      cases h0
    · rw [hn] at h1
      cases h1
      exact ⟨h0, t, f, ins, outs, rfl, h2, h3⟩
  refine subgraph_spec h.cutNodup false _ (OpAt P G₀ (.body c) c) ?_ ?_
  · intro x hx n hn _
    obtain ⟨v, hvm, rfl⟩ := List.mem_map.1 hx
    obtain ⟨h1, h2, n', h3, h4⟩ := h.nextUses hv hvm
    exact src _ n' h1 h3 h4 h2 n hn
  · rintro n hnH ⟨hn0, t, f, ins, outs, rfl, -, hins⟩ x hx n' hn' hs
    have hprod := h.made.closed _ hn0 x hx
    rcases hins x hx with hp | hp
    · exact src x _ hp hnH hx hprod n' hn'
    · exfalso
      obtain ⟨hm, hxm⟩ := producer_mem hn'
      have h0 := h.old (mem_cutOff.1 hm).1 hxm (by rw [hp]; intro h'; cases h')
      obtain ⟨j, rfl, -⟩ := entered_producer (h.made.nodes _ h0) hxm hp
      cases hs

/-- The search for the condition. -/
theorem Setting.cond' (h : Setting truth P ρ fresh G₀ S G c i) :
    (∀ n ∈ condOf G vs i, n ∈ cutOff G vs ∧ OpAt P G₀ (.head c) c n ∧ stops true n = false ∧ ∃ o, o ∈ n.outs) ∧
    (∀ x ∈ [i], ∀ n, Verif.While.producer (cutOff G vs) x = some n → stops true n = false → n ∈ condOf G vs i) ∧
    (∀ n ∈ condOf G vs i, ∀ x ∈ n.ins, ∀ n', Verif.While.producer (cutOff G vs) x = some n' → stops true n' = false → n' ∈ condOf G vs i) := by
  have src : ∀ x, P.place x = .head c ∨ P.place x = .entered c → ∀ n, Verif.While.producer (cutOff G vs) x = some n → stops true n = false → OpAt P G₀ (.head c) c n := by
    intro x hp n hn hs
    obtain ⟨hm, hxm⟩ := producer_mem hn
    have h0 := h.old (mem_cutOff.1 hm).1 hxm (by rcases hp with hp | hp <;> (rw [hp]; intro h'; cases h'))
    rcases hp with hp | hp
    · rcases head_producer (h.made.nodes _ h0) hxm hp with ⟨t, f, ins, outs, rfl, h1, h2⟩ | ⟨a, b, rfl⟩
      · exact ⟨h0, t, f, ins, outs, rfl, h1, h2⟩
      · cases hs
    · obtain ⟨j, rfl, -⟩ := entered_producer (h.made.nodes _ h0) hxm hp
      cases hs
  refine subgraph_spec h.cutNodup true _ (OpAt P G₀ (.head c) c) ?_ ?_
  · intro x hx n hn hs
    have : x = i := by simpa using hx
    subst this
    exact src x (h.made.nodes _ h.cond).1 n hn hs
  · rintro n hnH ⟨hn0, t, f, ins, outs, rfl, -, hins⟩ x hx n' hn' hs
    exact src x (hins x hx) n' hn' hs

theorem renamed_op (σ : String → String) {t : String} {f : List V → List V} {ins outs : List String} :
    (Node.op t f ins outs).renamed σ id = .op t f (ins.map σ) outs := by
  simp [Node.renamed]

/-- What the graph of the body has for a tensor of the body. -/
theorem Setting.bodyCell (h : Setting truth P ρ fresh G₀ S G c i) (hv : Vars P G₀ G c vs) {n : Node V} (hn : n ∈ cellOf G vs) {x : String} (hx : x ∈ n.outs) :
    Verif.While.producer (bodyOf G vs i) x = some (n.renamed (enterIn G) id) := by
  obtain ⟨hnc, ⟨hn0, t, f, ins, outs, rfl, hp, -⟩, -⟩ := (h.cell hv).1 n hn
  have : Produced (bodyOf G vs i) x := ⟨_, List.mem_append.2 (Or.inl (List.mem_map.2 ⟨_, hn, rfl⟩)), by rw [renamed_op]; exact hx⟩
  obtain ⟨m, hm⟩ := producer_some this
  rw [hm]
  obtain ⟨hmB, hxm⟩ := producer_mem hm
  rcases List.mem_append.1 hmB with hmB | hmB
  · obtain ⟨n', hn', rfl⟩ := List.mem_map.1 hmB
    obtain ⟨-, ⟨hn0', t', f', ins', outs', rfl, -, -⟩, -⟩ := (h.cell hv).1 n' hn'
    rw [renamed_op] at hxm
    rw [unique_out h.made.outs hn0' hn0 hxm hx]
  · obtain ⟨n', hn', rfl⟩ := List.mem_map.1 hmB
    obtain ⟨-, ⟨hn0', t', f', ins', outs', rfl, hp', -⟩, -⟩ := h.cond'.1 n' hn'
    rw [renamed_op] at hxm
    have e1 := hp x hx
    rw [hp' x hxm] at e1
    cases e1

theorem Setting.bodyCond (h : Setting truth P ρ fresh G₀ S G c i) (hv : Vars P G₀ G c vs) {n : Node V} (hn : n ∈ condOf G vs i) {x : String} (hx : x ∈ n.outs) :
    Verif.While.producer (bodyOf G vs i) x = some (n.renamed (condIn G vs) id) := by
  obtain ⟨hnc, ⟨hn0, t, f, ins, outs, rfl, hp, -⟩, -⟩ := h.cond'.1 n hn
  have : Produced (bodyOf G vs i) x := ⟨_, List.mem_append.2 (Or.inr (List.mem_map.2 ⟨_, hn, rfl⟩)), by rw [renamed_op]; exact hx⟩
  obtain ⟨m, hm⟩ := producer_some this
  rw [hm]
  obtain ⟨hmB, hxm⟩ := producer_mem hm
  rcases List.mem_append.1 hmB with hmB | hmB
  · obtain ⟨n', hn', rfl⟩ := List.mem_map.1 hmB
    obtain ⟨-, ⟨hn0', t', f', ins', outs', rfl, hp', -⟩, -⟩ := (h.cell hv).1 n' hn'
    rw [renamed_op] at hxm
    have e1 := hp x hx
    rw [hp' x hxm] at e1
    cases e1
  · obtain ⟨n', hn', rfl⟩ := List.mem_map.1 hmB
    obtain ⟨-, ⟨hn0', t', f', ins', outs', rfl, -, -⟩, -⟩ := h.cond'.1 n' hn'
    rw [renamed_op] at hxm
    rw [unique_out h.made.outs hn0' hn0 hxm hx]

/-- What the graph of the body does not produce. -/
theorem Setting.bodyNone (h : Setting truth P ρ fresh G₀ S G c i) (hv : Vars P G₀ G c vs) {x : String} (hx : ∀ n ∈ cutOff G vs, x ∈ n.outs → n.isConst = true ∨ P.place x = .outside) :
    Verif.While.producer (bodyOf G vs i) x = none := by
  apply producer_none
  rintro ⟨m, hm, hxm⟩
  have key : ∀ n : Node V, n ∈ cutOff G vs → (∃ t f ins outs, n = .op t f ins outs ∧ ∀ o ∈ outs, P.place o ≠ .outside) → n.isConst = false → x ∈ n.outs → False := by
    rintro n h1 ⟨t, f, ins, outs, rfl, hp⟩ h2 h3
    rcases hx _ h1 h3 with h4 | h4
    · rw [h2] at h4
      cases h4
    · exact hp x h3 h4
  have nc : ∀ m' (n : Node V), (∃ t f ins outs, n = .op t f ins outs) → stops m' n = false → n.isConst = false := by
    rintro m' n ⟨t, f, ins, outs, rfl⟩ hs
    exact hs
  rcases List.mem_append.1 hm with hm | hm
  · obtain ⟨n, hn, rfl⟩ := List.mem_map.1 hm
    obtain ⟨h1, ⟨-, t, f, ins, outs, rfl, hp, -⟩, hs, -⟩ := (h.cell hv).1 n hn
    rw [renamed_op] at hxm
    exact key _ h1 ⟨t, f, ins, outs, rfl, fun o ho h' => by rw [hp o ho] at h'; cases h'⟩ (nc _ _ ⟨t, f, ins, outs, rfl⟩ hs) hxm
  · obtain ⟨n, hn, rfl⟩ := List.mem_map.1 hm
    obtain ⟨h1, ⟨-, t, f, ins, outs, rfl, hp, -⟩, hs, -⟩ := h.cond'.1 n hn
    rw [renamed_op] at hxm
    exact key _ h1 ⟨t, f, ins, outs, rfl, fun o ho h' => by rw [hp o ho] at h'; cases h'⟩ (nc _ _ ⟨t, f, ins, outs, rfl⟩ hs) hxm

/-! ## Values -/

/-- What the body sees in iteration `t`. -/
structure EnvAt (P : Plan) (ρ : String → Nat → Option V) (G₀ : List (Node V)) (c : String) (vs : List Var) (t : Nat) (env : String → Option V) : Prop where
  consts : GivesConsts G₀ env
  entered : ∀ j z, Node.enter true j z ∈ G₀ → P.place z = .entered c → ∀ w, ρ j 0 = some w → env j = some w
  state : ∀ v ∈ vs, ∀ y, v.stateIn = some y → ∀ w, ρ v.merge t = some w → env y = some w

theorem const_value (h : Setting truth P ρ fresh G₀ S G c i) {t : String} {f : List V → List V} {ins outs : List String} (hn : Node.op t f ins outs ∈ G₀) (ht : t = "Const") {x : String}
    (hx : x ∈ outs) {s : Nat} {w : V} (hw : ρ x s = some w) {env : String → Option V} (he : GivesConsts G₀ env) : env x = some w := by
  subst ht
  have hi := (h.made.nodes _ hn).2.2.2 rfl
  subst hi
  have hk := List.getElem?_eq_getElem (List.idxOf_lt_length_of_mem hx)
  rw [List.getElem_idxOf] at hk
  obtain ⟨us, hus, hv⟩ := h.run.fires _ hn s _ x w hk hw
  simp only [List.mapM_nil, Option.pure_def, Option.some.injEq] at hus
  subst hus
  rw [he f outs hn x hx, hv]

theorem eval_op {fuel : Nat} {env : String → Option V} {B : List (Node V)} {x t : String} {f : List V → List V} {ins outs : List String}
    (hp : producer B x = some (.op t f ins outs)) : eval truth (fuel + 1) env B x = (ins.mapM (eval truth fuel env B)).bind (fun us => (f us)[outs.idxOf x]?) := by
  rw [eval, hp]

theorem eval_none {fuel : Nat} {env : String → Option V} {B : List (Node V)} {x : String} (hp : producer B x = none) : eval truth (fuel + 1) env B x = env x := by
  rw [eval, hp]

/-- The outputs of `Enter` nodes. -/
theorem Setting.enteredIn (h : Setting truth P ρ fresh G₀ S G c i) {z : String} (hp : P.place z = .entered c) (hprod : Produced G₀ z) :
    ∃ j, Node.enter true j z ∈ G₀ ∧ Verif.While.producer G z = some (.enter true j z) ∧ P.place j = .outside := by
  obtain ⟨n, h0, -, hzn, hpr⟩ := h.source hprod (by rw [hp]; rfl)
  obtain ⟨j, rfl, hj⟩ := entered_producer (h.made.nodes _ h0) hzn hp
  exact ⟨j, h0, hpr, hj⟩

theorem Setting.enteredEval (h : Setting truth P ρ fresh G₀ S G c i) (hv : Vars P G₀ G c vs) {t s fuel : Nat} {env : String → Option V} (he : EnvAt P ρ G₀ c vs t env) {z : String}
    (hp : P.place z = .entered c) (hprod : Produced G₀ z) {w : V} (hw : ρ z s = some w) :
    ∃ j, Verif.While.producer G z = some (.enter true j z) ∧ eval truth (fuel + 1) env (bodyOf G vs i) j = some w := by
  obtain ⟨j, h0, hpr, hj⟩ := h.enteredIn hp hprod
  refine ⟨j, hpr, ?_⟩
  rw [eval_none (h.bodyNone hv (fun _ _ _ => Or.inr hj))]
  exact he.entered j z h0 hp w (h.run.fires _ h0 s w hw).1

/-- **The values of the body.** -/
theorem Setting.cellEval (h : Setting truth P ρ fresh G₀ S G c i) (hv : Vars P G₀ G c vs) {t : Nat} {env : String → Option V} (he : EnvAt P ρ G₀ c vs t env) (r : Nat) :
    ∀ x w fuel, P.rank x < r → r ≤ fuel → P.place x = .body c → Produced G₀ x → (∃ n' ∈ cutOff G vs, x ∈ n'.ins) →
      (∀ m, Verif.While.producer (cutOff G vs) x = some m → stops false m = false → m ∈ cellOf G vs) → ρ x t = some w → eval truth fuel env (bodyOf G vs i) x = some w := by
  induction r with
  | zero => intro x w fuel hr; omega
  | succ r ih =>
    intro x w fuel hr hf hp hprod huse hreach hw
    obtain ⟨fuel, rfl⟩ : ∃ k, fuel = k + 1 := ⟨fuel - 1, by omega⟩
    obtain ⟨n', hn', hxn'⟩ := huse
    rcases h.bodyCases hv hp hn' hxn' hprod with ⟨hst, hnone⟩ | ⟨ty, f, ins, outs, h0, hxo, hcut, hpr, ho, hi⟩
    · rw [eval_none (h.bodyNone hv (fun n hn hx => ?_))]
      · obtain ⟨v, hvm, hs⟩ := List.mem_filterMap.1 hst
        obtain ⟨o0, o1, e, nx, hok⟩ := hv.ok v hvm
        exact he.state v hvm x hs w ((h.stateIn hok.switch (by rw [← hok.stateIn, hs])).2.1 t w hw)
      · exact absurd hx ((mem_cutOff.1 hn).2 x hst)
    · by_cases hc : ty = "Const"
      · rw [eval_none (h.bodyNone hv (fun n hn hx => ?_))]
        · exact const_value h h0 hc hxo hw he.consts
        · left
          have := unique_out h.cutNodup hn hcut hx hxo
          subst this
          simp [Node.isConst, hc]
      · have hcell : Node.op ty f ins outs ∈ cellOf G vs := hreach _ hpr (by simp [stops, Node.isConst, hc])
        have hpB := h.bodyCell hv hcell hxo
        rw [renamed_op] at hpB
        rw [eval_op hpB]
        have hk := List.getElem?_eq_getElem (List.idxOf_lt_length_of_mem hxo)
        rw [List.getElem_idxOf] at hk
        obtain ⟨us, hus, hfv⟩ := h.run.fires _ h0 t _ x w hk hw
        obtain ⟨-, hrank, -⟩ := h.made.nodes _ h0
        have hm : (ins.map (enterIn G)).mapM (eval truth fuel env (bodyOf G vs i)) = some us := by
          refine mapM_other hus (fun z hz u hu => ?_)
          have hzp := h.made.closed _ h0 z hz
          have hzr := hrank z hz x hxo
          rcases hi z hz with hzb | hze
          · have : enterIn G z = z := by
              obtain ⟨n, hn0, -, hzn, hprz⟩ := h.source hzp (by rw [hzb]; rfl)
              unfold enterIn
              rw [hprz]
              rcases body_producer (h.made.nodes _ hn0) hzn hzb with ⟨_, _, _, _, rfl, -⟩ | ⟨_, _, rfl⟩ <;> rfl
            rw [this]
            exact ih z u fuel (by omega) (by omega) hzb hzp ⟨_, hcut, hz⟩ (fun m hm hs => (h.cell hv).2.2 _ hcell z hz m hm hs) hu
          · obtain ⟨k, rfl⟩ : ∃ k, fuel = k + 1 := ⟨fuel - 1, by omega⟩
            obtain ⟨j, hprj, hev⟩ := h.enteredEval hv (fuel := k) he hze hzp hu
            have : enterIn G z = j := by unfold enterIn; rw [hprj]
            rw [this]
            exact hev
        rw [hm]
        exact hfv

/-- What the body returns. -/
theorem Setting.nextEval (h : Setting truth P ρ fresh G₀ S G c i) (hv : Vars P G₀ G c vs) {t : Nat} {env : String → Option V} (he : EnvAt P ρ G₀ c vs t env) {v : Var} (hvm : v ∈ vs)
    {fuel : Nat} (hf : P.rank v.next + 1 ≤ fuel) {w : V} (hw : ρ v.merge (t + 1) = some w) : ρ v.next t = some w ∧ eval truth fuel env (bodyOf G vs i) v.next = some w := by
  obtain ⟨o0, o1, e, nx, hok⟩ := hv.ok v hvm
  have hn : ρ nx (t + 1) = some w := by
    have notE : ρ e (t + 1) ≠ some w := fun h' => by
      have := (h.run.fires _ hok.enter (t + 1) w h').2 rfl
      omega
    rcases hok.merge with hm | hm
    · exact (h.run.fires _ hm (t + 1) w hw).resolve_left notE
    · exact (h.run.fires _ hm (t + 1) w hw).resolve_right notE
  obtain ⟨t', ht, hw'⟩ := h.run.fires _ hok.next (t + 1) w hn
  have : t' = t := by omega
  subst this
  obtain ⟨h1, h2, h3⟩ := h.nextUses hv hvm
  exact ⟨hw', h.cellEval hv he (P.rank v.next + 1) _ w fuel (by omega) hf h1 h2 h3 (fun m hm hs => (h.cell hv).2.1 _ (List.mem_map.2 ⟨v, hvm, rfl⟩) m hm hs) hw'⟩

/-- **The condition of the next iteration.** `R` bounds the ranks of what the body returns. -/
theorem Setting.condEval (h : Setting truth P ρ fresh G₀ S G c i) (hv : Vars P G₀ G c vs) {t : Nat} {env : String → Option V} (he : EnvAt P ρ G₀ c vs t env) (R : Nat)
    (hR : ∀ v ∈ vs, P.rank v.next < R) (hm : ∀ m ∈ mergesMet G (condOf G vs i) i, m ∈ vs.map Var.merge) (r : Nat) :
    ∀ x w fuel, P.rank x < r → r + R ≤ fuel → P.place x = .head c ∨ P.place x = .entered c → Produced G₀ x → (x = i ∨ ∃ n ∈ condOf G vs i, x ∈ n.ins) →
      (∀ m, Verif.While.producer (cutOff G vs) x = some m → stops true m = false → m ∈ condOf G vs i) → ρ x (t + 1) = some w →
      eval truth fuel env (bodyOf G vs i) (condIn G vs x) = some w := by
  induction r with
  | zero => intro x w fuel hr; omega
  | succ r ih =>
    intro x w fuel hr hf hp hprod huse hreach hw
    obtain ⟨fuel, rfl⟩ : ∃ k, fuel = k + 1 := ⟨fuel - 1, by omega⟩
    rcases hp with hp | hp
    · obtain ⟨n, h0, hnG, hxn, hpr⟩ := h.source hprod (by rw [hp]; rfl)
      rcases head_producer (h.made.nodes _ h0) hxn hp with ⟨ty, f, ins, outs, rfl, ho, hi⟩ | ⟨a, b, rfl⟩
      · have hsame : condIn G vs x = x := by
          unfold condIn
          rw [hpr]
        rw [hsame]
        have hcut : Node.op ty f ins outs ∈ cutOff G vs := h.notCut hv hnG (fun o hoo h' => by rw [ho o hoo] at h'; cases h')
        by_cases hc : ty = "Const"
        · rw [eval_none (h.bodyNone hv (fun n hn hx => ?_))]
          · exact const_value h h0 hc hxn hw he.consts
          · left
            have := unique_out h.cutNodup hn hcut hx hxn
            subst this
            simp [Node.isConst, hc]
        · have hcond : Node.op ty f ins outs ∈ condOf G vs i := hreach _ (producer_eq h.cutNodup hcut hxn) (by simp [stops, Node.isConst, hc])
          have hpB := h.bodyCond hv hcond hxn
          rw [renamed_op] at hpB
          rw [eval_op hpB]
          have hk := List.getElem?_eq_getElem (List.idxOf_lt_length_of_mem hxn)
          rw [List.getElem_idxOf] at hk
          obtain ⟨us, hus, hfv⟩ := h.run.fires _ h0 (t + 1) _ x w hk hw
          obtain ⟨-, hrank, -⟩ := h.made.nodes _ h0
          have hmm : (ins.map (condIn G vs)).mapM (eval truth fuel env (bodyOf G vs i)) = some us := by
            refine mapM_other hus (fun z hz u hu => ?_)
            have hzr := hrank z hz x hxn
            exact ih z u fuel (by omega) (by omega) (hi z hz) (h.made.closed _ h0 z hz) (Or.inr ⟨_, hcond, hz⟩) (fun m hm hs => h.cond'.2.2 _ hcond z hz m hm hs) hu
          rw [hmm]
          exact hfv
      · have hmet : x ∈ vs.map Var.merge := by
          refine hm x ?_
          unfold mergesMet
          rw [List.mem_filter]
          constructor
          · rcases huse with rfl | ⟨n, hn, hxn'⟩
            · simp
            · exact List.mem_cons.2 (Or.inr (List.mem_flatMap.2 ⟨n, hn, hxn'⟩))
          · unfold isMerge
            rw [hpr]
        obtain ⟨v, hvm, rfl⟩ := List.mem_map.1 hmet
        have hfind : vs.find? (fun u => decide (u.merge = v.merge)) = some v := by
          cases hfd : vs.find? (fun u => decide (u.merge = v.merge)) with
          | none =>
            rw [List.find?_eq_none] at hfd
            exact absurd (decide_eq_true rfl) (hfd v hvm)
          | some u =>
            have h1 := List.mem_of_find?_eq_some hfd
            have h2 : u.merge = v.merge := by simpa using List.find?_some hfd
            rw [(List.inj_on_of_nodup_map hv.nodup) h1 hvm h2]
        have hci : condIn G vs v.merge = v.next := by
          unfold condIn
          rw [hpr]
          dsimp only
          rw [hfind]
        rw [hci]
        have hlt := hR v hvm
        exact (h.nextEval hv he hvm (by omega) hw).2
    · obtain ⟨j, hprj, hev⟩ := h.enteredEval hv (fuel := fuel) he hp hprod hw
      have : condIn G vs x = j := by unfold condIn; rw [hprj]
      rw [this]
      exact hev

end Verif.While
