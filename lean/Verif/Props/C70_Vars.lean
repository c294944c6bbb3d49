import Verif.Props.C70_Step
/-!
# C70: the variables of a loop
-/
namespace Verif.While
variable {V : Type} {truth : V → Bool} {P : Plan} {ρ : String → Nat → Option V} {G₀ G : List (Node V)} {S : List String} {c i : String}
  {fresh : String → String → String → String}

/-- A variable as it was found. -/
structure VarOk (P : Plan) (G₀ G : List (Node V)) (c : String) (v : Var) (o0 o1 e nx : String) : Prop where
  switch : Node.switch v.merge c o0 o1 ∈ G₀
  merge : Node.merge e nx v.merge ∈ G₀ ∨ Node.merge nx e v.merge ∈ G₀
  enter : Node.enter false v.enterIn e ∈ G₀
  next : Node.next v.next nx ∈ G₀
  placeE : P.place e = .edge c
  placeN : P.place nx = .edge c
  stateIn : v.stateIn = stateInOf G o1
  exit : exitOf G o0 = .ok v.exit

/-- All variables. -/
structure Vars (P : Plan) (G₀ G : List (Node V)) (c : String) (vs : List Var) : Prop where
  ok : ∀ v ∈ vs, ∃ o0 o1 e nx, VarOk P G₀ G c v o0 o1 e nx
  all : ∀ d o0 o1, Node.switch d c o0 o1 ∈ G₀ → ∃ v ∈ vs, v.merge = d ∧ v.stateIn = stateInOf G o1 ∧ exitOf G o0 = .ok v.exit
  nodup : (vs.map Var.merge).Nodup

theorem Setting.varOk (h : Setting truth P ρ fresh G₀ S G c i) {d o0 o1 : String} (hs : Node.switch d c o0 o1 ∈ G₀) {v : Var}
    (hv : varOf G (.switch d c o0 o1) = .ok v) : v.merge = d ∧ ∃ e nx, VarOk P G₀ G c v o0 o1 e nx := by
  obtain ⟨-, hd, -, -, -, ⟨a, b, hm⟩, -⟩ := h.made.nodes _ hs
  obtain ⟨c', j, e, k, nx, h1, h2, h3, h4, h5, -, hab⟩ := h.made.nodes _ hm
  rw [hd] at h1
  cases h1
  have pm : Verif.While.producer G d = some (.merge a b d) := h.producer hm (by simp [Node.outs]) (by rw [hd]; rfl)
  have pe : Verif.While.producer G e = some (.enter false j e) := h.producer h4 (by simp [Node.outs]) (by rw [h2]; rfl)
  have pn : Verif.While.producer G nx = some (.next k nx) := h.producer h5 (by simp [Node.outs]) (by rw [h3]; rfl)
  have he : enterOf G a b = some j ∧ nextOf G a b = some k := by
    unfold enterOf nextOf
    rcases hab with ⟨rfl, rfl⟩ | ⟨rfl, rfl⟩
    · rw [pe, pn]
      exact ⟨rfl, rfl⟩
    · rw [pe, pn]
      exact ⟨rfl, rfl⟩
  unfold varOf at hv
  dsimp only at hv
  rw [pm] at hv
  dsimp only at hv
  rw [he.1, he.2] at hv
  dsimp only at hv
  cases hex : exitOf G o0 with
  | error er => rw [hex] at hv; cases hv
  | ok x =>
    rw [hex] at hv
    cases hv
    refine ⟨rfl, e, nx, hs, ?_, h4, h5, h2, h3, rfl, hex⟩
    rcases hab with ⟨rfl, rfl⟩ | ⟨rfl, rfl⟩
    · exact Or.inl hm
    · exact Or.inr hm

theorem Setting.switch_of (h : Setting truth P ρ fresh G₀ S G c i) {n : Node V} (hn : n ∈ consumers G c) {v : Var} (hv : varOf G n = .ok v) :
    ∃ d o0 o1, n = .switch d c o0 o1 ∧ n ∈ G₀ := by
  unfold consumers at hn
  rw [List.mem_filter, decide_eq_true_eq] at hn
  cases n with
  | switch d p o0 o1 =>
    have h0 := (h.inv.kinds _ hn.1).resolve_right (fun hN => hN)
    obtain ⟨-, hd, -⟩ := h.made.nodes _ h0
    have : c = d ∨ c = p := by simpa [Node.ins] using hn.2
    rcases this with rfl | rfl
    · have hc := (h.made.nodes _ h.cond).2.1
      rw [hc] at hd
      cases hd
    · exact ⟨d, o0, o1, rfl, h0⟩
  | _ => simp [varOf] at hv

theorem Setting.vars (h : Setting truth P ρ fresh G₀ S G c i) {vs : List Var} (hv : varsOf G c = .ok vs) : Vars P G₀ G c vs := by
  unfold varsOf at hv
  cases hm : (consumers G c).mapM (varOf G) with
  | error e => rw [hm] at hv; cases hv
  | ok ws =>
    rw [hm] at hv
    simp only [Except.bind] at hv
    split at hv
    swap
    · cases hv
    cases hv
    rename_i hnd
    have hf := mapM_ok hm
    refine ⟨fun v hv => ?_, fun d o0 o1 hs => ?_, hnd⟩
    · obtain ⟨n, hn, hnv⟩ : ∃ n ∈ consumers G c, varOf G n = .ok v := by
        clear hm hnd
        generalize consumers G c = l at hf
        induction hf with
        | nil => cases hv
        | cons hab _ ih =>
          rcases List.mem_cons.1 hv with rfl | hv
          · exact ⟨_, by simp, hab⟩
          · obtain ⟨n, hn, hnv⟩ := ih hv
            exact ⟨n, by simp [hn], hnv⟩
      obtain ⟨d, o0, o1, rfl, h0⟩ := h.switch_of hn hnv
      obtain ⟨-, e, nx, hok⟩ := h.varOk h0 hnv
      exact ⟨o0, o1, e, nx, hok⟩
    · have hmem : Node.switch d c o0 o1 ∈ consumers G c := by
        unfold consumers
        rw [List.mem_filter]
        refine ⟨h.live hs (x := o1) (by simp [Node.outs]) ?_, by simp [Node.ins]⟩
        obtain ⟨-, -, -, -, h1, -⟩ := h.made.nodes _ hs
        rw [h1]
        rfl
      obtain ⟨v, hv, hnv⟩ : ∃ v ∈ vs, varOf G (.switch d c o0 o1) = .ok v := by
        clear hm hnd
        generalize consumers G c = l at hf hmem
        induction hf with
        | nil => cases hmem
        | cons hab _ ih =>
          rcases List.mem_cons.1 hmem with rfl | hmem
          · exact ⟨_, by simp, hab⟩
          · obtain ⟨n, hn, hnv⟩ := ih hmem
            exact ⟨n, by simp [hn], hnv⟩
      obtain ⟨hd, e, nx, hok⟩ := h.varOk hs hnv
      exact ⟨v, hv, hd, hok.stateIn, hok.exit⟩

/-- What a variable enters the body with. -/
theorem Setting.stateIn (h : Setting truth P ρ fresh G₀ S G c i) {d o0 o1 y : String} (hs : Node.switch d c o0 o1 ∈ G₀) (hy : stateInOf G o1 = some y) :
    P.place y = .body c ∧ (∀ t w, ρ y t = some w → ρ d t = some w) ∧ (y = o1 ∨ ∃ f, Node.op "Identity" f [o1] [y] ∈ G₀) := by
  obtain ⟨-, -, -, -, h1, -⟩ := h.made.nodes _ hs
  have fs := (h.run.fires _ hs).2
  have self : P.place o1 = .body c ∧ (∀ t w, ρ o1 t = some w → ρ d t = some w) ∧ (o1 = o1 ∨ ∃ f, Node.op "Identity" f [o1] [o1] ∈ G₀) :=
    ⟨h1, fun t w hw => (fs t w hw).1, Or.inl rfl⟩
  unfold stateInOf at hy
  split at hy
  · cases hy
  · rename_i n hn
    split at hy
    · rename_i y' hid
      cases hy
      have hmem : n ∈ consumers G o1 := by rw [hn]; simp
      unfold consumers at hmem
      rw [List.mem_filter, decide_eq_true_eq] at hmem
      cases n with
      | op t f ins outs =>
        simp only [identityOut] at hid
        split at hid
        swap
        · cases hid
        rename_i ht
        subst ht
        have h0 : Node.op "Identity" f ins outs ∈ G₀ := by
          refine (h.inv.kinds _ hmem.1).resolve_right (fun hN => ?_)
          rcases hN.1 o1 hmem.2 with ⟨f', outs', hc, ho⟩ | ⟨hp, -⟩
          · have := unique_out h.made.outs hc hs ho (by simp [Node.outs])
            cases this
          · rw [h1] at hp
            cases hp
        obtain ⟨⟨κ, -, hκ, hκ'⟩, -, hI, -⟩ := h.made.nodes _ h0
        obtain ⟨x, z, rfl, rfl, hf⟩ := hI rfl
        have e1 : o1 = x := by simpa [Node.ins] using hmem.2
        subst e1
        simp only [List.head?_cons, Option.some.injEq] at hid
        subst hid
        refine ⟨?_, ?_, Or.inr ⟨f, h0⟩⟩
        · have := hκ' o1 (by simp)
          rw [h1] at this
          rcases this with h' | ⟨_, h', -⟩
          · rw [hκ z (by simp), h']
          · cases h'
        · intro t w hw
          obtain ⟨vs, hvs, hfv⟩ := h.run.fires _ h0 t 0 z w rfl hw
          cases ho : ρ o1 t with
          | none => simp [List.mapM_cons, ho] at hvs
          | some u =>
            have : vs = [u] := by simpa [List.mapM_cons, ho] using hvs.symm
            subst this
            rw [hf u] at hfv
            simp only [List.getElem?_cons_zero, Option.some.injEq] at hfv
            rw [← hfv]
            exact (fs t u ho).1
      | _ => simp [identityOut] at hid
    · cases hy
      exact self
  · cases hy
    exact self

/-- Another consumer of the output of the `Switch` makes that the input. -/
theorem stateIn_other {o1 : String} {n : Node V} (hn : n ∈ G) (hi : o1 ∈ n.ins) (hno : ∀ y, stateInOf G o1 = some y → y ∉ n.outs) : stateInOf G o1 = some o1 := by
  have hmem : n ∈ consumers G o1 := by
    unfold consumers
    exact List.mem_filter.2 ⟨hn, by simpa using hi⟩
  unfold stateInOf at hno ⊢
  split
  · rename_i he
    rw [he] at hmem
    cases hmem
  · rename_i m he
    rw [he] at hmem hno
    have : n = m := by simpa using hmem
    subst this
    split
    · rename_i y hid
      dsimp only at hno
      rw [hid] at hno
      exfalso
      apply hno y rfl
      cases n with
      | op t f ins outs =>
        simp only [identityOut] at hid
        split at hid
        · exact List.mem_of_head? hid
        · cases hid
      | _ => simp [identityOut] at hid
    · rfl
  · rfl

theorem Vars.stateIns {vs : List Var} (hv : Vars P G₀ G c vs) {y : String} (hy : y ∈ vs.filterMap Var.stateIn) : ∃ d o0 o1, Node.switch d c o0 o1 ∈ G₀ ∧ stateInOf G o1 = some y := by
  obtain ⟨v, hvm, hs⟩ := List.mem_filterMap.1 hy
  obtain ⟨o0, o1, e, nx, hok⟩ := hv.ok v hvm
  exact ⟨_, o0, o1, hok.switch, by rw [← hok.stateIn, hs]⟩

/-- The node is not cut off. -/
theorem mem_cutOff {vs : List Var} {n : Node V} : n ∈ cutOff G vs ↔ n ∈ G ∧ ∀ y ∈ vs.filterMap Var.stateIn, y ∉ n.outs := by
  unfold cutOff
  rw [List.mem_filter, decide_eq_true_eq]

/-- **A tensor of the body that is used**: a variable, or the output of an operator. -/
theorem Setting.bodyCases (h : Setting truth P ρ fresh G₀ S G c i) {vs : List Var} (hv : Vars P G₀ G c vs) {x : String} (hp : P.place x = .body c) {n' : Node V}
    (hn' : n' ∈ cutOff G vs) (hx : x ∈ n'.ins) (hprod : Produced G₀ x) :
    (x ∈ vs.filterMap Var.stateIn ∧ Verif.While.producer (cutOff G vs) x = none) ∨ (∃ t f ins outs, Node.op t f ins outs ∈ G₀ ∧ x ∈ outs ∧ Node.op t f ins outs ∈ cutOff G vs ∧
      Verif.While.producer (cutOff G vs) x = some (.op t f ins outs) ∧ (∀ o ∈ outs, P.place o = .body c) ∧ ∀ z ∈ ins, P.place z = .body c ∨ P.place z = .entered c) := by
  have hu := h.inv.nodup
  obtain ⟨m, hm0, hmG, hxm, -⟩ := h.source hprod (by rw [hp]; rfl)
  have cut : x ∈ vs.filterMap Var.stateIn → Verif.While.producer (cutOff G vs) x = none := by
    intro hxs
    apply producer_none
    rintro ⟨k, hk, hxk⟩
    exact (mem_cutOff.1 hk).2 x hxs hxk
  rcases body_producer (h.made.nodes m hm0) hxm hp with ⟨t, f, ins, outs, rfl, ho, hi⟩ | ⟨d, o0, rfl⟩
  · by_cases hc : Node.op t f ins outs ∈ cutOff G vs
    · right
      exact ⟨t, f, ins, outs, hm0, hxm, hc, producer_eq (filter_nodup hu _) hc hxm, ho, hi⟩
    · left
      have hcs : ∃ y ∈ vs.filterMap Var.stateIn, y ∈ outs := by
        apply Classical.byContradiction
        intro hno
        exact hc (mem_cutOff.2 ⟨hmG, fun y hy hy' => hno ⟨y, hy, hy'⟩⟩)
      obtain ⟨y, hy, hyo⟩ := hcs
      obtain ⟨d, o0, o1, hs, hst⟩ := hv.stateIns hy
      rcases (h.stateIn hs hst).2.2 with rfl | ⟨f', hI⟩
      · have := unique_out h.made.outs hm0 hs hyo (by simp [Node.outs])
        cases this
      · have := unique_out h.made.outs hm0 hI hyo (by simp [Node.outs])
        cases this
        have : x = y := by simpa [Node.outs] using hxm
        subst this
        exact ⟨hy, cut hy⟩
  · left
    obtain ⟨v, hvm, -, hst, -⟩ := hv.all d o0 x hm0
    have hn := mem_cutOff.1 hn'
    have hst' : stateInOf G x = some x := by
      refine stateIn_other hn.1 hx (fun y hy => ?_)
      refine hn.2 y (List.mem_filterMap.2 ⟨v, hvm, ?_⟩)
      rw [hst, hy]
    have hxs : x ∈ vs.filterMap Var.stateIn := List.mem_filterMap.2 ⟨v, hvm, by rw [hst, hst']⟩
    exact ⟨hxs, cut hxs⟩

end Verif.While
