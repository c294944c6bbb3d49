import Verif.Props.C70_Loop
/-!
# C70: the new nodes
-/
namespace Verif.While
variable {V : Type} {truth : V → Bool} {P : Plan} {ρ : String → Nat → Option V} {G₀ G : List (Node V)} {S : List String} {c i : String}
  {fresh : String → String → String → String} {vs : List Var}

/-- The first value of a variable. -/
theorem Setting.firstValue (h : Setting truth P ρ fresh G₀ S G c i) {v : Var} {o0 o1 e nx : String} (hok : VarOk P G₀ G c v o0 o1 e nx) {w : V} (hw : ρ v.merge 0 = some w) :
    ρ v.enterIn 0 = some w := by
  have hne : ρ nx 0 ≠ some w := fun h' => by
    obtain ⟨t', ht, -⟩ := h.run.fires _ hok.next 0 w h'
    omega
  have he : ρ e 0 = some w := by
    rcases hok.merge with hm | hm
    · exact (h.run.fires _ hm 0 w hw).resolve_right hne
    · exact (h.run.fires _ hm 0 w hw).resolve_left hne
  exact (h.run.fires _ hok.enter 0 w he).1

theorem VarOk.enterRank (hm' : TfMade P G₀) {v : Var} {o0 o1 e nx : String} (hok : VarOk P G₀ G c v o0 o1 e nx) :
    P.place v.enterIn = .outside ∧ Produced G₀ v.enterIn ∧ P.rank v.enterIn < P.rank v.merge := by
  obtain ⟨h1, h2, -⟩ := hm'.nodes _ hok.enter
  refine ⟨h1, hm'.closed _ hok.enter _ (by simp [Node.ins]), Nat.lt_trans h2 ?_⟩
  have key : ∀ a b, Node.merge a b v.merge ∈ G₀ → a = e ∨ b = e → (a = nx ∨ b = nx) → P.rank e < P.rank v.merge := by
    intro a b hm ha hb
    obtain ⟨c', j, e', k, n', -, -, -, he', hn', hr, hab⟩ := hm'.nodes _ hm
    have : e' = e := by
      rcases hab with ⟨rfl, rfl⟩ | ⟨rfl, rfl⟩
      · rcases ha with h' | h'
        · exact h'
        · subst h'
          have := unique_out hm'.outs hn' hok.enter (x := b) (by simp [Node.outs]) (by simp [Node.outs])
          cases this
      · rcases ha with h' | h'
        · subst h'
          have := unique_out hm'.outs hn' hok.enter (x := a) (by simp [Node.outs]) (by simp [Node.outs])
          cases this
        · exact h'
    rw [← this]
    exact hr
  rcases hok.merge with hm | hm
  · exact key _ _ hm (Or.inl rfl) (Or.inr rfl)
  · exact key _ _ hm (Or.inr rfl) (Or.inl rfl)

/-! ## The copied condition -/

/-- The variables the condition depends on. -/
def depsOf (G : List (Node V)) (vs : List Var) (i : String) : List Var := vs.filter (fun v => decide (v.merge ∈ mergesMet G (condOf G vs i) i))

/-- **The inputs of the copied condition.** -/
theorem Setting.firstInSpec (h : Setting truth P ρ fresh G₀ S G c i) (hv : Vars P G₀ G c vs) (hm : ∀ m ∈ mergesMet G (condOf G vs i) i, m ∈ vs.map Var.merge) {z : String}
    (hp : P.place z = .head c ∨ P.place z = .entered c) (hprod : Produced G₀ z) (huse : ∃ n ∈ condOf G vs i, z ∈ n.ins) {y : String}
    (hy : firstIn G vs (depsOf G vs i) (condOf G vs i) (fresh "copy" c) z = y) :
    (IsConst G₀ y ∧ ∀ env, GivesConsts G₀ env → ∀ u, ρ z 0 = some u → env y = some u) ∨
      (P.place y = .outside ∧ (Produced G₀ y ∨ ∃ n ∈ condOf G vs i, ∃ x ∈ n.outs, y = fresh "copy" c x) ∧ P.rank y ≤ P.rank z ∧ ∀ u, ρ z 0 = some u → ρ y 0 = some u) := by
  have notCond : ∀ x, P.place x ≠ .head c → (Verif.While.producer (condOf G vs i) x).isSome = false := by
    intro x hx
    rw [producer_none]
    · rfl
    · rintro ⟨n, hn, hxn⟩
      obtain ⟨-, ⟨-, t, f, ins, outs, rfl, ho, -⟩, -⟩ := (h.cond' (vs := vs)).1 n hn
      exact hx (ho x hxn)
  have notNext : ∀ x, P.place x ≠ .body c → (depsOf G vs i).find? (fun v => decide (v.next = x)) = none := by
    intro x hx
    rw [List.find?_eq_none]
    intro v hvm
    have hvm' := (List.mem_filter.1 hvm).1
    simp only [decide_eq_true_eq]
    rintro rfl
    exact hx (h.nextUses hv hvm').1
  rcases hp with hp | hp
  · obtain ⟨n, h0, hnG, hzn, hpr⟩ := h.source hprod (by rw [hp]; rfl)
    rcases head_producer (h.made.nodes _ h0) hzn hp with ⟨ty, f, ins, outs, rfl, ho, hi⟩ | ⟨a, b, rfl⟩
    · have hsame : condIn G vs z = z := by
        unfold condIn
        rw [hpr]
      have hcut : Node.op ty f ins outs ∈ cutOff G vs := h.notCut hv hnG (fun o hoo h' => by rw [ho o hoo] at h'; cases h')
      by_cases hc : ty = "Const"
      · left
        have hnone : (Verif.While.producer (condOf G vs i) z).isSome = false := by
          rw [producer_none]
          · rfl
          · rintro ⟨n, hn, hzn'⟩
            obtain ⟨hnc, -, hs, -⟩ := (h.cond' (vs := vs)).1 n hn
            have := unique_out h.cutNodup hnc hcut hzn' hzn
            subst this
            simp [stops, Node.isConst, hc] at hs
        have : y = z := by
          unfold firstIn at hy
          rw [hsame, hnone, notNext z (by rw [hp]; intro h'; cases h')] at hy
          simpa using hy.symm
        subst this
        refine ⟨?_, fun env he u hu => const_value h h0 hc hzn hu he⟩
        subst hc
        have hi' := (h.made.nodes _ h0).2.2.2 rfl
        subst hi'
        exact ⟨f, outs, h0, hzn⟩
      · right
        obtain ⟨n, hn, hzin⟩ := huse
        have hcond : Node.op ty f ins outs ∈ condOf G vs i := h.cond'.2.2 n hn z hzin _ (producer_eq h.cutNodup hcut hzn) (by simp [stops, Node.isConst, hc])
        have hsome : (Verif.While.producer (condOf G vs i) z).isSome = true := by
          obtain ⟨m, hm⟩ := producer_some ⟨_, hcond, hzn⟩
          rw [hm]
          rfl
        have : y = fresh "copy" c z := by
          unfold firstIn at hy
          rw [hsame, hsome] at hy
          simpa using hy.symm
        subst this
        exact ⟨h.ext.place _ _ _, Or.inr ⟨_, hcond, z, hzn, rfl⟩, Nat.le_of_eq (h.ext.rank _ _ hprod), fun u hu => by rw [h.ext.copy _ _ hprod, hu]⟩
    · right
      have hmet : z ∈ mergesMet G (condOf G vs i) i := by
        unfold mergesMet
        rw [List.mem_filter]
        constructor
        · obtain ⟨n, hn, hxn'⟩ := huse
          exact List.mem_cons.2 (Or.inr (List.mem_flatMap.2 ⟨n, hn, hxn'⟩))
        · unfold isMerge
          rw [hpr]
      obtain ⟨v, hvm, rfl⟩ := List.mem_map.1 (hm z hmet)
      obtain ⟨o0, o1, e, nx, hok⟩ := hv.ok v hvm
      have hfind : vs.find? (fun u => decide (u.merge = v.merge)) = some v := by
        cases hfd : vs.find? (fun u => decide (u.merge = v.merge)) with
        | none =>
          rw [List.find?_eq_none] at hfd
          exact absurd (decide_eq_true rfl) (hfd v hvm)
        | some u =>
          have h1 := List.mem_of_find?_eq_some hfd
          have h2 : u.merge = v.merge := by simpa using List.find?_some hfd
          rw [hv.inj h1 hvm h2]
      have hci : condIn G vs v.merge = v.next := by
        unfold condIn
        rw [hpr]
        dsimp only
        rw [hfind]
      have hdep : (depsOf G vs i).find? (fun u => decide (u.next = v.next)) = some v := by
        cases hfd : (depsOf G vs i).find? (fun u => decide (u.next = v.next)) with
        | none =>
          rw [List.find?_eq_none] at hfd
          exact absurd (decide_eq_true rfl) (hfd v (List.mem_filter.2 ⟨hvm, decide_eq_true hmet⟩))
        | some u =>
          have h1 := (List.mem_filter.1 (List.mem_of_find?_eq_some hfd)).1
          have h2 : u.next = v.next := by simpa using List.find?_some hfd
          obtain ⟨o0', o1', e', nx', hok'⟩ := hv.ok u h1
          have hn' := hok'.next
          rw [h2] at hn'
          have hmm : u.merge = v.merge := by
            rcases hok'.merge with m1 | m1 <;> rcases hok.merge with m2 | m2
            · exact h.plain.once _ _ _ _ _ _ _ _ _ hn' hok.next m1 m2 (Or.inr rfl) (Or.inr rfl)
            · exact h.plain.once _ _ _ _ _ _ _ _ _ hn' hok.next m1 m2 (Or.inr rfl) (Or.inl rfl)
            · exact h.plain.once _ _ _ _ _ _ _ _ _ hn' hok.next m1 m2 (Or.inl rfl) (Or.inr rfl)
            · exact h.plain.once _ _ _ _ _ _ _ _ _ hn' hok.next m1 m2 (Or.inl rfl) (Or.inl rfl)
          rw [hv.inj h1 hvm hmm]
      have : y = v.enterIn := by
        unfold firstIn at hy
        rw [hci, notCond v.next (by rw [(h.nextUses hv hvm).1]; intro h'; cases h'), hdep] at hy
        simpa using hy.symm
      subst this
      obtain ⟨h1, h2, h3⟩ := hok.enterRank h.made
      exact ⟨h1, Or.inl h2, by omega, fun u hu => h.firstValue hok hu⟩
  · right
    obtain ⟨j, h0, hpr, hj⟩ := h.enteredIn hp hprod
    have hci : condIn G vs z = j := by
      unfold condIn
      rw [hpr]
    have : y = j := by
      unfold firstIn at hy
      rw [hci, notCond j (by rw [hj]; intro h'; cases h'), notNext j (by rw [hj]; intro h'; cases h')] at hy
      simpa using hy.symm
    subst this
    exact ⟨hj, Or.inl (h.made.closed _ h0 y (by simp [Node.ins])), Nat.le_of_lt (h.made.nodes _ h0).2.1, fun u hu => (h.run.fires _ h0 0 u hu).1⟩

/-- The copied condition. -/
def copyOf (fresh : String → String → String → String) (G : List (Node V)) (vs : List Var) (c i : String) (n : Node V) : Node V :=
  n.renamed (firstIn G vs (depsOf G vs i) (condOf G vs i) (fresh "copy" c)) (fresh "copy" c)

/-- **The copies of the operators of the condition.** -/
theorem Setting.copies (h : Setting truth P ρ fresh G₀ S G c i) (hv : Vars P G₀ G c vs) (hm : ∀ m ∈ mergesMet G (condOf G vs i) i, m ∈ vs.map Var.merge) {n : Node V}
    (hn : n ∈ condOf G vs i) {G' : List (Node V)} (hP : ∀ x, Produced G₀ x → P.place x = .outside → Produced G' x)
    (hC : ∀ n ∈ condOf G vs i, ∀ x ∈ n.outs, Produced G' (fresh "copy" c x)) : New truth P ρ fresh G₀ G' (copyOf fresh G vs c i n) := by
  obtain ⟨-, ⟨h0, t, f, ins, outs, rfl, ho, hi⟩, -⟩ := h.cond'.1 n hn
  have spec : ∀ z ∈ ins, _ := fun z hz => h.firstInSpec hv hm (hi z hz) (h.made.closed _ h0 z hz) ⟨_, hn, hz⟩ rfl
  obtain ⟨-, hrank, -⟩ := h.made.nodes _ h0
  show NewOp P ρ fresh G₀ G' f (ins.map _) (outs.map _)
  refine ⟨fun x hx => ?_, fun o ho' => ?_, ?_, fun k o v hk hov => ?_⟩
  · obtain ⟨z, hz, rfl⟩ := List.mem_map.1 hx
    rcases spec z hz with ⟨h1, -⟩ | ⟨h1, h2, h3, -⟩
    · exact Or.inl h1
    · refine Or.inr ⟨h1, ?_, fun o ho' => ?_⟩
      · rcases h2 with h2 | ⟨m, hmc, x, hx', he⟩
        · exact hP _ h2 h1
        · rw [he]
          exact hC m hmc x hx'
      · obtain ⟨o', ho'', rfl⟩ := List.mem_map.1 ho'
        rw [h.ext.rank _ _ ⟨_, h0, ho''⟩]
        have := hrank z hz o' ho''
        omega
  · obtain ⟨o', -, rfl⟩ := List.mem_map.1 ho'
    exact ⟨_, _, _, rfl⟩
  · refine (outs_nodup h.made.outs h0).map (fun a b hab => ?_)
    exact (h.names.inj _ _ _ _ _ _ hab).2.2
  · rw [List.getElem?_map, Option.map_eq_some_iff] at hk
    obtain ⟨o', hk', rfl⟩ := hk
    rw [h.ext.copy _ _ ⟨_, h0, List.mem_of_getElem? hk'⟩] at hov
    obtain ⟨us, hus, hfv⟩ := h.run.fires _ h0 0 k o' v hk' hov
    refine ⟨us, hfv, fun env he hout => mapM_other hus (fun z hz u hu => ?_)⟩
    rcases spec z hz with ⟨-, h2⟩ | ⟨h1, -, -, h4⟩
    · exact h2 env he u hu
    · exact hout _ (List.mem_map.2 ⟨z, hz, rfl⟩) h1 u (h4 u hu)

/-! ## The `Loop` node -/

/-- What follows the loop. -/
theorem Setting.exitNode (h : Setting truth P ρ fresh G₀ S G c i) {v : Var} {o0 o1 e nx x : String} (hok : VarOk P G₀ G c v o0 o1 e nx) (hx : v.exit = some x) : Node.exit o0 x ∈ G₀ := by
  have hex := hok.exit
  rw [hx] at hex
  unfold exitOf at hex
  split at hex
  · cases hex
  · rename_i j x' hc
    cases hex
    have hmem : Node.exit j x ∈ consumers G o0 := by rw [hc]; simp
    unfold consumers at hmem
    rw [List.mem_filter, decide_eq_true_eq] at hmem
    have : o0 = j := by simpa [Node.ins] using hmem.2
    subst this
    exact (h.inv.kinds _ hmem.1).resolve_right (fun hN => hN)
  · cases hex
  · cases hex

theorem Setting.out_inj (h : Setting truth P ρ fresh G₀ S G c i) (hv : Vars P G₀ G c vs) {u v : Var} (hu : u ∈ vs) (hvm : v ∈ vs) (he : outOf fresh c u = outOf fresh c v) : u = v := by
  apply hv.inj hu hvm
  obtain ⟨o0, o1, e, nx, hok⟩ := hv.ok u hu
  obtain ⟨o0', o1', e', nx', hok'⟩ := hv.ok v hvm
  unfold outOf at he
  cases h1 : u.exit with
  | some x =>
    have n1 := h.exitNode hok h1
    cases h2 : v.exit with
    | some x' =>
      have n2 := h.exitNode hok' h2
      rw [h1, h2] at he
      have : x = x' := by simpa using he
      subst this
      have := unique_out h.made.outs n1 n2 (x := x) (by simp [Node.outs]) (by simp [Node.outs])
      injection this with h'
      subst h'
      have := unique_out h.made.outs hok.switch hok'.switch (x := o0) (by simp [Node.outs]) (by simp [Node.outs])
      injection this
    | none =>
      rw [h1, h2] at he
      have : x = fresh "out" c v.merge := by simpa using he
      exact absurd ⟨_, n1, by simp [Node.outs, this]⟩ (h.names.notin "out" c v.merge)
  | none =>
    cases h2 : v.exit with
    | some x' =>
      have n2 := h.exitNode hok' h2
      rw [h1, h2] at he
      have : fresh "out" c u.merge = x' := by simpa using he
      exact absurd ⟨_, n2, by simp [Node.outs, this]⟩ (h.names.notin "out" c u.merge)
    | none =>
      rw [h1, h2] at he
      have : fresh "out" c u.merge = fresh "out" c v.merge := by simpa using he
      exact (h.names.inj _ _ _ _ _ _ this).2.2

/-- **The `Loop` node gives what follows the loop its values.** -/
theorem Setting.newLoop (h : Setting truth P ρ fresh G₀ S G c i) (hv : Vars P G₀ G c vs) (hm : ∀ m ∈ mergesMet G (condOf G vs i) i, m ∈ vs.map Var.merge) {G' : List (Node V)}
    (hP : ∀ x, Produced G₀ x → P.place x = .outside → Produced G' x) (hC : Produced G' (fresh "copy" c i)) :
    NewLoop truth P ρ G₀ G' (fresh "copy" c i) (vs.map Var.enterIn) (vs.map (outOf fresh c)) (bodyOf G vs i) (vs.map (inOf fresh c)) i (vs.map Var.next) := by
  constructor
  · intro o ho
    obtain ⟨v, hvm, rfl⟩ := List.mem_map.1 ho
    obtain ⟨o0, o1, e, nx, hok⟩ := hv.ok v hvm
    unfold outOf
    cases hx : v.exit with
    | none => exact h.ext.place _ _ _
    | some x =>
      obtain ⟨_, _, _, -, hp, -⟩ := h.made.nodes _ (h.exitNode hok hx)
      exact hp
  · intro o ho w hw
    obtain ⟨v, hvm, rfl⟩ := List.mem_map.1 ho
    obtain ⟨o0, o1, e, nx, hok⟩ := hv.ok v hvm
    cases hx : v.exit with
    | none =>
      unfold outOf at hw
      rw [hx] at hw
      have := h.ext.out c v.merge
      simp only [Option.getD_none] at hw
      rw [this] at hw
      cases hw
    | some x =>
      have hout : outOf fresh c v = x := by unfold outOf; rw [hx]; rfl
      have hexit := h.exitNode hok hx
      rw [hout] at hw
      obtain ⟨T, hTm, hT, hT', hall, hlate⟩ := h.run.ends i c h.cond
      have hcp : P.place c = .edge c := (h.made.nodes _ h.cond).2.1
      have hvT : ρ v.merge T = some w := by
        obtain ⟨t, ht⟩ := h.run.fires _ hexit w hw
        obtain ⟨hd, q, hq, hqf⟩ := (h.run.fires _ hok.switch).1 t w ht
        have : t = T := by
          rcases Nat.lt_trichotomy t T with h' | h' | h'
          · obtain ⟨q', hq', hqt⟩ := hT t h'
            rw [hq] at hq'
            cases hq'
            rw [hqf] at hqt
            cases hqt
          · exact h'
          · rw [hlate c (Or.inr (Or.inr hcp)) t h'] at hq
            cases hq
        rw [← this]
        exact hd
      have hall' : ∀ u ∈ vs, ∀ t ≤ T, (ρ u.merge t).isSome := by
        intro u hu t ht
        obtain ⟨o0', o1', e', nx', hok'⟩ := hv.ok u hu
        obtain ⟨-, hd, -⟩ := h.made.nodes _ hok'.switch
        rcases hok'.merge with m1 | m1
        · exact hall _ _ _ m1 hd t ht
        · exact hall _ _ _ m1 hd t ht
      obtain ⟨R, hR⟩ := rank_bound P vs
      obtain ⟨uT, huT⟩ := mapM_total (f := fun u : Var => ρ u.merge T) (fun u hu => hall' u hu T (Nat.le_refl _))
      obtain ⟨u0, hu0⟩ := mapM_total (f := fun u : Var => ρ u.merge 0) (fun u hu => hall' u hu 0 (Nat.zero_le _))
      obtain ⟨q0, hq0⟩ : ∃ q, ρ c 0 = some q := by
        rcases Nat.eq_zero_or_pos T with h' | h'
        · rw [h'] at hT'
          exact ⟨_, hT'.choose_spec.1⟩
        · exact ⟨_, (hT 0 h').choose_spec.1⟩
      obtain ⟨c', d', o1', hsw, -, hrx, hent⟩ := h.made.nodes _ hexit
      have := unique_out h.made.outs hsw hok.switch (x := o0) (by simp [Node.outs]) (by simp [Node.outs])
      injection this with _ hcc
      subst hcc
      obtain ⟨-, -, -, -, -, -, -, hrc⟩ := h.made.nodes _ hok.switch
      have hri := (h.made.nodes _ h.cond).2.2
      refine ⟨T + (P.rank i + R + 2), fun fuel hf env hgc henv => ?_⟩
      rw [hout] at henv
      have hcenv : env (fresh "copy" c' i) = some q0 := by
        refine henv _ (h.ext.place _ _ _) hC (by rw [h.ext.rank _ _ h.condOp.2.1]; omega) q0 ?_
        rw [h.ext.copy _ _ h.condOp.2.1]
        exact h.run.fires _ h.cond 0 q0 hq0
      have hins : (vs.map Var.enterIn).mapM env = some u0 := by
        refine mapM_gen hu0 (fun u hu z hz => ?_)
        obtain ⟨o0', o1', e', nx', hok'⟩ := hv.ok u hu
        obtain ⟨h1, h2, -⟩ := hok'.enterRank h.made
        exact henv _ h1 (hP _ h2 h1) (hent _ _ _ hok'.enter (Or.inr hok'.placeE)) z (h.firstValue hok' hz)
      have ha : Around P ρ G₀ c' env := by
        refine ⟨hgc, fun j z hj hz y hy => ?_⟩
        have hjp := (h.made.nodes _ hj).1
        exact henv _ hjp (hP _ (h.made.closed _ hj j (by simp [Node.ins])) hjp) (hent _ _ _ hj (Or.inl hz)) y hy
      rw [hcenv, hins]
      simp only [Option.bind_some]
      rw [h.iterates hv hm ha hT hT' hall' hR huT T 0 fuel maxTrip q0 u0 (by omega) hf hTm hq0 hu0]
      simp only [Option.bind_some]
      rw [(lookup_zip (key := outOf fresh c') huT hvm (fun b hb he => h.out_inj hv hb hvm he)).2, hvT]

end Verif.While
