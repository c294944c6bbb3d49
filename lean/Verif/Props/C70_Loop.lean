import Verif.Props.C70_Body
/-!
# C70: the iterations
-/
namespace Verif.While
variable {V : Type} {truth : V → Bool} {P : Plan} {ρ : String → Nat → Option V} {G₀ G : List (Node V)} {S : List String} {c i : String}
  {fresh : String → String → String → String} {vs : List Var}

theorem mapM_gen {A B : Type} {f : A → Option V} {g : B → Option V} {σ : A → B} {l : List A} {us : List V} (h : l.mapM f = some us)
    (hg : ∀ x ∈ l, ∀ w, f x = some w → g (σ x) = some w) : (l.map σ).mapM g = some us := by
  induction l generalizing us with
  | nil =>
    simp only [List.mapM_nil, Option.pure_def, Option.some.injEq] at h
    subst h
    rfl
  | cons x l ih =>
    rw [List.mapM_cons] at h
    cases hx : f x with
    | none => rw [hx] at h; cases h
    | some w =>
      rw [hx] at h
      cases hl : l.mapM f with
      | none => rw [hl] at h; cases h
      | some ws =>
        rw [hl] at h
        cases h
        rw [List.map_cons, List.mapM_cons, hg x (by simp) w hx, ih hl (fun y hy => hg y (by simp [hy]))]
        rfl

theorem mapM_total {A : Type} {f : A → Option V} {l : List A} (h : ∀ x ∈ l, (f x).isSome) : ∃ us, l.mapM f = some us := by
  induction l with
  | nil => exact ⟨[], rfl⟩
  | cons x l ih =>
    obtain ⟨us, hus⟩ := ih (fun y hy => h y (by simp [hy]))
    obtain ⟨u, hu⟩ := Option.isSome_iff_exists.1 (h x (by simp))
    exact ⟨u :: us, by rw [List.mapM_cons, hu, hus]; rfl⟩

/-- What is found under a name. -/
theorem lookup_zip {A : Type} {f : A → Option V} {key : A → String} {l : List A} {us : List V} (h : l.mapM f = some us) {a : A} (ha : a ∈ l)
    (hinj : ∀ b ∈ l, key b = key a → b = a) : ((l.map key).zip us).lookup (key a) = f a ∧ us[(l.map key).idxOf (key a)]? = f a := by
  induction l generalizing us with
  | nil => cases ha
  | cons x l ih =>
    rw [List.mapM_cons] at h
    cases hx : f x with
    | none => rw [hx] at h; cases h
    | some w =>
      rw [hx] at h
      cases hl : l.mapM f with
      | none => rw [hl] at h; cases h
      | some ws =>
        rw [hl] at h
        cases h
        by_cases hk : key x = key a
        · have := hinj x (by simp) hk
          subst this
          simp [hx]
        · have hal : a ∈ l := by
            rcases List.mem_cons.1 ha with rfl | h'
            · exact absurd rfl hk
            · exact h'
          have := ih hl hal (fun b hb => hinj b (by simp [hb]))
          have hk' : (key a == key x) = false := by simpa using fun e => hk e.symm
          constructor
          · simp only [List.map_cons, List.zip_cons_cons, List.lookup, hk']
            exact this.1
          · rw [List.map_cons, List.idxOf_cons_ne _ hk, List.getElem?_cons_succ]
            exact this.2

theorem lookup_notin {ks : List String} {us : List V} {x : String} (h : x ∉ ks) : (ks.zip us).lookup x = none := by
  induction ks generalizing us with
  | nil => rfl
  | cons k ks ih =>
    cases us with
    | nil => rfl
    | cons u us =>
      have hk : (x == k) = false := by simpa using fun e : x = k => h (by simp [e])
      simp only [List.zip_cons_cons, List.lookup, hk]
      exact ih (fun h' => h (by simp [h']))

/-- The inputs of the body. -/
def inOf (fresh : String → String → String → String) (c : String) (v : Var) : String := v.stateIn.getD (fresh "in" c v.merge)

/-- The outputs of the loop. -/
def outOf (fresh : String → String → String → String) (c : String) (v : Var) : String := v.exit.getD (fresh "out" c v.merge)

theorem Vars.inj (hv : Vars P G₀ G c vs) {u v : Var} (hu : u ∈ vs) (hvm : v ∈ vs) (h : u.merge = v.merge) : u = v := List.inj_on_of_nodup_map hv.nodup hu hvm h

/-- The inputs of the body are its own. -/
theorem Setting.inProd (h : Setting truth P ρ fresh G₀ S G c i) (hv : Vars P G₀ G c vs) {v : Var} (hvm : v ∈ vs) :
    (∃ y, v.stateIn = some y ∧ inOf fresh c v = y ∧ P.place y = .body c ∧ ∃ o0 o1, Node.switch v.merge c o0 o1 ∈ G₀ ∧ (y = o1 ∨ ∃ f, Node.op "Identity" f [o1] [y] ∈ G₀)) ∨
      (v.stateIn = none ∧ inOf fresh c v = fresh "in" c v.merge) := by
  obtain ⟨o0, o1, e, nx, hok⟩ := hv.ok v hvm
  cases hs : v.stateIn with
  | none => exact Or.inr ⟨rfl, by simp [inOf, hs]⟩
  | some y =>
    have := h.stateIn hok.switch (y := y) (by rw [← hok.stateIn, hs])
    exact Or.inl ⟨y, rfl, by simp [inOf, hs], this.1, o0, o1, hok.switch, this.2.2⟩

theorem Setting.inProduced (h : Setting truth P ρ fresh G₀ S G c i) (hv : Vars P G₀ G c vs) {v : Var} (hvm : v ∈ vs) {y : String} (hy : v.stateIn = some y) : Produced G₀ y := by
  rcases h.inProd hv hvm with ⟨y', h1, -, -, o0, o1, hs, rfl | ⟨f, hI⟩⟩ | ⟨h1, -⟩
  · rw [hy] at h1
    cases h1
    exact ⟨_, hs, by simp [Node.outs]⟩
  · rw [hy] at h1
    cases h1
    exact ⟨_, hI, by simp [Node.outs]⟩
  · rw [hy] at h1
    cases h1

theorem Setting.in_inj (h : Setting truth P ρ fresh G₀ S G c i) (hv : Vars P G₀ G c vs) {u v : Var} (hu : u ∈ vs) (hvm : v ∈ vs) (he : inOf fresh c u = inOf fresh c v) : u = v := by
  apply hv.inj hu hvm
  have sw : ∀ d d' o0 o0' o1, Node.switch d c o0 o1 ∈ G₀ → Node.switch d' c o0' o1 ∈ G₀ → d = d' := by
    intro d d' o0 o0' o1 h1 h2
    have := unique_out h.made.outs h1 h2 (x := o1) (by simp [Node.outs]) (by simp [Node.outs])
    injection this
  rcases h.inProd hv hu with ⟨y, h1, h2, h3, o0, o1, hs, hy⟩ | ⟨h1, h2⟩ <;> rcases h.inProd hv hvm with ⟨y', h1', h2', h3', o0', o1', hs', hy'⟩ | ⟨h1', h2'⟩
  · rw [h2, h2'] at he
    subst he
    rcases hy with hy | ⟨f, hy⟩ <;> rcases hy' with hy' | ⟨f', hy'⟩
    · subst hy
      subst hy'
      exact sw _ _ _ _ _ hs hs'
    · subst hy
      have := unique_out h.made.outs hs hy' (x := y) (by simp [Node.outs]) (by simp [Node.outs])
      cases this
    · subst hy'
      have := unique_out h.made.outs hs' hy (x := y) (by simp [Node.outs]) (by simp [Node.outs])
      cases this
    · have := unique_out h.made.outs hy hy' (x := y) (by simp [Node.outs]) (by simp [Node.outs])
      injection this with _ _ h'
      injection h' with h'
      subst h'
      exact sw _ _ _ _ _ hs hs'
  · exfalso
    rw [h2, h2'] at he
    have hp := h.inProduced hv hu h1
    rw [he] at hp
    exact h.names.notin _ _ _ hp
  · exfalso
    rw [h2, h2'] at he
    have hp := h.inProduced hv hvm h1'
    rw [← he] at hp
    exact h.names.notin _ _ _ hp
  · rw [h2, h2'] at he
    exact (h.names.inj _ _ _ _ _ _ he).2.2

/-- A tensor that is not an input of the body. -/
theorem Setting.not_in (h : Setting truth P ρ fresh G₀ S G c i) (hv : Vars P G₀ G c vs) {y : String} (hp : Produced G₀ y)
    (hn : ∀ o1, ¬ ((∃ d o0, Node.switch d c o0 o1 ∈ G₀) ∧ (y = o1 ∨ ∃ f, Node.op "Identity" f [o1] [y] ∈ G₀))) : y ∉ vs.map (inOf fresh c) := by
  intro hy
  obtain ⟨v, hvm, he⟩ := List.mem_map.1 hy
  rcases h.inProd hv hvm with ⟨y', h1, h2, h3, o0, o1, hs, hy'⟩ | ⟨h1, h2⟩
  · rw [h2] at he
    subst he
    exact hn o1 ⟨⟨_, _, hs⟩, hy'⟩
  · rw [h2] at he
    rw [← he] at hp
    exact h.names.notin _ _ _ hp

/-- What surrounds the body. -/
structure Around (P : Plan) (ρ : String → Nat → Option V) (G₀ : List (Node V)) (c : String) (env : String → Option V) : Prop where
  consts : GivesConsts G₀ env
  entered : ∀ j z, Node.enter true j z ∈ G₀ → P.place z = .entered c → ∀ w, ρ j 0 = some w → env j = some w

theorem bind_notin {ins : List String} {us : List V} {env : String → Option V} {x : String} (h : x ∉ ins) : bindInputs ins us env x = env x := by
  unfold bindInputs
  rw [lookup_notin h]

/-- **What the body sees.** -/
theorem Setting.envAt (h : Setting truth P ρ fresh G₀ S G c i) (hv : Vars P G₀ G c vs) {env : String → Option V} (ha : Around P ρ G₀ c env) {t : Nat} {us : List V}
    (hus : vs.mapM (fun v => ρ v.merge t) = some us) : EnvAt P ρ G₀ c vs t (bindInputs (vs.map (inOf fresh c)) us env) := by
  refine ⟨fun f outs hn y hy => ?_, fun j z hj hz w hw => ?_, fun v hvm y hy w hw => ?_⟩
  · rw [bind_notin (h.not_in hv ⟨_, hn, hy⟩ ?_)]
    · exact ha.consts f outs hn y hy
    · rintro o1 ⟨⟨d, o0, hs⟩, rfl | ⟨g, hI⟩⟩
      · have := unique_out h.made.outs hs hn (x := y) (by simp [Node.outs]) hy
        cases this
      · have := unique_out h.made.outs hI hn (x := y) (by simp [Node.outs]) hy
        injection this with ht
        exact absurd ht (by decide)
  · rw [bind_notin (h.not_in hv (h.made.closed _ hj j (by simp [Node.ins])) ?_)]
    · exact ha.entered j z hj hz w hw
    · obtain ⟨hjp, -⟩ := h.made.nodes _ hj
      rintro o1 ⟨⟨d, o0, hs⟩, rfl | ⟨g, hI⟩⟩
      · obtain ⟨-, -, -, -, h1, -⟩ := h.made.nodes _ hs
        rw [hjp] at h1
        cases h1
      · obtain ⟨-, -, -, -, h1, -⟩ := h.made.nodes _ hs
        obtain ⟨⟨κ, -, hκ, hκ'⟩, -⟩ := h.made.nodes _ hI
        have e1 := hκ j (by simp)
        rw [hjp] at e1
        subst e1
        rcases hκ' o1 (by simp) with h' | ⟨_, h', -⟩
        · rw [h1] at h'; cases h'
        · rw [h1] at h'; cases h'
  · have hk : inOf fresh c v = y := by simp [inOf, hy]
    have := (lookup_zip (key := inOf fresh c) hus hvm (fun b hb he => h.in_inj hv hb hvm he)).1
    unfold bindInputs
    rw [← hk, this, hw]

/-- The condition is an operator. -/
theorem Setting.condOp (h : Setting truth P ρ fresh G₀ S G c i) : P.place i = .head c ∧ Produced G₀ i ∧ ∃ t f ins outs, Node.op t f ins outs ∈ G₀ ∧ i ∈ outs ∧ t ≠ "Const" ∧
    Verif.While.producer G i = some (.op t f ins outs) := by
  obtain ⟨hp, t, f, ins, outs, h0, hi, ht⟩ := h.plain.tested _ _ h.cond
  exact ⟨hp, ⟨_, h0, hi⟩, t, f, ins, outs, h0, hi, ht, h.producer h0 hi (by rw [hp]; rfl)⟩

theorem Setting.condInSelf (h : Setting truth P ρ fresh G₀ S G c i) : condIn G vs i = i := by
  obtain ⟨-, -, t, f, ins, outs, -, -, -, hpr⟩ := h.condOp
  unfold condIn
  rw [hpr]

/-- A bound for the ranks of what the body returns. -/
theorem rank_bound (P : Plan) (vs : List Var) : ∃ R, ∀ v ∈ vs, P.rank v.next < R := by
  induction vs with
  | nil => exact ⟨0, by simp⟩
  | cons v vs ih =>
    obtain ⟨R, hR⟩ := ih
    refine ⟨R + P.rank v.next + 1, fun u hu => ?_⟩
    rcases List.mem_cons.1 hu with rfl | hu
    · omega
    · have := hR u hu
      omega

/-- **The iterations.** -/
theorem Setting.iterates (h : Setting truth P ρ fresh G₀ S G c i) (hv : Vars P G₀ G c vs) (hm : ∀ m ∈ mergesMet G (condOf G vs i) i, m ∈ vs.map Var.merge)
    {env : String → Option V} (ha : Around P ρ G₀ c env) {T : Nat} (hT : ∀ t < T, ∃ q, ρ c t = some q ∧ truth q = true) (hT' : ∃ q, ρ c T = some q ∧ truth q = false)
    (hall : ∀ v ∈ vs, ∀ t ≤ T, (ρ v.merge t).isSome) {R : Nat} (hR : ∀ v ∈ vs, P.rank v.next < R) {uT : List V} (huT : vs.mapM (fun v => ρ v.merge T) = some uT) (d : Nat) :
    ∀ t fuel left q us, t + d = T → d + (P.rank i + R + 2) ≤ fuel → d ≤ left → ρ c t = some q → vs.mapM (fun v => ρ v.merge t) = some us →
      iterate truth fuel env (bodyOf G vs i) (vs.map (inOf fresh c)) i (vs.map Var.next) left q us = some uT := by
  induction d with
  | zero =>
    intro t fuel left q us ht hf hl hq hus
    obtain ⟨fuel, rfl⟩ : ∃ k, fuel = k + 1 := ⟨fuel - 1, by omega⟩
    have : t = T := by omega
    subst this
    obtain ⟨q', hq', hq''⟩ := hT'
    rw [hq] at hq'
    cases hq'
    rw [iterate, if_pos (Or.inl hq''), ← huT, hus]
  | succ d ih =>
    intro t fuel left q us ht hf hl hq hus
    obtain ⟨fuel, rfl⟩ : ∃ k, fuel = k + 1 := ⟨fuel - 1, by omega⟩
    obtain ⟨q', hq', hq''⟩ := hT t (by omega)
    rw [hq] at hq'
    cases hq'
    rw [iterate, if_neg (by rw [hq'']; simp; omega)]
    have he := h.envAt hv ha hus
    obtain ⟨us', hus'⟩ : ∃ us', vs.mapM (fun v => ρ v.merge (t + 1)) = some us' := mapM_total (fun v hvm => hall v hvm (t + 1) (by omega))
    obtain ⟨q1, hq1⟩ : ∃ q1, ρ c (t + 1) = some q1 := by
      rcases Nat.lt_or_ge (t + 1) T with h' | h'
      · exact ⟨_, (hT _ h').choose_spec.1⟩
      · have : t + 1 = T := by omega
        rw [this]
        exact ⟨_, hT'.choose_spec.1⟩
    have hqi := h.run.fires _ h.cond (t + 1) q1 hq1
    have hc := h.condEval hv he R hR hm (P.rank i + 1) i q1 fuel (by omega) (by omega) (Or.inl h.condOp.1) h.condOp.2.1 (Or.inl rfl)
      (fun m hm' hs => h.cond'.2.1 i (by simp) m hm' hs) hqi
    rw [h.condInSelf] at hc
    rw [hc]
    have hn : (vs.map Var.next).mapM (eval truth fuel (bindInputs (vs.map (inOf fresh c)) us env) (bodyOf G vs i)) = some us' := by
      refine mapM_gen hus' (fun v hvm w hw => ?_)
      have := hR v hvm
      exact (h.nextEval hv he hvm (by omega) hw).2
    simp only [Option.bind_some]
    rw [hn]
    simp only [Option.bind_some]
    exact ih (t + 1) fuel (left - 1) q1 us' (by omega) (by omega) (by omega) hq1 hus'

end Verif.While
