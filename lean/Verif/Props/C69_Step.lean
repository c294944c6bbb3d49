import Verif.Props.C69_Eval
/-!
# C69: one conditional
-/
namespace Verif.Cond
variable {V : Type}

/-- None of the conditionals around is among `S`. -/
def Live (S : List (List String)) (κ : Path) : Prop := ∀ s b, (s, b) ∈ κ → s ∉ S

theorem live_snoc {S : List (List String)} {κ : Path} (h : Live S κ) {s : List String} (hs : s ∉ S) (b : Bool) : Live S (κ ++ [(s, b)]) := by
  intro s' b' h'
  rcases List.mem_append.1 h' with h' | h'
  · exact h s' b' h'
  · simp only [List.mem_singleton, Prod.mk.injEq] at h'
    rw [h'.1]
    exact hs

section
variable (truth : V → Bool) (P : Plan) (ρ : String → Option V)

/-- What an `If` node uses: its predicate and what is brought into the branches. -/
theorem uses_cond {p : String} {outs : List String} {tn en : List (Node V)} {to_ eo : List String} {κ : Path} {s : List String}
    (ht : OkAll truth P ρ κ s true tn tn) (hto : ∀ x ∈ to_, Produced tn x) (he : OkAll truth P ρ κ s false en en) (heo : ∀ x ∈ eo, Produced en x) {x : String}
    (hx : x ∈ (Node.cond p outs tn to_ en eo).uses) : x = p ∨ ∃ y, (identity x y ∈ tn ∨ identity x y ∈ en) ∧ P.label x = κ := by
  have outs_in : ∀ l : List (Node V), ∀ n ∈ l, ∀ z, z ∈ n.outs ∨ z ∈ n.inner.2 → z ∈ (innerAll l).2 := by
    intro l
    induction l with
    | nil => intro n hn; cases hn
    | cons a l ih =>
      intro n hn z hz
      rw [innerAll]
      rcases List.mem_cons.1 hn with rfl | hn
      · rcases hz with hz | hz <;> simp [hz]
      · simp [ih n hn z hz]
  have ins_of : ∀ l : List (Node V), ∀ z ∈ (innerAll l).1, ∃ n ∈ l, z ∈ n.ins ∨ z ∈ n.inner.1 := by
    intro l
    induction l with
    | nil => intro z hz; simp [innerAll] at hz
    | cons a l ih =>
      intro z hz
      rw [innerAll] at hz
      simp only [List.mem_append] at hz
      rcases hz with hz | hz
      · exact ⟨a, by simp, hz⟩
      · obtain ⟨n, hn, h⟩ := ih z hz
        exact ⟨n, by simp [hn], h⟩
  have body : ∀ (b : Bool) (N : List (Node V)), OkAll truth P ρ κ s b N N → x ∈ (innerAll N).1 → x ∉ (innerAll N).2 → ∃ y, identity x y ∈ N ∧ P.label x = κ := by
    intro b N hN h1 h2
    obtain ⟨n, hn, hz⟩ := ins_of N x h1
    rcases (okAll_iff truth P ρ κ s b N N).1 hN n hn with ⟨-, hus⟩ | ⟨a, y, rfl, hla, -⟩
    · exfalso
      have hxu : x ∈ n.uses := by
        unfold Node.uses
        rcases hz with hz | hz
        · simp [hz]
        · rw [List.mem_append, List.mem_filter]
          exact Or.inr ⟨hz, by simpa using fun h => h2 (outs_in N n hn x (Or.inr h))⟩
      obtain ⟨m, hm, hxm⟩ := hus x hxu
      exact h2 (outs_in N m hm x (Or.inl hxm))
    · have : x = a := by simpa [identity, Node.ins, Node.inner] using hz
      subst this
      exact ⟨y, hn, hla⟩
  unfold Node.uses at hx
  rw [List.mem_append, List.mem_filter] at hx
  rcases hx with hx | ⟨hx, hn⟩
  · left
    simpa [Node.ins] using hx
  · right
    rw [Node.inner] at hx hn
    simp only [List.mem_append, decide_eq_true_eq, not_or] at hx hn
    rcases hx with (hx | hx) | hx | hx
    · obtain ⟨y, h1, h2⟩ := body true tn ht hx hn.1
      exact ⟨y, Or.inl h1, h2⟩
    · obtain ⟨m, hm, hxm⟩ := hto x hx
      exact absurd (outs_in tn m hm x (Or.inl hxm)) hn.1
    · obtain ⟨y, h1, h2⟩ := body false en he hx hn.2
      exact ⟨y, Or.inr h1, h2⟩
    · obtain ⟨m, hm, hxm⟩ := heo x hx
      exact absurd (outs_in en m hm x (Or.inl hxm)) hn.2

/-- Everything a node at `κ` uses is at `κ`. -/
theorem uses_lab {κ : Path} {n : Node V} (h : Ok truth P ρ κ n) : ∀ x ∈ n.uses, P.label x = κ := by
  cases n with
  | op t f ins outs =>
    rw [Ok] at h
    intro x hx
    simp only [Node.uses, Node.ins, Node.inner, List.filter_nil, List.append_nil] at hx
    exact h.1 x hx
  | switch => rw [Ok] at h; exact h.elim
  | merge => rw [Ok] at h; exact h.elim
  | cond p outs tn to_ en eo =>
    rw [Ok] at h
    obtain ⟨hp, -, -, -, -, s, ⟨-, h1, h2⟩, -, h3, h4⟩ := h
    intro x hx
    rcases uses_cond truth P ρ h1 (fun x hx => (h2 x hx).2) h3 (fun x hx => (h4 x hx).2) hx with rfl | ⟨y, -, h⟩
    · exact hp
    · exact h

/-- What holds of the graph after the conditionals `S` have been rewritten. -/
structure Inv (G₀ : List (Node V)) (S : List (List String)) (G : List (Node V)) : Prop where
  nodup : (G.flatMap Node.outs).Nodup
  plain : ∀ n ∈ G, n ∈ G₀ ∨ ∃ κ, Ok truth P ρ κ n
  ok : ∀ n ∈ G, ∀ κ, Ok truth P ρ κ n → (∃ o, o ∈ n.outs) → Live S κ → ∀ x ∈ n.uses, Produced G x
  switch : ∀ d p o0 o1, Node.switch d p o0 o1 ∈ G → Live S (P.label d) → Produced G d ∧ Produced G p
  merge : ∀ name a b o, Node.merge name a b o ∈ G → scopeOf name ∉ S ∧ (Live S (P.loc (scopeOf name)) → Produced G a ∧ Produced G b)
  keep : ∀ name a b o, Node.merge name a b o ∈ G₀ → scopeOf name ∉ S → Node.merge name a b o ∈ G

end

/-- The setting of one step. -/
structure Setting (truth : V → Bool) (P : Plan) (ρ : String → Option V) (G₀ : List (Node V)) (S : List (List String)) (G : List (Node V)) (s : List String) : Prop where
  made : TfMade P G₀
  run : Run truth P G₀ ρ
  inv : Inv truth P ρ G₀ S G
  new : s ∉ S
  live : Live S (P.loc s)
  inside : ∀ name a b o c, Node.merge name a b o ∈ G₀ → (s, c) ∈ P.loc (scopeOf name) → scopeOf name ∈ S

section
variable {truth : V → Bool} {P : Plan} {ρ : String → Option V} {G₀ G : List (Node V)} {S : List (List String)} {s : List String}

/-- A node of the graph is an operator or an `If`, a `Switch` or a `Merge`. -/
theorem Setting.kinds (h : Setting truth P ρ G₀ S G s) {n : Node V} (hn : n ∈ G) :
    (∃ κ, Ok truth P ρ κ n) ∨ (∃ d p o0 o1, n = .switch d p o0 o1 ∧ n ∈ G₀) ∨ ∃ name a b o, n = .merge name a b o ∧ n ∈ G₀ := by
  rcases h.inv.plain n hn with h0 | h0
  · have hm := h.made.nodes n h0
    cases n with
    | op t f ins outs =>
      left
      obtain ⟨⟨κ, h1, h2⟩, h3⟩ := hm
      exact ⟨κ, by rw [Ok]; exact ⟨h1, h2, h3, h.run.fires _ h0⟩⟩
    | switch d p o0 o1 => exact Or.inr (Or.inl ⟨d, p, o0, o1, rfl, h0⟩)
    | merge name a b o => exact Or.inr (Or.inr ⟨name, a, b, o, rfl, h0⟩)
    | cond => exact hm.elim
  · exact Or.inl h0

/-- A `Switch` of this conditional. -/
structure IsSwitch (truth : V → Bool) (P : Plan) (ρ : String → Option V) (G₀ G : List (Node V)) (s : List String) (d p o0 o1 : String) : Prop where
  mem : Node.switch d p o0 o1 ∈ G
  data : P.label d = P.loc s
  lab : P.label p = P.loc s
  pred : p = P.pred s
  out0 : P.label o0 = P.loc s ++ [(s, false)]
  out1 : P.label o1 = P.loc s ++ [(s, true)]
  rank : ∀ x ∈ [d, p], P.rank x < P.rank o0 ∧ P.rank x < P.rank o1
  before : ∀ name a b o, Node.merge name a b o ∈ G₀ → scopeOf name = s → P.rank d < P.rank o ∧ P.rank p < P.rank o
  prodD : Produced G d
  prodP : Produced G p
  fires : Fires truth ρ (.switch d p o0 o1)

/-- What produces a tensor of a branch: a node of the branch, or a `Switch` of the conditional. -/
theorem Setting.source (h : Setting truth P ρ G₀ S G s) {n : Node V} (hn : n ∈ G) {x : String} (hx : x ∈ n.outs) {b : Bool} (hl : P.label x = P.loc s ++ [(s, b)]) :
    (Ok truth P ρ (P.loc s ++ [(s, b)]) n ∧ ∀ z ∈ n.uses, Produced G z) ∨
      ∃ d p o0 o1, n = .switch d p o0 o1 ∧ IsSwitch truth P ρ G₀ G s d p o0 o1 ∧ x = if b then o1 else o0 := by
  rcases h.kinds hn with ⟨κ, hκ⟩ | ⟨d, p, o0, o1, rfl, h0⟩ | ⟨name, a, c, o, rfl, h0⟩
  · left
    have := ok_outs truth P ρ hκ x hx
    rw [hl] at this
    subst this
    exact ⟨hκ, h.inv.ok n hn _ hκ ⟨x, hx⟩ (live_snoc h.live h.new b)⟩
  · right
    obtain ⟨s', h1, h2, h3, h4, h5, h6, h7⟩ := h.made.nodes _ h0
    have hxo : x = o0 ∨ x = o1 := by simpa [Node.outs] using hx
    have hs : s' = s ∧ x = if b then o1 else o0 := by
      rcases hxo with rfl | rfl
      · rw [h4] at hl
        have := (List.append_inj' hl rfl).2
        simp only [List.cons.injEq, Prod.mk.injEq, and_true] at this
        exact ⟨this.1, by rw [← this.2]; rfl⟩
      · rw [h5] at hl
        have := (List.append_inj' hl rfl).2
        simp only [List.cons.injEq, Prod.mk.injEq, and_true] at this
        exact ⟨this.1, by rw [← this.2]; rfl⟩
    obtain ⟨rfl, hxb⟩ := hs
    obtain ⟨pd, pp⟩ := h.inv.switch _ _ _ _ hn (by rw [h1]; exact h.live)
    exact ⟨d, p, o0, o1, rfl, ⟨hn, h1, h2, h3, h4, h5, h6, h7, pd, pp, h.run.fires _ h0⟩, hxb⟩
  · exfalso
    obtain ⟨h1, -⟩ := h.made.nodes _ h0
    have hxo : x = o := by simpa [Node.outs] using hx
    subst hxo
    rw [h1] at hl
    have := h.inside _ _ _ _ b h0 (by rw [hl]; simp)
    exact (h.inv.merge _ _ _ _ hn).1 this

/-- A node of a branch with its key. -/
def InBranch (truth : V → Bool) (P : Plan) (ρ : String → Option V) (G : List (Node V)) (κ : Path) (k : String) : Prop :=
  ∃ n, producer G k = some n ∧ n.key = k ∧ Ok truth P ρ κ n ∧ ∀ z ∈ n.uses, Produced G z

theorem not_switch {κ : Path} {n : Node V} (h : Ok truth P ρ κ n) : n.isSwitch = false := by
  cases n with
  | switch => rw [Ok] at h; exact h.elim
  | _ => rfl

/-- Whatever is collected from a tensor of the branch is of the branch; it is closed up to `Switch` nodes. -/
theorem Setting.collected (h : Setting truth P ρ G₀ S G s) {x : String} {b : Bool} (hl : P.label x = P.loc s ++ [(s, b)]) (hp : Produced G x) :
    (∀ k ∈ branchKeys G x, InBranch truth P ρ G (P.loc s ++ [(s, b)]) k) ∧
    (∀ z, (z = x ∨ ∃ k ∈ branchKeys G x, ∃ n, producer G k = some n ∧ z ∈ n.uses) → ∃ m, producer G z = some m ∧ (m.isSwitch = false → m.key ∈ branchKeys G x)) := by
  have hu := h.inv.nodup
  have src : ∀ z, P.label z = P.loc s ++ [(s, b)] → Produced G z → ∃ m, producer G z = some m ∧ z ∈ m.outs ∧ (m.isSwitch = false → InBranch truth P ρ G (P.loc s ++ [(s, b)]) m.key) := by
    intro z hz hpz
    obtain ⟨m, hm, hzm⟩ := hpz
    refine ⟨m, producer_eq hu hm hzm, hzm, fun hs => ?_⟩
    rcases h.source hm hzm hz with ⟨h1, h2⟩ | ⟨d, p, o0, o1, rfl, -⟩
    · exact ⟨m, producer_eq hu hm (key_mem hzm), rfl, h1, h2⟩
    · cases hs
  obtain ⟨n, hn, hxn, hin⟩ := src x hl hp
  unfold branchKeys
  rw [hn]
  simp only
  cases hsw : n.isSwitch with
  | true =>
    simp only [if_true]
    refine ⟨by simp, fun z hz => ?_⟩
    rcases hz with rfl | ⟨k, hk, -⟩
    · exact ⟨n, hn, fun hf => by rw [hsw] at hf; cases hf⟩
    · cases hk
  | false =>
    simp only [Bool.false_eq_true, if_false]
    have step : ∀ k, InBranch truth P ρ G (P.loc s ++ [(s, b)]) k → ∀ y ∈ succs G k, InBranch truth P ρ G (P.loc s ++ [(s, b)]) y := by
      rintro k ⟨m, hm, -, hok, hus⟩ y hy
      unfold succs at hy
      rw [hm] at hy
      simp only [List.mem_filterMap] at hy
      obtain ⟨z, hz, hzy⟩ := hy
      obtain ⟨m', hm', -, hin'⟩ := src z (uses_lab truth P ρ hok z hz) (hus z hz)
      rw [hm'] at hzy
      simp only [Option.bind_some] at hzy
      split at hzy
      · cases hzy
      · cases hzy
        exact hin' (by simpa using ‹¬ m'.isSwitch = true›)
    obtain ⟨c1, c2, c3⟩ := closeLoop_spec (succs G) (G.map Node.key) (InBranch truth P ρ G (P.loc s ++ [(s, b)])) step
      (by rintro k ⟨m, hm, hk, -⟩; exact List.mem_map.2 ⟨m, (producer_mem hm).1, hk⟩) (G.length + 1) [n.key] [] (by simp) (by simp) (by simp)
      (by
        intro k hk
        have : k = n.key := by simpa using hk
        rw [this]
        exact hin hsw) (by simp) (by simp)
    refine ⟨c2, fun z hz => ?_⟩
    rcases hz with rfl | ⟨k, hk, m, hm, hz⟩
    · exact ⟨n, hn, fun _ => c1 n.key (Or.inl (by simp))⟩
    · obtain ⟨m1, hm1, -, hok, hus⟩ := c2 k hk
      rw [hm] at hm1
      cases hm1
      obtain ⟨m', hm', -, -⟩ := src z (uses_lab truth P ρ hok z hz) (hus z hz)
      refine ⟨m', hm', fun hs => c3 k hk m'.key ?_⟩
      unfold succs
      rw [hm]
      simp only [List.mem_filterMap]
      exact ⟨z, hz, by rw [hm']; simp [hs]⟩

/-- The `Switch` nodes that are met are those of the conditional. -/
theorem Setting.switches (h : Setting truth P ρ G₀ S G s) {x : String} {b : Bool} (hl : P.label x = P.loc s ++ [(s, b)]) (hp : Produced G x) {k : String}
    (hk : k ∈ switchKeys G x) : ∃ d p o0 o1, producer G k = some (.switch d p o0 o1) ∧ k = o0 ∧ IsSwitch truth P ρ G₀ G s d p o0 o1 := by
  unfold switchKeys at hk
  simp only [List.mem_map, List.mem_filter, List.mem_filterMap] at hk
  obtain ⟨m, ⟨⟨z, hz, hm⟩, hs⟩, rfl⟩ := hk
  have hlz : P.label z = P.loc s ++ [(s, b)] := by
    rcases List.mem_cons.1 hz with rfl | hz
    · exact hl
    · obtain ⟨n, hn, hz⟩ := List.mem_flatMap.1 hz
      unfold nodesOf at hn
      obtain ⟨k, hk, hkn⟩ := List.mem_filterMap.1 hn
      obtain ⟨n', hn', -, hok, -⟩ := (h.collected hl hp).1 k hk
      rw [hkn] at hn'
      cases hn'
      exact uses_lab truth P ρ hok z hz
  obtain ⟨hmG, hzm⟩ := producer_mem hm
  rcases h.source hmG hzm hlz with ⟨h1, -⟩ | ⟨d, p, o0, o1, rfl, hsw, -⟩
  · rw [not_switch h1] at hs
    cases hs
  · exact ⟨d, p, o0, o1, producer_eq h.inv.nodup hmG (by simp [Node.key, Node.outs]), by simp [Node.key, Node.outs], hsw⟩

/-- The inferred type of a branch is right, if it is not unknown. -/
theorem Setting.typed (h : Setting truth P ρ G₀ S G s) {x : String} {b : Bool} (hl : P.label x = P.loc s ++ [(s, b)]) (hp : Produced G x) {t : Branch}
    (ht : branchType G x (nodesOf G (branchKeys G x)) = .ok t) : (t = .true → b = true) ∧ (t = .false → b = false) := by
  have step : ∀ z, P.label z = P.loc s ++ [(s, b)] → ∀ t0 t1, ((t0 = Branch.true → b = true) ∧ (t0 = .false → b = false)) → typeStep G t0 z = .ok t1 →
      (t1 = Branch.true → b = true) ∧ (t1 = .false → b = false) := by
    intro z hz t0 t1 h0 h1
    unfold typeStep at h1
    split at h1
    · cases h1
    · rename_i d p o0 o1 hpr
      obtain ⟨hm, hzm⟩ := producer_mem hpr
      rcases h.source hm hzm hz with ⟨h2, -⟩ | ⟨d', p', o0', o1', heq, hsw, hzb⟩
      · rw [Ok] at h2; exact h2.elim
      · cases heq
        have hne : b = true ↔ z ≠ o0 := by
          cases b with
          | false => simp [hzb]
          | true =>
            simp only [if_true] at hzb
            constructor
            · intro _ he
              have h3 := hsw.out0
              rw [← he, hz] at h3
              have := (List.append_inj' h3 rfl).2
              simp at this
            · intro _; rfl
        split at h1
        · rename_i he
          split at h1
          · cases h1
          · cases h1
            refine ⟨by simp, fun _ => ?_⟩
            cases hb : b with
            | false => rfl
            | true => exact absurd he (hne.1 hb)
        · rename_i he
          split at h1
          · cases h1
          · cases h1
            exact ⟨fun _ => hne.2 he, by simp⟩
    · cases h1
      exact h0
  unfold branchType at ht
  split at ht
  · exact step x hl .unknown t ⟨by simp, by simp⟩ ht
  · have fold : ∀ (l : List String) (t0 : Branch), (∀ z ∈ l, P.label z = P.loc s ++ [(s, b)]) → ((t0 = Branch.true → b = true) ∧ (t0 = .false → b = false)) →
        ∀ t1, l.foldlM (typeStep G) t0 = .ok t1 → (t1 = Branch.true → b = true) ∧ (t1 = .false → b = false) := by
      intro l
      induction l with
      | nil => intro t0 _ h0 t1 h1; cases h1; exact h0
      | cons z l ih =>
        intro t0 hz h0 t1 h1
        rw [List.foldlM_cons] at h1
        cases hst : typeStep G t0 z with
        | error e => rw [hst] at h1; cases h1
        | ok t2 =>
          rw [hst] at h1
          exact ih t2 (fun y hy => hz y (by simp [hy])) (step z (hz z (by simp)) t0 t2 h0 hst) t1 h1
    refine fold _ .unknown (fun z hz => ?_) ⟨by simp, by simp⟩ t ht
    obtain ⟨n, hn, hz⟩ := List.mem_flatMap.1 hz
    unfold nodesOf at hn
    obtain ⟨k, hk, hkn⟩ := List.mem_filterMap.1 hn
    obtain ⟨n', hn', -, hok, -⟩ := (h.collected hl hp).1 k hk
    rw [hkn] at hn'
    cases hn'
    exact uses_lab truth P ρ hok z (by simp [Node.uses, hz])

/-- A trace is right. -/
structure Right (P : Plan) (G : List (Node V)) (s : List String) (t : Trace) (a b : String) : Prop where
  ends : (t.trueOut = a ∧ t.falseOut = b) ∨ (t.trueOut = b ∧ t.falseOut = a)
  true_ : P.label t.trueOut = P.loc s ++ [(s, true)]
  false_ : P.label t.falseOut = P.loc s ++ [(s, false)]
  trueKeys : t.trueKeys = branchKeys G t.trueOut
  falseKeys : t.falseKeys = branchKeys G t.falseOut
  switches : ∀ k, k ∈ t.switches ↔ k ∈ switchKeys G t.trueOut ∨ k ∈ switchKeys G t.falseOut
  prodT : Produced G t.trueOut
  prodF : Produced G t.falseOut

theorem Setting.traced (h : Setting truth P ρ G₀ S G s) {a b : String} {c : Bool} (ha : P.label a = P.loc s ++ [(s, c)]) (hb : P.label b = P.loc s ++ [(s, !c)])
    (pa : Produced G a) (pb : Produced G b) {t : Trace} (ht : traceOne G a b = .ok t) : Right P G s t a b := by
  unfold traceOne at ht
  cases h1 : branchType G a (nodesOf G (branchKeys G a)) with
  | error e => rw [h1] at ht; cases ht
  | ok t1 =>
    cases h2 : branchType G b (nodesOf G (branchKeys G b)) with
    | error e => rw [h1, h2] at ht; cases ht
    | ok t2 =>
      rw [h1, h2] at ht
      have r1 := h.typed ha pa h1
      have r2 := h.typed hb pb h2
      cases h3 : decideBranches t1 t2 with
      | error e => simp only [Except.bind, h3] at ht; cases ht
      | ok first =>
        simp only [Except.bind, h3, Except.map] at ht
        have hfirst : first = c := by
          unfold decideBranches at h3
          cases c <;> cases t1 <;> cases t2 <;> simp_all
        subst hfirst
        cases first with
        | true =>
          simp only [if_true] at ht
          cases ht
          exact ⟨Or.inl ⟨rfl, rfl⟩, ha, hb, rfl, rfl, fun k => by simp, pa, pb⟩
        | false =>
          simp only [Bool.false_eq_true, if_false] at ht
          cases ht
          exact ⟨Or.inr ⟨rfl, rfl⟩, hb, ha, rfl, rfl, fun k => by simp [or_comm], pb, pa⟩

end
end Verif.Cond
