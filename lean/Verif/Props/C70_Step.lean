import Verif.Props.C70_Kit
/-!
# C70: what is known of a loop that is converted
-/
namespace Verif.While
variable {V : Type} {truth : V → Bool} {P : Plan} {ρ : String → Nat → Option V} {G₀ G : List (Node V)} {S : List String} {c i : String}
  {fresh : String → String → String → String}

/-- The restrictions: a body returns no tensor for two variables and no tensor of the outside directly, and a condition is computed. -/
structure Plain (P : Plan) (G : List (Node V)) : Prop where
  returned : ∀ i o, Node.next i o ∈ G → ∃ c, P.place i = .body c
  once : ∀ i o o' a b m a' b' m', Node.next i o ∈ G → Node.next i o' ∈ G → Node.merge a b m ∈ G → Node.merge a' b' m' ∈ G → a = o ∨ b = o → a' = o' ∨ b' = o' → m = m'
  tested : ∀ i c, Node.loopCond i c ∈ G → P.place i = .head c ∧ ∃ t f ins outs, Node.op t f ins outs ∈ G ∧ i ∈ outs ∧ t ≠ "Const"

/-- New names are new. -/
structure Fresh (fresh : String → String → String → String) (G : List (Node V)) : Prop where
  inj : ∀ k c x k' c' x', fresh k c x = fresh k' c' x' → k = k' ∧ c = c' ∧ x = x'
  notin : ∀ k c x, ¬ Produced G (fresh k c x)

/-- What is known of the new names: they are outside; a copy is what it is a copy of in iteration 0. -/
structure Ext (fresh : String → String → String → String) (G₀ : List (Node V)) (P : Plan) (ρ : String → Nat → Option V) : Prop where
  place : ∀ k c x, P.place (fresh k c x) = .outside
  rank : ∀ c x, Produced G₀ x → P.rank (fresh "copy" c x) = P.rank x
  copy : ∀ c x, Produced G₀ x → ρ (fresh "copy" c x) 0 = ρ x 0
  out : ∀ c x, ρ (fresh "out" c x) 0 = none

/-- The tensor is a constant. -/
def IsConst (G₀ : List (Node V)) (y : String) : Prop := ∃ f outs, Node.op "Const" f [] outs ∈ G₀ ∧ y ∈ outs

/-- `env` gives the constants. -/
def GivesConsts (G₀ : List (Node V)) (env : String → Option V) : Prop := ∀ f outs, Node.op "Const" f [] outs ∈ G₀ → ∀ y ∈ outs, env y = (f [])[outs.idxOf y]?

/-- A new operator. -/
def NewOp (P : Plan) (ρ : String → Nat → Option V) (fresh : String → String → String → String) (G₀ G : List (Node V)) (f : List V → List V) (ins outs : List String) : Prop :=
  (∀ x ∈ ins, IsConst G₀ x ∨ (P.place x = .outside ∧ Produced G x ∧ ∀ o ∈ outs, P.rank x < P.rank o)) ∧ (∀ o ∈ outs, ∃ k c y, o = fresh k c y) ∧ outs.Nodup ∧
    (∀ (k : Nat) (o : String) (v : V), outs[k]? = some o → ρ o 0 = some v → ∃ vs, (f vs)[k]? = some v ∧
      ∀ env : String → Option V, GivesConsts G₀ env → (∀ x ∈ ins, P.place x = .outside → ∀ w, ρ x 0 = some w → env x = some w) → ins.mapM env = some vs)

/-- A new `Loop` node. -/
def NewLoop (truth : V → Bool) (P : Plan) (ρ : String → Nat → Option V) (G₀ G : List (Node V)) (c : String) (inits outs : List String) (body : List (Node V))
    (bodyIns : List String) (bodyCond : String) (bodyOuts : List String) : Prop :=
  (∀ o ∈ outs, P.place o = .outside) ∧ ∀ o ∈ outs, ∀ v, ρ o 0 = some v → ∃ k, ∀ fuel, k ≤ fuel → ∀ env : String → Option V, GivesConsts G₀ env →
    (∀ y, P.place y = .outside → Produced G y → P.rank y < P.rank o → ∀ w, ρ y 0 = some w → env y = some w) →
    (env c).bind (fun q => (inits.mapM env).bind (fun vs => (iterate truth fuel env body bodyIns bodyCond bodyOuts maxTrip q vs).bind (fun r => r[outs.idxOf o]?))) = some v

/-- A new node. -/
def New (truth : V → Bool) (P : Plan) (ρ : String → Nat → Option V) (fresh : String → String → String → String) (G₀ G : List (Node V)) : Node V → Prop
  | .op _ f ins outs => NewOp P ρ fresh G₀ G f ins outs
  | .loop c inits outs body bodyIns bodyCond bodyOuts => NewLoop truth P ρ G₀ G c inits outs body bodyIns bodyCond bodyOuts
  | _ => False

/-- What holds while loops are converted; `S` are those that have been. -/
structure Inv (truth : V → Bool) (P : Plan) (ρ : String → Nat → Option V) (fresh : String → String → String → String) (G₀ : List (Node V)) (S : List String) (G : List (Node V)) : Prop where
  nodup : (G.flatMap Node.outs).Nodup
  kinds : ∀ n ∈ G, n ∈ G₀ ∨ New truth P ρ fresh G₀ G n
  gone : ∀ n ∈ G₀, n ∉ G → ∃ c ∈ S, (n.isConst = false ∧ ∃ o ∈ n.outs, P.place o = .body c) ∨ ∃ i o, n = .exit i o ∧ P.place i = .edge c
  names : ∀ x, Produced G x → Produced G₀ x ∨ ∃ k c y, x = fresh k c y ∧ c ∈ S
  prod : ∀ x, Produced G₀ x → P.place x = .outside → Produced G x
  left : ∀ i o, Node.exit i o ∈ G → ∀ c ∈ S, P.place i ≠ .edge c

/-- A loop is about to be converted. -/
structure Setting (truth : V → Bool) (P : Plan) (ρ : String → Nat → Option V) (fresh : String → String → String → String) (G₀ : List (Node V)) (S : List String) (G : List (Node V))
    (c i : String) : Prop where
  made : TfMade P G₀
  plain : Plain P G₀
  names : Fresh fresh G₀
  ext : Ext fresh G₀ P ρ
  run : Run truth P G₀ ρ
  inv : Inv truth P ρ fresh G₀ S G
  new : c ∉ S
  cond : Node.loopCond i c ∈ G₀

/-- The loop a place is in. -/
def Place.loop : Place → Option String
  | .outside => none
  | .entered c => some c
  | .head c => some c
  | .body c => some c
  | .edge c => some c

/-- Where the outputs of a node are, seen from one of them. -/
theorem made_outs {n : Node V} (h : Made P G₀ n) {x y : String} (hx : x ∈ n.outs) (hy : y ∈ n.outs) (hl : (P.place x).loop = some c) : (P.place y).loop = some c := by
  cases n with
  | op t f ins outs =>
    obtain ⟨⟨κ, -, h1, -⟩, -⟩ := h
    rw [h1 y hy, ← h1 x hx]
    exact hl
  | switch d p o0 o1 =>
    obtain ⟨-, -, -, h0, h1, -⟩ := h
    simp only [Node.outs, List.mem_cons, List.not_mem_nil, or_false] at hx hy
    rcases hx with rfl | rfl <;> rcases hy with rfl | rfl <;> simp_all [Place.loop]
  | loop => exact h.elim
  | _ =>
    simp only [Node.outs, List.mem_cons, List.not_mem_nil, or_false] at hx hy
    rw [hy, ← hx]
    exact hl

/-- Nodes of the loop are still there. -/
theorem Setting.live (h : Setting truth P ρ fresh G₀ S G c i) {n : Node V} (hn : n ∈ G₀) {x : String} (hx : x ∈ n.outs) (hl : (P.place x).loop = some c) : n ∈ G := by
  apply Classical.byContradiction
  intro hg
  obtain ⟨c', hc', ⟨-, o, ho, hb⟩ | ⟨j, o, rfl, hb⟩⟩ := h.inv.gone n hn hg
  · have := made_outs (h.made.nodes n hn) hx ho hl
    rw [hb] at this
    simp only [Place.loop, Option.some.injEq] at this
    rw [this] at hc'
    exact h.new hc'
  · obtain ⟨_, _, _, -, ho, -⟩ := h.made.nodes _ hn
    simp only [Node.outs, List.mem_singleton] at hx
    rw [hx, ho] at hl
    cases hl

/-- New nodes have outputs outside of loops. -/
theorem Setting.newOuts (h : Setting truth P ρ fresh G₀ S G c i) {n : Node V} (hn : New truth P ρ fresh G₀ G n) {x : String} (hx : x ∈ n.outs) : P.place x = .outside := by
  cases n with
  | op t f ins outs =>
    obtain ⟨k, c, y, rfl⟩ := hn.2.1 x hx
    exact h.ext.place _ _ _
  | loop => exact hn.1 x hx
  | _ => exact hn.elim

theorem Setting.old (h : Setting truth P ρ fresh G₀ S G c i) {n : Node V} (hn : n ∈ G) {x : String} (hx : x ∈ n.outs) (hp : P.place x ≠ .outside) : n ∈ G₀ :=
  (h.inv.kinds n hn).resolve_right (fun hN => hp (h.newOuts hN hx))

/-- The producer of a tensor of the loop. -/
theorem Setting.producer (h : Setting truth P ρ fresh G₀ S G c i) {n : Node V} (hn : n ∈ G₀) {x : String} (hx : x ∈ n.outs) (hl : (P.place x).loop = some c) :
    producer G x = some n := producer_eq h.inv.nodup (h.live hn hx hl) hx

/-- A tensor of the loop has a producer, which is still there. -/
theorem Setting.source (h : Setting truth P ρ fresh G₀ S G c i) {x : String} (hx : Produced G₀ x) (hl : (P.place x).loop = some c) :
    ∃ n ∈ G₀, n ∈ G ∧ x ∈ n.outs ∧ Verif.While.producer G x = some n := by
  obtain ⟨n, hn, hxn⟩ := hx
  exact ⟨n, hn, h.live hn hxn hl, hxn, h.producer hn hxn hl⟩

/-- Who produces a tensor brought into the loop. -/
theorem entered_producer {n : Node V} (hn : Made P G₀ n) {x : String} (hx : x ∈ n.outs) (hp : P.place x = .entered c) : ∃ j, n = .enter true j x ∧ P.place j = .outside := by
  cases n with
  | op t f ins outs =>
    obtain ⟨⟨κ, hκ, h1, -⟩, -⟩ := hn
    rw [h1 x hx] at hp
    subst hp
    rcases hκ with h | ⟨_, h⟩ | ⟨_, h⟩ <;> cases h
  | enter k j o =>
    obtain ⟨h1, -, c', h3⟩ := hn
    have : x = o := by simpa [Node.outs] using hx
    subst this
    cases k with
    | true => exact ⟨j, rfl, h1⟩
    | false => rw [hp] at h3; cases h3
  | merge a b o =>
    obtain ⟨_, _, _, _, _, h1, -⟩ := hn
    have : x = o := by simpa [Node.outs] using hx
    subst this
    rw [h1] at hp
    cases hp
  | switch d p o0 o1 =>
    obtain ⟨-, -, -, h0, h1, -⟩ := hn
    have : x = o0 ∨ x = o1 := by simpa [Node.outs] using hx
    rcases this with rfl | rfl
    · rw [h0] at hp; cases hp
    · rw [h1] at hp; cases hp
  | loopCond j o =>
    obtain ⟨-, h1, -⟩ := hn
    have : x = o := by simpa [Node.outs] using hx
    subst this
    rw [h1] at hp
    cases hp
  | next j o =>
    obtain ⟨_, -, h1⟩ := hn
    have : x = o := by simpa [Node.outs] using hx
    subst this
    rw [h1] at hp
    cases hp
  | exit j o =>
    obtain ⟨_, _, _, -, h1, -⟩ := hn
    have : x = o := by simpa [Node.outs] using hx
    subst this
    rw [h1] at hp
    cases hp
  | loop => exact hn.elim

/-- Who produces a tensor of the condition. -/
theorem head_producer {n : Node V} (hn : Made P G₀ n) {x : String} (hx : x ∈ n.outs) (hp : P.place x = .head c) :
    (∃ t f ins outs, n = .op t f ins outs ∧ (∀ o ∈ outs, P.place o = .head c) ∧ (∀ z ∈ ins, P.place z = .head c ∨ P.place z = .entered c)) ∨ ∃ a b, n = .merge a b x := by
  cases n with
  | op t f ins outs =>
    obtain ⟨⟨κ, hκ, h1, h2⟩, -⟩ := hn
    have := h1 x hx
    rw [hp] at this
    subst this
    left
    refine ⟨t, f, ins, outs, rfl, h1, fun z hz => ?_⟩
    rcases h2 z hz with h | ⟨c', h, h' | h'⟩
    · exact Or.inl h
    · cases h'
      exact Or.inr h
    · cases h'
  | enter k j o =>
    obtain ⟨-, -, c', h3⟩ := hn
    have : x = o := by simpa [Node.outs] using hx
    subst this
    rw [hp] at h3
    split at h3 <;> cases h3
  | merge a b o =>
    have : x = o := by simpa [Node.outs] using hx
    subst this
    exact Or.inr ⟨a, b, rfl⟩
  | switch d p o0 o1 =>
    obtain ⟨-, -, -, h0, h1, -⟩ := hn
    have : x = o0 ∨ x = o1 := by simpa [Node.outs] using hx
    rcases this with rfl | rfl
    · rw [h0] at hp; cases hp
    · rw [h1] at hp; cases hp
  | loopCond j o =>
    obtain ⟨-, h1, -⟩ := hn
    have : x = o := by simpa [Node.outs] using hx
    subst this
    rw [h1] at hp
    cases hp
  | next j o =>
    obtain ⟨_, -, h1⟩ := hn
    have : x = o := by simpa [Node.outs] using hx
    subst this
    rw [h1] at hp
    cases hp
  | exit j o =>
    obtain ⟨_, _, _, -, h1, -⟩ := hn
    have : x = o := by simpa [Node.outs] using hx
    subst this
    rw [h1] at hp
    cases hp
  | loop => exact hn.elim

/-- Who produces a tensor of the body. -/
theorem body_producer {n : Node V} (hn : Made P G₀ n) {x : String} (hx : x ∈ n.outs) (hp : P.place x = .body c) :
    (∃ t f ins outs, n = .op t f ins outs ∧ (∀ o ∈ outs, P.place o = .body c) ∧ (∀ z ∈ ins, P.place z = .body c ∨ P.place z = .entered c)) ∨ ∃ d o0, n = .switch d c o0 x := by
  cases n with
  | op t f ins outs =>
    obtain ⟨⟨κ, hκ, h1, h2⟩, -⟩ := hn
    have := h1 x hx
    rw [hp] at this
    subst this
    left
    refine ⟨t, f, ins, outs, rfl, h1, fun z hz => ?_⟩
    rcases h2 z hz with h | ⟨c', h, h' | h'⟩
    · exact Or.inl h
    · cases h'
    · cases h'
      exact Or.inr h
  | enter k j o =>
    obtain ⟨-, -, c', h3⟩ := hn
    have : x = o := by simpa [Node.outs] using hx
    subst this
    rw [hp] at h3
    split at h3 <;> cases h3
  | merge a b o =>
    obtain ⟨_, _, _, _, _, h1, -⟩ := hn
    have : x = o := by simpa [Node.outs] using hx
    subst this
    rw [h1] at hp
    cases hp
  | switch d p o0 o1 =>
    obtain ⟨-, -, -, h0, h1, -⟩ := hn
    have : x = o0 ∨ x = o1 := by simpa [Node.outs] using hx
    rcases this with rfl | rfl
    · rw [h0] at hp; cases hp
    · rw [h1] at hp
      cases hp
      exact Or.inr ⟨d, o0, rfl⟩
  | loopCond j o =>
    obtain ⟨-, h1, -⟩ := hn
    have : x = o := by simpa [Node.outs] using hx
    subst this
    rw [h1] at hp
    cases hp
  | next j o =>
    obtain ⟨_, -, h1⟩ := hn
    have : x = o := by simpa [Node.outs] using hx
    subst this
    rw [h1] at hp
    cases hp
  | exit j o =>
    obtain ⟨_, _, _, -, h1, -⟩ := hn
    have : x = o := by simpa [Node.outs] using hx
    subst this
    rw [h1] at hp
    cases hp
  | loop => exact hn.elim

end Verif.While
