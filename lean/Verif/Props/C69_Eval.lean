import Verif.Props.C69_Worklist
/-!
# C69: a graph of conditionals that a run obeys gives the values of the run
-/
namespace Verif.Cond
variable {V : Type}

section
variable (truth : V → Bool) (P : Plan) (ρ : String → Option V)

/-- An Identity that brings a tensor into a branch. -/
def Entry (κ κ' : Path) (n : Node V) : Prop :=
  ∃ x y, n = identity x y ∧ P.label x = κ ∧ P.label y = κ' ∧ P.rank x < P.rank y ∧ ∀ v, ρ y = some v → ρ x = some v

mutual
/-- A node of the branch `κ` that the run obeys, with everything within it. -/
def Ok (κ : Path) : Node V → Prop
  | .op t f ins outs => (∀ x ∈ ins, P.label x = κ) ∧ (∀ o ∈ outs, P.label o = κ) ∧ (∀ x ∈ ins, ∀ o ∈ outs, P.rank x < P.rank o) ∧ Fires truth ρ (.op t f ins outs)
  | .switch .. => False
  | .merge .. => False
  | .cond p outs tn to_ en eo => P.label p = κ ∧ (∀ o ∈ outs, P.label o = κ) ∧ (∀ o ∈ outs, P.rank p < P.rank o) ∧
      (∀ (k : Nat) (o x : String), outs[k]? = some o → to_[k]? = some x ∨ eo[k]? = some x → P.rank x < P.rank o) ∧
      (∀ (k : Nat) (o : String) (v : V), outs[k]? = some o → ρ o = some v → ∃ q x, ρ p = some q ∧ (if truth q then to_ else eo)[k]? = some x ∧ ρ x = some v) ∧
      ∃ s, ((tn.flatMap Node.outs).Nodup ∧ OkAll κ s true tn tn ∧ ∀ x ∈ to_, P.label x = κ ++ [(s, true)] ∧ Produced tn x) ∧
        ((en.flatMap Node.outs).Nodup ∧ OkAll κ s false en en ∧ ∀ x ∈ eo, P.label x = κ ++ [(s, false)] ∧ Produced en x)

/-- The nodes of the body `N` of branch `b` of the conditional `s` at `κ`. -/
def OkAll (κ : Path) (s : List String) (b : Bool) (N : List (Node V)) : List (Node V) → Prop
  | [] => True
  | n :: l => ((Ok (κ ++ [(s, b)]) n ∧ ∀ x ∈ n.uses, Produced N x) ∨ Entry P ρ κ (κ ++ [(s, b)]) n) ∧ OkAll κ s b N l
end

theorem okAll_iff (κ : Path) (s : List String) (b : Bool) (N l : List (Node V)) :
    OkAll truth P ρ κ s b N l ↔ ∀ n ∈ l, ((Ok truth P ρ (κ ++ [(s, b)]) n ∧ ∀ x ∈ n.uses, Produced N x) ∨ Entry P ρ κ (κ ++ [(s, b)]) n) := by
  induction l with
  | nil => simp [OkAll]
  | cons n l ih => rw [OkAll, ih, List.forall_mem_cons]

/-- Every output of a node at `κ` is labelled `κ`. -/
theorem ok_outs {κ : Path} {n : Node V} (h : Ok truth P ρ κ n) : ∀ o ∈ n.outs, P.label o = κ := by
  cases n with
  | op t f ins outs => rw [Ok] at h; exact h.2.1
  | switch => rw [Ok] at h; exact h.elim
  | merge => rw [Ok] at h; exact h.elim
  | cond p outs tn to_ en eo => rw [Ok] at h; exact h.2.1

theorem entry_outs {κ κ' : Path} {n : Node V} (h : Entry P ρ κ κ' n) : ∀ o ∈ n.outs, P.label o = κ' := by
  obtain ⟨x, y, rfl, -, h, -⟩ := h
  intro o ho
  simp only [identity, Node.outs, List.mem_singleton] at ho
  rw [ho, h]

theorem body_outs {κ : Path} {s : List String} {b : Bool} {N : List (Node V)} (h : OkAll truth P ρ κ s b N N) {x : String} (hx : Produced N x) :
    P.label x = κ ++ [(s, b)] := by
  obtain ⟨n, hn, hx⟩ := hx
  rcases (okAll_iff truth P ρ κ s b N N).1 h n hn with h | h
  · exact ok_outs truth P ρ h.1 x hx
  · exact entry_outs P ρ h x hx

/-- The graphs a tensor of the branch `κ` is looked up in. -/
def Stack : Path → List (List (Node V)) → Prop
  | κ, [G] => κ = [] ∧ (G.flatMap Node.outs).Nodup ∧ ∀ n ∈ G, ∀ o ∈ n.outs, P.label o = [] → Ok truth P ρ [] n ∧ ∀ x ∈ n.uses, Produced G x
  | κ, N :: G :: st => ∃ κ' s b, κ = κ' ++ [(s, b)] ∧ (N.flatMap Node.outs).Nodup ∧ OkAll truth P ρ κ' s b N N ∧
      (∀ n ∈ N, ∀ x y, n = identity x y → P.label x = κ' → Produced G x) ∧ Stack κ' (G :: st)
  | _, [] => False

theorem stack_nodup {κ : Path} {G : List (Node V)} {st : List (List (Node V))} (h : Stack truth P ρ κ (G :: st)) : (G.flatMap Node.outs).Nodup := by
  cases st with
  | nil => exact h.2.1
  | cons H st =>
    obtain ⟨κ', s, b, -, h, -⟩ := h
    exact h

theorem stack_node {κ : Path} {G : List (Node V)} {st : List (List (Node V))} (h : Stack truth P ρ κ (G :: st)) {n : Node V} (hn : n ∈ G) {o : String} (ho : o ∈ n.outs)
    (hl : P.label o = κ) : (Ok truth P ρ κ n ∧ ∀ x ∈ n.uses, Produced G x) ∨
      ∃ κ' x y H st', n = identity x y ∧ st = H :: st' ∧ P.label x = κ' ∧ P.rank x < P.rank y ∧ (∀ v, ρ y = some v → ρ x = some v) ∧ Stack truth P ρ κ' st ∧ Produced H x ∧ ¬ Produced G x := by
  cases st with
  | nil =>
    obtain ⟨rfl, hu, h⟩ := h
    exact Or.inl (h n hn o ho hl)
  | cons H st =>
    obtain ⟨κ', s, b, rfl, hu, hall, hent, hst⟩ := h
    rcases (okAll_iff truth P ρ κ' s b G G).1 hall n hn with h | h
    · exact Or.inl h
    · obtain ⟨x, y, rfl, h1, h2, h3, h4⟩ := h
      refine Or.inr ⟨κ', x, y, H, st, rfl, rfl, h1, h3, h4, hst, hent _ hn x y rfl h1, fun hp => ?_⟩
      have := body_outs truth P ρ hall hp
      rw [h1] at this
      have := congrArg List.length this
      simp at this

theorem mapM_vals {A B : Type} {f g : A → Option B} {l : List A} {vs : List B} (h : l.mapM f = some vs) (hg : ∀ x ∈ l, ∀ v, f x = some v → g x = some v) : l.mapM g = some vs := by
  induction l generalizing vs with
  | nil => simpa using h
  | cons a l ih =>
    rw [List.mapM_cons] at h ⊢
    cases ha : f a with
    | none => rw [ha] at h; cases h
    | some v =>
      rw [ha] at h
      cases hl : l.mapM f with
      | none => simp [hl] at h
      | some ws =>
        simp [hl] at h
        rw [hg a (by simp) v ha]
        simp [ih hl (fun x hx => hg x (by simp [hx])), h]

/-- Where enough fuel exists for each of finitely many, it does for all. -/
theorem enough {A : Type} (l : List A) (Q : A → Nat → Prop) (h : ∀ a ∈ l, ∃ k, ∀ fuel, k ≤ fuel → Q a fuel) : ∃ k, ∀ fuel, k ≤ fuel → ∀ a ∈ l, Q a fuel := by
  induction l with
  | nil => exact ⟨0, by simp⟩
  | cons a l ih =>
    obtain ⟨k1, h1⟩ := h a (by simp)
    obtain ⟨k2, h2⟩ := ih (fun b hb => h b (by simp [hb]))
    refine ⟨max k1 k2, fun fuel hf b hb => ?_⟩
    rcases List.mem_cons.1 hb with rfl | hb
    · exact h1 fuel (by omega)
    · exact h2 fuel (by omega) b hb

/-- The entries of a body are used by its node, unless they are produced within. -/
theorem entry_uses {p : String} {outs : List String} {tn en : List (Node V)} {to_ eo : List String} {n : Node V} {x y : String} (hn : n ∈ tn ∨ n ∈ en) (h : n = identity x y)
    (hx : x ∉ (innerAll tn).2 ++ (innerAll en).2) : x ∈ (Node.cond p outs tn to_ en eo).uses := by
  have key : ∀ l : List (Node V), n ∈ l → x ∈ (innerAll l).1 := by
    intro l hl
    induction l with
    | nil => cases hl
    | cons a l ih =>
      rw [innerAll]
      rcases List.mem_cons.1 hl with rfl | hl
      · simp [h, identity, Node.ins]
      · simp [ih hl]
  unfold Node.uses
  rw [List.mem_append, List.mem_filter]
  right
  refine ⟨?_, by simpa [Node.inner] using hx⟩
  rw [Node.inner]
  rcases hn with hn | hn
  · simp [key tn hn]
  · simp [key en hn]

mutual
/-- Everything within a node at `κ` has a longer label. -/
theorem inner_lab (κ : Path) : ∀ n : Node V, Ok truth P ρ κ n → ∀ x ∈ n.inner.2, κ.length < (P.label x).length
  | .op .., _ => by simp [Node.inner]
  | .switch .., _ => by simp [Node.inner]
  | .merge .., _ => by simp [Node.inner]
  | .cond p outs tn to_ en eo, h => by
    rw [Ok] at h
    obtain ⟨-, -, -, -, -, s, ⟨-, h1, -⟩, -, h2, -⟩ := h
    intro x hx
    rw [Node.inner] at hx
    rcases List.mem_append.1 hx with hx | hx
    · exact innerAll_lab κ s true tn tn h1 x hx
    · exact innerAll_lab κ s false en en h2 x hx

theorem innerAll_lab (κ : Path) (s : List String) (b : Bool) (N : List (Node V)) : ∀ l : List (Node V), OkAll truth P ρ κ s b N l → ∀ x ∈ (innerAll l).2, κ.length < (P.label x).length
  | [], _ => by simp [innerAll]
  | n :: l, h => by
    rw [OkAll] at h
    intro x hx
    rw [innerAll] at hx
    simp only [List.mem_append] at hx
    rcases hx with (hx | hx) | hx
    · rcases h.1 with h1 | h1
      · rw [ok_outs truth P ρ h1.1 x hx]; simp
      · rw [entry_outs P ρ h1 x hx]; simp
    · rcases h.1 with h1 | h1
      · have := inner_lab (κ ++ [(s, b)]) n h1.1 x hx
        simp at this
        omega
      · obtain ⟨_, _, rfl, -⟩ := h1
        simp [identity, Node.inner] at hx
    · exact innerAll_lab κ s b N l h.2 x hx
end

/-- **The values**: a tensor of the branch `κ` that the run gives a value has this value. -/
theorem eval_run (r : Nat) : ∀ (κ : Path) (G : List (Node V)) (st : List (List (Node V))) (x : String) (v : V), P.rank x < r → Stack truth P ρ κ (G :: st) → P.label x = κ →
    Produced G x → ρ x = some v → ∃ k, ∀ fuel, k ≤ fuel → eval truth fuel (G :: st) x = some v := by
  induction r with
  | zero => intro κ G st x v h; omega
  | succ r ih =>
    intro κ G st x v hr hst hl hp hv
    obtain ⟨n, hn, hx⟩ := hp
    have hu := stack_nodup truth P ρ hst
    have hpr := producer_eq hu hn hx
    have hix : ∀ outs : List String, x ∈ outs → outs[outs.idxOf x]? = some x := fun outs ho => by
      rw [List.getElem?_eq_getElem (List.idxOf_lt_length_of_mem ho), List.getElem_idxOf]
    rcases stack_node truth P ρ hst hn hx hl with ⟨hok, hus⟩ | ⟨κ', a, y, H, st', rfl, rfl, ha, hrk, hρ, hst', hpa, hna⟩
    · cases n with
      | switch => rw [Ok] at hok; exact hok.elim
      | merge => rw [Ok] at hok; exact hok.elim
      | op t f ins outs =>
        rw [Ok] at hok
        obtain ⟨hi, ho, hrk, hf⟩ := hok
        obtain ⟨vs, hvs, hk⟩ := hf (outs.idxOf x) x v (hix outs hx) hv
        have hall : ∃ k, ∀ fuel, k ≤ fuel → ∀ a ∈ ins, ∀ w, ρ a = some w → eval truth fuel (G :: st) a = some w := by
          refine enough ins (fun a fuel => ∀ w, ρ a = some w → eval truth fuel (G :: st) a = some w) (fun a ha => ?_)
          cases hw : ρ a with
          | none => exact ⟨0, by simp⟩
          | some w =>
            have hr' := hrk a ha x hx
            obtain ⟨k, hk⟩ := ih κ G st a w (by omega) hst (hi a ha) (hus a (by simp [Node.uses, Node.ins, ha])) hw
            exact ⟨k, fun fuel hf w' hw' => by cases hw'; exact hk fuel hf⟩
        obtain ⟨k, hk'⟩ := hall
        refine ⟨k + 1, fun fuel hf => ?_⟩
        obtain ⟨fuel, rfl⟩ : ∃ m, fuel = m + 1 := ⟨fuel - 1, by omega⟩
        rw [eval, hpr]
        simp only
        rw [mapM_vals hvs (fun a ha w hw => hk' fuel (by omega) a ha w hw)]
        exact hk
      | cond p outs tn to_ en eo =>
        have hok' := hok
        rw [Ok] at hok
        obtain ⟨hp, ho, hrp, hro, hsem, s, ⟨htu, hta, hto⟩, heu, hea, heo⟩ := hok
        have hx' : x ∈ outs := hx
        obtain ⟨q, z, hq, hz, hzv⟩ := hsem (outs.idxOf x) x v (hix outs hx') hv
        obtain ⟨k1, hk1⟩ := ih κ G st p q (by have := hrp x hx'; omega) hst hp (hus p (by simp [Node.uses, Node.ins])) hq
        have hent : ∀ n, n ∈ tn ∨ n ∈ en → ∀ a y, n = identity a y → P.label a = κ → Produced G a := by
          intro n hn a y hid hla
          apply hus
          refine entry_uses hn hid (fun hin => ?_)
          have := inner_lab truth P ρ κ _ hok' a (by rw [Node.inner]; exact hin)
          rw [hla] at this
          omega
        cases ht : truth q with
        | true =>
          rw [ht] at hz
          simp only [if_true] at hz
          have hzm := List.mem_of_getElem? hz
          obtain ⟨k2, hk2⟩ := ih (κ ++ [(s, true)]) tn (G :: st) z v (by have := hro _ x z (hix outs hx') (Or.inl hz); omega)
            ⟨κ, s, true, rfl, htu, hta, fun n hn a y => hent n (Or.inl hn) a y, hst⟩ (hto z hzm).1 (hto z hzm).2 hzv
          refine ⟨max k1 k2 + 1, fun fuel hf => ?_⟩
          obtain ⟨fuel, rfl⟩ : ∃ m, fuel = m + 1 := ⟨fuel - 1, by omega⟩
          rw [eval, hpr]
          simp only
          rw [hk1 fuel (by omega)]
          simp only [Option.bind_some, ht, if_true]
          rw [hz]
          exact hk2 fuel (by omega)
        | false =>
          rw [ht] at hz
          simp only [Bool.false_eq_true, if_false] at hz
          have hzm := List.mem_of_getElem? hz
          obtain ⟨k2, hk2⟩ := ih (κ ++ [(s, false)]) en (G :: st) z v (by have := hro _ x z (hix outs hx') (Or.inr hz); omega)
            ⟨κ, s, false, rfl, heu, hea, fun n hn a y => hent n (Or.inr hn) a y, hst⟩ (heo z hzm).1 (heo z hzm).2 hzv
          refine ⟨max k1 k2 + 1, fun fuel hf => ?_⟩
          obtain ⟨fuel, rfl⟩ : ∃ m, fuel = m + 1 := ⟨fuel - 1, by omega⟩
          rw [eval, hpr]
          simp only
          rw [hk1 fuel (by omega)]
          simp only [Option.bind_some, ht, Bool.false_eq_true, if_false]
          rw [hz]
          exact hk2 fuel (by omega)
    · have hxy : x = y := by simpa [identity, Node.outs] using hx
      subst hxy
      have hst2 := hst'
      obtain ⟨k, hk⟩ := ih κ' H st' a v (by omega) hst2 ha hpa (hρ v hv)
      refine ⟨k + 2, fun fuel hf => ?_⟩
      obtain ⟨fuel, rfl⟩ : ∃ m, fuel = m + 2 := ⟨fuel - 2, by omega⟩
      rw [eval, hpr]
      simp only [identity]
      have e1 : eval truth (fuel + 1) (G :: H :: st') a = some v := by
        rw [eval, producer_none hna]
        exact hk fuel (by omega)
      simp [e1]

end
end Verif.Cond
