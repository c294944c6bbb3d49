import Verif.Props.C70_Inv
/-!
# C70: loops of TensorFlow 1 become `Loop` nodes that compute the same
-/
namespace Verif.While
variable {V : Type} {truth : V → Bool} {P : Plan} {ρ : String → Nat → Option V} {G₀ G : List (Node V)} {S : List String} {c i : String}
  {fresh : String → String → String → String} {shapeKnown : String → Bool}

/-! ## All loops -/

theorem rewriteLoop_ok {G' : List (Node V)} (h : rewriteLoop fresh shapeKnown G c i = .ok G') :
    ∃ vs, varsOf G c = .ok vs ∧ (∀ m ∈ mergesMet G (condOf G vs i) i, m ∈ vs.map Var.merge) ∧ G' = loopGraph fresh G c i vs := by
  unfold rewriteLoop at h
  cases hv : varsOf G c with
  | error e => rw [hv] at h; cases h
  | ok vs =>
    rw [hv] at h
    simp only [Except.bind] at h
    split at h
    · cases h
    · rename_i hm
      split at h
      · cases h
      · cases h
        exact ⟨vs, rfl, Classical.not_not.1 hm, rfl⟩

theorem runLoops_inv (hmade : TfMade P G₀) (hplain : Plain P G₀) (hnames : Fresh fresh G₀) (hext : Ext fresh G₀ P ρ) (hrun : Run truth P G₀ ρ) (l : List (String × String)) :
    ∀ S G G', (∀ p ∈ l, Node.loopCond p.1 p.2 ∈ G₀ ∧ p.2 ∉ S) → (l.map Prod.snd).Nodup → Inv truth P ρ fresh G₀ S G → runLoops fresh shapeKnown l G = .ok G' →
      ∃ S', (∀ c ∈ S, c ∈ S') ∧ (∀ p ∈ l, p.2 ∈ S') ∧ Inv truth P ρ fresh G₀ S' G' := by
  induction l with
  | nil =>
    intro S G G' _ _ hinv hr
    cases hr
    exact ⟨S, fun _ h => h, by simp, hinv⟩
  | cons p l ih =>
    intro S G G' hl hnd hinv hr
    obtain ⟨i, c⟩ := p
    unfold runLoops at hr
    cases h1 : rewriteLoop fresh shapeKnown G c i with
    | error e => rw [h1] at hr; cases hr
    | ok G1 =>
      rw [h1] at hr
      simp only [Except.bind] at hr
      obtain ⟨hc, hcS⟩ := hl (i, c) (by simp)
      have hset : Setting truth P ρ fresh G₀ S G c i := ⟨hmade, hplain, hnames, hext, hrun, hinv, hcS, hc⟩
      obtain ⟨vs, hvs, hm, rfl⟩ := rewriteLoop_ok h1
      rw [List.map_cons, List.nodup_cons] at hnd
      have hrest : ∀ p ∈ l, Node.loopCond p.1 p.2 ∈ G₀ ∧ p.2 ∉ c :: S := by
        intro p hp
        refine ⟨(hl p (by simp [hp])).1, fun hps => ?_⟩
        rcases List.mem_cons.1 hps with h' | h'
        · exact hnd.1 (h' ▸ List.mem_map.2 ⟨p, hp, rfl⟩)
        · exact (hl p (by simp [hp])).2 h'
      obtain ⟨S', hS', hl', hI⟩ := ih (c :: S) _ G' hrest hnd.2 (hset.step (hset.vars hvs) hm) hr
      refine ⟨S', fun x hx => hS' x (by simp [hx]), fun p hp => ?_, hI⟩
      rcases List.mem_cons.1 hp with rfl | hp
      · exact hS' c (by simp)
      · exact hl' p hp

theorem mem_loopConds {G : List (Node V)} {p : String × String} : p ∈ loopConds G ↔ Node.loopCond p.1 p.2 ∈ G := by
  unfold loopConds
  rw [List.mem_filterMap]
  constructor
  · rintro ⟨n, hn, h⟩
    split at h
    · cases h
      exact hn
    · cases h
  · intro h
    exact ⟨_, h, rfl⟩

theorem loopConds_nodup {G : List (Node V)} (hu : (G.flatMap Node.outs).Nodup) : ((loopConds G).map Prod.snd).Nodup := by
  have : ((loopConds G).map Prod.snd).Sublist (G.flatMap Node.outs) := by
    clear hu
    induction G with
    | nil => simp [loopConds]
    | cons n G ih =>
      unfold loopConds at ih ⊢
      rw [List.filterMap_cons, List.flatMap_cons]
      cases n with
      | loopCond i c =>
        simp only [List.map_cons, Node.outs, List.cons_append, List.nil_append]
        exact ih.cons_cons c
      | _ => exact ih.trans (List.sublist_append_right _ _)
  exact this.nodup hu

/-! ## The value of a tensor -/

theorem eval_loop {fuel : Nat} {env : String → Option V} {x c : String} {inits outs : List String} {body : List (Node V)} {bi : List String} {bc : String} {bo : List String}
    (hp : producer G x = some (.loop c inits outs body bi bc bo)) : eval truth (fuel + 1) env G x = (eval truth fuel env G c).bind (fun q =>
      (inits.mapM (eval truth fuel env G)).bind (fun vs => (iterate truth fuel (eval truth fuel env G) body bi bc bo maxTrip q vs).bind (fun r => r[outs.idxOf x]?))) := by
  rw [eval, hp]

/-- A common bound. -/
theorem uniform {A : Type} (l : List A) (Q : A → Nat → Prop) (mono : ∀ a k k', k ≤ k' → Q a k → Q a k') (h : ∀ a ∈ l, ∃ k, Q a k) : ∃ k, ∀ a ∈ l, Q a k := by
  induction l with
  | nil => exact ⟨0, by simp⟩
  | cons a l ih =>
    obtain ⟨k, hk⟩ := ih (fun b hb => h b (by simp [hb]))
    obtain ⟨k', hk'⟩ := h a (by simp)
    refine ⟨k + k', fun b hb => ?_⟩
    rcases List.mem_cons.1 hb with rfl | hb
    · exact mono _ _ _ (by omega) hk'
    · exact mono _ _ _ (by omega) (hk b hb)

theorem consts_given (hinv : Inv truth P ρ fresh G₀ S G) (fuel : Nat) (env : String → Option V) : GivesConsts G₀ (eval truth (fuel + 1) env G) := by
  intro f outs hn y hy
  have hG : Node.op "Const" f [] outs ∈ G := by
    apply Classical.byContradiction
    intro hg
    obtain ⟨c', -, ⟨h', -⟩ | ⟨_, _, h', -⟩⟩ := hinv.gone _ hn hg
    · simp [Node.isConst] at h'
    · cases h'
  rw [eval_op (producer_eq hinv.nodup hG hy)]
  simp

theorem evaluates (hmade : TfMade P G₀) (hrun : Run truth P G₀ ρ) (hinv : Inv truth P ρ fresh G₀ S G) (hall : ∀ i c, Node.loopCond i c ∈ G₀ → c ∈ S) (r : Nat) :
    ∃ K, ∀ x, P.rank x < r → P.place x = .outside → Produced G x → ∀ v, ρ x 0 = some v → ∀ fuel, K ≤ fuel → eval truth fuel (fun _ => none) G x = some v := by
  induction r with
  | zero => exact ⟨0, fun x h => by omega⟩
  | succ r ih =>
    obtain ⟨K, hK⟩ := ih
    have all : ∀ x ∈ G.flatMap Node.outs, ∃ k, P.rank x < r + 1 → P.place x = .outside → ∀ v, ρ x 0 = some v →
        ∀ fuel, k ≤ fuel → eval truth fuel (fun _ => none) G x = some v := by
      intro x hx
      obtain ⟨n, hn, hxn⟩ := List.mem_flatMap.1 hx
      have hpr := producer_eq hinv.nodup hn hxn
      by_cases hcase : P.rank x < r + 1 ∧ P.place x = .outside ∧ ∃ v, ρ x 0 = some v
      swap
      · exact ⟨0, fun h1 h2 v hv => absurd ⟨h1, h2, v, hv⟩ hcase⟩
      obtain ⟨hr, hp, v, hv⟩ := hcase
      suffices hs : ∃ k, ∀ fuel, k ≤ fuel → eval truth fuel (fun _ => none) G x = some v by
        obtain ⟨k, hk⟩ := hs
        refine ⟨k, fun _ _ v' hv' fuel hf => ?_⟩
        rw [hv] at hv'
        cases hv'
        exact hk fuel hf
      rcases hinv.kinds n hn with h0 | hN
      · cases n with
        | op t f ins outs =>
          refine ⟨K + 1, fun fuel hf => ?_⟩
          obtain ⟨fuel, rfl⟩ : ∃ k, fuel = k + 1 := ⟨fuel - 1, by omega⟩
          rw [eval_op hpr]
          have hk := List.getElem?_eq_getElem (List.idxOf_lt_length_of_mem hxn)
          rw [List.getElem_idxOf] at hk
          obtain ⟨us, hus, hfv⟩ := hrun.fires _ h0 0 _ x v hk hv
          obtain ⟨⟨κ, -, hκ, hκ'⟩, hrank, -⟩ := hmade.nodes _ h0
          have e1 := hκ x hxn
          rw [hp] at e1
          subst e1
          have hm : (ins.map id).mapM (eval truth fuel (fun _ => none) G) = some us := by
            refine mapM_other hus (fun z hz u hu => ?_)
            have hzr := hrank z hz x hxn
            have hzp : P.place z = .outside := by
              rcases hκ' z hz with h' | ⟨_, -, h' | h'⟩
              · exact h'
              · cases h'
              · cases h'
            exact hK z (by omega) hzp (hinv.prod z (hmade.closed _ h0 z hz) hzp) u hu fuel (by omega)
          rw [List.map_id] at hm
          rw [hm]
          exact hfv
        | exit j o =>
          exfalso
          obtain ⟨c', d, o1, hsw, -⟩ := hmade.nodes _ h0
          obtain ⟨⟨i', hlc⟩, -, -, he, -⟩ := hmade.nodes _ hsw
          exact hinv.left j o hn c' (hall i' c' hlc) he
        | enter k j o =>
          exfalso
          obtain ⟨-, -, c', h3⟩ := hmade.nodes _ h0
          have : x = o := by simpa [Node.outs] using hxn
          subst this
          rw [hp] at h3
          split at h3 <;> cases h3
        | merge a b o =>
          exfalso
          obtain ⟨_, _, _, _, _, h1, -⟩ := hmade.nodes _ h0
          have : x = o := by simpa [Node.outs] using hxn
          subst this
          rw [hp] at h1
          cases h1
        | switch d p o0 o1 =>
          exfalso
          obtain ⟨-, -, -, h0', h1, -⟩ := hmade.nodes _ h0
          have : x = o0 ∨ x = o1 := by simpa [Node.outs] using hxn
          rcases this with rfl | rfl
          · rw [hp] at h0'; cases h0'
          · rw [hp] at h1; cases h1
        | loopCond j o =>
          exfalso
          obtain ⟨-, h1, -⟩ := hmade.nodes _ h0
          have : x = o := by simpa [Node.outs] using hxn
          subst this
          rw [hp] at h1
          cases h1
        | next j o =>
          exfalso
          obtain ⟨_, -, h1⟩ := hmade.nodes _ h0
          have : x = o := by simpa [Node.outs] using hxn
          subst this
          rw [hp] at h1
          cases h1
        | loop => exact (hmade.nodes _ h0).elim
      · cases n with
        | op t f ins outs =>
          obtain ⟨hins, -, hnd, hval⟩ := hN
          refine ⟨K + 2, fun fuel hf => ?_⟩
          obtain ⟨fuel, rfl⟩ : ∃ k, fuel = k + 2 := ⟨fuel - 2, by omega⟩
          rw [eval_op hpr]
          have hk := List.getElem?_eq_getElem (List.idxOf_lt_length_of_mem hxn)
          rw [List.getElem_idxOf] at hk
          obtain ⟨us, hfv, henv⟩ := hval _ x v hk hv
          rw [henv _ (consts_given hinv fuel _) ?_]
          · exact hfv
          · intro z hz hzp u hu
            rcases hins z hz with ⟨f', outs', h0, hzo⟩ | ⟨-, h2, h3⟩
            · have hw : ρ z 0 = some u := hu
              have hk' := List.getElem?_eq_getElem (List.idxOf_lt_length_of_mem hzo)
              rw [List.getElem_idxOf] at hk'
              obtain ⟨ws, hws, hfw⟩ := hrun.fires _ h0 0 _ z u hk' hw
              simp only [List.mapM_nil, Option.pure_def, Option.some.injEq] at hws
              subst hws
              rw [consts_given hinv fuel _ f' outs' h0 z hzo, hfw]
            · have := h3 x hxn
              exact hK z (by omega) hzp h2 u hu (fuel + 1) (by omega)
        | loop cn inits outs body bi bc bo =>
          obtain ⟨k, hk⟩ := hN.2 x hxn v hv
          refine ⟨K + k + 2, fun fuel hf => ?_⟩
          obtain ⟨fuel, rfl⟩ : ∃ k, fuel = k + 2 := ⟨fuel - 2, by omega⟩
          rw [eval_loop hpr]
          exact hk (fuel + 1) (by omega) _ (consts_given hinv fuel _) (fun y h1 h2 h3 w hw => hK y (by omega) h1 h2 w hw (fuel + 1) (by omega))
        | _ => exact hN.elim
    obtain ⟨K', hK'⟩ := uniform (G.flatMap Node.outs) (fun x k => P.rank x < r + 1 → P.place x = .outside → ∀ v, ρ x 0 = some v →
      ∀ fuel, k ≤ fuel → eval truth fuel (fun _ => none) G x = some v) (fun a k k' hk hq h1 h2 v hv fuel hf => hq h1 h2 v hv fuel (by omega)) all
    refine ⟨K', fun x hr hp hprod => ?_⟩
    obtain ⟨n, hn, hxn⟩ := hprod
    exact hK' x (List.mem_flatMap.2 ⟨n, hn, hxn⟩) hr hp

/-! ## New names -/

open Classical in
/-- The plan with new names. -/
noncomputable def Plan.with (P : Plan) (fresh : String → String → String → String) : Plan where
  place := fun x => if ∃ k c y, x = fresh k c y then .outside else P.place x
  rank := fun x => if h : ∃ k c y, x = fresh k c y then P.rank h.choose_spec.choose_spec.choose else P.rank x

open Classical in
/-- The run with new names. -/
noncomputable def runWith (ρ : String → Nat → Option V) (fresh : String → String → String → String) (x : String) (t : Nat) : Option V :=
  if h : ∃ k c y, x = fresh k c y then (if h.choose = "copy" then ρ h.choose_spec.choose_spec.choose t else none) else ρ x t

theorem with_old (hf : Fresh fresh G₀) {x : String} (hx : Produced G₀ x) : (P.with fresh).place x = P.place x ∧ (P.with fresh).rank x = P.rank x ∧ ∀ t, runWith ρ fresh x t = ρ x t := by
  have h : ¬ ∃ k c y, x = fresh k c y := by
    rintro ⟨k, c, y, rfl⟩
    exact hf.notin _ _ _ hx
  exact ⟨if_neg h, dif_neg h, fun t => dif_neg h⟩

theorem with_ext (hf : Fresh fresh G₀) : Ext fresh G₀ (P.with fresh) (runWith ρ fresh) := by
  have key : ∀ k c y (h : ∃ k' c' y', fresh k c y = fresh k' c' y'), h.choose = k ∧ h.choose_spec.choose_spec.choose = y := by
    intro k c y h
    have := hf.inj _ _ _ _ _ _ h.choose_spec.choose_spec.choose_spec
    exact ⟨this.1.symm, this.2.2.symm⟩
  constructor
  · intro k c x
    have h : ∃ k' c' y', fresh k c x = fresh k' c' y' := ⟨k, c, x, rfl⟩
    simp only [Plan.with, if_pos h]
  · intro c x hx
    have h : ∃ k' c' y', fresh "copy" c x = fresh k' c' y' := ⟨"copy", c, x, rfl⟩
    rw [(with_old (ρ := ρ) hf hx).2.1]
    simp only [Plan.with, dif_pos h]
    rw [(key _ _ _ h).2]
  · intro c x hx
    have h : ∃ k' c' y', fresh "copy" c x = fresh k' c' y' := ⟨"copy", c, x, rfl⟩
    rw [(with_old (P := P) hf hx).2.2]
    unfold runWith
    rw [dif_pos h, if_pos (key _ _ _ h).1, (key _ _ _ h).2]
  · intro c x
    have h : ∃ k' c' y', fresh "out" c x = fresh k' c' y' := ⟨"out", c, x, rfl⟩
    unfold runWith
    rw [dif_pos h, if_neg]
    rw [(key _ _ _ h).1]
    decide

/-- Only tensors that are produced count. -/
theorem made_congr {P P' : Plan} (hm : TfMade P G₀) (hp : ∀ x, Produced G₀ x → P'.place x = P.place x) (hr : ∀ x, Produced G₀ x → P'.rank x = P.rank x) : TfMade P' G₀ := by
  refine ⟨hm.outs, hm.closed, fun n hn => ?_⟩
  have hin : ∀ x ∈ n.ins, Produced G₀ x := hm.closed n hn
  have hout : ∀ x ∈ n.outs, Produced G₀ x := fun x hx => ⟨n, hn, hx⟩
  have hM := hm.nodes n hn
  cases n with
  | op t f ins outs =>
    obtain ⟨⟨κ, h1, h2, h3⟩, h4, h5⟩ := hM
    refine ⟨⟨κ, h1, fun o ho => ?_, fun x hx => ?_⟩, fun x hx o ho => ?_, h5⟩
    · rw [hp o (hout o ho)]; exact h2 o ho
    · rw [hp x (hin x hx)]; exact h3 x hx
    · rw [hr x (hin x hx), hr o (hout o ho)]; exact h4 x hx o ho
  | enter k j o =>
    have pj := hin j (by simp [Node.ins])
    have po := hout o (by simp [Node.outs])
    unfold Made at hM ⊢
    dsimp only at hM ⊢
    rw [hp j pj, hr j pj, hr o po, hp o po]
    exact hM
  | merge a b o =>
    have po := hout o (by simp [Node.outs])
    obtain ⟨c, i, e, j, n, h1, h2, h3, h4, h5, h6, h7⟩ := hM
    have pe : Produced G₀ e := ⟨_, h4, by simp [Node.outs]⟩
    have pn : Produced G₀ n := ⟨_, h5, by simp [Node.outs]⟩
    exact ⟨c, i, e, j, n, by rw [hp o po, h1], by rw [hp e pe, h2], by rw [hp n pn, h3], h4, h5, by rw [hr e pe, hr o po]; exact h6, h7⟩
  | switch d c o0 o1 =>
    have pd := hin d (by simp [Node.ins])
    have pc := hin c (by simp [Node.ins])
    have p0 := hout o0 (by simp [Node.outs])
    have p1 := hout o1 (by simp [Node.outs])
    unfold Made at hM ⊢
    dsimp only at hM ⊢
    rw [hp d pd, hp c pc, hp o0 p0, hp o1 p1, hr d pd, hr c pc, hr o0 p0, hr o1 p1]
    exact hM
  | loopCond i c =>
    have pi := hin i (by simp [Node.ins])
    have pc := hout c (by simp [Node.outs])
    unfold Made at hM ⊢
    dsimp only at hM ⊢
    rw [hp i pi, hp c pc, hr i pi, hr c pc]
    exact hM
  | next i o =>
    have pi := hin i (by simp [Node.ins])
    have po := hout o (by simp [Node.outs])
    unfold Made at hM ⊢
    dsimp only at hM ⊢
    rw [hp i pi, hp o po]
    exact hM
  | exit i o =>
    have pi := hin i (by simp [Node.ins])
    have po := hout o (by simp [Node.outs])
    obtain ⟨c, d, o1, h1, h2, h3, h4⟩ := hM
    refine ⟨c, d, o1, h1, by rw [hp o po, h2], by rw [hr i pi, hr o po]; exact h3, fun k j e he hpe => ?_⟩
    have pj : Produced G₀ j := hm.closed _ he j (by simp [Node.ins])
    have pe : Produced G₀ e := ⟨_, he, by simp [Node.outs]⟩
    rw [hp e pe] at hpe
    rw [hr j pj, hr o po]
    exact h4 k j e he hpe
  | loop => exact hM.elim

theorem mapM_congr {f g : String → Option V} {l : List String} (h : ∀ x ∈ l, f x = g x) : l.mapM f = l.mapM g := by
  induction l with
  | nil => rfl
  | cons a l ih => rw [List.mapM_cons, List.mapM_cons, h a (by simp), ih (fun x hx => h x (by simp [hx]))]

theorem fires_congr {ρ ρ' : String → Nat → Option V} {n : Node V} (hin : ∀ x ∈ n.ins, ∀ t, ρ' x t = ρ x t) (hout : ∀ x ∈ n.outs, ∀ t, ρ' x t = ρ x t) (h : Fires truth ρ n) : Fires truth ρ' n := by
  cases n with
  | op ty f ins outs =>
    intro t k o v hk hv
    rw [hout o (List.mem_of_getElem? hk)] at hv
    obtain ⟨us, hus, hf⟩ := h t k o v hk hv
    exact ⟨us, by rw [← hus]; exact mapM_congr (fun x hx => hin x hx t), hf⟩
  | enter k j o =>
    intro t v hv
    rw [hout o (by simp [Node.outs])] at hv
    rw [hin j (by simp [Node.ins])]
    exact h t v hv
  | merge a b o =>
    intro t v hv
    rw [hout o (by simp [Node.outs])] at hv
    rw [hin a (by simp [Node.ins]), hin b (by simp [Node.ins])]
    exact h t v hv
  | switch d p o0 o1 =>
    constructor
    · intro t v hv
      rw [hout o0 (by simp [Node.outs])] at hv
      rw [hin d (by simp [Node.ins]), hin p (by simp [Node.ins])]
      exact h.1 t v hv
    · intro t v hv
      rw [hout o1 (by simp [Node.outs])] at hv
      rw [hin d (by simp [Node.ins]), hin p (by simp [Node.ins])]
      exact h.2 t v hv
  | loopCond i o =>
    intro t v hv
    rw [hout o (by simp [Node.outs])] at hv
    rw [hin i (by simp [Node.ins])]
    exact h t v hv
  | next i o =>
    intro t v hv
    rw [hout o (by simp [Node.outs])] at hv
    obtain ⟨t', ht, hv'⟩ := h t v hv
    exact ⟨t', ht, by rw [hin i (by simp [Node.ins])]; exact hv'⟩
  | exit i o =>
    intro v hv
    rw [hout o (by simp [Node.outs])] at hv
    obtain ⟨t, hv'⟩ := h v hv
    exact ⟨t, by rw [hin i (by simp [Node.ins])]; exact hv'⟩
  | loop => exact h.elim

theorem run_with (hf : Fresh fresh G₀) (hm : TfMade P G₀) (hr : Run truth P G₀ ρ) : Run truth (P.with fresh) G₀ (runWith ρ fresh) := by
  have old : ∀ x, Produced G₀ x → ∀ t, runWith ρ fresh x t = ρ x t := fun x hx => (with_old (P := P) hf hx).2.2
  refine ⟨fun n hn => fires_congr (fun x hx => old x (hm.closed n hn x hx)) (fun x hx => old x ⟨n, hn, hx⟩) (hr.fires n hn), fun i c hc => ?_⟩
  obtain ⟨T, h1, h2, h3, h4, h5⟩ := hr.ends i c hc
  have hcp : Produced G₀ c := ⟨_, hc, by simp [Node.outs]⟩
  refine ⟨T, h1, fun t ht => by rw [old c hcp]; exact h2 t ht, by rw [old c hcp]; exact h3, fun a b m hm' hp t ht => ?_, fun x hp t ht => ?_⟩
  · have hmp : Produced G₀ m := ⟨_, hm', by simp [Node.outs]⟩
    rw [old m hmp]
    rw [(with_old (ρ := ρ) hf hmp).1] at hp
    exact h4 a b m hm' hp t ht
  · by_cases hx : ∃ k c y, x = fresh k c y
    · exfalso
      simp only [Plan.with, if_pos hx] at hp
      rcases hp with hp | hp | hp <;> cases hp
    · simp only [Plan.with, if_neg hx] at hp
      unfold runWith
      rw [dif_neg hx]
      exact h5 x hp t ht

theorem plain_with (hf : Fresh fresh G₀) (hm : TfMade P G₀) (hp : Plain P G₀) : Plain (P.with fresh) G₀ := by
  refine ⟨fun i o h => ?_, hp.once, fun i c h => ?_⟩
  · rw [(with_old (ρ := fun _ _ => (none : Option V)) hf (hm.closed _ h i (by simp [Node.ins]))).1]
    exact hp.returned i o h
  · rw [(with_old (ρ := fun _ _ => (none : Option V)) hf (hm.closed _ h i (by simp [Node.ins]))).1]
    exact hp.tested i c h

/-- **C70, loops of TensorFlow 1.** In a graph of loops as `tf.while_loop` builds them, none within another, where no body returns one tensor for two variables or a tensor of the
outside directly and every condition is computed: if the conversion succeeds, every tensor outside of the loops that has a value in a run of TensorFlow has that value in the new
graph, whatever the loops compute and however often they go round. -/
theorem loop_rewrite_partial (truth : V → Bool) (P : Plan) (G : List (Node V)) (ρ : String → Nat → Option V) (fresh : String → String → String → String) (shapeKnown : String → Bool)
    (hmade : TfMade P G) (hplain : Plain P G) (hfresh : Fresh fresh G) (hrun : Run truth P G ρ) (G' : List (Node V)) (h : rewriteLoops fresh shapeKnown G = .ok G')
    (x : String) (hx : Produced G x) (hp : P.place x = .outside) (v : V) (hv : ρ x 0 = some v) : Gives truth G' x v := by
  have hmade' : TfMade (P.with fresh) G := made_congr hmade (fun x hx => (with_old (ρ := ρ) hfresh hx).1) (fun x hx => (with_old (ρ := ρ) hfresh hx).2.1)
  have hrun' := run_with hfresh hmade hrun
  have hinv : Inv truth (P.with fresh) (runWith ρ fresh) fresh G [] G :=
    ⟨hmade.outs, fun n hn => Or.inl hn, fun n hn hn' => absurd hn hn', fun x hx => Or.inl hx, fun x hx _ => hx, by simp⟩
  obtain ⟨S', -, hall, hI⟩ := runLoops_inv hmade' (plain_with hfresh hmade hplain) hfresh (with_ext hfresh) hrun' (loopConds G) [] G G'
    (fun p hp => ⟨mem_loopConds.1 hp, by simp⟩) (loopConds_nodup hmade.outs) hinv h
  obtain ⟨hxp, hxr, hxv⟩ := with_old (P := P) (ρ := ρ) hfresh hx
  obtain ⟨K, hK⟩ := evaluates hmade' hrun' hI (fun i c hc => hall (i, c) (mem_loopConds.2 hc)) (P.rank x + 1)
  exact ⟨K, fun fuel hf => hK x (by rw [hxr]; omega) (by rw [hxp, hp]) (hI.prod x hx (by rw [hxp, hp])) v (by rw [hxv, hv]) fuel hf⟩

end Verif.While
