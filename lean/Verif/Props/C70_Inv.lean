import Verif.Props.C70_New
import Verif.Props.C69_Body
/-!
# C70: one loop after the other
-/
namespace Verif.While
variable {V : Type} {truth : V → Bool} {P : Plan} {ρ : String → Nat → Option V} {G₀ G : List (Node V)} {S : List String} {c i : String}
  {fresh : String → String → String → String} {vs : List Var}

/-- The keys found are keys. -/
theorem subgraph_keys {H : List (Node V)} (hu : (H.flatMap Node.outs).Nodup) (m : Bool) (x : String) : ∀ k ∈ reach H m x, ∃ n, producer H k = some n ∧ n.key = k := by
  intro k hk
  unfold reach at hk
  split at hk
  · cases hk
  · rename_i n0 hn0
    split at hk
    · cases hk
    · obtain ⟨h0, hx0⟩ := producer_mem hn0
      have key : ∀ n ∈ H, ∀ y ∈ n.outs, ∃ n', producer H n.key = some n' ∧ n'.key = n.key := fun n hn y hy => ⟨n, producer_eq hu hn (key_mem hy), rfl⟩
      have := Verif.Cond.closeLoop_spec (succs H m) (H.map Node.key) (fun k => ∃ n, producer H k = some n ∧ n.key = k) ?_ ?_ (H.length + 1) [n0.key] [] (by simp) (by simp) (by simp)
        (by intro k h; rcases h with h | h <;> simp at h; rw [h]; exact key n0 h0 x hx0) (by simp) (by simp)
      · exact this.2.1 k hk
      · rintro k ⟨n, hp, -⟩ y hy
        unfold succs at hy
        rw [hp] at hy
        simp only [List.mem_filterMap] at hy
        obtain ⟨z, hz, hy⟩ := hy
        cases hpz : producer H z with
        | none => rw [hpz] at hy; cases hy
        | some n' =>
          rw [hpz] at hy
          simp only [Option.bind_some] at hy
          split at hy
          · cases hy
          · cases hy
            exact key n' (producer_mem hpz).1 z (producer_mem hpz).2
      · rintro k ⟨n, hp, hk⟩
        exact List.mem_map.2 ⟨n, (producer_mem hp).1, hk⟩

theorem filterMap_keys {H : List (Node V)} {l : List String} (h : ∀ k ∈ l, ∃ n, producer H k = some n ∧ n.key = k) : (l.filterMap (producer H)).map Node.key = l := by
  induction l with
  | nil => rfl
  | cons k l ih =>
    obtain ⟨n, hp, hk⟩ := h k (by simp)
    rw [List.filterMap_cons, hp]
    simp only [List.map_cons]
    rw [hk, ih (fun k' hk' => h k' (by simp [hk']))]

theorem subgraph_nodup {H : List (Node V)} (hu : (H.flatMap Node.outs).Nodup) (m : Bool) (outs : List String) : ((subgraph H m outs).flatMap Node.outs).Nodup := by
  have hk : ((subgraph H m outs).map Node.key).Nodup := by
    unfold subgraph
    rw [filterMap_keys]
    · exact Verif.Cond.nodup_eraseDups _ _ (Nat.le_refl _)
    · intro k hk
      obtain ⟨x, -, hk⟩ := List.mem_flatMap.1 (List.mem_eraseDups.1 hk)
      exact subgraph_keys hu m x k hk
  have hmem : ∀ n ∈ subgraph H m outs, n ∈ H := by
    intro n hn
    unfold subgraph at hn
    obtain ⟨k, -, hp⟩ := List.mem_filterMap.1 hn
    exact (producer_mem hp).1
  generalize subgraph H m outs = l at hk hmem
  induction l with
  | nil => simp
  | cons n l ih =>
    rw [List.map_cons, List.nodup_cons] at hk
    rw [List.flatMap_cons, List.nodup_append]
    refine ⟨outs_nodup hu (hmem n (by simp)), ih hk.2 (fun n' hn' => hmem n' (by simp [hn'])), ?_⟩
    intro x hx y hy hxy
    subst hxy
    obtain ⟨n', hn', hx'⟩ := List.mem_flatMap.1 hy
    have := unique_out hu (hmem n (by simp)) (hmem n' (by simp [hn'])) hx hx'
    subst this
    exact hk.1 (List.mem_map.2 ⟨n, hn', rfl⟩)

/-- The nodes that stay. -/
def restOf (G : List (Node V)) (vs : List Var) : List (Node V) := (cutOff G vs).filter (fun n => decide (∀ x ∈ vs.filterMap Var.exit, x ∉ n.outs))

/-- The `Loop` node. -/
def loopOf (fresh : String → String → String → String) (G : List (Node V)) (c i : String) (vs : List Var) : Node V :=
  .loop (fresh "copy" c i) (vs.map Var.enterIn) (vs.map (outOf fresh c)) (bodyOf G vs i) (vs.map (inOf fresh c)) i (vs.map Var.next)

theorem loopGraph_eq : loopGraph fresh G c i vs = restOf G vs ++ (condOf G vs i).map (copyOf fresh G vs c i) ++ [loopOf fresh G c i vs] := (rfl)

theorem mem_rest {n : Node V} : n ∈ restOf G vs ↔ n ∈ G ∧ (∀ y ∈ vs.filterMap Var.stateIn, y ∉ n.outs) ∧ ∀ x ∈ vs.filterMap Var.exit, x ∉ n.outs := by
  unfold restOf
  rw [List.mem_filter, decide_eq_true_eq, mem_cutOff, and_assoc]

theorem Setting.copyOuts (h : Setting truth P ρ fresh G₀ S G c i) {n : Node V} (hn : n ∈ condOf G vs i) : (copyOf fresh G vs c i n).outs = n.outs.map (fresh "copy" c) := by
  obtain ⟨-, ⟨h0, t, f, ins, outs, rfl, ho, hi⟩, -⟩ := h.cond'.1 n hn
  rfl

/-- A node that brings a variable into the body. -/
theorem Setting.cutNode (h : Setting truth P ρ fresh G₀ S G c i) (hv : Vars P G₀ G c vs) {n : Node V} (hn : n ∈ G) {y : String} (hy : y ∈ vs.filterMap Var.stateIn) (hyn : y ∈ n.outs) :
    n ∈ G₀ ∧ P.place y = .body c ∧ n.isConst = false := by
  obtain ⟨d, o0, o1, hs, hst⟩ := hv.stateIns hy
  obtain ⟨h1, -, h3⟩ := h.stateIn hs hst
  have h0 := h.old hn hyn (by rw [h1]; intro h'; cases h')
  refine ⟨h0, h1, ?_⟩
  rcases h3 with rfl | ⟨f, hI⟩
  · have := unique_out h.made.outs h0 hs hyn (by simp [Node.outs])
    subst this
    rfl
  · have := unique_out h.made.outs h0 hI hyn (by simp [Node.outs])
    subst this
    simp [Node.isConst]

/-- A node behind the loop. -/
theorem Setting.exitGone (h : Setting truth P ρ fresh G₀ S G c i) (hv : Vars P G₀ G c vs) {n : Node V} (hn : n ∈ G) {x : String} (hx : x ∈ vs.filterMap Var.exit) (hxn : x ∈ n.outs) :
    ∃ o0, n = .exit o0 x ∧ P.place o0 = .edge c ∧ ∃ v ∈ vs, outOf fresh c v = x := by
  obtain ⟨v, hvm, hxv⟩ := List.mem_filterMap.1 hx
  obtain ⟨o0, o1, e, nx, hok⟩ := hv.ok v hvm
  have hmem : Node.exit o0 x ∈ G := by
    have hex := hok.exit
    rw [hxv] at hex
    unfold exitOf at hex
    split at hex
    · cases hex
    · rename_i j x' hc
      cases hex
      have hmem : Node.exit j x ∈ consumers G o0 := by rw [hc]; simp
      unfold consumers at hmem
      rw [List.mem_filter, decide_eq_true_eq] at hmem
      have : o0 = j := by simpa [Node.ins] using hmem.2
      subst this
      exact hmem.1
    · cases hex
    · cases hex
  have := unique_out h.inv.nodup hn hmem hxn (by simp [Node.outs])
  subst this
  obtain ⟨-, -, -, h0, -⟩ := h.made.nodes _ hok.switch
  exact ⟨o0, rfl, h0, v, hvm, by simp [outOf, hxv]⟩

/-- What is outside of loops is still produced. -/
theorem Setting.keeps (h : Setting truth P ρ fresh G₀ S G c i) (hv : Vars P G₀ G c vs) {x : String} (hx : Produced G x) (hp : P.place x = .outside) :
    Produced (loopGraph fresh G c i vs) x := by
  obtain ⟨n, hn, hxn⟩ := hx
  rw [loopGraph_eq]
  by_cases h1 : ∃ y ∈ vs.filterMap Var.stateIn, y ∈ n.outs
  · exfalso
    obtain ⟨y, hy, hyn⟩ := h1
    obtain ⟨h0, hb, -⟩ := h.cutNode hv hn hy hyn
    have := made_outs (c := c) (h.made.nodes n h0) hyn hxn (by rw [hb]; rfl)
    rw [hp] at this
    cases this
  · by_cases h2 : ∃ y ∈ vs.filterMap Var.exit, y ∈ n.outs
    · obtain ⟨y, hy, hyn⟩ := h2
      obtain ⟨o0, rfl, -, v, hvm, ho⟩ := h.exitGone hv hn hy hyn
      have : x = y := by simpa [Node.outs] using hxn
      subst this
      exact ⟨loopOf fresh G c i vs, by simp, List.mem_map.2 ⟨v, hvm, ho⟩⟩
    · exact ⟨n, by
        rw [List.append_assoc, List.mem_append]
        exact Or.inl (mem_rest.2 ⟨hn, fun y hy hy' => h1 ⟨y, hy, hy'⟩, fun y hy hy' => h2 ⟨y, hy, hy'⟩⟩), hxn⟩

/-- New nodes stay good. -/
theorem New.mono {G' : List (Node V)} (hG : ∀ x, Produced G x → P.place x = .outside → Produced G' x) {n : Node V} (hn : New truth P ρ fresh G₀ G n) : New truth P ρ fresh G₀ G' n := by
  cases n with
  | op t f ins outs =>
    refine ⟨fun x hx => ?_, hn.2⟩
    rcases hn.1 x hx with h1 | ⟨h1, h2, h3⟩
    · exact Or.inl h1
    · exact Or.inr ⟨h1, hG x h2 h1, h3⟩
  | loop cn inits outs body bi bc bo =>
    refine ⟨hn.1, fun o ho v hv => ?_⟩
    obtain ⟨k, hk⟩ := hn.2 o ho v hv
    exact ⟨k, fun fuel hf env he henv => hk fuel hf env he (fun y h1 h2 h3 => henv y h1 (hG y h2 h1) h3)⟩
  | _ => exact hn.elim

/-- **One loop.** -/
theorem Setting.step (h : Setting truth P ρ fresh G₀ S G c i) (hv : Vars P G₀ G c vs) (hm : ∀ m ∈ mergesMet G (condOf G vs i) i, m ∈ vs.map Var.merge) :
    Inv truth P ρ fresh G₀ (c :: S) (loopGraph fresh G c i vs) := by
  have keeps : ∀ x, Produced G x → P.place x = .outside → Produced (loopGraph fresh G c i vs) x := fun x hx hp => h.keeps hv hx hp
  have prod : ∀ x, Produced G₀ x → P.place x = .outside → Produced (loopGraph fresh G c i vs) x := fun x hx hp => keeps x (h.inv.prod x hx hp) hp
  have copies : ∀ n ∈ condOf G vs i, ∀ x ∈ n.outs, Produced (loopGraph fresh G c i vs) (fresh "copy" c x) := by
    intro n hn x hx
    refine ⟨copyOf fresh G vs c i n, ?_, ?_⟩
    · rw [loopGraph_eq, List.mem_append, List.mem_append]
      exact Or.inl (Or.inr (List.mem_map.2 ⟨n, hn, rfl⟩))
    · rw [h.copyOuts hn]
      exact List.mem_map.2 ⟨x, hx, rfl⟩
  have condIs : Produced (loopGraph fresh G c i vs) (fresh "copy" c i) := by
    obtain ⟨hp, -, t, f, ins, outs, h0, hi, ht, hpr⟩ := h.condOp
    have ho : ∀ o ∈ outs, P.place o = .head c := by
      obtain ⟨⟨κ, -, hκ, -⟩, -⟩ := h.made.nodes _ h0
      intro o ho
      rw [hκ o ho, ← hκ i hi, hp]
    have hcut : Node.op t f ins outs ∈ cutOff G vs := h.notCut hv (producer_mem hpr).1 (fun o hoo h' => by rw [ho o hoo] at h'; cases h')
    exact copies _ (h.cond'.2.1 i (by simp) _ (producer_eq h.cutNodup hcut hi) (by simp [stops, Node.isConst, ht])) i hi
  have outs_old : ∀ v ∈ vs, ∀ x, v.exit = some x → Produced G₀ x := by
    intro v hvm x hx
    obtain ⟨o0, o1, e, nx, hok⟩ := hv.ok v hvm
    exact ⟨_, h.exitNode hok hx, by simp [Node.outs]⟩
  have freshNot : ∀ k y, ¬ Produced G (fresh k c y) := by
    intro k y hp
    rcases h.inv.names _ hp with h1 | ⟨k', c', y', h1, h2⟩
    · exact h.names.notin _ _ _ h1
    · have := (h.names.inj _ _ _ _ _ _ h1).2.1
      rw [← this] at h2
      exact h.new h2
  refine ⟨?_, ?_, ?_, ?_, prod, ?_⟩
  · rw [loopGraph_eq, List.flatMap_append, List.flatMap_append, List.nodup_append, List.nodup_append]
    have hcopy : ((condOf G vs i).map (copyOf fresh G vs c i)).flatMap Node.outs = ((condOf G vs i).flatMap Node.outs).map (fresh "copy" c) := by
      rw [List.flatMap_map, List.map_flatMap]
      exact List.flatMap_congr (fun n hn => h.copyOuts hn)
    have hrest : ∀ x ∈ (restOf G vs).flatMap Node.outs, Produced G x := by
      intro x hx
      obtain ⟨n, hn, hxn⟩ := List.mem_flatMap.1 hx
      exact ⟨n, (mem_rest.1 hn).1, hxn⟩
    refine ⟨⟨filter_nodup h.cutNodup _, ?_, ?_⟩, ?_, ?_⟩
    · rw [hcopy]
      exact (subgraph_nodup h.cutNodup true [i]).map (fun a b hab => (h.names.inj _ _ _ _ _ _ hab).2.2)
    · intro x hx y hy hxy
      subst hxy
      rw [hcopy] at hy
      obtain ⟨z, -, rfl⟩ := List.mem_map.1 hy
      exact freshNot _ _ (hrest _ hx)
    · simp only [List.flatMap_cons, List.flatMap_nil, List.append_nil]
      show (vs.map (outOf fresh c)).Nodup
      refine List.Nodup.map_on (fun u hu v hvm he => h.out_inj hv hu hvm he) ?_
      exact List.Nodup.of_map _ hv.nodup
    · intro x hx y hy hxy
      subst hxy
      simp only [List.flatMap_cons, List.flatMap_nil, List.append_nil] at hy
      obtain ⟨v, hvm, hvx⟩ := List.mem_map.1 (show x ∈ vs.map (outOf fresh c) from hy)
      rcases List.mem_append.1 hx with hx | hx
      · cases hex : v.exit with
        | some z =>
          have : x = z := by rw [← hvx]; simp [outOf, hex]
          subst this
          obtain ⟨n, hn, hxn⟩ := List.mem_flatMap.1 hx
          exact (mem_rest.1 hn).2.2 x (List.mem_filterMap.2 ⟨v, hvm, hex⟩) hxn
        | none =>
          have : x = fresh "out" c v.merge := by rw [← hvx]; simp [outOf, hex]
          subst this
          exact freshNot _ _ (hrest _ hx)
      · rw [hcopy] at hx
        obtain ⟨z, -, rfl⟩ := List.mem_map.1 hx
        cases hex : v.exit with
        | some w =>
          have : w = fresh "copy" c z := by rw [← hvx]; simp [outOf, hex]
          have hp := outs_old v hvm w hex
          rw [this] at hp
          exact h.names.notin _ _ _ hp
        | none =>
          have : fresh "out" c v.merge = fresh "copy" c z := by rw [← hvx]; simp [outOf, hex]
          exact absurd (h.names.inj _ _ _ _ _ _ this).1 (by decide)
  · intro n hn
    rw [loopGraph_eq, List.mem_append, List.mem_append] at hn
    rcases hn with (hn | hn) | hn
    · rcases h.inv.kinds n (mem_rest.1 hn).1 with h1 | h1
      · exact Or.inl h1
      · exact Or.inr (New.mono keeps h1)
    · obtain ⟨m, hmm, rfl⟩ := List.mem_map.1 hn
      exact Or.inr (h.copies hv hm hmm prod copies)
    · rw [List.mem_singleton] at hn
      subst hn
      exact Or.inr (h.newLoop hv hm prod condIs)
  · intro n hn hng
    by_cases hG : n ∈ G
    · refine ⟨c, by simp, ?_⟩
      by_cases h1 : ∃ y ∈ vs.filterMap Var.stateIn, y ∈ n.outs
      · obtain ⟨y, hy, hyn⟩ := h1
        obtain ⟨-, hb, hc⟩ := h.cutNode hv hG hy hyn
        exact Or.inl ⟨hc, y, hyn, hb⟩
      · by_cases h2 : ∃ y ∈ vs.filterMap Var.exit, y ∈ n.outs
        · obtain ⟨y, hy, hyn⟩ := h2
          obtain ⟨o0, rfl, hb, -⟩ := h.exitGone hv hG hy hyn
          exact Or.inr ⟨o0, y, rfl, hb⟩
        · exfalso
          apply hng
          rw [loopGraph_eq, List.append_assoc, List.mem_append]
          exact Or.inl (mem_rest.2 ⟨hG, fun y hy hy' => h1 ⟨y, hy, hy'⟩, fun y hy hy' => h2 ⟨y, hy, hy'⟩⟩)
    · obtain ⟨c', hc', h'⟩ := h.inv.gone n hn hG
      exact ⟨c', by simp [hc'], h'⟩
  · rintro x ⟨n, hn, hxn⟩
    rw [loopGraph_eq, List.mem_append, List.mem_append] at hn
    rcases hn with (hn | hn) | hn
    · rcases h.inv.names x ⟨n, (mem_rest.1 hn).1, hxn⟩ with h1 | ⟨k, c', y, h1, h2⟩
      · exact Or.inl h1
      · exact Or.inr ⟨k, c', y, h1, by simp [h2]⟩
    · obtain ⟨m, hmm, rfl⟩ := List.mem_map.1 hn
      rw [h.copyOuts hmm] at hxn
      obtain ⟨z, -, rfl⟩ := List.mem_map.1 hxn
      exact Or.inr ⟨_, c, _, rfl, by simp⟩
    · rw [List.mem_singleton] at hn
      subst hn
      obtain ⟨v, hvm, hvx⟩ := List.mem_map.1 (show x ∈ vs.map (outOf fresh c) from hxn)
      cases hex : v.exit with
      | some z =>
        have : x = z := by rw [← hvx]; simp [outOf, hex]
        subst this
        exact Or.inl (outs_old v hvm x hex)
      | none => exact Or.inr ⟨"out", c, v.merge, by rw [← hvx]; simp [outOf, hex], by simp⟩
  · intro j o hjo c' hc' hp
    rw [loopGraph_eq, List.mem_append, List.mem_append] at hjo
    rcases hjo with (hn | hn) | hn
    · obtain ⟨hG, -, hnx⟩ := mem_rest.1 hn
      rcases List.mem_cons.1 hc' with rfl | hc'
      · have h0 := (h.inv.kinds _ hG).resolve_right (fun hN => hN)
        obtain ⟨c'', d, o1, hsw, -⟩ := h.made.nodes _ h0
        have hpe := (h.made.nodes _ hsw).2.2.2.1
        rw [hp] at hpe
        cases hpe
        obtain ⟨v, hvm, -, -, hex⟩ := hv.all d j o1 hsw
        have hmem : Node.exit j o ∈ consumers G j := by
          unfold consumers
          exact List.mem_filter.2 ⟨hG, by simp [Node.ins]⟩
        unfold exitOf at hex
        split at hex
        · rename_i he
          rw [he] at hmem
          cases hmem
        · rename_i j' x' he
          rw [he, List.mem_singleton] at hmem
          cases hmem
          cases hve : v.exit with
          | none => rw [hve] at hex; cases hex
          | some z =>
            rw [hve] at hex
            cases hex
            exact hnx o (List.mem_filterMap.2 ⟨v, hvm, hve⟩) (by simp [Node.outs])
        · cases hex
        · cases hex
      · exact h.inv.left j o hG c' hc' hp
    · obtain ⟨m, hmm, he⟩ := List.mem_map.1 hn
      obtain ⟨-, ⟨-, t, f, ins, outs, rfl, -⟩, -⟩ := h.cond'.1 m hmm
      cases he
    · rw [List.mem_singleton] at hn
      cases hn

end Verif.While
