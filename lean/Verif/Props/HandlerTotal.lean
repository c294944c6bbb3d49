import Verif.Props.EditTotal
import Verif.Props.HandlerSite
/-!
# Handlers that are sequences of calls: when no call raises (used by C52)
-/
namespace Verif.Graph
open Verif

variable {fresh : Nat → String} {g0 g g' : G} {r : Ref} {o : String} {σ : Grp} {stale : Bool}

/-- When a call raises nothing. `stale`: the node has been removed, and its name is not in use again. -/
def Grp.okT (fresh : Nat → String) (n0 : Node) (o : String) (σ : Grp) (stale : Bool) : Act → Prop
  | .setType _ | .setAttr _ _ | .onnx | .attrs _ | .rawInputs _ | .inputs _ | .make _ => True
  | .inputAt i _ | .dropInput i => i < σ.input.length
  | .insertOut x => stale = false ∧ ∃ p ∈ σ.news, x ∈ p.2.input
  | .remove => stale = false ∧ ∀ i ∈ σ.input, i ∈ n0.input
  | .makeOut _ _ _ name _ => ((name = n0.name ∧ stale = true) ∨ name = fresh σ.len) ∧ σ.self = none ∧ ∀ p ∈ σ.news, o ∉ p.2.output

/-- Whether the name is stale after the call. -/
def staleAct (name0 : String) (stale : Bool) : Act → Bool
  | .remove => true
  | .makeOut _ _ _ name _ => stale && name ≠ name0
  | _ => stale

/-- All calls. -/
def Grp.allOkT (fresh : Nat → String) (n0 : Node) (o : String) : List Act → Grp → Bool → Prop
  | [], _, stale => stale = false
  | a :: as, σ, stale => σ.okT fresh n0 o stale a ∧ Grp.allOkT fresh n0 o as (σ.act fresh a) (staleAct n0.name stale a)

/-- What is known of names and of the consumer index in the middle of a conversion. -/
structure Grp.Tot (fresh : Nat → String) (g0 : G) (r : Ref) (o : String) (g : G) (σ : Grp) (stale : Bool) : Prop where
  live : ∀ i n, n ∈ g.cons i → (g.byName.get n).isSome = true ∨ (stale = true ∧ n = (g0.node r).name)
  gone : stale = true → g.byName.get (g0.node r).name = none
  unused : ∀ k, g.heap.length ≤ k → g.byName.get (fresh k) = none
  mono : ∀ i, g0.Key i → g.Key i
  news : ∀ p ∈ σ.news, ∀ i ∈ p.2.input, g.Key i
  out : σ.out = o ∨ g.Key σ.out

/-- Names and consumer index before and after a conversion: every name in the index is that of a node, the names of new nodes are unused, and
the index has an entry for what the nodes in `P` read. -/
structure NInv (fresh : Nat → String) (P : Ref → Prop) (g : G) : Prop where
  live : ∀ i n, n ∈ g.cons i → (g.byName.get n).isSome = true
  unused : ∀ k, g.heap.length ≤ k → g.byName.get (fresh k) = none
  keyed : ∀ q ∈ g.nodes, P q → ∀ i ∈ (g.node q).input, i ≠ "" → g.Key i

/-- A call that leaves names alone. -/
theorem Grp.Tot.same (t : Grp.Tot fresh g0 r o g σ stale) (hb : g'.byName = g.byName) (hl : g'.heap.length = g.heap.length)
    {ns : String → Prop} (hg : Grow ns g g') (hns : ∀ n, ns n → (g.byName.get n).isSome = true) {σ' : Grp}
    (hnews : ∀ p ∈ σ'.news, ∀ i ∈ p.2.input, g'.Key i) (hout : σ'.out = o ∨ g'.Key σ'.out) :
    Grp.Tot fresh g0 r o g' σ' stale where
  live := by
    intro i n hn
    rw [hb]
    rcases hg.cons i n hn with h | h
    · exact t.live i n h
    · exact Or.inl (hns n h)
  gone := by rw [hb]; exact t.gone
  unused := by rw [hb, hl]; exact t.unused
  mono := fun i hi => hg.keys i (t.mono i hi)
  news := hnews
  out := hout

theorem Grp.Tot.same' (t : Grp.Tot fresh g0 r o g σ stale) (hb : g'.byName = g.byName) (hl : g'.heap.length = g.heap.length)
    {ns : String → Prop} (hg : Grow ns g g') (hns : ∀ n, ns n → (g.byName.get n).isSome = true) {σ' : Grp}
    (hnews : σ'.news = σ.news) (hout : σ'.out = σ.out) : Grp.Tot fresh g0 r o g' σ' stale :=
  t.same hb hl hg hns (fun p hp i hi => hg.keys i (t.news p (by rw [← hnews]; exact hp) i hi))
    (by rw [hout]; exact t.out.imp id (hg.keys _))

/-- A tensor nobody makes. -/
theorem Grp.Inv.unmade (hf : FreshTensors fresh) (hv : HInv fresh g0) (hi : Grp.Inv fresh g0 r o g σ) (hout : (g0.node r).output = [o])
    (h0 : r ∈ g0.nodes) {k : Nat} {x : String} (hk : σ.len ≤ k) (hx : Mine fresh k x) : ∀ q ∈ g.nodes, x ∉ (g.node q).output := by
  have hlen : g0.heap.length ≤ σ.len := by rw [← hi.len]; exact hi.conv.heap
  have hxo : x ≠ o := by
    rintro rfl
    exact hv.unmade k x (by omega) hx r h0 (by rw [hout]; simp)
  intro q hq hxq
  rcases hi.conv.mem q hq with ⟨h1, h2⟩ | h
  · rw [(hi.conv.old q h1 h2).2] at hxq
    exact hv.unmade k x (by omega) hx q h1 hxq
  · obtain ⟨p, hp, rfl⟩ := List.mem_map.1 h
    rw [hi.conv.node_eq hp] at hxq
    simp only [Grp.refs, List.mem_append] at hp
    rcases hp with hp | hp
    · simp only [Option.mem_toList, Option.map_eq_some_iff] at hp
      obtain ⟨n, hn, rfl⟩ := hp
      rw [(hi.selfName n hn).2] at hxq
      exact hxo (by simpa using hxq)
    · obtain ⟨-, h2, y, h3, h4⟩ := hi.newOut p hp
      rw [h3] at hxq
      obtain rfl : x = y := by simpa using hxq
      rcases h4 with h4 | h4
      · exact hxo h4
      · have := h4.inj hf hx
        have h2 : @LT.lt Nat _ p.1 σ.len := h2
        omega

theorem getNodeByOutput_none (hw : WF g) {x : String} (hx : x ≠ "") (h : ∀ q ∈ g.nodes, x ∉ (g.node q).output) : g.getNodeByOutput x = none := by
  cases hg : g.getNodeByOutput x with
  | none => rfl
  | some q =>
    obtain ⟨h1, h2⟩ := (hw.getNodeByOutput hx q).1 hg
    exact absurd h2 (h q h1)

/-- `make_node` with a generated name. -/
theorem Grp.Tot.make (hf : FreshTensors fresh) (hv : HInv fresh g0) (hi : Grp.Inv fresh g0 r o g σ) (hout : (g0.node r).output = [o])
    (h0 : r ∈ g0.nodes) (hnm : ∀ k, g0.heap.length ≤ k → fresh k ≠ (g0.node r).name) (t : Grp.Tot fresh g0 r o g σ stale) (s : Spec) :
    ∃ g', G.act fresh g0 r g (.make s) = .ok g' ∧ Grp.Tot fresh g0 r o g' (σ.act fresh (.make s)) stale := by
  have hw := hi.conv.reach.wf
  have hx : Mine fresh g.heap.length (if s.isConst then fresh g.heap.length else fresh g.heap.length ++ ":0") := by
    split
    · exact Or.inl rfl
    · exact Or.inr rfl
  obtain ⟨g', r1, h1, h2, h3⟩ := makeNode_total (g := g) (op := s.op) (xs := s.xs) (name := fresh g.heap.length)
    (outs := [if s.isConst then fresh g.heap.length else fresh g.heap.length ++ ":0"]) (attr := s.attr) (dom := "") (t.unused _ (Nat.le_refl _))
    (fun x hm => by
      obtain rfl := List.mem_singleton.1 hm
      exact getNodeByOutput_none hw (hx.ne hf) (hi.unmade hf hv hout h0 (by rw [hi.len]) hx))
  have m := makeNode_made h1
  have hb : ∀ x, g'.byName.get x = if fresh g.heap.length = x then some r1 else g.byName.get x := m.byName
  refine ⟨g', by simp only [G.act, h1]; rfl, ?_⟩
  have hlen : g'.heap.length = g.heap.length + 1 := by rw [m.heap]; simp
  exact {
    live := by
      intro i n hn
      rw [hb]
      split
      · exact Or.inl rfl
      · rename_i hne
        rcases h2.cons i n hn with h | h
        · exact t.live i n h
        · exact absurd h.symm hne
    gone := by
      intro hs
      rw [hb]
      split
      · rename_i e
        have e : fresh g.heap.length = (g0.node r).name := e
        exact absurd e (hnm _ hi.conv.heap)
      · exact t.gone hs
    unused := by
      intro k hk
      rw [hb]
      split
      · rename_i e
        have := hf.inj _ _ e
        omega
      · exact t.unused k (by omega)
    mono := fun i h => h2.keys i (t.mono i h)
    news := by
      intro p hp i hip
      simp only [Grp.act] at hp
      rcases List.mem_append.1 hp with hp | hp
      · exact h2.keys i (t.news p hp i hip)
      · obtain rfl := List.mem_singleton.1 hp
        exact h3 i hip
    out := t.out.imp id (h2.keys _) }

/-- A call that raises nothing. -/
theorem Grp.act_total (hf : FreshTensors fresh) (hv : HInv fresh g0) (h0 : r ∈ g0.nodes) (hnin : (g0.node r).isGraphInput = false)
    (hout : (g0.node r).output = [o]) (hoe : o ≠ "") (hnm : ∀ k, g0.heap.length ≤ k → fresh k ≠ (g0.node r).name)
    (hkey : ∀ i ∈ (g0.node r).input, i ≠ "" → g0.Key i) (hi : Grp.Inv fresh g0 r o g σ) {a : Act}
    (hok : σ.ok o a) (t : Grp.Tot fresh g0 r o g σ stale) (hokt : σ.okT fresh (g0.node r) o stale a) :
    ∃ g', G.act fresh g0 r g a = .ok g' ∧ Grp.Tot fresh g0 r o g' (σ.act fresh a) (staleAct (g0.node r).name stale a) := by
  have hw := hi.conv.reach.wf
  have selfLive : ∀ n, σ.self = some n → g.node r = n ∧ r ∈ g.nodes ∧ (g.byName.get (g.node r).name).isSome = true := by
    intro n hn
    have hm : (r, n) ∈ σ.refs r := by simp [Grp.refs, hn]
    have h1 := (hi.conv.new _ hm).1
    exact ⟨hi.conv.node_eq hm, h1, by rw [(hw.byName _ r).2 ⟨h1, rfl⟩]; rfl⟩
  cases a with
  | setType op => exact ⟨_, rfl, t.same' (g' := g.setType r op) (ns := fun _ => False) rfl (by simp [G.setType]) (Grow.of_eq rfl) (by simp) rfl rfl⟩
  | setAttr k v => exact ⟨_, rfl, t.same' (g' := g.setAttr r k v) (ns := fun _ => False) rfl (by simp [G.setAttr]) (Grow.of_eq rfl) (by simp) rfl rfl⟩
  | onnx => exact ⟨_, rfl, t.same' (g' := g.rawFields r (g.node r).attr "") (ns := fun _ => False) rfl (by simp [G.rawFields]) (Grow.of_eq rfl) (by simp) rfl rfl⟩
  | attrs a => exact ⟨_, rfl, t.same' (g' := g.rawFields r a (g.node r).domain) (ns := fun _ => False) rfl (by simp [G.rawFields]) (Grow.of_eq rfl) (by simp) rfl rfl⟩
  | rawInputs xs => exact ⟨_, rfl, t.same' (g' := g.rawInputs r xs) (ns := fun _ => False) rfl (by simp [G.rawInputs]) (Grow.of_eq rfl) (by simp) rfl rfl⟩
  | make s => exact t.make hf hv hi hout h0 hnm s
  | inputs xs =>
    obtain ⟨n, hn⟩ := Option.isSome_iff_exists.1 hok.1
    have hs := (replaceInputs_spec g r xs).1
    exact ⟨_, rfl, t.same' (g' := g.replaceInputs r xs) hs.byName hs.len (replaceInputs_grow g r xs) (fun m hm => by rw [hm]; exact (selfLive n hn).2.2) rfl rfl⟩
  | inputAt i x =>
    obtain ⟨n, hn⟩ := Option.isSome_iff_exists.1 hok
    obtain ⟨e1, e2, e3⟩ := selfLive n hn
    have hlt : i < (g.node r).input.length := by
      have : i < σ.input.length := hokt
      rw [e1]
      simpa [Grp.input, hn] using this
    obtain ⟨g', h1, h2, -⟩ := replaceInputAt_total (g := g) (r := r) (y := x) (List.getElem?_eq_getElem hlt)
    have hs := (replaceInputAt_spec h1).2.1
    refine ⟨g', ?_, t.same' hs.byName hs.len h2 (fun m hm => by rw [hm]; exact e3) rfl rfl⟩
    simp only [G.act, List.getElem?_eq_getElem hlt]
    exact h1
  | dropInput i =>
    obtain ⟨n, hn⟩ := Option.isSome_iff_exists.1 hok
    obtain ⟨e1, e2, e3⟩ := selfLive n hn
    have hlt : i < (g.node r).input.length := by
      have : i < σ.input.length := hokt
      rw [e1]
      simpa [Grp.input, hn] using this
    obtain ⟨g', h1, h2⟩ := removeInputAt_total (g := g) (r := r) (List.getElem?_eq_getElem hlt)
    have hs := (removeInputAt_spec h1).2.1
    refine ⟨g', ?_, t.same' hs.byName hs.len h2 (fun m hm => by rw [hm]; exact e3) rfl rfl⟩
    simp only [G.act, List.getElem?_eq_getElem hlt]
    exact h1
  | insertOut x =>
    obtain ⟨rfl, -, -, htop⟩ := hok
    obtain ⟨hst, p, hp, hpx⟩ := hokt
    have hst : stale = false := hst
    obtain ⟨hpos, l, n, z, hnews, hno, hmine, hne⟩ := hi.top htop
    have hmem : ((σ.len - 1, n) : Ref × Node) ∈ σ.refs r := by simp [Grp.refs, hnews]
    obtain ⟨m1, m2, -⟩ := hi.conv.new _ hmem
    have m1 : (σ.len - 1) ∈ g.nodes := m1
    have m2 : g.node (σ.len - 1) = n := m2
    have hze := hmine.ne hf
    obtain ⟨g1, a1, a2, a3, a4⟩ := insertNodeOnOutput_total hw m1 (o := σ.out) (z := z) (by rw [m2]; exact hno) hze hne (t.news p hp _ hpx)
      (fun n hn => (t.live _ n hn).resolve_right (by simp [hst]))
    have hw1 := a2.wf hw
    have hg1 : g1.getNodeByOutput z = some (σ.len - 1) :=
      (hw1.getNodeByOutput hze _).2 ⟨by rw [a2.nodes]; exact m1, by rw [a2.output, m2, hno]; simp⟩
    obtain ⟨g2, b1, b2, b3, b4⟩ := copyInfo_total (src := g1) (o := σ.out) (z := z) (by rw [hg1]; rfl)
    have hlast : lastOut σ.news = z := by rw [hnews, lastOut_append, hno]; rfl
    refine ⟨g2, ?_, ?_⟩
    · simp only [G.act, hi.len, m2, hno, List.headD, bind, Except.bind, a1]
      exact b1
    · have hg : Grow (fun n => ∃ q ∈ g.nodes, n = (g.node q).name) g g2 := a3.trans (Grow.of_eq b2)
      have hk : g2.Key z := by unfold G.Key at a4 ⊢; rw [b2]; exact a4
      refine t.same (b3.trans a2.byName) (by rw [b4, a2.len]) hg ?_ ?_ ?_
      · rintro m ⟨q, hq, rfl⟩
        rw [(hw.byName _ q).2 ⟨hq, rfl⟩]; rfl
      · intro p' hp' i hip
        simp only [Grp.act, hlast] at hp'
        rw [hnews, redirectInit_append] at hp'
        rcases List.mem_append.1 hp' with hp' | hp'
        · obtain ⟨q, hq, rfl⟩ := List.mem_map.1 hp'
          simp only [Node.redirect, List.mem_map] at hip
          obtain ⟨j, hj, rfl⟩ := hip
          split
          · exact hk
          · exact hg.keys _ (t.news q (by rw [hnews]; simp [hq]) j hj)
        · exact hg.keys _ (t.news p' (by rw [hnews]; exact List.mem_append_right _ hp') i hip)
      · right
        simp only [Grp.act, hlast]
        exact hk
  | remove =>
    obtain ⟨n, hn⟩ := Option.isSome_iff_exists.1 hok.1
    obtain ⟨e1, e2, e3⟩ := selfLive n hn
    obtain ⟨hst, hsub⟩ := hokt
    have hst : stale = false := hst
    have hname : (g.node r).name = (g0.node r).name := by rw [e1]; exact (hi.selfName n hn).1
    obtain ⟨g', h1, h2⟩ := removeNode_total (ns := fun _ => False) hw e2 (fun i hin hie => t.mono i (hkey i (hsub i (by
      rw [e1] at hin
      simpa [Grp.input, hn] using hin)) hie))
    obtain ⟨q, hq, m⟩ := removeNode_removed hw h1
    obtain rfl := hw.name_inj m.mem e2 hq
    refine ⟨g', by simp only [G.act]; rw [← hname]; exact h1, ?_⟩
    exact {
      live := by
        intro i n hn
        rw [m.byName]
        split
        · rename_i e
          exact Or.inr ⟨rfl, e.symm.trans hname⟩
        · rcases h2.cons i n hn with h | h
          · exact (t.live i n h).imp id fun h => by rw [hst] at h; simp at h
          · exact h.elim
      gone := by intro _; rw [m.byName, if_pos hname]
      unused := by
        intro k hk
        rw [m.byName]
        split
        · rfl
        · exact t.unused k (by rw [m.heap] at hk; exact hk)
      mono := fun i h => h2.keys i (t.mono i h)
      news := fun p hp i hip => h2.keys i (t.news p hp i hip)
      out := t.out.imp id (h2.keys _) }
  | makeOut op xs attr name x =>
    obtain ⟨hne, rfl, ho⟩ := hok
    obtain ⟨hnm', hself, hnews⟩ := hokt
    have hname : g.byName.get name = none := by
      rcases hnm' with ⟨rfl, h⟩ | rfl
      · exact t.gone h
      · exact t.unused _ (by rw [hi.len])
    obtain ⟨g1, r1, h1, h2, h3⟩ := makeNode_total (g := g) (op := op) (xs := xs) (name := name) (outs := [x]) (attr := attr) (dom := "") hname
      (fun y hy => by
        obtain rfl := List.mem_singleton.1 hy
        refine getNodeByOutput_none hw hoe ?_
        intro q hq hyq
        rcases hi.conv.mem q hq with ⟨b1, b2⟩ | h
        · rw [(hi.conv.old q b1 b2).2] at hyq
          exact b2 (hv.reach.wf.out_inj hoe b1 h0 hyq (by rw [hout]; simp))
        · obtain ⟨p, hp, rfl⟩ := List.mem_map.1 h
          rw [hi.conv.node_eq hp] at hyq
          simp only [Grp.refs, hself, Option.map_none, Option.toList, List.nil_append] at hp
          exact hnews p hp hyq)
    have m := makeNode_made h1
    have hw1 := m.wf hw hne (List.Nodup.filter _ (by simp))
    have hr1 : r1 ∈ g1.nodes ∧ x ∈ (g1.node r1).output := by
      refine ⟨by rw [m.nodes]; simp, ?_⟩
      have : g1.node r1 = ⟨name, op, "", attr, xs, [x]⟩ := by
        rw [m.ref]; simp [G.node, m.heap]
      rw [this]; simp
    obtain ⟨g2, b1, b2, b3, b4⟩ := copyInfo_total (g := g1) (src := g0) (o := x) (z := x) (by rw [(hw1.getNodeByOutput hoe r1).2 hr1]; rfl)
    have hg : Grow (· = name) g g2 := h2.trans (Grow.of_eq b2)
    refine ⟨g2, by simp only [G.act, h1, bind, Except.bind]; exact b1, ?_⟩
    exact {
      live := by
        intro i n hn
        rw [b3, m.byName]
        split
        · exact Or.inl rfl
        · rename_i hnn
          have hnn : name ≠ n := hnn
          rcases hg.cons i n hn with h | h
          · refine (t.live i n h).imp id fun h => ⟨?_, h.2⟩
            simp only [staleAct, h.1, Bool.true_and, decide_eq_true_eq]
            rw [← h.2]; exact hnn
          · exact absurd h.symm hnn
      gone := by
        intro hs
        simp only [staleAct, Bool.and_eq_true, decide_eq_true_eq] at hs
        rw [b3, m.byName]
        show (if name = _ then _ else _) = _
        rw [if_neg hs.2]
        exact t.gone hs.1
      unused := by
        intro k hk
        rw [b4, m.heap] at hk
        simp only [List.length_append, List.length_cons, List.length_nil] at hk
        rw [b3, m.byName]
        show (if name = _ then _ else _) = _
        rw [if_neg ?_]
        · exact t.unused k (by omega)
        · intro e
          rcases hnm' with ⟨h, -⟩ | h
          · have := hi.conv.heap
            exact hnm k (by omega) (e.symm.trans h)
          · have := hf.inj _ _ (e.symm.trans h)
            have hl := hi.len
            omega
      mono := fun i h => hg.keys i (t.mono i h)
      news := by
        intro p hp i hip
        simp only [Grp.act] at hp
        rcases List.mem_append.1 hp with hp | hp
        · exact hg.keys i (t.news p hp i hip)
        · obtain rfl := List.mem_singleton.1 hp
          have := h3 i hip
          unfold G.Key at this ⊢
          rw [b2]; exact this
      out := t.out.imp id (hg.keys _) }

theorem Grp.run_total (hf : FreshTensors fresh) (hv : HInv fresh g0) (h0 : r ∈ g0.nodes) (hnin : (g0.node r).isGraphInput = false)
    (hc : (g0.node r).op ≠ "Const") (hout : (g0.node r).output = [o]) (hoe : o ≠ "") (hnm : ∀ k, g0.heap.length ≤ k → fresh k ≠ (g0.node r).name)
    (hkey : ∀ i ∈ (g0.node r).input, i ≠ "" → g0.Key i) {as : List Act}
    (hown : (∃ xs, .inputs xs ∈ as) → ∀ q ∈ g0.nodes, (g0.node q).name ∉ (g0.node q).input) : ∀ {g : G} {σ : Grp} {stale : Bool},
    Grp.Inv fresh g0 r o g σ → Grp.allOk fresh o as σ → Grp.Tot fresh g0 r o g σ stale → Grp.allOkT fresh (g0.node r) o as σ stale →
    ∃ g', G.runActs fresh g0 r as g = .ok g' ∧ Grp.Inv fresh g0 r o g' (Grp.run fresh as σ) ∧ Grp.Tot fresh g0 r o g' (Grp.run fresh as σ) false := by
  induction as with
  | nil =>
    intro g σ stale hi _ t h
    have h : stale = false := h
    subst h
    exact ⟨g, rfl, hi, t⟩
  | cons a as ih =>
    intro g σ stale hi hok t hokt
    obtain ⟨g1, h1, t1⟩ := Grp.act_total hf hv h0 hnin hout hoe hnm hkey hi hok.1 t hokt.1
    have i1 := Grp.act_inv hf hv h0 hnin hc hout hoe hi (fun ⟨xs, h⟩ => hown ⟨xs, by simp [h]⟩) hok.1 h1
    obtain ⟨g2, h2, i2, t2⟩ := ih (fun ⟨xs, h⟩ => hown ⟨xs, by simp [h]⟩) i1 hok.2 t1 hokt.2
    exact ⟨g2, by simp only [G.runActs, bind, Except.bind, h1]; exact h2, i2, t2⟩

/-- **A handler that is a sequence of calls raises nothing.** -/
theorem acts_total {P : Ref → Prop} (hf : FreshTensors fresh) (hv : HInv fresh g) (hn : NInv fresh P g) (h0 : r ∈ g.nodes) (hP : P r)
    (hnin : (g.node r).isGraphInput = false) (hc : (g.node r).op ≠ "Const") (hout : (g.node r).output = [o]) (hoe : o ≠ "")
    {as : List Act} (hok : Grp.allOk fresh o as (Grp.start (g.node r) g.heap.length o))
    (hokt : Grp.allOkT fresh (g.node r) o as (Grp.start (g.node r) g.heap.length o) false)
    (hown : (∃ xs, .inputs xs ∈ as) → ∀ q ∈ g.nodes, (g.node q).name ∉ (g.node q).input) :
    ∃ g', G.runActs fresh g r as g = .ok g' ∧ NInv fresh (fun q => P q ∧ q ∈ g.nodes ∧ q ≠ r) g' ∧
      ∀ q ∈ g.nodes, q ≠ r → ∀ x ∈ (g.node q).output, x ≠ "" → Keeps g x g' x := by
  have hw := hv.reach.wf
  obtain ⟨g', h1, h2, h3⟩ := Grp.run_total (as := as) hf hv h0 hnin hc hout hoe
    (fun k hk e => by
      have := hn.unused k hk
      rw [e, (hw.byName _ r).2 ⟨h0, rfl⟩] at this
      cases this)
    (hn.keyed r h0 hP) hown (Grp.start_inv hv h0 hout) hok (stale := false)
    ⟨fun i n h => Or.inl (hn.live i n h), by simp, hn.unused, fun _ h => h, by simp [Grp.start], Or.inl rfl⟩ hokt
  refine ⟨g', h1, ⟨fun i n h => (h3.live i n h).resolve_right (by simp), h3.unused, ?_⟩, ?_⟩
  · rintro q - ⟨hq, hq0, hne⟩ i hin hie
    obtain ⟨-, e⟩ := h2.conv.old q hq0 hne
    rw [e] at hin
    simp only [Node.mapIn, List.mem_map] at hin
    obtain ⟨x, hx, rfl⟩ := hin
    split at hie
    · rename_i hxo
      rw [if_pos hxo]
      rcases h3.out with h | h
      · rw [h]
        exact h3.mono o (hn.keyed q hq0 hq o (hxo ▸ hx) hoe)
      · exact h
    · rename_i hxo
      rw [if_neg hxo]
      exact h3.mono x (hn.keyed q hq0 hq x hx hie)
  · intro q hq hne x hx hxe
    refine h2.tab x ?_ ?_
    · rintro rfl
      exact hne (hw.out_inj hoe hq h0 hx (by rw [hout]; simp))
    · intro k hk hm
      exact hv.unmade k x hk hm q hq hx

end Verif.Graph
