import Verif.Model.HandlerActs
import Verif.Props.HandlerKit
/-!
# The generic theorem about handlers that are sequences of calls

`Grp` describes the nodes that stand in place of the converted node; `Grp.act` what a call does to them. `acts_step`: if the calls succeed,
the graph has become the one described, and if the group of nodes justifies the old equation the conversion is correct.
-/
namespace Verif.Graph
open Verif

/-- The group of nodes in place of the node. -/
structure Grp where
  /-- the node itself, unless removed -/
  self : Option Node
  /-- the nodes made, in order -/
  news : List (Ref × Node)
  /-- the tensor the readers of the node's output read -/
  out : String
  /-- number of node objects -/
  len : Nat
  /-- tensors the node may read without being listed as their consumer -/
  miss : List String
  /-- what was recorded for the output is lost -/
  lost : Bool
  /-- the last node object was made with a new output name -/
  top : Bool

/-- The nodes of the group with their references. -/
def Grp.refs (σ : Grp) (r : Ref) : List (Ref × Node) := (σ.self.map (fun n => (r, n))).toList ++ σ.news

/-- The nodes of the group. -/
def Grp.nodes (σ : Grp) : List Node := σ.self.toList ++ σ.news.map Prod.snd

/-- Before the first call. -/
def Grp.start (n : Node) (len : Nat) (o : String) : Grp := ⟨some n, [], o, len, [], false, false⟩

/-- Redirect all but the last of a list of nodes. -/
def redirectInit (o z : String) : List (Ref × Node) → List (Ref × Node)
  | [] => []
  | [p] => [p]
  | p :: q :: l => (p.1, p.2.redirect o z) :: redirectInit o z (q :: l)

/-- The output of the last of a list of nodes. -/
def lastOut : List (Ref × Node) → String
  | [] => ""
  | [p] => p.2.output.headD ""
  | _ :: q :: l => lastOut (q :: l)

/-- The inputs of the node. -/
def Grp.input (σ : Grp) : List String := match σ.self with
  | some n => n.input
  | none => []

/-- A call, on the group. -/
def Grp.act (fresh : Nat → String) (σ : Grp) : Act → Grp
  | .setType op => { σ with self := σ.self.map (fun n => { n with op := op }) }
  | .setAttr k v => { σ with self := σ.self.map (fun n => { n with attr := n.attr.set k v }) }
  | .onnx => { σ with self := σ.self.map (fun n => { n with domain := "" }) }
  | .attrs a => { σ with self := σ.self.map (fun n => { n with attr := a }) }
  | .make s => { σ with news := σ.news ++ [(σ.len, s.node fresh σ.len)], len := σ.len + 1, top := true }
  | .rawInputs xs => { σ with
      self := σ.self.map (fun n => { n with input := xs })
      miss := σ.miss ++ xs.filter (fun x => x ∉ σ.input) }
  | .inputs xs => { σ with self := σ.self.map (fun n => { n with input := xs }) }
  | .inputAt i x => { σ with
      self := σ.self.map (fun n => n.setInput i x)
      miss := (σ.miss ++ σ.input[i]?.toList).filter (· ≠ x) }
  | .dropInput i => { σ with
      self := σ.self.map (fun n => { n with input := n.input.eraseIdx i })
      miss := σ.miss ++ σ.input[i]?.toList }
  | .insertOut o => { σ with
      self := σ.self.map (fun n => n.redirect o (lastOut σ.news))
      news := redirectInit o (lastOut σ.news) σ.news
      out := lastOut σ.news
      top := false }
  | .remove => { σ with self := none, lost := true }
  | .makeOut op xs attr name o => { σ with
      news := σ.news ++ [(σ.len, ⟨name, op, "", attr, xs, [o]⟩)], len := σ.len + 1, lost := false, top := false }

/-- When the description of a call is right. -/
def Grp.ok (o : String) (σ : Grp) : Act → Prop
  | .setType _ | .setAttr _ _ | .onnx | .attrs _ | .rawInputs _ | .inputAt _ _ | .dropInput _ => σ.self.isSome
  | .inputs _ => σ.self.isSome ∧ σ.out = o ∧ ∀ p ∈ σ.news, p.2.name ∉ p.2.input
  | .make _ => True
  | .insertOut x => x = σ.out ∧ x ∉ σ.miss ∧ σ.lost = false ∧ σ.top = true
  | .remove => σ.self.isSome ∧ σ.out = o
  | .makeOut _ _ _ name x => name ≠ "" ∧ x = o ∧ σ.out = o

/-- All calls. -/
def Grp.run (fresh : Nat → String) : List Act → Grp → Grp
  | [], σ => σ
  | a :: as, σ => Grp.run fresh as (σ.act fresh a)

/-- All descriptions are right. -/
def Grp.allOk (fresh : Nat → String) (o : String) : List Act → Grp → Prop
  | [], _ => True
  | a :: as, σ => σ.ok o a ∧ Grp.allOk fresh o as (σ.act fresh a)

theorem redirectInit_append (o z : String) (l : List (Ref × Node)) (p : Ref × Node) :
    redirectInit o z (l ++ [p]) = l.map (fun p => (p.1, p.2.redirect o z)) ++ [p] := by
  induction l with
  | nil => rfl
  | cons a l ih =>
    cases l with
    | nil => rfl
    | cons b l => simp only [List.cons_append, redirectInit, List.map_cons] at ih ⊢; rw [ih]

theorem lastOut_append (l : List (Ref × Node)) (p : Ref × Node) : lastOut (l ++ [p]) = p.2.output.headD "" := by
  induction l with
  | nil => rfl
  | cons a l ih =>
    cases l with
    | nil => rfl
    | cons b l => simp only [List.cons_append, lastOut] at ih ⊢; rw [ih]

variable {g0 g g' : G} {r : Ref} {fresh : Nat → String} {o : String} {σ : Grp}

/-- The graph is as the group says. -/
structure Grp.Inv (fresh : Nat → String) (g0 : G) (r : Ref) (o : String) (g : G) (σ : Grp) : Prop where
  conv : Conv g0 r g (fun q i => ConstOut g0 i ∨ (q = r ∧ i ∈ σ.miss)) (fun x => if x = o then σ.out else x) (σ.refs r)
  len : g.heap.length = σ.len
  selfName : ∀ n, σ.self = some n → n.name = (g0.node r).name ∧ n.output = [o]
  newOut : ∀ p ∈ σ.news, @LE.le Nat _ g0.heap.length p.1 ∧ @LT.lt Nat _ p.1 σ.len ∧ ∃ x, p.2.output = [x] ∧ (x = o ∨ Mine fresh p.1 x)
  outIs : σ.out = o ∨ ∃ k, g0.heap.length ≤ k ∧ k < σ.len ∧ Mine fresh k σ.out
  top : σ.top = true → 0 < σ.len ∧ ∃ l n x, σ.news = l ++ [(σ.len - 1, n)] ∧ n.output = [x] ∧ Mine fresh (σ.len - 1) x ∧ σ.out ≠ x
  tab : ∀ x, x ≠ o → (∀ k, g0.heap.length ≤ k → ¬ Mine fresh k x) → Keeps g0 x g x
  tabOut : σ.lost = false → Keeps g0 o g σ.out

/-- `ren` only matters on what the other nodes read. -/
theorem Conv.congrRen' {r0 : Ref} {X : Ref → String → Prop} {ren ren' : String → String} {N : List (Ref × Node)} (c : Conv g0 r0 g X ren N)
    (h : ∀ q ∈ g0.nodes, ∀ x ∈ (g0.node q).input, ren' x = ren x) : Conv g0 r0 g X ren' N := by
  have old : ∀ q ∈ g0.nodes, q ≠ r0 → q ∈ g.nodes ∧ g.node q = (g0.node q).mapIn ren' := by
    intro q hq hne
    obtain ⟨h1, h2⟩ := c.old q hq hne
    refine ⟨h1, h2.trans ?_⟩
    simp only [Node.mapIn]
    congr 1
    exact List.map_congr_left (fun x hx => (h q hq x hx).symm)
  exact { c with old := old }

theorem Conv.weaken {r0 : Ref} {X X' : Ref → String → Prop} {ren : String → String} {N : List (Ref × Node)} (c : Conv g0 r0 g X ren N)
    (h : ∀ q i, X q i → X' q i) : Conv g0 r0 g X' ren N := c.clear (fun q _ i _ => h q i)

/-- A reader that is listed is not missed. -/
theorem Conv.listed {r0 q : Ref} {X : Ref → String → Prop} {ren : String → String} {N : List (Ref × Node)} {x : String} (c : Conv g0 r0 g X ren N)
    (h : (g.node q).name ∈ g.cons x) : Conv g0 r0 g (fun p i => X p i ∧ ¬ (p = q ∧ i = x)) ren N := by
  have complete : ∀ p ∈ g.nodes, ∀ i ∈ (g.node p).input, ¬ (X p i ∧ ¬ (p = q ∧ i = x)) → (g.node p).name ∈ g.cons i := by
    intro p hp i hi hx
    by_cases e : p = q ∧ i = x
    · obtain ⟨rfl, rfl⟩ := e; exact h
    · exact c.complete p hp i hi (fun h => hx ⟨h, e⟩)
  exact { c with complete := complete }

theorem Grp.start_inv (hv : HInv fresh g) (h0 : r ∈ g.nodes) (hout : (g.node r).output = [o]) :
    Grp.Inv fresh g r o g (Grp.start (g.node r) g.heap.length o) where
  conv := by
    refine ((hv.start h0).weaken (fun _ _ h => Or.inl h)).congrRen (fun x => ?_)
    by_cases e : x = o
    · subst e; simp [Grp.start]
    · simp [e]
  len := rfl
  selfName := by
    intro n hn
    cases hn
    exact ⟨rfl, hout⟩
  newOut := by simp [Grp.start]
  outIs := Or.inl rfl
  top := by simp [Grp.start]
  tab := fun x _ _ => (TabEq.refl g).keeps x
  tabOut := fun _ => (TabEq.refl g).keeps o

theorem Grp.refs_some {n : Node} (h : σ.self = some n) : σ.refs r = (r, n) :: σ.news := by simp [Grp.refs, h]


/-- What an act on the node itself keeps. -/
theorem Grp.Inv.self (hi : Grp.Inv fresh g0 r o g σ) {n n' : Node} (hn : σ.self = some n) (hname : n'.name = n.name) (hout : n'.output = n.output)
    {miss : List String} {g1 : G} (hlen : g1.heap.length = g.heap.length) (ht : TabEq g g1)
    (c : Conv g0 r g1 (fun q i => ConstOut g0 i ∨ (q = r ∧ i ∈ miss)) (fun x => if x = o then σ.out else x) ((r, n') :: σ.news)) :
    Grp.Inv fresh g0 r o g1 { σ with self := some n', miss := miss } where
  conv := by rw [Grp.refs_some rfl]; exact c
  len := hlen.trans hi.len
  selfName := by
    intro m hm
    cases hm
    obtain ⟨h1, h2⟩ := hi.selfName n hn
    exact ⟨hname.trans h1, hout.trans h2⟩
  newOut := hi.newOut
  outIs := hi.outIs
  top := hi.top
  tab := fun x h1 h2 => (hi.tab x h1 h2).trans (ht.keeps x)
  tabOut := fun h => (hi.tabOut h).trans (ht.keeps _)

/-- Each call keeps the description right. -/
theorem Grp.act_inv (hf : FreshTensors fresh) (hv : HInv fresh g0) (h0 : r ∈ g0.nodes) (hnin : (g0.node r).isGraphInput = false)
    (hc : (g0.node r).op ≠ "Const") (hout : (g0.node r).output = [o]) (hoe : o ≠ "") (hi : Grp.Inv fresh g0 r o g σ) {a : Act}
    (hown : (∃ xs, a = .inputs xs) → ∀ q ∈ g0.nodes, (g0.node q).name ∉ (g0.node q).input)
    (hok : σ.ok o a) (h : G.act fresh g0 r g a = .ok g') : Grp.Inv fresh g0 r o g' (σ.act fresh a) := by
  have hw0 := hv.reach.wf
  have hnin' : r ∉ g0.inputs := by intro hc; have := hv.inputs r hc; rw [hnin] at this; cases this
  cases a with
  | setType op =>
    obtain ⟨n, hn⟩ := Option.isSome_iff_exists.1 hok
    cases h
    have c := hi.conv
    rw [Grp.refs_some hn] at c
    simp only [Grp.act, hn, Option.map_some]
    exact hi.self (g1 := g.setType r op) (miss := σ.miss) (n' := { n with op := op }) hn rfl rfl (by simp [G.setType, G.setNode]) ⟨rfl, rfl⟩ (c.setType hw0 op)
  | setAttr k v =>
    obtain ⟨n, hn⟩ := Option.isSome_iff_exists.1 hok
    cases h
    have c := hi.conv
    rw [Grp.refs_some hn] at c
    simp only [Grp.act, hn, Option.map_some]
    exact hi.self (g1 := g.setAttr r k v) (miss := σ.miss) (n' := { n with attr := n.attr.set k v }) hn rfl rfl (by simp [G.setAttr, G.setNode]) ⟨rfl, rfl⟩ (c.setAttr hw0 k v)
  | onnx =>
    obtain ⟨n, hn⟩ := Option.isSome_iff_exists.1 hok
    cases h
    have c := hi.conv
    rw [Grp.refs_some hn] at c
    simp only [Grp.act, hn, Option.map_some]
    have hd : (g.node r).attr = n.attr := by rw [c.node_eq (p := (r, n)) (by simp)]
    have c' := c.rawFields hw0 (g.node r).attr ""
    rw [hd] at c'
    exact hi.self (g1 := g.rawFields r (g.node r).attr "") (miss := σ.miss) (n' := { n with domain := "" }) hn rfl rfl
      (by simp [G.rawFields, G.setNode]) ⟨rfl, rfl⟩ (by rw [hd]; exact c')
  | attrs a =>
    obtain ⟨n, hn⟩ := Option.isSome_iff_exists.1 hok
    cases h
    have c := hi.conv
    rw [Grp.refs_some hn] at c
    simp only [Grp.act, hn, Option.map_some]
    have hd : (g.node r).domain = n.domain := by rw [c.node_eq (p := (r, n)) (by simp)]
    have c' := c.rawFields hw0 a (g.node r).domain
    rw [hd] at c'
    exact hi.self (g1 := g.rawFields r a (g.node r).domain) (miss := σ.miss) (n' := { n with attr := a }) hn rfl rfl (by simp [G.rawFields, G.setNode]) ⟨rfl, rfl⟩ (by rw [hd]; exact c')
  | rawInputs xs =>
    obtain ⟨n, hn⟩ := Option.isSome_iff_exists.1 hok
    cases h
    have c := hi.conv
    rw [Grp.refs_some hn] at c
    have hin : σ.input = n.input := by simp [Grp.input, hn]
    simp only [Grp.act, hn, Option.map_some, hin]
    refine hi.self (g1 := g.rawInputs r xs) (n' := { n with input := xs }) hn rfl rfl (by simp [G.rawInputs, G.setNode]) ⟨rfl, rfl⟩ ?_
    have c' := c.rawInputs hw0 xs
    refine c'.clear ?_
    intro q hq i hi' hx
    rcases hx with (h | ⟨h1, h2⟩) | ⟨h1, h2⟩
    · exact Or.inl h
    · exact Or.inr ⟨h1, List.mem_append_left _ h2⟩
    · subst h1
      rw [c'.node_eq (p := (q, _)) (List.mem_cons_self)] at hi'
      exact Or.inr ⟨rfl, List.mem_append_right _ (by simp only [List.mem_filter, decide_eq_true_eq]; exact ⟨hi', h2⟩)⟩
  | inputs xs =>
    obtain ⟨hs, ho, hnews⟩ := hok
    obtain ⟨n, hn⟩ := Option.isSome_iff_exists.1 hs
    cases h
    have c := hi.conv
    rw [Grp.refs_some hn] at c
    simp only [Grp.act, hn, Option.map_some]
    refine hi.self (g1 := g.replaceInputs r xs) (n' := { n with input := xs }) hn rfl rfl ?_ (replaceInputs_tab _ _ _)
      (c.replaceInputs hw0 (new := xs) ?_)
    · obtain ⟨-, h3, -, -⟩ := replaceInputs_spec g r xs
      rw [h3]; simp
    · intro q hq hne _
      rcases c.mem q hq with ⟨h1, h2⟩ | h1
      · rw [(c.old q h1 h2).2]
        have : (g0.node q).mapIn (fun x => if x = o then σ.out else x) = g0.node q := by
          rw [ho]
          simp only [Node.mapIn]
          have : (fun x => if x = o then o else x) = id := by
            funext x
            by_cases e : x = o
            · simp [e]
            · simp [e]
          rw [this, List.map_id]
        rw [this]
        exact hown ⟨xs, rfl⟩ q h1
      · simp only [List.map_cons, List.mem_cons] at h1
        obtain ⟨p, hp, rfl⟩ := List.mem_map.1 (h1.resolve_left hne)
        rw [c.node_eq (p := p) (by simp [hp])]
        exact hnews p hp
  | inputAt i x =>
    obtain ⟨n, hn⟩ := Option.isSome_iff_exists.1 hok
    have c := hi.conv
    rw [Grp.refs_some hn] at c
    have hin : σ.input = n.input := by simp [Grp.input, hn]
    have hnode : g.node r = n := c.node_eq (p := (r, n)) (by simp)
    simp only [G.act] at h
    split at h
    · rename_i y hy
      obtain ⟨h1, c'⟩ := c.replaceInputAt hw0 h
      simp only [Grp.act, hn, Option.map_some, hin, h1, Option.toList]
      obtain ⟨-, -, h3, h4, -⟩ := replaceInputAt_spec h
      refine hi.self (n' := n.setInput i x) hn rfl rfl (by rw [h3]; simp) (replaceInputAt_tab h)
        ((c'.listed (q := r) (x := x) ?_).weaken ?_)
      · rw [c'.node_eq (p := (r, n.setInput i x)) (by simp)]
        show n.name ∈ g'.cons x
        rw [h4, hnode]
        exact Or.inr ⟨rfl, rfl⟩
      · rintro q j ⟨hx, hne⟩
        simp only [List.mem_filter, List.mem_append, List.mem_singleton, decide_eq_true_eq]
        rcases hx with (h | ⟨h1, h2⟩) | ⟨h1, h2⟩
        · exact Or.inl h
        · exact Or.inr ⟨h1, Or.inl h2, fun e => hne ⟨h1, e⟩⟩
        · exact Or.inr ⟨h1, Or.inr h2, fun e => hne ⟨h1, e⟩⟩
    · cases h
  | dropInput i =>
    obtain ⟨n, hn⟩ := Option.isSome_iff_exists.1 hok
    have c := hi.conv
    rw [Grp.refs_some hn] at c
    have hin : σ.input = n.input := by simp [Grp.input, hn]
    simp only [G.act] at h
    split at h
    · rename_i y hy
      obtain ⟨h1, c'⟩ := c.removeInputAt hw0 h
      simp only [Grp.act, hn, Option.map_some, hin, h1, Option.toList]
      obtain ⟨-, -, h3, h4, -⟩ := removeInputAt_spec h
      refine hi.self (n' := { n with input := n.input.eraseIdx i }) hn rfl rfl (by rw [h3]; simp) (removeInputAt_tab h) (c'.weaken ?_)
      intro q j hx
      simp only [List.mem_append, List.mem_singleton]
      rcases hx with (h | ⟨h1, h2⟩) | ⟨h1, h2⟩
      · exact Or.inl h
      · exact Or.inr ⟨h1, Or.inl h2⟩
      · exact Or.inr ⟨h1, Or.inr h2⟩
    · cases h
  | make s =>
    simp only [G.act, Except.map] at h
    split at h
    · cases h
    rename_i p hp
    obtain ⟨g1, r1⟩ := p
    cases h
    obtain ⟨a1, a2, c1⟩ := hi.conv.make (hf.ne _) (List.Nodup.filter _ (by simp)) hp
    obtain ⟨y, hy, hmine⟩ := s.node_output (fresh := fresh) σ.len
    have a1 : r1 = g.heap.length := a1
    subst a1
    rw [hi.len] at c1
    simp only [Grp.act]
    exact {
      conv := by
        simp only [Grp.refs] at c1 ⊢
        rw [← List.append_assoc]
        exact c1
      len := by rw [a2, hi.len]
      selfName := hi.selfName
      newOut := by
        intro p hp
        rcases List.mem_append.1 hp with hp | hp
        · obtain ⟨h1, h2, h3⟩ := hi.newOut p hp
          exact ⟨h1, by show @LT.lt Nat _ p.1 (σ.len + 1); omega, h3⟩
        · obtain rfl := List.mem_singleton.1 hp
          exact ⟨by have := hi.conv.heap; rw [hi.len] at this; exact this, Nat.lt_succ_self _, y, hy, Or.inr hmine⟩
      outIs := by
        rcases hi.outIs with h | ⟨k, h1, h2, h3⟩
        · exact Or.inl h
        · exact Or.inr ⟨k, h1, by show k < σ.len + 1; omega, h3⟩
      top := by
        intro _
        refine ⟨Nat.succ_pos _, σ.news, _, y, rfl, hy, hmine, ?_⟩
        intro e
        have hle : g0.heap.length ≤ σ.len := by have := hi.conv.heap; rwa [hi.len] at this
        rcases hi.outIs with h | ⟨k, h1, h2, h3⟩
        · exact hv.unmade σ.len y hle hmine r h0 (by rw [hout, ← e, h]; simp)
        · have := hmine.inj hf (e ▸ h3); omega
      tab := fun x h1 h2 => (hi.tab x h1 h2).trans ((makeNode_tab hp).keeps x)
      tabOut := fun h => (hi.tabOut h).trans ((makeNode_tab hp).keeps _) }
  | insertOut x =>
    obtain ⟨rfl, hmiss, hlost, htop⟩ := hok
    obtain ⟨hpos, l, n, y, hnews, hy, hmine, hne⟩ := hi.top htop
    have hlast : lastOut σ.news = y := by rw [hnews, lastOut_append]; simp [hy]
    simp only [G.act, bind, Except.bind] at h
    split at h
    · cases h
    rename_i g1 h1
    have c := hi.conv
    simp only [Grp.refs, hnews] at c
    rw [← List.append_assoc] at c
    rw [hi.len] at h1 h
    have hX : ∀ q, ¬ (ConstOut g0 σ.out ∨ (q = r ∧ σ.out ∈ σ.miss)) := by
      rintro q (h | ⟨_, h⟩)
      · rcases hi.outIs with e | ⟨k, hk, _, hm⟩
        · rw [e] at h
          exact hw0.not_constOut h0 hc (by simp [hout]) hoe h
        · obtain ⟨p, hp, _, ho⟩ := h
          exact hv.unmade k _ hk hm p hp ho
      · exact hmiss h
    obtain ⟨c1, a1⟩ := c.insertOutput hw0 h1 hy hX hne
    have hnode : g.node (σ.len - 1) = n := c.node_eq (p := (σ.len - 1, n)) (by simp)
    rw [hnode, hy] at h
    simp only [List.headD] at h
    obtain ⟨-, b2, -, -, b5, b6⟩ := copyInfo_spec h
    simp only [Grp.act, hlast]
    rw [hnews, redirectInit_append]
    have hmem : (σ.len - 1, n) ∈ σ.news := by rw [hnews]; simp
    exact {
      conv := by
        refine Conv.congrRen' (ren := fun x => if (if x = o then σ.out else x) = σ.out then y else if x = o then σ.out else x) ?_ ?_
        · simp only [Grp.refs]
          rw [← List.append_assoc]
          have e : (Option.map (fun m => (r, m)) (Option.map (fun m => m.redirect σ.out y) σ.self)).toList ++
              l.map (fun p => (p.1, p.2.redirect σ.out y)) =
              (((σ.self.map (fun n => (r, n))).toList ++ l).map (fun p => (p.1, p.2.redirect σ.out y))) := by
            cases σ.self <;> simp
          rw [e]
          exact c1.copyInfo h
        · intro q hq x hx
          by_cases e : x = o
          · simp [e]
          · simp only [if_neg e]
            rw [if_neg]
            rintro rfl
            rcases hi.outIs with h | ⟨k, hk, _, hm⟩
            · exact e h
            · exact (hv.unread k _ hk hm).1 q hq hx
      len := by rw [b2, a1, hi.len]
      selfName := by
        intro m hm
        obtain ⟨m', hm', rfl⟩ := Option.map_eq_some_iff.1 hm
        exact hi.selfName m' hm'
      newOut := by
        intro p hp
        rcases List.mem_append.1 hp with hp | hp
        · obtain ⟨q, hq, rfl⟩ := List.mem_map.1 hp
          exact hi.newOut q (by rw [hnews]; simp [hq])
        · exact hi.newOut p (by rw [hnews]; exact List.mem_append_right _ hp)
      outIs := Or.inr ⟨σ.len - 1, (hi.newOut _ hmem).1, by show σ.len - 1 < σ.len; omega, hmine⟩
      top := by intro h; cases h
      tab := by
        intro x h1' h2
        refine (hi.tab x h1' h2).trans (((insertNodeOnOutput_tab h1).keeps x).trans (b5 x ?_))
        rintro rfl
        exact h2 _ (hi.newOut _ hmem).1 hmine
      tabOut := fun _ => (hi.tabOut hlost).trans (((insertNodeOnOutput_tab h1).keeps _).trans b6) }
  | remove =>
    obtain ⟨hs, ho⟩ := hok
    obtain ⟨n, hn⟩ := Option.isSome_iff_exists.1 hs
    obtain ⟨e1, e2⟩ := hi.selfName n hn
    have c := hi.conv
    rw [Grp.refs_some hn] at c
    simp only [G.act] at h
    rw [← e1] at h
    obtain ⟨c1, a1⟩ := c.remove hw0 hnin' h
    have hnode : g.node r = n := c.node_eq (p := (r, n)) (by simp)
    have hbn : g.byName.get (g.node r).name = some r :=
      (c.reach.wf.byName _ _).2 ⟨(c.new (r, n) (by simp)).1, rfl⟩
    simp only [Grp.act]
    exact {
      conv := by simpa [Grp.refs] using c1
      len := by rw [a1, hi.len]
      selfName := by intro m hm; cases hm
      newOut := hi.newOut
      outIs := hi.outIs
      top := hi.top
      tab := by
        intro x h1 h2
        refine (hi.tab x h1 h2).trans (removeNode_keeps hbn (by rw [hnode]; exact h) ?_)
        rw [hnode, e2]
        simpa using h1
      tabOut := by intro h; cases h }
  | makeOut op xs attr name x =>
    obtain ⟨hname, rfl, ho⟩ := hok
    simp only [G.act, bind, Except.bind] at h
    split at h
    · cases h
    rename_i p hp
    obtain ⟨g1, r1⟩ := p
    obtain ⟨a1, a2, c1⟩ := hi.conv.make hname (List.Nodup.filter _ (by simp)) hp
    obtain ⟨-, b2, -, -, b5, b6⟩ := copyInfo_spec h
    have a1 : r1 = g.heap.length := a1
    subst a1
    rw [hi.len] at c1
    simp only [Grp.act]
    exact {
      conv := by
        have c2 := c1.copyInfo h
        simp only [Grp.refs] at c2 ⊢
        rw [← List.append_assoc]
        exact c2
      len := by rw [b2, a2, hi.len]
      selfName := hi.selfName
      newOut := by
        intro p hp
        rcases List.mem_append.1 hp with hp | hp
        · obtain ⟨h1, h2, h3⟩ := hi.newOut p hp
          exact ⟨h1, by show @LT.lt Nat _ p.1 (σ.len + 1); omega, h3⟩
        · obtain rfl := List.mem_singleton.1 hp
          exact ⟨by have := hi.conv.heap; rw [hi.len] at this; exact this, Nat.lt_succ_self _, x, rfl, Or.inl rfl⟩
      outIs := Or.inl ho
      top := by intro h; cases h
      tab := fun y h1 h2 => (hi.tab y h1 h2).trans (((makeNode_tab hp).keeps y).trans (b5 y h1))
      tabOut := by intro _; rw [ho]; exact b6 }


theorem Grp.run_inv (hf : FreshTensors fresh) (hv : HInv fresh g0) (h0 : r ∈ g0.nodes) (hnin : (g0.node r).isGraphInput = false)
    (hc : (g0.node r).op ≠ "Const") (hout : (g0.node r).output = [o]) (hoe : o ≠ "") {as : List Act}
    (hown : (∃ xs, .inputs xs ∈ as) → ∀ q ∈ g0.nodes, (g0.node q).name ∉ (g0.node q).input) : ∀ {g : G} {σ : Grp},
    Grp.Inv fresh g0 r o g σ → Grp.allOk fresh o as σ → G.runActs fresh g0 r as g = .ok g' →
    Grp.Inv fresh g0 r o g' (Grp.run fresh as σ) := by
  induction as with
  | nil => intro g σ hi _ h; cases h; exact hi
  | cons a as ih =>
    intro g σ hi hok h
    simp only [G.runActs, bind, Except.bind] at h
    split at h
    · cases h
    rename_i g1 h1
    exact ih (fun ⟨xs, h⟩ => hown ⟨xs, by simp [h]⟩) (Grp.act_inv hf hv h0 hnin hc hout hoe hi (fun ⟨xs, h⟩ => hown ⟨xs, by simp [h]⟩) hok.1 h1) hok.2 h

/-- The equations of nodes with one output. -/
def Eqs {V : Type} (I : Interp V) (e : String → V) : List Node → Prop
  | [] => True
  | n :: ns => e (n.output.headD "") = I n.op n.domain n.attr (argVals e n) 0 ∧ Eqs I e ns

theorem eqs_of {V : Type} {I : Interp V} {e : String → V} {L : List Node}
    (h : ∀ n ∈ L, e (n.output.headD "") = I n.op n.domain n.attr (argVals e n) 0) : Eqs I e L := by
  induction L with
  | nil => trivial
  | cons n ns ih => exact ⟨h n (by simp), ih (fun m hm => h m (by simp [hm]))⟩

theorem Grp.refs_snd (σ : Grp) (r : Ref) : (σ.refs r).map Prod.snd = σ.nodes := by
  cases h : σ.self <;> simp [Grp.refs, Grp.nodes, h]

/-- A list read in the order of a permutation of its positions. -/
theorem perm_of_idx {α : Type} {l : List α} {idx : List Nat} (h : idx.Perm (List.range l.length)) :
    (idx.filterMap (fun i => l[i]?)).Perm l := by
  refine (h.filterMap _).trans ?_
  have : (List.range l.length).filterMap (fun i => l[i]?) = l := by
    clear h
    induction l with
    | nil => rfl
    | cons a l ih =>
      rw [List.length_cons, List.range_succ_eq_map, List.filterMap_cons]
      simp only [List.getElem?_cons_zero, List.filterMap_map, Function.comp_def, List.getElem?_cons_succ, ih]
  rw [this]

/-- **A handler that is a sequence of calls.** If the calls succeed, the group they describe computes, for operands in `D`, what the node
computed, then the conversion is correct. -/
theorem acts_step {V : Type} {I : Interp V} {D : List (Option V) → Prop} (hf : FreshTensors fresh) (hv : HInv fresh g)
    (h0 : r ∈ g.nodes) (hnin : (g.node r).isGraphInput = false) (hc : (g.node r).op ≠ "Const") (hout : (g.node r).output = [o]) (hoe : o ≠ "")
    {as : List Act} (h : G.runActs fresh g r as g = .ok g') (hok : Grp.allOk fresh o as (Grp.start (g.node r) g.heap.length o))
    (hown : (∃ xs, .inputs xs ∈ as) → ∀ q ∈ g.nodes, (g.node q).name ∉ (g.node q).input)
    (hσ : Grp.run fresh as (Grp.start (g.node r) g.heap.length o) = σ) (hlost : σ.lost = false) (hkept : o ∈ g.outputs → σ.out = o)
    (hmiss : ∀ i ∈ σ.miss, i ∈ σ.input → ConstOut g i ∨ ∃ p ∈ σ.news, p.2.op = "Const" ∧ i ∈ p.2.output)
    {L : List Node} (hL : L.Perm σ.nodes) (fed : Fed (g.node r).input L) (plain : ∀ m ∈ L, m.isGraphInput = false)
    (hz : ∃ m ∈ L, m.output = [σ.out])
    (law : ∀ e, Eqs I e L → D (argVals e (g.node r)) →
      e σ.out = I (g.node r).op (g.node r).domain (g.node r).attr (argVals e (g.node r)) 0) :
    ConvStep I D fresh g r g' := by
  have hi := Grp.run_inv hf hv h0 hnin hc hout hoe hown (Grp.start_inv hv h0 hout) hok h
  rw [hσ] at hi
  have hLout : ∀ m ∈ L, ∃ x, m.output = [x] ∧ (x = o ∨ ∃ k, g.heap.length ≤ k ∧ k < σ.len ∧ Mine fresh k x) := by
    intro m hm
    have := hL.mem_iff.1 hm
    rw [Grp.nodes] at this
    rcases List.mem_append.1 this with h | h
    · have h : σ.self = some m := by simpa using h
      exact ⟨o, (hi.selfName m h).2, Or.inl rfl⟩
    · obtain ⟨p, hp, rfl⟩ := List.mem_map.1 h
      obtain ⟨h1, h2, x, h3, h4⟩ := hi.newOut p hp
      exact ⟨x, h3, h4.imp id (fun h => ⟨p.1, h1, h2, h⟩)⟩
  have hLne : ∀ m ∈ L, ∀ x, m.output = [x] → x ≠ "" := by
    intro m hm x hx
    obtain ⟨y, hy, h⟩ := hLout m hm
    rw [hx] at hy
    obtain rfl : x = y := by simpa using hy
    rcases h with rfl | ⟨k, _, _, h⟩
    · exact hoe
    · exact h.ne hf
  obtain ⟨mz, hmz, hmzo⟩ := hz
  refine hi.conv.stepOne ?_ hf hv h0 hnin hout hoe hkept hi.tab (hi.tabOut hlost) (by rw [Grp.refs_snd]; exact hL) fed ?_ plain
    ⟨mz, hmz, by simp [hmzo]⟩ (hLne mz hmz _ hmzo) ?_
  · rintro q hq i hiq (h | ⟨rfl, hm⟩)
    · exact hi.conv.constOut hc h
    · have hself : ∃ n, σ.self = some n := by
        cases hs : σ.self with
        | some n => exact ⟨n, rfl⟩
        | none =>
          rcases hi.conv.mem q hq with ⟨_, h⟩ | h
          · exact (h rfl).elim
          · simp only [Grp.refs, hs, Option.map_none, Option.toList, List.nil_append] at h
            obtain ⟨p, hp, e⟩ := List.mem_map.1 h
            have := (hi.newOut p hp).1
            rw [e] at this
            have h2 : @LT.lt Nat _ q g.heap.length := hv.reach.wf.valid _ h0
            omega
      obtain ⟨n, hn⟩ := hself
      have hnode : g'.node q = n := hi.conv.node_eq (p := (q, n)) (by simp [Grp.refs, hn])
      rcases hmiss i hm (by simp only [Grp.input, hn]; rw [← hnode]; exact hiq) with h | ⟨p, hp, h1, h2⟩
      · exact hi.conv.constOut hc h
      · have hpm : p ∈ σ.refs q := by simp [Grp.refs, hp]
        exact ⟨p.1, (hi.conv.new p hpm).1, by rw [hi.conv.node_eq hpm]; exact h1, by rw [hi.conv.node_eq hpm]; exact h2⟩
  · intro m hm x hx _
    obtain ⟨y, hy, h⟩ := hLout m hm
    rw [hy] at hx
    obtain rfl := List.mem_singleton.1 hx
    refine h.imp id ?_
    rintro ⟨k, h1, h2, h3⟩
    exact ⟨k, h1, by rw [hi.len]; exact h2, h3⟩
  · intro env e he hD
    refine law e (eqs_of ?_) hD
    intro m hm
    obtain ⟨x, hx, -⟩ := hLout m hm
    have := (he m hm).one hx (hLne m hm x hx) (plain m hm)
    rw [hx]
    exact this

end Verif.Graph
