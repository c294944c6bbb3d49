import Verif.Model.Rename
import Verif.Spec.Semantics
import Verif.Props.GraphInv
import Mathlib.Data.List.Perm.Basic
/-!
# C37: keras output names are made distinct; C38: renaming tensors is a consistent renaming
-/
namespace Verif.Rename
open Verif Verif.Graph

/-! ## C38: specification -/

/-- Names that occur in the graph (as tensors of nodes, graph outputs, or table keys), and the absent tensor `""`. -/
def Mentions (g : G) (x : String) : Prop :=
  x = "" ∨ (∃ r ∈ g.nodes, x ∈ (g.node r).input ∨ x ∈ (g.node r).output) ∨ x ∈ g.outputs ∨
    x ∈ g.outToName.keys ∨ x ∈ g.consumers.keys ∨ x ∈ g.shapes.keys ∨ x ∈ g.dtypes.keys

/-- The rename map gives distinct names that are not used otherwise: different names of the graph stay different. `""`
(an absent input) is not renamed. -/
structure Proper (g : G) (m : Dict String String) : Prop where
  inj : ∀ x y, Mentions g x → Mentions g y → renameOf m x = renameOf m y → x = y
  absent : renameOf m "" = ""

/-- The association lists of the model stand for Python dictionaries: no key occurs twice. -/
structure DictsOk (g : G) : Prop where
  outs : g.outToName.keys.Nodup
  cons : g.consumers.keys.Nodup
  shapes : g.shapes.keys.Nodup
  dtypes : g.dtypes.keys.Nodup

/-! ## Lemmas -/

theorem renameKeys_get {β : Type} (m : Dict String String) (d : Dict String β) (x : String) (hn : d.keys.Nodup)
    (hinj : ∀ k ∈ d.keys, renameOf m k = renameOf m x → k = x) (hinj' : ∀ k ∈ d.keys, ∀ k' ∈ d.keys, renameOf m k = renameOf m k' → k = k') :
    (renameKeys m d).get (renameOf m x) = d.get x := by
  have huniq : ∀ p ∈ d, ∀ q ∈ d, p.1 = q.1 → p = q := by
    intro p hp q hq e
    exact List.inj_on_of_nodup_map hn hp hq e
  have hget : ∀ y, d.get x = some y ↔ ∃ p ∈ d, renameOf m p.1 = renameOf m x ∧ p.2 = y := by
    intro y
    constructor
    · intro h
      exact ⟨(x, y), Dict.get_eq_some_mem h, rfl, rfl⟩
    · rintro ⟨p, hp, e1, e2⟩
      have hk : p.1 = x := hinj p.1 (List.mem_map_of_mem hp) e1
      have : (d.get x).isSome := Dict.get_isSome_iff.2 (by rw [← hk]; exact List.mem_map_of_mem hp)
      obtain ⟨z, hz⟩ := Option.isSome_iff_exists.1 this
      have := huniq p hp (x, z) (Dict.get_eq_some_mem hz) hk
      rw [hz, ← e2, this]
  have key := fun y => get_foldl_set (fun p : String × β => renameOf m p.1) (fun p => p.2) d []
    (fun a ha b hb e => by rw [huniq a ha b hb (hinj' _ (List.mem_map_of_mem ha) _ (List.mem_map_of_mem hb) e)])
    (renameOf m x) y
  apply Option.ext
  intro y
  rw [hget y]
  unfold renameKeys
  rw [key y]
  simp

theorem renameKeys_keys {β : Type} (m : Dict String String) (d : Dict String β) {y : String} (h : ((renameKeys m d).get y).isSome) :
    ∃ k ∈ d.keys, renameOf m k = y := by
  have key : ∀ (d acc : Dict String β) (y : String), ((d.foldl (fun acc p => acc.set (renameOf m p.1) p.2) acc).get y).isSome →
      (∃ k ∈ d.keys, renameOf m k = y) ∨ (acc.get y).isSome := by
    intro d
    induction d with
    | nil => intro acc y h; exact Or.inr h
    | cons p d ih =>
      intro acc y h
      rcases ih _ y h with ⟨k, hk, e⟩ | h
      · exact Or.inl ⟨k, by simp [Dict.keys] at hk ⊢; exact Or.inr hk, e⟩
      · rw [Dict.get_set] at h
        split at h
        · rename_i e; exact Or.inl ⟨p.1, by simp [Dict.keys], e⟩
        · exact Or.inr h
  rcases key d [] y h with h | h
  · exact h
  · simp at h

/-- The nodes after the loop. -/
theorem foldl_setNode (m : Dict String String) (l : List Ref) (g : G) (hn : l.Nodup) (hv : ∀ r ∈ l, r < g.heap.length) :
    let g' := l.foldl (fun g' r => g'.setNode r (renameNode m (g'.node r))) g
    (∀ r, g'.node r = if r ∈ l then renameNode m (g.node r) else g.node r) ∧ g'.heap.length = g.heap.length ∧
    g'.nodes = g.nodes ∧ g'.byName = g.byName ∧ g'.outToName = g.outToName ∧ g'.consumers = g.consumers ∧
    g'.shapes = g.shapes ∧ g'.dtypes = g.dtypes ∧ g'.inputs = g.inputs ∧ g'.outputs = g.outputs := by
  induction l generalizing g with
  | nil => simp
  | cons a l ih =>
    intro g'
    have hnd := List.nodup_cons.1 hn
    obtain ⟨h1, h2, h3⟩ := ih (g.setNode a (renameNode m (g.node a))) hnd.2 (fun r hr => by simpa using hv r (List.mem_cons_of_mem _ hr))
    refine ⟨fun r => ?_, h2.trans (by simp), h3⟩
    show (l.foldl _ (g.setNode a (renameNode m (g.node a)))).node r = _
    rw [h1 r]
    by_cases hra : a = r
    · subst hra
      rw [if_neg hnd.1, node_setNode_self (hv a (List.mem_cons_self ..)), if_pos (List.mem_cons_self ..)]
    · rw [node_setNode_ne hra]
      by_cases hr : r ∈ l
      · rw [if_pos hr, if_pos (List.mem_cons_of_mem _ hr)]
      · rw [if_neg hr, if_neg (by simp [hr, Ne.symm hra])]

structure Renamed (g g' : G) (m : Dict String String) : Prop where
  node : ∀ r ∈ g.nodes, g'.node r = renameNode m (g.node r)
  len : g'.heap.length = g.heap.length
  nodes : g'.nodes = g.nodes
  byName : g'.byName = g.byName
  outToName : g'.outToName = renameKeys m g.outToName
  consumers : g'.consumers = renameKeys m g.consumers
  shapes : g'.shapes = renameKeys m g.shapes
  dtypes : g'.dtypes = renameKeys m g.dtypes
  inputs : g'.inputs = g.inputs
  outputs : g'.outputs = g.outputs.map (renameOf m)

theorem renameTensors_renamed {g : G} (hw : WF g) (m : Dict String String) : Renamed g (renameTensors g m) m := by
  obtain ⟨h1, h2, h3, h4, h5, h6, h7, h8, h9, h10⟩ := foldl_setNode m g.nodes { g with
    outToName := renameKeys m g.outToName
    consumers := renameKeys m g.consumers
    dtypes := renameKeys m g.dtypes
    shapes := renameKeys m g.shapes
    outputs := g.outputs.map (renameOf m) } hw.nodup hw.valid
  exact ⟨fun r hr => by rw [show renameTensors g m = _ from rfl]; unfold renameTensors; rw [h1 r, if_pos hr]; rfl,
    h2, h3, h4, h5, h6, h7, h8, h9, h10⟩

theorem mentions_out {g : G} {r : Ref} (hr : r ∈ g.nodes) {x : String} (h : x ∈ (g.node r).output) : Mentions g x :=
  Or.inr (Or.inl ⟨r, hr, Or.inr h⟩)
theorem mentions_in {g : G} {r : Ref} (hr : r ∈ g.nodes) {x : String} (h : x ∈ (g.node r).input) : Mentions g x :=
  Or.inr (Or.inl ⟨r, hr, Or.inl h⟩)

theorem Proper.ne {g : G} {m : Dict String String} (hp : Proper g m) {x : String} (hx : Mentions g x) : renameOf m x = "" ↔ x = "" := by
  constructor
  · intro h; exact hp.inj x "" hx (Or.inl rfl) (by rw [h, hp.absent])
  · rintro rfl; exact hp.absent

/-- Looking a table up under the new name gives what it held under the old one. -/
theorem tables_get {g : G} {m : Dict String String} (hd : DictsOk g) (hp : Proper g m) {x : String} (hx : Mentions g x) :
    (renameKeys m g.outToName).get (renameOf m x) = g.outToName.get x ∧
    (renameKeys m g.consumers).get (renameOf m x) = g.consumers.get x ∧
    (renameKeys m g.shapes).get (renameOf m x) = g.shapes.get x ∧
    (renameKeys m g.dtypes).get (renameOf m x) = g.dtypes.get x := by
  have m1 : ∀ k ∈ g.outToName.keys, Mentions g k := fun k hk => by simp [Mentions, hk]
  have m2 : ∀ k ∈ g.consumers.keys, Mentions g k := fun k hk => by simp [Mentions, hk]
  have m3 : ∀ k ∈ g.shapes.keys, Mentions g k := fun k hk => by simp [Mentions, hk]
  have m4 : ∀ k ∈ g.dtypes.keys, Mentions g k := fun k hk => by simp [Mentions, hk]
  refine ⟨renameKeys_get m _ x hd.outs ?_ ?_, renameKeys_get m _ x hd.cons ?_ ?_, renameKeys_get m _ x hd.shapes ?_ ?_,
    renameKeys_get m _ x hd.dtypes ?_ ?_⟩
  · exact fun k hk e => hp.inj k x (m1 k hk) hx e
  · exact fun k hk k' hk' e => hp.inj k k' (m1 k hk) (m1 k' hk') e
  · exact fun k hk e => hp.inj k x (m2 k hk) hx e
  · exact fun k hk k' hk' e => hp.inj k k' (m2 k hk) (m2 k' hk') e
  · exact fun k hk e => hp.inj k x (m3 k hk) hx e
  · exact fun k hk k' hk' e => hp.inj k k' (m3 k hk) (m3 k' hk') e
  · exact fun k hk e => hp.inj k x (m4 k hk) hx e
  · exact fun k hk k' hk' e => hp.inj k k' (m4 k hk) (m4 k' hk') e

theorem Renamed.wf {g g' : G} {m : Dict String String} (hw : WF g) (hd : DictsOk g) (hp : Proper g m) (h : Renamed g g' m) : WF g' where
  valid := by rw [h.nodes, h.len]; exact hw.valid
  nodup := by rw [h.nodes]; exact hw.nodup
  nameNe := by rw [h.nodes]; intro r hr; rw [h.node r hr]; exact hw.nameNe r hr
  byName := by
    intro n r
    rw [h.byName, h.nodes, hw.byName]
    constructor
    · rintro ⟨h1, h2⟩; exact ⟨h1, by rw [h.node r h1]; exact h2⟩
    · rintro ⟨h1, h2⟩; rw [h.node r h1] at h2; exact ⟨h1, h2⟩
  outs := by
    intro o n ho
    rw [h.outToName, h.nodes]
    constructor
    · intro hg
      obtain ⟨k, hk, rfl⟩ := renameKeys_keys m _ (by rw [hg]; rfl)
      have hkm : Mentions g k := by simp [Mentions, hk]
      rw [(tables_get hd hp hkm).1] at hg
      obtain ⟨r, hr, h1, h2⟩ := (hw.outs k n (fun e => ho ((hp.ne hkm).2 e))).1 hg
      exact ⟨r, hr, by rw [h.node r hr]; exact ⟨h1, List.mem_map_of_mem h2⟩⟩
    · rintro ⟨r, hr, h1, h2⟩
      rw [h.node r hr] at h1 h2
      obtain ⟨k, hk, rfl⟩ := List.mem_map.1 h2
      have hkm := mentions_out hr hk
      rw [(tables_get hd hp hkm).1]
      exact (hw.outs k n (fun e => ho ((hp.ne hkm).2 e))).2 ⟨r, hr, h1, hk⟩
  outNodup := by
    rw [h.nodes]
    intro r hr
    rw [h.node r hr]
    have h1 := hw.outNodup r hr
    have : ∀ l : List String, (∀ x ∈ l, Mentions g x) → (l.filter (· ≠ "")).Nodup → ((l.map (renameOf m)).filter (· ≠ "")).Nodup := by
      intro l hl hn
      have e : (l.map (renameOf m)).filter (· ≠ "") = (l.filter (· ≠ "")).map (renameOf m) := by
        rw [List.filter_map]
        congr 1
        apply List.filter_congr
        intro x hx
        have := hp.ne (hl x hx)
        simp [this]
      rw [e]
      refine List.Nodup.map_on ?_ hn
      intro x hx y hy e
      exact hp.inj x y (hl x (List.mem_of_mem_filter hx)) (hl y (List.mem_of_mem_filter hy)) e
    exact this _ (fun x hx => mentions_out hr hx) h1

theorem Renamed.idx {g g' : G} {m : Dict String String} (hd : DictsOk g) (hp : Proper g m) (h : Renamed g g' m) (hi : Idx g) : Idx g' where
  complete := by
    rw [h.nodes]
    intro r hr i hin
    rw [h.node r hr] at hin ⊢
    obtain ⟨k, hk, rfl⟩ := List.mem_map.1 hin
    have := hi.complete r hr k hk
    unfold G.cons at this ⊢
    rw [h.consumers, (tables_get hd hp (mentions_in hr hk)).2.1]
    exact this
  setNodup := by
    intro i
    unfold G.cons
    rw [h.consumers]
    cases hg : (renameKeys m g.consumers).get i with
    | none => simp
    | some s =>
      obtain ⟨k, hk, rfl⟩ := renameKeys_keys m _ (by rw [hg]; rfl)
      rw [(tables_get hd hp (by simp [Mentions, hk] : Mentions g k)).2.1] at hg
      have := hi.setNodup k
      unfold G.cons at this
      rw [hg] at this
      exact this

/-- The node equations survive the renaming. -/
theorem nodeSat_rename {V : Type} (I : Interp V) {g : G} {m : Dict String String} (hp : Proper g m) {r : Ref} (hr : r ∈ g.nodes)
    {env env' e e' : String → V} (henv : ∀ x, Mentions g x → env' (renameOf m x) = env x)
    (he : ∀ x, Mentions g x → e' (renameOf m x) = e x) :
    NodeSat I env' e' (renameNode m (g.node r)) ↔ NodeSat I env e (g.node r) := by
  have hargs : argVals e' (renameNode m (g.node r)) = argVals e (g.node r) := by
    unfold argVals renameNode
    simp only [List.map_map]
    apply List.map_congr_left
    intro i hi
    have hm := mentions_in hr hi
    simp only [Function.comp, argVal]
    by_cases h0 : i = ""
    · subst h0; rw [if_pos hp.absent, if_pos rfl]
    · rw [if_neg (fun h => h0 ((hp.ne hm).1 h)), if_neg h0, he i hm]
  unfold NodeSat
  rw [hargs]
  constructor
  · intro h j o ho hne
    have hm := mentions_out hr (List.mem_of_getElem? ho)
    have := h j (renameOf m o) (by simp [renameNode, ho]) (fun h => hne ((hp.ne hm).1 h))
    rw [he o hm, henv o hm] at this
    exact this
  · intro h j o ho hne
    simp only [renameNode, List.getElem?_map] at ho
    obtain ⟨k, hk, rfl⟩ := Option.map_eq_some_iff.1 ho
    have hm := mentions_out hr (List.mem_of_getElem? hk)
    have := h j k hk (fun e => hne ((hp.ne hm).2 e))
    rw [he k hm, henv k hm]
    exact this

theorem unproduced_rename {g : G} {m : Dict String String} (hp : Proper g m) {x : String} (hx : Mentions g x) :
    Unproduced (g.nodeList.map (renameNode m)) (renameOf m x) ↔ Unproduced g.nodeList x := by
  unfold Unproduced
  rw [hp.ne hx]
  refine or_congr Iff.rfl ⟨fun h n hn hmem => ?_, fun h n hn hmem => ?_⟩
  · exact h _ (List.mem_map_of_mem hn) (List.mem_map_of_mem hmem)
  · obtain ⟨n0, hn0, rfl⟩ := List.mem_map.1 hn
    obtain ⟨k, hk, e⟩ := List.mem_map.1 hmem
    obtain ⟨r, hr, rfl⟩ := List.mem_map.1 hn0
    rw [hp.inj k x (mentions_out hr hk) hx e] at hk
    exact h _ hn0 hk

theorem unproduced_other {g : G} {m : Dict String String} {y : String} (hy : ∀ x, Mentions g x → renameOf m x ≠ y) :
    Unproduced (g.nodeList.map (renameNode m)) y := by
  refine Or.inr (fun n hn hmem => ?_)
  obtain ⟨n0, hn0, rfl⟩ := List.mem_map.1 hn
  obtain ⟨k, hk, e⟩ := List.mem_map.1 hmem
  obtain ⟨r, hr, rfl⟩ := List.mem_map.1 hn0
  exact hy k (mentions_out hr hk) e

/-- **C38**: for every graph and every proper rename map, `rename_tensors` changes names only. The nodes keep their place, name,
operator and attributes and read and write the renamed tensors; the outputs are the renamed outputs in the same order;
all lookup tables agree with the nodes again and hold the old shapes and types under the new names; and the renamed
graph, fed the same values under the new names, computes exactly the same results, whatever the operators mean. -/
theorem rename_tensors_consistent {g : G} (hw : WF g) (hd : DictsOk g) {m : Dict String String} (hp : Proper g m) :
    let g' := renameTensors g m
    WF g' ∧ (Idx g → Idx g') ∧
    g'.nodeList = g.nodeList.map (fun n => { n with input := n.input.map (renameOf m), output := n.output.map (renameOf m) }) ∧
    g'.outputs = g.outputs.map (renameOf m) ∧ g'.inputs = g.inputs ∧
    (∀ x, Mentions g x → g'.shapes.get (renameOf m x) = g.shapes.get x ∧ g'.dtypes.get (renameOf m x) = g.dtypes.get x) ∧
    ∀ (V : Type) (I : Interp V) (env env' : String → V), (∀ x, Mentions g x → env' (renameOf m x) = env x) →
      ∀ out, Computes I g' env' out ↔ Computes I g env out := by
  intro g'
  have h : Renamed g g' m := renameTensors_renamed hw m
  have hnl : g'.nodeList = g.nodeList.map (renameNode m) := by
    unfold G.nodeList
    rw [h.nodes, List.map_map]
    apply List.map_congr_left
    intro r hr
    exact h.node r hr
  refine ⟨h.wf hw hd hp, h.idx hd hp, hnl, h.outputs, h.inputs, fun x hx => ?_, ?_⟩
  · rw [h.shapes, h.dtypes]; exact (tables_get hd hp hx).2.2
  intro V I env env' henv out
  unfold Computes
  rw [hnl, h.outputs]
  constructor
  · rintro ⟨e', ⟨hs1, hs2⟩, rfl⟩
    classical
    let e : String → V := fun x => if Mentions g x then e' (renameOf m x) else env x
    have he : ∀ x, Mentions g x → e' (renameOf m x) = e x := fun x hx => by simp [e, hx]
    refine ⟨e, ⟨fun n hn => ?_, fun x hx => ?_⟩, ?_⟩
    · obtain ⟨r, hr, rfl⟩ := List.mem_map.1 hn
      exact (nodeSat_rename I hp hr henv he).1 (hs1 _ (List.mem_map_of_mem hn))
    · by_cases hm : Mentions g x
      · rw [← he x hm, hs2 _ ((unproduced_rename hp hm).2 hx), henv x hm]
      · simp [e, hm]
    · rw [List.map_map]
      apply List.map_congr_left
      intro o ho
      exact he o (by simp [Mentions, ho])
  · rintro ⟨e, ⟨hs1, hs2⟩, rfl⟩
    classical
    let e' : String → V := fun y => if hy : ∃ x, Mentions g x ∧ renameOf m x = y then e hy.choose else env' y
    have he : ∀ x, Mentions g x → e' (renameOf m x) = e x := by
      intro x hx
      have hy : ∃ z, Mentions g z ∧ renameOf m z = renameOf m x := ⟨x, hx, rfl⟩
      simp only [e', hy, dif_pos]
      rw [hp.inj _ _ hy.choose_spec.1 hx hy.choose_spec.2]
    refine ⟨e', ⟨fun n hn => ?_, fun y hy => ?_⟩, ?_⟩
    · obtain ⟨n0, hn0, rfl⟩ := List.mem_map.1 hn
      obtain ⟨r, hr, rfl⟩ := List.mem_map.1 hn0
      exact (nodeSat_rename I hp hr henv he).2 (hs1 _ hn0)
    · by_cases hex : ∃ x, Mentions g x ∧ renameOf m x = y
      · obtain ⟨x, hx, rfl⟩ := hex
        rw [he x hx, hs2 x ((unproduced_rename hp hx).1 hy), henv x hx]
      · simp only [e', hex, dif_neg, not_false_eq_true]
    · rw [List.map_map]
      apply List.map_congr_left
      intro o ho
      exact (he o (by simp [Mentions, ho])).symm

/-! ### Instance and counterexample -/

/-- `z = Mul(x, y)`, as TensorFlow names it. -/
def exGraph : G :=
  { heap := [⟨"nx", "Placeholder", "", [], [], ["x:0"]⟩, ⟨"ny", "Placeholder", "", [], [], ["y:0"]⟩,
             ⟨"m", "Mul", "", [], ["x:0", "y:0"], ["z:0"]⟩]
    nodes := [0, 1, 2]
    byName := [("nx", 0), ("ny", 1), ("m", 2)]
    outToName := [("x:0", "nx"), ("y:0", "ny"), ("z:0", "m")]
    consumers := [("x:0", ["m"]), ("y:0", ["m"])]
    inputs := [0, 1]
    outputs := ["z:0"] }

theorem exGraph_mentions {x : String} (h : Mentions exGraph x) : x ∈ ["", "x:0", "y:0", "z:0"] := by
  have hc : ∀ r ∈ exGraph.nodes, ∀ x, (x ∈ (exGraph.node r).input ∨ x ∈ (exGraph.node r).output) → x ∈ ["", "x:0", "y:0", "z:0"] := by
    intro r hr x
    have : r = 0 ∨ r = 1 ∨ r = 2 := by simpa [exGraph] using hr
    rcases this with rfl | rfl | rfl
    · simp [exGraph, G.node]; intro h; simp [h]
    · simp [exGraph, G.node]; intro h; simp [h]
    · simp only [exGraph, G.node]; intro h; simp at h; rcases h with (h | h) | h <;> simp [h]
  rcases h with h | ⟨r, hr, h⟩ | h | h | h | h | h
  · simp [h]
  · exact hc r hr x h
  · simp [exGraph] at h; simp [h]
  · simp [exGraph, Dict.keys] at h; rcases h with h | h | h <;> simp [h]
  · simp [exGraph, Dict.keys] at h; rcases h with h | h <;> simp [h]
  · simp [exGraph, Dict.keys] at h
  · simp [exGraph, Dict.keys] at h

/-- The rename map of a signature `(a, b) -> out` is proper for it, even though it swaps a name: the hypotheses are met. -/
example : Proper exGraph [("x:0", "a"), ("y:0", "x:0"), ("z:0", "out")] := by
  refine ⟨fun x y hx hy => ?_, rfl⟩
  have : ∀ x ∈ ["", "x:0", "y:0", "z:0"], ∀ y ∈ ["", "x:0", "y:0", "z:0"],
      renameOf [("x:0", "a"), ("y:0", "x:0"), ("z:0", "out")] x = renameOf [("x:0", "a"), ("y:0", "x:0"), ("z:0", "out")] y → x = y := by decide
  exact this x (exGraph_mentions hx) y (exGraph_mentions hy)

example : DictsOk exGraph := ⟨by decide, by decide, by decide, by decide⟩

/-- Without a proper map the property fails, silently: a signature whose input and output have the same name (`a`) makes one
tensor with two producers; the producer of the input can no longer be found. -/
theorem rename_tensors_collision_violated :
    let g' := renameTensors exGraph [("x:0", "a"), ("z:0", "a")]
    g'.outputs = ["a"] ∧ (g'.node 0).output = ["a"] ∧ (g'.node 2).output = ["a"] ∧ (g'.node 2).input = ["a", "y:0"] ∧
      g'.getNodeByOutput "a" = some 2 := by
  decide

/-! ## C37 -/

theorem cand_injective (name : Str) {i j : Nat}
    (h : cand name i = cand name j) : i = j := by
  unfold cand at h
  by_cases hi : i = 0 <;> by_cases hj : j = 0
  · omega
  · simp [hi, hj] at h
  · simp [hi, hj] at h
  · simp only [hi, hj, if_false, List.append_assoc, List.append_cancel_left_eq] at h
    exact Decimal.render_injective (by simpa using h)

theorem freshName_some (used : List Str) (name : Str) (fuel i : Nat) (new : Str) (h : freshName used name fuel i = some new) :
    new ∉ used ∧ ∃ j, i ≤ j ∧ new = cand name j ∧
      ∀ k, i ≤ k → k < j → cand name k ∈ used := by
  induction fuel generalizing i with
  | zero => cases h
  | succ fuel ih =>
    unfold freshName at h
    split at h
    · rename_i hu
      obtain ⟨h1, j, h2, h3, h4⟩ := ih (i + 1) h
      refine ⟨h1, j, by omega, h3, fun k hk hkj => ?_⟩
      by_cases hki : k = i
      · subst hki; exact hu
      · exact h4 k (by omega) hkj
    · rename_i hu
      cases h
      exact ⟨hu, i, Nat.le_refl _, rfl, fun k h1 h2 => by omega⟩

theorem freshName_none (used : List Str) (name : Str) (fuel i : Nat) (h : freshName used name fuel i = none) :
    ∀ k, i ≤ k → k < i + fuel → cand name k ∈ used := by
  induction fuel generalizing i with
  | zero => intro k h1 h2; omega
  | succ fuel ih =>
    unfold freshName at h
    split at h
    · rename_i hu
      intro k h1 h2
      by_cases hki : k = i
      · subst hki; exact hu
      · exact ih (i + 1) h k (by omega) (by omega)
    · cases h

/-- The search for a free name ends: among `len(used) + 1` candidates one is free. -/
theorem freshName_terminates (used : List Str) (name : Str) : ∃ new, freshName used name (used.length + 1) 0 = some new := by
  cases h : freshName used name (used.length + 1) 0 with
  | some new => exact ⟨new, rfl⟩
  | none =>
    exfalso
    have hall := freshName_none used name _ 0 h
    let cands := (List.range (used.length + 1)).map (cand name)
    have hnd : cands.Nodup := List.Nodup.map_on (fun a _ b _ e => cand_injective name e) List.nodup_range
    have hsub : cands ⊆ used := by
      intro c hc
      obtain ⟨k, hk, rfl⟩ := List.mem_map.1 hc
      exact hall k (Nat.zero_le _) (by simpa using hk)
    have := (List.subperm_of_subset hnd hsub).length_le
    simp [cands] at this
    omega

theorem renameLoop_spec (used names : List Str) :
    ∃ new, renameLoop (fun used => used.length + 1) used names = some new ∧ new.length = names.length ∧ new.Nodup ∧
      (∀ n ∈ new, n ∉ used) ∧
      ∀ (k : Nat) (hk : k < names.length) (hk' : k < new.length),
        new[k] = names[k] ∧ names[k] ∉ used ++ new.take k ∨
        names[k] ∈ used ++ new.take k ∧ ∃ i, 0 < i ∧ new[k] = names[k] ++ ['_'] ++ Decimal.render i := by
  induction names generalizing used with
  | nil => exact ⟨[], rfl, rfl, List.nodup_nil, by simp, fun k hk => by simp at hk⟩
  | cons name names ih =>
    obtain ⟨nw, hnw⟩ := freshName_terminates used name
    obtain ⟨hfree, j, _, hj, hbelow⟩ := freshName_some used name _ 0 nw hnw
    obtain ⟨new, h1, h2, h3, h4, h5⟩ := ih (used ++ [nw])
    refine ⟨nw :: new, ?_, by simp [h2], ?_, ?_, ?_⟩
    · unfold renameLoop; simp only [hnw, h1]; rfl
    · rw [List.nodup_cons]
      exact ⟨fun hm => (h4 nw hm) (by simp), h3⟩
    · intro n hn
      rcases List.mem_cons.1 hn with rfl | hn
      · exact hfree
      · exact fun hu => h4 n hn (by simp [hu])
    · intro k hk hk'
      cases k with
      | zero =>
        simp only [List.getElem_cons_zero, List.take_zero, List.append_nil]
        by_cases hj0 : j = 0
        · left
          simp only [cand, hj0, if_true] at hj
          exact ⟨hj, hj ▸ hfree⟩
        · right
          simp only [cand, hj0, if_false] at hj
          have := hbelow 0 (Nat.le_refl _) (by omega)
          simp only [cand, if_true] at this
          exact ⟨this, j, by omega, hj⟩
      | succ k =>
        have := h5 k (by simpa using hk) (by simpa using hk')
        simpa using this

/-- **C37**: renaming the output names of a keras model ends, keeps their number and order, and makes them pairwise distinct;
distinct names are not touched; and otherwise a name is kept unless it is already taken by an output before it, in which
case it gets a numeric suffix. -/
theorem rename_duplicates_distinct (names : List Str) :
    ∃ new, renameDuplicates (fun used => used.length + 1) names = some new ∧ new.length = names.length ∧ new.Nodup ∧
      (names.Nodup → new = names) ∧
      ∀ (k : Nat) (hk : k < names.length) (hk' : k < new.length),
        new[k] = names[k] ∨ names[k] ∈ new.take k ∧ ∃ i, 0 < i ∧ new[k] = names[k] ++ ['_'] ++ Decimal.render i := by
  unfold renameDuplicates
  by_cases hn : names.Nodup
  · rw [if_pos hn]
    exact ⟨names, rfl, rfl, hn, fun _ => rfl, fun _ _ _ => Or.inl rfl⟩
  · rw [if_neg hn]
    obtain ⟨new, h1, h2, h3, _, h5⟩ := renameLoop_spec [] names
    refine ⟨new, h1, h2, h3, fun h => absurd h hn, fun k hk hk' => ?_⟩
    rcases h5 k hk hk' with ⟨h, _⟩ | ⟨h, h'⟩
    · exact Or.inl h
    · exact Or.inr ⟨by simpa using h, h'⟩

/-- More iterations never change the answer (the Python loop has no bound). -/
theorem freshName_more (used : List Str) (name : Str) (fuel fuel' i : Nat) (new : Str) (hle : fuel ≤ fuel')
    (h : freshName used name fuel i = some new) : freshName used name fuel' i = some new := by
  induction fuel generalizing fuel' i with
  | zero => cases h
  | succ fuel ih =>
    obtain ⟨f, rfl⟩ : ∃ f, fuel' = f + 1 := ⟨fuel' - 1, by omega⟩
    unfold freshName at h ⊢
    split at h
    · rename_i hu
      rw [if_pos hu]; exact ih f (i + 1) (by omega) h
    · rename_i hu
      rw [if_neg hu]; exact h

/-- An output whose name was unique may nevertheless be renamed, when the suffixed form of a duplicate before it is its name. -/
theorem rename_unique_name_violated :
    let names := ["a".toList, "a".toList, "a_1".toList]
    names.count "a_1".toList = 1 ∧
      renameDuplicates (fun used => used.length + 1) names = some ["a".toList, "a_1".toList, "a_1_1".toList] := by
  decide

end Verif.Rename
