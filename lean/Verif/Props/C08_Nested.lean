import Verif.Model.NestedGraph
import Verif.Props.C09_ReplaceAll
/-!
# C08: consumers inside nested body graphs are found; C09 for nested graphs
-/
namespace Verif.Nested
open Verif Verif.Graph

/-- Graph `a` is `c` itself or encloses it. -/
inductive Encl (w : World) (c : Nat) : Nat → Prop
  | refl : Encl w c c
  | up {a b : Nat} : Encl w c a → w.parent a = some b → Encl w c b

/-- Some node of the graph reads the tensor. -/
def Reads (g : G) (x : String) : Prop := ∃ r ∈ g.nodes, x ∈ (g.node r).input

@[simp] theorem upd_self {α β : Type} [DecidableEq α] (f : α → β) (a : α) (b : β) : upd f a b a = b := by simp [upd]
theorem upd_ne {α β : Type} [DecidableEq α] (f : α → β) {a x : α} (b : β) (h : x ≠ a) : upd f a b x = f x := by
  simp [upd, h]

/-! ## Going up -/

theorem mem_addChild {w : World} {p c d q : Nat} {x y : String} :
    d ∈ (w.addChild p x c).i2g q y ↔ d ∈ w.i2g q y ∨ (q = p ∧ y = x ∧ d = c) := by
  unfold World.addChild
  simp only
  by_cases hq : q = p
  · subst hq
    rw [upd_self]
    by_cases hy : y = x
    · subst hy
      rw [upd_self]
      split
      · rename_i h
        constructor
        · exact Or.inl
        · rintro (h' | ⟨_, _, rfl⟩)
          · exact h'
          · exact h
      · simp
    · rw [upd_ne _ _ hy]; simp [hy]
  · rw [upd_ne _ _ hq]; simp [hq]

theorem mem_delChild {w : World} {p c d q : Nat} {x y : String} :
    d ∈ (w.delChild p x c).i2g q y ↔ d ∈ w.i2g q y ∧ ¬ (q = p ∧ y = x ∧ d = c) := by
  unfold World.delChild
  simp only
  by_cases hq : q = p
  · subst hq
    rw [upd_self]
    by_cases hy : y = x
    · subst hy
      rw [upd_self]
      simp
    · rw [upd_ne _ _ hy]; simp [hy]
  · rw [upd_ne _ _ hq]; simp [hq]

/-- Only `_input_to_graph` may differ. -/
structure UpSame (w w' : World) : Prop where
  size : w'.size = w.size
  g : w'.g = w.g
  parent : w'.parent = w.parent

theorem UpSame.refl (w : World) : UpSame w w := ⟨rfl, rfl, rfl⟩
theorem UpSame.trans {a b c : World} (h : UpSame a b) (h' : UpSame b c) : UpSame a c :=
  ⟨h'.size.trans h.size, h'.g.trans h.g, h'.parent.trans h.parent⟩

theorem regUp_same (x : String) (fuel : Nat) (w : World) (c : Nat) : UpSame w (w.regUp x fuel c) := by
  induction fuel generalizing w c with
  | zero => exact .refl _
  | succ fuel ih =>
    unfold World.regUp
    split
    · exact .refl _
    · exact UpSame.trans (b := w.addChild _ x c) ⟨rfl, rfl, rfl⟩ (ih _ _)

theorem regUp_mono (x : String) (fuel : Nat) (w : World) (c : Nat) {p d : Nat} {y : String} (h : d ∈ w.i2g p y) :
    d ∈ (w.regUp x fuel c).i2g p y := by
  induction fuel generalizing w c with
  | zero => exact h
  | succ fuel ih =>
    unfold World.regUp
    split
    · exact h
    · exact ih _ _ (mem_addChild.2 (Or.inl h))

theorem regUp_kid (x : String) (fuel : Nat) (w : World) (c : Nat)
    (hk : ∀ p d y, d ∈ w.i2g p y → w.parent d = some p) {p d : Nat} {y : String} (h : d ∈ (w.regUp x fuel c).i2g p y) :
    w.parent d = some p := by
  induction fuel generalizing w c with
  | zero => exact hk _ _ _ h
  | succ fuel ih =>
    unfold World.regUp at h
    split at h
    · exact hk _ _ _ h
    · rename_i q hq
      refine ih (w.addChild q x c) q ?_ h
      intro p' d' y' h'
      rcases mem_addChild.1 h' with h' | ⟨rfl, _, rfl⟩
      · exact hk _ _ _ h'
      · exact hq

theorem Encl.cases' {w : World} {c a : Nat} (h : Encl w c a) : a = c ∨ ∃ p, w.parent c = some p ∧ Encl w p a := by
  induction h with
  | refl => exact Or.inl rfl
  | @up a b h hp ih =>
    rcases ih with rfl | ⟨p, h1, h2⟩
    · exact Or.inr ⟨b, hp, .refl⟩
    · exact Or.inr ⟨p, h1, h2.up hp⟩

theorem Encl.congr {w w' : World} (hp : w'.parent = w.parent) {c a : Nat} (h : Encl w c a) : Encl w' c a := by
  induction h with
  | refl => exact .refl
  | up _ hpa ih => exact ih.up (by rw [hp]; exact hpa)

theorem Encl.trans {w : World} {c a b : Nat} (h : Encl w c a) (h' : Encl w a b) : Encl w c b := by
  induction h' with
  | refl => exact h
  | up _ hp ih => exact ih.up hp

theorem regUp_complete (x : String) (fuel : Nat) (w : World) (c : Nat) (hlt : ∀ c p, w.parent c = some p → p < c)
    (hf : c < fuel) {a b : Nat} (ha : Encl w c a) (hb : w.parent a = some b) : a ∈ (w.regUp x fuel c).i2g b x := by
  induction fuel generalizing w c with
  | zero => omega
  | succ fuel ih =>
    unfold World.regUp
    rcases ha.cases' with rfl | ⟨p, hp, ha⟩
    · rw [hb]
      exact regUp_mono _ _ _ _ (mem_addChild.2 (Or.inr ⟨rfl, rfl, rfl⟩))
    · rw [hp]
      have := hlt _ _ hp
      exact ih (w.addChild p x c) p hlt (by omega) (Encl.congr (w := w) (w' := w.addChild p x c) rfl ha) hb

theorem regUps_same (w : World) (c : Nat) (xs : List String) : UpSame w (w.regUps c xs) := by
  unfold World.regUps
  induction xs generalizing w with
  | nil => exact .refl _
  | cons x xs ih => exact (regUp_same x _ w c).trans (ih _)

theorem regUps_mono (w : World) (c : Nat) (xs : List String) {p d : Nat} {y : String} (h : d ∈ w.i2g p y) :
    d ∈ (w.regUps c xs).i2g p y := by
  unfold World.regUps
  induction xs generalizing w with
  | nil => exact h
  | cons x xs ih => exact ih _ (regUp_mono _ _ _ _ h)

theorem regUps_kid (w : World) (c : Nat) (xs : List String)
    (hk : ∀ p d y, d ∈ w.i2g p y → w.parent d = some p) {p d : Nat} {y : String} (h : d ∈ (w.regUps c xs).i2g p y) :
    w.parent d = some p := by
  unfold World.regUps at h
  induction xs generalizing w with
  | nil => exact hk _ _ _ h
  | cons x xs ih =>
    have hs := regUp_same x (c + 1) w c
    rw [← hs.parent]
    refine ih (w.regUp x (c + 1) c) ?_ h
    intro p' d' y' h'
    rw [hs.parent]
    exact regUp_kid x _ w c hk h'

theorem regUps_complete (w : World) (c : Nat) (xs : List String) (hlt : ∀ c p, w.parent c = some p → p < c)
    {x : String} (hx : x ∈ xs) {a b : Nat} (ha : Encl w c a) (hb : w.parent a = some b) :
    a ∈ (w.regUps c xs).i2g b x := by
  unfold World.regUps
  induction xs generalizing w with
  | nil => cases hx
  | cons y xs ih =>
    have hs := regUp_same y (c + 1) w c
    rcases List.mem_cons.1 hx with rfl | hx
    · exact regUps_mono _ c xs (regUp_complete x (c + 1) w c hlt (by omega) ha hb)
    · exact ih (w.regUp y (c + 1) c) (by rw [hs.parent]; exact hlt) hx (ha.congr hs.parent) (by rw [hs.parent]; exact hb)

theorem unregUp_same (x : String) (fuel : Nat) (w : World) (c : Nat) : UpSame w (w.unregUp x fuel c) := by
  induction fuel generalizing w c with
  | zero => exact .refl _
  | succ fuel ih =>
    unfold World.unregUp
    split
    · exact .refl _
    · split
      · exact UpSame.trans (b := w.delChild _ x c) ⟨rfl, rfl, rfl⟩ (ih _ _)
      · exact .refl _

theorem unregUp_i2g (x : String) (fuel : Nat) (w : World) (c : Nat) (p d : Nat) (y : String) :
    (d ∈ (w.unregUp x fuel c).i2g p y → d ∈ w.i2g p y) ∧
    (d ∈ w.i2g p y → y ≠ x → d ∈ (w.unregUp x fuel c).i2g p y) := by
  induction fuel generalizing w c with
  | zero => exact ⟨id, fun h _ => h⟩
  | succ fuel ih =>
    unfold World.unregUp
    split
    · exact ⟨id, fun h _ => h⟩
    · split
      · obtain ⟨h1, h2⟩ := ih (w.delChild _ x c) _
        exact ⟨fun h => (mem_delChild.1 (h1 h)).1, fun h hy => h2 (mem_delChild.2 ⟨h, fun e => hy e.2.1⟩) hy⟩
      · exact ⟨id, fun h _ => h⟩

theorem unregUps_same (w : World) (c : Nat) (xs : List String) : UpSame w (w.unregUps c xs) := by
  unfold World.unregUps
  induction xs generalizing w with
  | nil => exact .refl _
  | cons x xs ih => exact (unregUp_same x _ w c).trans (ih _)

theorem unregUps_i2g (w : World) (c : Nat) (xs : List String) (p d : Nat) (y : String) :
    (d ∈ (w.unregUps c xs).i2g p y → d ∈ w.i2g p y) ∧
    (d ∈ w.i2g p y → y ∉ xs → d ∈ (w.unregUps c xs).i2g p y) := by
  unfold World.unregUps
  induction xs generalizing w with
  | nil => exact ⟨id, fun h _ => h⟩
  | cons x xs ih =>
    obtain ⟨h1, h2⟩ := ih (w.unregUp x (c + 1) c)
    obtain ⟨a1, a2⟩ := unregUp_i2g x (c + 1) w c p d y
    simp only [List.mem_cons, not_or]
    exact ⟨fun h => a1 (h1 h), fun h hy => h2 (a2 h hy.1) hy.2⟩

theorem unregUps_noparent (w : World) (c : Nat) (xs : List String) (h : w.parent c = none) : w.unregUps c xs = w := by
  unfold World.unregUps
  induction xs with
  | nil => rfl
  | cons x xs ih =>
    have : w.unregUp x (c + 1) c = w := by unfold World.unregUp; rw [h]
    rw [List.foldl_cons, this, ih]

/-! ## What an edit reads -/

theorem reads_of_heap_set {g g' : G} {r : Ref} {n : Node} (hn : g'.nodes = g.nodes) (hh : g'.heap = g.heap.set r n)
    {x : String} (h : Reads g' x) : Reads g x ∨ x ∈ n.input := by
  obtain ⟨r', hr', hx⟩ := h
  rw [hn] at hr'
  rw [node_of_heap_set hh] at hx
  by_cases e : r = r'
  · subst e
    by_cases hv : r < g.heap.length
    · rw [node_setNode_self hv] at hx; exact Or.inr hx
    · left
      refine ⟨r, hr', ?_⟩
      have : g.heap.set r n = g.heap := List.set_eq_of_length_le (Nat.le_of_not_lt hv)
      simpa only [G.node, G.setNode, this] using hx
  · rw [node_setNode_ne e] at hx
    exact Or.inl ⟨r', hr', hx⟩

theorem reads_congr {g g' : G} (hn : g'.nodes = g.nodes) (hh : g'.heap = g.heap) {x : String} (h : Reads g' x) :
    Reads g x := by
  obtain ⟨r, hr, hx⟩ := h
  refine ⟨r, hn ▸ hr, ?_⟩
  simpa only [G.node, hh] using hx

theorem edit_reads {g g' : G} {e : Edit} {un reg : List String} (hw : WF g) (hl : Legal g e)
    (hu : upNames g e = some (un, reg)) (h : g.apply e = .ok g') {x : String} (hx : Reads g' x) :
    Reads g x ∨ x ∈ reg := by
  cases e with
  | makeNode op input name output attr domain =>
    simp only [upNames, Option.some.injEq, Prod.mk.injEq] at hu
    obtain ⟨rfl, rfl⟩ := hu
    simp only [G.apply] at h
    cases hm : g.makeNode op input name output attr domain with
    | error e => rw [hm] at h; cases h
    | ok p =>
      rw [hm] at h; cases h
      have m := makeNode_made (r := p.2) (g' := p.1) hm
      obtain ⟨r, hr, hxr⟩ := hx
      rw [m.nodes, List.mem_append, List.mem_singleton] at hr
      rcases hr with hr | rfl
      · rw [node_append_lt (hw.valid r hr) _ _ m.heap] at hxr
        exact Or.inl ⟨r, hr, hxr⟩
      · right
        have : p.1.node p.2 = ⟨name, op, domain, attr, input, output⟩ := by simp [G.node, m.heap, m.ref]
        rw [this] at hxr
        exact hxr
  | removeNode name =>
    obtain ⟨r, _, m⟩ := removeNode_removed hw h
    obtain ⟨r', hr', hxr⟩ := hx
    rw [m.nodes] at hr'
    rw [m.node] at hxr
    exact Or.inl ⟨r', List.mem_of_mem_erase hr', hxr⟩
  | resetNodes ops =>
    have m := resetNodes_reset hw hl.2 h
    obtain ⟨r', hr', hxr⟩ := hx
    rw [m.nodes] at hr'
    rw [m.node] at hxr
    exact Or.inl ⟨r', hl.2 _ hr', hxr⟩
  | replaceInputAt r old new idx =>
    simp only [upNames, Option.some.injEq, Prod.mk.injEq] at hu
    obtain ⟨rfl, rfl⟩ := hu
    obtain ⟨_, a2, a3, _, _⟩ := replaceInputAt_spec h
    rcases reads_of_heap_set a2.nodes a3 hx with h' | h'
    · exact Or.inl h'
    · rcases List.mem_or_eq_of_mem_set h' with h' | h'
      · exact Or.inl ⟨r, hl, h'⟩
      · exact Or.inr (by simp [h'])
  | replaceInput r old new =>
    simp only [upNames, Option.some.injEq, Prod.mk.injEq] at hu
    obtain ⟨rfl, rfl⟩ := hu
    cases h
    obtain ⟨a1, a2, _, _⟩ := replaceInput_spec g r old new
    rcases reads_of_heap_set a1.nodes a2 hx with h' | h'
    · exact Or.inl h'
    · simp only [List.mem_map] at h'
      obtain ⟨y, hy, rfl⟩ := h'
      split
      · exact Or.inr (by simp)
      · exact Or.inl ⟨r, hl, hy⟩
  | replaceInputs r new =>
    simp only [upNames, Option.some.injEq, Prod.mk.injEq] at hu
    obtain ⟨rfl, rfl⟩ := hu
    cases h
    obtain ⟨a1, a2, _, _⟩ := replaceInputs_spec g r new
    exact reads_of_heap_set a1.nodes a2 hx
  | removeInputAt r y idx =>
    obtain ⟨_, a2, a3, _, _⟩ := removeInputAt_spec h
    rcases reads_of_heap_set a2.nodes a3 hx with h' | h'
    · exact Or.inl h'
    · exact Or.inl ⟨r, hl, List.mem_of_mem_eraseIdx h'⟩
  | removeInput r y =>
    rcases removeInput_spec h with ⟨rfl, _⟩ | ⟨_, a2, a3, _, _⟩
    · exact Or.inl hx
    · rcases reads_of_heap_set a2.nodes a3 hx with h' | h'
      · exact Or.inl h'
      · exact Or.inl ⟨r, hl, List.mem_of_mem_erase h'⟩
  | setOutputs r outs =>
    obtain ⟨_, a2, a3, _, _⟩ := setOutputs_spec hw hl h
    rcases reads_of_heap_set a2 a3 hx with h' | h'
    · exact Or.inl h'
    · exact Or.inl ⟨r, hl, h'⟩
  | setAttr r k v =>
    cases h
    rcases reads_of_heap_set (g := g) (g' := g.setAttr r k v) rfl rfl hx with h' | h'
    · exact Or.inl h'
    · exact Or.inl ⟨r, hl, h'⟩
  | setType r op =>
    cases h
    rcases reads_of_heap_set (g := g) (g' := g.setType r op) rfl rfl hx with h' | h'
    · exact Or.inl h'
    · exact Or.inl ⟨r, hl, h'⟩
  | rawInputs r xs => simp [upNames] at hu
  | rawFields r attr domain =>
    cases h
    rcases reads_of_heap_set (g := g) (g' := g.rawFields r attr domain) rfl rfl hx with h' | h'
    · exact Or.inl h'
    · exact Or.inl ⟨r, hl, h'⟩
  | setShape name s =>
    simp only [G.apply, G.setShape] at h
    split at h
    · cases h
    · cases h; exact Or.inl (reads_congr rfl rfl hx)
  | setDtype name s =>
    simp only [G.apply, G.setDtype] at h
    split at h
    · cases h
    · cases h; exact Or.inl (reads_congr rfl rfl hx)
  | addGraphInput nodeName name =>
    simp only [G.apply, G.addGraphInput, bind, Except.bind] at h
    cases hm : g.makeNode "Placeholder" [] nodeName [name] with
    | error e => rw [hm] at h; cases h
    | ok p =>
      rw [hm] at h; cases h
      have m := makeNode_made (r := p.2) (g' := p.1) hm
      obtain ⟨r, hr, hxr⟩ := hx
      rw [m.nodes, List.mem_append, List.mem_singleton] at hr
      rcases hr with hr | rfl
      · left
        refine ⟨r, hr, ?_⟩
        rw [← node_append_lt (hw.valid r hr) _ _ m.heap]
        exact hxr
      · have : p.1.node p.2 = ⟨nodeName, "Placeholder", "", [], [], [name]⟩ := by simp [G.node, m.heap, m.ref]
        have hxr' : x ∈ (p.1.node p.2).input := hxr
        rw [this] at hxr'
        cases hxr'
  | addGraphOutput name =>
    simp only [G.apply, G.addGraphOutput] at h
    split at h
    · cases h
    · split at h
      · cases h
      · cases h; exact Or.inl (reads_congr rfl rfl hx)
  | replaceAllInputs old new ops => simp [upNames] at hu
  | insertNewNodeOnInput r op i name newOut => simp [upNames] at hu
  | insertNodeOnOutput r o => simp [upNames] at hu
  | insertNewNodeOnOutput op o name newOut => simp [upNames] at hu
  | changeNodeName r newName newOuts => simp [upNames] at hu

/-! ## The invariant -/

structure Inv (w : World) : Prop where
  lt : ∀ c p, w.parent c = some p → p < c ∧ c < w.size
  wf : ∀ c, WF (w.g c)
  idx : ∀ c, Idx (w.g c)
  kid : ∀ p d y, d ∈ w.i2g p y → w.parent d = some p
  fresh : ∀ c, w.size ≤ c → (w.g c).nodes = []
  reg : ∀ c x, Reads (w.g c) x → ∀ a b, Encl w c a → w.parent a = some b → a ∈ w.i2g b x

/-- A legal edit of a world. The last conjunct is what the property needs beyond C07: an edit of a nested graph that
unregisters a tensor (`remove_node`, `remove_input`) leaves no other nested node that reads it. -/
def NLegal (w : World) : NEdit → Prop
  | .newGraph parent => ∀ p, parent = some p → p < w.size
  | .edit c e => c < w.size ∧ Legal (w.g c) e ∧ IndexSafe (w.g c) e ∧
      ∀ un reg, upNames (w.g c) e = some (un, reg) → w.parent c = none ∨
        ∀ x ∈ un, ∀ w', w.edit c e = .ok w' → ∀ d, w.parent d ≠ none → ¬ Reads (w'.g d) x
  | .replaceAll c _ _ ops => c < w.size ∧ ∀ l, ops = some l → ∀ r ∈ l, r ∈ (w.g c).nodes

/-- Histories of legal, successful edits. -/
inductive NReachable : World → Prop
  | start : NReachable {}
  | step {w w' : World} {e : NEdit} : NReachable w → NLegal w e → w.apply e = .ok w' → NReachable w'

theorem inv_start : Inv {} where
  lt := by simp
  wf := fun _ => wf_empty
  idx := fun _ => ⟨by simp, by intro i; simp [G.cons]⟩
  kid := by simp
  fresh := by simp
  reg := by rintro c x ⟨r, hr, _⟩; simp at hr

theorem encl_old {w : World} (hi : Inv w) {p : Option Nat} {g : G} {c a : Nat} (hc : c < w.size)
    (h : Encl (w.newGraph g p) c a) : Encl w c a ∧ a < w.size := by
  induction h with
  | refl => exact ⟨.refl, hc⟩
  | @up a b _ hp ih =>
    have : w.parent a = some b := by
      simpa only [World.newGraph, upd_ne _ _ (Nat.ne_of_lt ih.2)] using hp
    exact ⟨ih.1.up this, by have := hi.lt _ _ this; omega⟩

theorem inv_newGraph {w : World} (hi : Inv w) {parent : Option Nat} (hp : ∀ p, parent = some p → p < w.size) :
    Inv (w.newGraph {} parent) where
  lt := by
    intro c p h
    simp only [World.newGraph] at h ⊢
    by_cases e : c = w.size
    · subst e; rw [upd_self] at h; have := hp p h; omega
    · rw [upd_ne _ _ e] at h; have := hi.lt _ _ h; omega
  wf := by
    intro c
    simp only [World.newGraph]
    by_cases e : c = w.size
    · subst e; rw [upd_self]; exact wf_empty
    · rw [upd_ne _ _ e]; exact hi.wf c
  idx := by
    intro c
    simp only [World.newGraph]
    by_cases e : c = w.size
    · subst e; rw [upd_self]; exact ⟨by simp, by intro i; simp [G.cons]⟩
    · rw [upd_ne _ _ e]; exact hi.idx c
  kid := by
    intro p d y h
    have h := hi.kid p d y h
    simp only [World.newGraph]
    rw [upd_ne _ _ (by have := (hi.lt _ _ h).2; omega)]
    exact h
  fresh := by
    intro c hc
    simp only [World.newGraph] at hc ⊢
    rw [upd_ne _ _ (by omega)]
    exact hi.fresh c (by omega)
  reg := by
    intro c x hx a b ha hb
    have hc : c < w.size := by
      rcases Nat.lt_or_ge c w.size with h | h
      · exact h
      · exfalso
        obtain ⟨r, hr, _⟩ := hx
        simp only [World.newGraph] at hr
        by_cases e : c = w.size
        · subst e; rw [upd_self] at hr; simp at hr
        · rw [upd_ne _ _ e, hi.fresh c (by omega)] at hr; simp at hr
    obtain ⟨ha', hlt⟩ := encl_old hi hc ha
    have hx' : Reads (w.g c) x := by simpa only [World.newGraph, upd_ne _ _ (Nat.ne_of_lt hc)] using hx
    exact hi.reg c x hx' a b ha' (by simpa only [World.newGraph, upd_ne _ _ (Nat.ne_of_lt hlt)] using hb)

/-- One graph is changed and names are passed on. -/
theorem inv_change {w : World} (hi : Inv w) {c : Nat} (hc : c < w.size) {g' : G} (hw : WF g') (hx : Idx g')
    {un reg : List String} (hr : ∀ x, Reads g' x → Reads (w.g c) x ∨ x ∈ reg)
    (hun : w.parent c = none ∨ ∀ x ∈ un, ∀ d, w.parent d ≠ none → ¬ Reads (upd w.g c g' d) x) :
    Inv (((w.setG c g').unregUps c un).regUps c reg) := by
  have s1 := unregUps_same (w.setG c g') c un
  have s2 := regUps_same ((w.setG c g').unregUps c un) c reg
  have hpar : (((w.setG c g').unregUps c un).regUps c reg).parent = w.parent := s2.parent.trans s1.parent
  have hg : (((w.setG c g').unregUps c un).regUps c reg).g = upd w.g c g' := s2.g.trans s1.g
  have hsz : (((w.setG c g').unregUps c un).regUps c reg).size = w.size := s2.size.trans s1.size
  refine ⟨?_, ?_, ?_, ?_, ?_, ?_⟩
  · rw [hpar, hsz]; exact hi.lt
  · intro d; rw [hg]
    by_cases e : d = c
    · subst e; rw [upd_self]; exact hw
    · rw [upd_ne _ _ e]; exact hi.wf d
  · intro d; rw [hg]
    by_cases e : d = c
    · subst e; rw [upd_self]; exact hx
    · rw [upd_ne _ _ e]; exact hi.idx d
  · intro p d y h
    rw [hpar]
    have := regUps_kid _ c reg (p := p) (d := d) (y := y) (by
      intro p d y h
      rw [s1.parent]
      exact hi.kid p d y ((unregUps_i2g (w.setG c g') c un p d y).1 h)) h
    rw [s1.parent] at this
    exact this
  · intro d hd
    rw [hsz] at hd
    rw [hg, upd_ne _ _ (by omega)]
    exact hi.fresh d hd
  · intro d x hdx a b ha hb
    rw [hg] at hdx
    rw [hpar] at hb
    have ha' : Encl w d a := ha.congr hpar.symm
    -- the entry is there before the names are registered again, or it is registered now
    have key : (x ∈ reg ∧ d = c) ∨ Reads (w.g d) x := by
      by_cases e : d = c
      · subst e
        rw [upd_self] at hdx
        rcases hr x hdx with h | h
        · exact Or.inr h
        · exact Or.inl ⟨h, rfl⟩
      · rw [upd_ne _ _ e] at hdx
        exact Or.inr hdx
    rcases key with ⟨h1, rfl⟩ | h1
    · refine regUps_complete _ d reg ?_ h1 (Encl.congr (w := w) s1.parent ha') (by rw [s1.parent]; exact hb)
      rw [s1.parent]
      intro c p h; exact (hi.lt c p h).1
    · apply regUps_mono
      have hin := hi.reg d x h1 a b ha' hb
      rcases hun with hun | hun
      · rw [unregUps_noparent (w.setG c g') c un hun]
        exact hin
      · refine (unregUps_i2g (w.setG c g') c un b a x).2 hin ?_
        intro hx'
        have hnp : w.parent d ≠ none := by
          rcases ha'.cases' with rfl | ⟨p, hp, _⟩
          · rw [hb]; simp
          · rw [hp]; simp
        exact hun x hx' d hnp hdx

theorem edit_g {w w' : World} {c : Nat} {e : Edit} (h : w.edit c e = .ok w') :
    ∃ un reg g', upNames (w.g c) e = some (un, reg) ∧ (w.g c).apply e = .ok g' ∧
      w' = ((w.setG c g').unregUps c un).regUps c reg := by
  unfold World.edit at h
  split at h
  · cases h
  · rename_i un reg hu
    simp only [bind, Except.bind] at h
    split at h
    · cases h
    · rename_i g' hg'
      cases h
      exact ⟨un, reg, g', hu, hg', rfl⟩

theorem inv_edit {w w' : World} (hi : Inv w) {c : Nat} {e : Edit} (hl : NLegal w (.edit c e))
    (h : w.edit c e = .ok w') : Inv w' := by
  obtain ⟨hc, hl, hs, hun⟩ := hl
  obtain ⟨un, reg, g', hu, ha, rfl⟩ := edit_g h
  have k := apply_kept (hi.wf c) hl ha
  refine inv_change hi hc k.wf (k.idx hs (hi.idx c)) (fun x => edit_reads (hi.wf c) hl hu ha) ?_
  rcases hun un reg hu with h' | h'
  · exact Or.inl h'
  · refine Or.inr fun x hx d hd => ?_
    have := h' x hx _ h d hd
    rw [((regUps_same _ c reg).g.trans (unregUps_same (w.setG c g') c un).g : _ = upd w.g c g')] at this
    exact this

/-! ## replace_all_inputs -/

/-- The nodes lists and the nesting stay, and inputs are redirected. -/
structure RSame (w w' : World) : Prop where
  size : w'.size = w.size
  parent : w'.parent = w.parent
  nodes : ∀ d, (w'.g d).nodes = (w.g d).nodes

theorem RSame.refl (w : World) : RSame w w := ⟨rfl, rfl, fun _ => rfl⟩
theorem RSame.trans {a b c : World} (h : RSame a b) (h' : RSame b c) : RSame a c :=
  ⟨h'.size.trans h.size, h'.parent.trans h.parent, fun d => (h'.nodes d).trans (h.nodes d)⟩

theorem replaceOwn_spec {w w' : World} (hi : Inv w) {c : Nat} (hc : c < w.size) {old new : String}
    {ops : Option (List Ref)} (hops : ∀ l, ops = some l → ∀ r ∈ l, r ∈ (w.g c).nodes)
    (h : w.replaceOwn c old new ops = .ok w') :
    Inv w' ∧ RSame w w' ∧ (∀ d, d ≠ c → w'.g d = w.g d) ∧
    (∀ r, (w'.g c).node r = if r ∈ ops.getD ((w.g c).consumerRefs old) then ((w.g c).node r).redirect old new
      else (w.g c).node r) ∧ (∀ d x, x ≠ new → w'.i2g d x = w.i2g d x) := by
  unfold World.replaceOwn at h
  simp only [bind, Except.bind] at h
  split at h
  · cases h
  rename_i g' hg'
  obtain ⟨a1, a2, a3, a4⟩ := replaceAllInputs_spec (hi.wf c) hops hg'
  have hmem : ∀ r ∈ ops.getD ((w.g c).consumerRefs old), r ∈ (w.g c).nodes := by
    intro r hr
    cases ops with
    | none => exact consumerRefs_mem (hi.wf c) hr
    | some l => exact hops l rfl r hr
  have hw' : w' = ((w.setG c g').unregUps c []).regUps c
      (if ops.getD ((w.g c).consumerRefs old) = [] then [] else [new]) := by
    cases h
    split <;> rfl
  have hg : w'.g = upd w.g c g' := by rw [hw']; exact (regUps_same _ c _).g
  have hpar : w'.parent = w.parent := by rw [hw']; exact (regUps_same _ c _).parent
  have hsz : w'.size = w.size := by rw [hw']; exact (regUps_same _ c _).size
  refine ⟨?_, ⟨hsz, hpar, ?_⟩, ?_, ?_, ?_⟩
  · rw [hw']
    refine inv_change hi hc (a1.wf (hi.wf c)) (a3 (hi.idx c)) ?_ (Or.inr (by simp))
    rintro x ⟨r, hr, hx⟩
    rw [a1.nodes] at hr
    rw [a2] at hx
    split at hx
    · rename_i hv
      simp only [Node.redirect, List.mem_map] at hx
      obtain ⟨y, hy, rfl⟩ := hx
      split
      · right
        rw [if_neg (fun e => by rw [e] at hv; cases hv)]
        simp
      · exact Or.inl ⟨r, hr, hy⟩
    · exact Or.inl ⟨r, hr, hx⟩
  · intro d
    rw [hg]
    by_cases e : d = c
    · subst e; rw [upd_self]; exact a1.nodes
    · rw [upd_ne _ _ e]
  · intro d e; rw [hg, upd_ne _ _ e]
  · intro r; rw [hg, upd_self]; exact a2 r
  · intro d x hx
    rw [hw']
    have : ∀ (fuel : Nat) (w : World) (c : Nat), (w.regUp new fuel c).i2g d x = w.i2g d x := by
      intro fuel
      induction fuel with
      | zero => intro w c; rfl
      | succ fuel ih =>
        intro w c
        unfold World.regUp
        split
        · rfl
        · rw [ih]
          unfold World.addChild
          simp only
          by_cases e : d = ‹Nat›
          · rename_i p _
            by_cases e : d = p
            · subst e; rw [upd_self, upd_ne _ _ hx]
            · rw [upd_ne _ _ e]
          · rename_i p _
            by_cases e : d = p
            · subst e; rw [upd_self, upd_ne _ _ hx]
            · rw [upd_ne _ _ e]
    split
    · rfl
    · simp only [World.regUps, List.foldl_cons, List.foldl_nil]
      rw [this]
      rfl

theorem redirect_twice {n : Node} {old new : String} (h : old ≠ new) : (n.redirect old new).redirect old new = n.redirect old new :=
  Node.redirect_of_not_mem (Node.not_mem_redirect h)

/-! ## The nesting is a forest -/

theorem Encl.le {w : World} (hi : Inv w) {c a : Nat} (h : Encl w c a) : a ≤ c := by
  induction h with
  | refl => exact Nat.le_refl _
  | up _ hp ih => have := (hi.lt _ _ hp).1; omega

/-- Two children of one graph enclose disjoint sets of graphs. -/
theorem Encl.child_inj {w : World} (hi : Inv w) {e a b p : Nat} (h : Encl w e a) (h' : Encl w e b)
    (ha : w.parent a = some p) (hb : w.parent b = some p) : a = b := by
  -- the chain upwards from `e` is unique
  have lin : ∀ {e a b : Nat}, Encl w e a → Encl w e b → Encl w a b ∨ Encl w b a := by
    intro e a b h h'
    induction h with
    | refl => exact Or.inl h'
    | @up a q _ hp ih =>
      rcases ih with ih | ih
      · rcases ih.cases' with rfl | ⟨q', hq', h2⟩
        · exact Or.inr (Encl.refl.up hp)
        · rw [hp] at hq'; cases hq'; exact Or.inl h2
      · exact Or.inr (ih.up hp)
  have one : ∀ {a b : Nat}, w.parent a = some p → w.parent b = some p → Encl w a b → a = b := by
    intro a b ha hb h
    rcases h.cases' with e | ⟨q, hq, h2⟩
    · exact e.symm
    · rw [ha] at hq; cases hq
      have := h2.le hi
      have := (hi.lt _ _ hb).1
      omega
  rcases lin h h' with h | h
  · exact one ha hb h
  · exact (one hb ha h).symm

theorem Encl.down {w : World} {e c : Nat} (h : Encl w e c) (hne : e ≠ c) : ∃ d, w.parent d = some c ∧ Encl w e d := by
  cases h with
  | refl => exact absurd rfl hne
  | up h hp => exact ⟨_, hp, h⟩

/-! ## replace_all_inputs on a graph with bodies -/

def World.replaceBodies (old new : String) (fuel : Nat) (w : World) (ds : List Nat) (k : Bool) : Except String World :=
  World.replaceEach (World.replaceAll old new fuel) w ds k

theorem replaceBodies_nil (old new : String) (fuel : Nat) (w : World) (k : Bool) :
    World.replaceBodies old new fuel w [] k = .ok w := rfl
theorem replaceBodies_cons (old new : String) (fuel : Nat) (w : World) (d : Nat) (ds : List Nat) (k : Bool) :
    World.replaceBodies old new fuel w (d :: ds) k =
      (World.replaceAll old new fuel w d (if k then some (w.g d).nodes else none)).bind
        (fun w => World.replaceBodies old new fuel w ds k) := rfl

def World.findBodies (w : World) (o : String) (fuel : Nat) (ds : List Nat) : List (Nat × Ref) :=
  ds.flatMap (fun d => World.findConsumers w o fuel d)

/-- The nodes (`P`) of the graphs that are redirected, and nothing else. -/
def Redirected (w w' : World) (old new : String) (P : Nat → Ref → Prop) : Prop :=
  ∀ d, ∀ r ∈ (w.g d).nodes,
    (P d r → (w'.g d).node r = ((w.g d).node r).redirect old new) ∧ (¬ P d r → (w'.g d).node r = (w.g d).node r)

/-- The nodes that a call on graph `c` is asked to redirect. -/
def Asked (w : World) (c : Nat) (ops : Option (List Ref)) (d : Nat) (r : Ref) : Prop :=
  Encl w d c ∧ (d = c → ∀ l, ops = some l → r ∈ l)

theorem replaceAll_both (old new : String) (hne : old ≠ new) (fuel : Nat) :
    (∀ (w w' : World) (c : Nat) (ops : Option (List Ref)), Inv w → c < w.size →
      (∀ l, ops = some l → ∀ r ∈ l, r ∈ (w.g c).nodes) → World.replaceAll old new fuel w c ops = .ok w' →
      Inv w' ∧ RSame w w' ∧ Redirected w w' old new (Asked w c ops)) ∧
    (∀ (ds : List Nat) (w w' : World) (k : Bool), Inv w → (∀ d ∈ ds, d < w.size) →
      World.replaceBodies old new fuel w ds k = .ok w' →
      Inv w' ∧ RSame w w' ∧ Redirected w w' old new (fun e _ => ∃ d ∈ ds, Encl w e d)) := by
  induction fuel with
  | zero =>
    have hA : ∀ (w w' : World) (c : Nat) (ops : Option (List Ref)),
        World.replaceAll old new 0 w c ops ≠ .ok w' := by
      intro w w' c ops h; simp [World.replaceAll] at h
    refine ⟨fun w w' c ops _ _ _ h => absurd h (hA w w' c ops), ?_⟩
    intro ds w w' k hi hd h
    cases ds with
    | nil =>
      rw [replaceBodies_nil] at h
      cases h
      exact ⟨hi, .refl _, fun d r _ => ⟨by simp, by simp⟩⟩
    | cons d ds => simp [replaceBodies_cons, World.replaceAll, Except.bind] at h
  | succ fuel ih =>
    have hA : ∀ (w w' : World) (c : Nat) (ops : Option (List Ref)), Inv w → c < w.size →
        (∀ l, ops = some l → ∀ r ∈ l, r ∈ (w.g c).nodes) → World.replaceAll old new (fuel + 1) w c ops = .ok w' →
        Inv w' ∧ RSame w w' ∧ Redirected w w' old new (Asked w c ops) := by
      intro w w' c ops hi hc hops h
      simp only [World.replaceAll, if_neg hne, bind, Except.bind] at h
      split at h
      · cases h
      rename_i w1 h1
      obtain ⟨i1, s1, o1, n1, _⟩ := replaceOwn_spec hi hc hops h1
      have hbodies : ∀ d ∈ w1.i2g c old, d < w1.size := fun d hd => (i1.lt _ _ (i1.kid _ _ _ hd)).2
      obtain ⟨i2, s2, r2⟩ := ih.2 _ _ _ _ i1 hbodies h
      refine ⟨i2, s1.trans s2, ?_⟩
      intro d r hr
      have hr1 : r ∈ (w1.g d).nodes := by rw [s1.nodes]; exact hr
      obtain ⟨p1, p2⟩ := r2 d r hr1
      by_cases hdc : d = c
      · subst hdc
        have hno : ¬ ∃ b ∈ w1.i2g d old, Encl w1 d b := by
          rintro ⟨b, hb, h'⟩
          have := h'.le i1
          have := (i1.lt _ _ (i1.kid _ _ _ hb)).1
          omega
        rw [p2 hno, n1]
        constructor
        · rintro ⟨_, hask⟩
          split
          · rfl
          · rename_i hnot
            cases ops with
            | some l => exact absurd (hask rfl l rfl) hnot
            | none =>
              symm
              apply Node.redirect_of_not_mem
              intro hin
              apply hnot
              have := (mem_findOutputConsumers (hi.wf d) old r).2 ⟨hr, hin, (hi.idx d).complete r hr old hin⟩
              exact (List.mem_filter.1 this).1
        · intro hask
          rw [if_neg]
          intro hin
          apply hask
          refine ⟨.refl, fun _ l hl => ?_⟩
          subst hl
          exact hin
      · rw [o1 d hdc] at p1 p2
        constructor
        · rintro ⟨henc, _⟩
          by_cases hex : ∃ b ∈ w1.i2g c old, Encl w1 d b
          · exact p1 hex
          · rw [p2 hex]
            symm
            apply Node.redirect_of_not_mem
            intro hin
            obtain ⟨b, hb, hdb⟩ := (Encl.congr (w' := w1) s1.parent henc).down hdc
            exact hex ⟨b, i1.reg d old ⟨r, hr1, by rw [o1 d hdc]; exact hin⟩ b c hdb hb, hdb⟩
        · intro hask
          apply p2
          rintro ⟨b, hb, hdb⟩
          apply hask
          refine ⟨?_, fun e => absurd e hdc⟩
          exact (Encl.congr (w' := w) s1.parent.symm (hdb.up (i1.kid _ _ _ hb)))
    refine ⟨hA, ?_⟩
    intro ds
    induction ds with
    | nil =>
      intro w w' k hi hd h
      rw [replaceBodies_nil] at h
      cases h
      exact ⟨hi, .refl _, fun d r _ => ⟨by simp, by simp⟩⟩
    | cons b ds ihd =>
      intro w w' k hi hd h
      simp only [replaceBodies_cons, Except.bind] at h
      split at h
      · cases h
      rename_i w1 h1
      obtain ⟨i1, s1, r1⟩ := hA _ _ _ _ hi (hd b (by simp)) (by
        intro l hl r hr
        cases k with
        | false => simp at hl
        | true => simp only [if_true, Option.some.injEq] at hl; rw [hl]; exact hr) h1
      obtain ⟨i2, s2, r2⟩ := ihd _ _ _ i1 (fun d hd' => by rw [s1.size]; exact hd d (by simp [hd'])) h
      refine ⟨i2, s1.trans s2, ?_⟩
      intro d r hr
      have hr1 : r ∈ (w1.g d).nodes := by rw [s1.nodes]; exact hr
      obtain ⟨p1, p2⟩ := r1 d r hr
      obtain ⟨q1, q2⟩ := r2 d r hr1
      have hask : Asked w b (if k then some (w.g b).nodes else none) d r ↔ Encl w d b := by
        constructor
        · exact fun h => h.1
        · intro h
          refine ⟨h, fun e l hl => ?_⟩
          subst e
          cases k with
          | false => simp at hl
          | true => simp only [if_true, Option.some.injEq] at hl; rw [← hl]; exact hr
      rw [hask] at p1 p2
      have htl : (∃ b' ∈ ds, Encl w1 d b') ↔ ∃ b' ∈ ds, Encl w d b' := by
        constructor
        · rintro ⟨b', h1, h2⟩; exact ⟨b', h1, Encl.congr s1.parent.symm h2⟩
        · rintro ⟨b', h1, h2⟩; exact ⟨b', h1, Encl.congr s1.parent h2⟩
      beta_reduce at q1 q2
      rw [htl] at q1 q2
      constructor
      · rintro ⟨b', hb', hd'⟩
        by_cases hx : ∃ b' ∈ ds, Encl w d b'
        · rw [q1 hx]
          by_cases hy : Encl w d b
          · rw [p1 hy, redirect_twice hne]
          · rw [p2 hy]
        · rw [q2 hx]
          rcases List.mem_cons.1 hb' with rfl | hb'
          · exact p1 hd'
          · exact absurd ⟨b', hb', hd'⟩ hx
      · intro hx
        rw [q2 (fun ⟨b', h1, h2⟩ => hx ⟨b', by simp [h1], h2⟩), p2 (fun h => hx ⟨b, by simp, h⟩)]

theorem inv_reachable {w : World} (h : NReachable w) : Inv w := by
  induction h with
  | start => exact inv_start
  | @step w w' e _ hl ha ih =>
    cases e with
    | newGraph parent => cases ha; exact inv_newGraph ih hl
    | edit c e => exact inv_edit ih hl ha
    | replaceAll c old new ops =>
      by_cases hne : old = new
      · simp only [World.apply, World.replaceAll, if_pos hne] at ha
        cases ha
        exact ih
      · exact ((replaceAll_both old new hne _).1 _ _ _ _ ih hl.1 hl.2 ha).1

/-! ## The properties -/

theorem find_both {w : World} (hi : Inv w) (o : String) (fuel : Nat) :
    (∀ c e r, Encl w e c → r ∈ (w.g e).nodes → o ∈ ((w.g e).node r).input → e < c + fuel →
      (e, r) ∈ w.findConsumers o fuel c) ∧
    (∀ ds e r, (∃ d ∈ ds, Encl w e d ∧ e < d + fuel) → r ∈ (w.g e).nodes → o ∈ ((w.g e).node r).input →
      (e, r) ∈ w.findBodies o fuel ds) := by
  induction fuel with
  | zero =>
    have hA : ∀ c e r, Encl w e c → r ∈ (w.g e).nodes → o ∈ ((w.g e).node r).input → e < c + 0 →
        (e, r) ∈ w.findConsumers o 0 c := by
      intro c e r h _ _ hlt
      have := h.le hi
      omega
    refine ⟨hA, ?_⟩
    rintro ds e r ⟨d, _, h, hlt⟩
    have := h.le hi
    omega
  | succ fuel ih =>
    have hA : ∀ c e r, Encl w e c → r ∈ (w.g e).nodes → o ∈ ((w.g e).node r).input → e < c + (fuel + 1) →
        (e, r) ∈ w.findConsumers o (fuel + 1) c := by
      intro c e r h hr hin hlt
      simp only [World.findConsumers, List.mem_append]
      by_cases hec : e = c
      · subst hec
        left
        exact List.mem_map.2 ⟨r, (mem_findOutputConsumers (hi.wf e) o r).2
          ⟨hr, hin, (hi.idx e).complete r hr o hin⟩, rfl⟩
      · right
        obtain ⟨d, hd, hed⟩ := h.down hec
        have hlt' := (hi.lt _ _ hd).1
        exact ih.2 _ e r ⟨d, hi.reg e o ⟨r, hr, hin⟩ d c hed hd, hed, by omega⟩ hr hin
    refine ⟨hA, ?_⟩
    intro ds
    induction ds with
    | nil => rintro e r ⟨d, hd, _⟩; cases hd
    | cons b ds ihd =>
      rintro e r ⟨d, hd, h, hlt⟩ hr hin
      rw [World.findBodies, List.flatMap_cons, List.mem_append]
      rcases List.mem_cons.1 hd with rfl | hd
      · exact Or.inl (hA _ e r h hr hin hlt)
      · exact Or.inr (ihd e r ⟨d, hd, h, hlt⟩ hr hin)

theorem find_sound {w : World} (hi : Inv w) (o : String) (fuel : Nat) :
    (∀ c e r, (e, r) ∈ w.findConsumers o fuel c → Encl w e c ∧ r ∈ (w.g e).nodes ∧ o ∈ ((w.g e).node r).input) ∧
    (∀ ds e r, (e, r) ∈ w.findBodies o fuel ds →
      (∃ d ∈ ds, Encl w e d) ∧ r ∈ (w.g e).nodes ∧ o ∈ ((w.g e).node r).input) := by
  have hB : ∀ fuel, (∀ c e r, (e, r) ∈ w.findConsumers o fuel c →
      Encl w e c ∧ r ∈ (w.g e).nodes ∧ o ∈ ((w.g e).node r).input) →
      (∀ ds e r, (e, r) ∈ w.findBodies o fuel ds →
      (∃ d ∈ ds, Encl w e d) ∧ r ∈ (w.g e).nodes ∧ o ∈ ((w.g e).node r).input) := by
    intro fuel hA ds
    induction ds with
    | nil => intro e r h; simp [World.findBodies] at h
    | cons b ds ihd =>
      intro e r h
      rw [World.findBodies, List.flatMap_cons, List.mem_append] at h
      rcases h with h | h
      · obtain ⟨h1, h2⟩ := hA _ _ _ h
        exact ⟨⟨b, by simp, h1⟩, h2⟩
      · obtain ⟨⟨d, hd, h1⟩, h2⟩ := ihd _ _ h
        exact ⟨⟨d, by simp [hd], h1⟩, h2⟩
  induction fuel with
  | zero =>
    refine ⟨?_, hB 0 ?_⟩ <;> (intro c e r h; simp [World.findConsumers] at h)
  | succ fuel ih =>
    have hA : ∀ c e r, (e, r) ∈ w.findConsumers o (fuel + 1) c →
        Encl w e c ∧ r ∈ (w.g e).nodes ∧ o ∈ ((w.g e).node r).input := by
      intro c e r h
      simp only [World.findConsumers, List.mem_append, List.mem_map] at h
      rcases h with ⟨r', h1, h2⟩ | h
      · cases h2
        have := (mem_findOutputConsumers (hi.wf _) o r).1 h1
        exact ⟨.refl, this.1, this.2.1⟩
      · obtain ⟨⟨d, hd, h1⟩, h2⟩ := ih.2 _ _ _ h
        exact ⟨h1.up (hi.kid _ _ _ hd), h2⟩
    exact ⟨hA, hB _ hA⟩

theorem Encl.size {w : World} (hi : Inv w) {e c : Nat} (h : Encl w e c) (hc : c < w.size) : e < w.size := by
  rcases h.cases' with rfl | ⟨p, hp, _⟩
  · exact hc
  · exact (hi.lt _ _ hp).2

/-- C08. After any history of legal edits of a main graph and its body graphs (made with their parent set at once),
`find_output_consumers(o)` on a graph returns precisely the nodes that read `o` in the graph itself or in a body graph at
any depth below it.
Missing for the full property: histories in which a body graph unregisters a tensor that another nested node still reads,
and graphs whose parent is set after their nodes were added. For both the property is false, see
`nested_consumers_violated_remove` and `nested_consumers_violated_late`. -/
theorem nested_consumers_exact_partial {w : World} (h : NReachable w) {c : Nat} (hc : c < w.size) (o : String)
    (e : Nat) (r : Ref) : (e, r) ∈ w.findConsumers o (w.size + 1) c ↔
      Encl w e c ∧ r ∈ (w.g e).nodes ∧ o ∈ ((w.g e).node r).input := by
  have hi := inv_reachable h
  constructor
  · exact (find_sound hi o _).1 c e r
  · rintro ⟨h1, h2, h3⟩
    exact (find_both hi o _).1 c e r h1 h2 h3 (by have := h1.size hi hc; omega)

/-- C09 for nested graphs. `replace_all_inputs(old, new)` on a graph redirects every node of the graph and of its body
graphs at any depth (with `ops`: of the graph itself only the given nodes), and changes no other node of any graph.
Missing for the full property: as for `nested_consumers_exact_partial`. -/
theorem nested_replace_all_exact_partial {w w' : World} (h : NReachable w) {c : Nat} {old new : String}
    {ops : Option (List Ref)} (hl : NLegal w (.replaceAll c old new ops)) (hne : old ≠ new)
    (ha : w.apply (.replaceAll c old new ops) = .ok w') :
    (∀ d, (w'.g d).nodes = (w.g d).nodes) ∧ ∀ d, ∀ r ∈ (w.g d).nodes,
      ((Encl w d c ∧ (d = c → ∀ l, ops = some l → r ∈ l)) →
        (w'.g d).node r = { (w.g d).node r with
          input := ((w.g d).node r).input.map (fun i => if i = old then new else i) }) ∧
      (¬ (Encl w d c ∧ (d = c → ∀ l, ops = some l → r ∈ l)) → (w'.g d).node r = (w.g d).node r) := by
  obtain ⟨_, h2, h3⟩ := (replaceAll_both old new hne _).1 _ _ _ _ (inv_reachable h) hl.1 hl.2 ha
  exact ⟨h2.nodes, h3⟩

/-! ## Where the full property is false -/

/-- Run a script of edits. -/
def World.run (w : World) : List NEdit → Except String World
  | [] => .ok w
  | e :: es =>
    match w.apply e with
    | .error m => .error m
    | .ok w' => w'.run es

/-- The main graph has a placeholder `x`; a body graph has two nodes that read it. -/
def twoReaders : List NEdit :=
  [.newGraph none, .edit 0 (.makeNode "Placeholder" [] "nx" ["x"] [] ""), .newGraph (some 0),
   .edit 1 (.makeNode "Relu" ["x"] "a" ["u"] [] ""), .edit 1 (.makeNode "Abs" ["x"] "b" ["v"] [] "")]

/-- Removing one of the two nodes that read `x` hides the other: `_unregister_input_name` deletes the entry of the body
graph although a node of it still reads the tensor. Every edit of this history is legal for its graph on its own. -/
theorem nested_consumers_violated_remove :
    ∃ w, World.run {} (twoReaders ++ [.edit 1 (.removeNode "a")]) = .ok w ∧
      Encl w 1 0 ∧ 1 ∈ (w.g 1).nodes ∧ "x" ∈ ((w.g 1).node 1).input ∧ (1, 1) ∉ w.findConsumers "x" (w.size + 1) 0 :=
  ⟨_, rfl, Encl.refl.up rfl, (show 1 ∈ [1] by decide), (show "x" ∈ ["x"] by decide),
    (show (1, 1) ∉ [] by simp)⟩

/-- ... and `replace_all_inputs` on the main graph then leaves a dangling reference to `x`. -/
theorem nested_replace_all_violated_remove :
    ∃ w, World.run {} (twoReaders ++ [.edit 1 (.removeNode "a"), .replaceAll 0 "x" "y" none]) = .ok w ∧
      Encl w 1 0 ∧ 1 ∈ (w.g 1).nodes ∧ "x" ∈ ((w.g 1).node 1).input :=
  ⟨_, rfl, Encl.refl.up rfl, (show 1 ∈ [1] by decide), (show "x" ∈ ["x"] by decide)⟩

/-- A body graph that gets its parent after its nodes were added (`set_body_graph_as_attr`) is never searched. -/
theorem nested_consumers_violated_late :
    ∃ w w', World.run {} [.newGraph none, .edit 0 (.makeNode "Placeholder" [] "nx" ["x"] [] ""), .newGraph none,
        .edit 1 (.makeNode "Relu" ["x"] "a" ["u"] [] "")] = .ok w ∧ w' = w.attach 1 0 ∧
      Encl w' 1 0 ∧ 0 ∈ (w'.g 1).nodes ∧ "x" ∈ ((w'.g 1).node 0).input ∧ (1, 0) ∉ w'.findConsumers "x" (w'.size + 1) 0 :=
  ⟨_, _, rfl, rfl, Encl.refl.up rfl, by decide⟩

/-! ## A history that meets the hypotheses -/

/-- Two levels of bodies; `x` of the main graph is read at both, and is then replaced everywhere. -/
def deep : List NEdit :=
  [.newGraph none, .edit 0 (.makeNode "Placeholder" [] "nx" ["x"] [] ""), .newGraph (some 0),
   .edit 1 (.makeNode "Relu" ["x"] "a" ["u"] [] ""), .newGraph (some 1),
   .edit 2 (.makeNode "Add" ["x", "u"] "b" ["v"] [] "")]

example : ∃ w, World.run {} deep = .ok w ∧ w.findConsumers "x" (w.size + 1) 0 = [(1, 0), (2, 0)] ∧
    w.findConsumers "u" (w.size + 1) 1 = [(2, 0)] := ⟨_, rfl, by decide⟩

example : ∃ w, World.run {} (deep ++ [.replaceAll 0 "x" "y" none]) = .ok w ∧
    ((w.g 1).node 0).input = ["y"] ∧ ((w.g 2).node 0).input = ["y", "u"] ∧
    w.findConsumers "y" (w.size + 1) 0 = [(1, 0), (2, 0)] := ⟨_, rfl, by decide⟩

theorem nreachable_step {w w' : World} {e : NEdit} (h : NReachable w) (ha : w.apply e = .ok w') (hl : NLegal w e) :
    NReachable w' := .step h hl ha

example : ∃ w, NReachable w ∧ w.size = 3 ∧ ((w.g 2).node 0).input = ["y", "u"] ∧
    w.findConsumers "y" (w.size + 1) 0 = [(1, 0), (2, 0)] := by
  have h0 : NReachable _ := .start
  have h1 : NReachable _ := .step (e := .newGraph none) h0 (by simp [NLegal]) rfl
  have h2 : NReachable _ := .step (e := .edit 0 (.makeNode "Placeholder" [] "nx" ["x"] [] "")) h1
    ⟨by decide, by simp [Legal], trivial, fun _ _ _ => Or.inl rfl⟩ rfl
  have h3 : NReachable _ := .step (e := .newGraph (some 0)) h2 (by
    intro p hp; cases hp; decide) rfl
  have h4 : NReachable _ := .step (e := .edit 1 (.makeNode "Relu" ["x"] "a" ["u"] [] "")) h3
    ⟨by decide, by simp [Legal], trivial, fun un reg h => by
      cases h; exact Or.inr (by simp)⟩ rfl
  have h5 : NReachable _ := .step (e := .newGraph (some 1)) h4 (by
    intro p hp; cases hp; decide) rfl
  have h6 : NReachable _ := .step (e := .edit 2 (.makeNode "Add" ["x", "u"] "b" ["v"] [] "")) h5
    ⟨by decide, by simp [Legal], trivial, fun un reg h => by
      cases h; exact Or.inr (by simp)⟩ rfl
  have h7 : NReachable _ := .step (e := .replaceAll 0 "x" "y" none) h6 ⟨by decide, by simp⟩ rfl
  exact ⟨_, h7, by decide⟩

end Verif.Nested
