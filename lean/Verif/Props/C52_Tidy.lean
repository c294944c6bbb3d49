import Verif.Props.Frame
import Verif.Props.C48_Table
/-!
# C52: after the mapping loop every node is a node of the ONNX operator set
-/
namespace Verif.Graph
open Verif

/-- A node of the default ONNX domain whose outputs have names; an `Identity` has one operand, which is there, and one output. -/
structure Tidy (n : Node) : Prop where
  dom : n.domain = ""
  named : "" ∉ n.output
  ident : n.op = "Identity" → n.input.length = 1 ∧ n.output.length = 1 ∧ "" ∉ n.input

/-- The same, and no `Identity`. -/
structure PlainAct (n : Node) : Prop where
  dom : n.domain = ""
  named : "" ∉ n.output
  op : n.op ≠ "Identity"

theorem PlainAct.tidy {n : Node} (h : PlainAct n) : Tidy n := ⟨h.dom, h.named, fun e => absurd e h.op⟩

/-- Calls that make no `Identity` and no output without a name. -/
def Act.plain : Act → Prop
  | .setType op => op ≠ "Identity"
  | .make s => s.op ≠ "Identity"
  | .makeOut op _ _ _ o => op ≠ "Identity" ∧ o ≠ ""
  | _ => True

/-- In the middle of a conversion of node `r` of a graph that had the nodes `nodes` and `len` node objects. -/
structure Mid (nodes : List Ref) (len : Nat) (r : Ref) (g : G) : Prop where
  le : len ≤ g.heap.length
  sub : ∀ q ∈ g.nodes, q ∈ nodes ∨ @LE.le Nat _ len q ∧ @LT.lt Nat _ q g.heap.length
  self : PlainAct (g.node r)
  new : ∀ q, @LE.le Nat _ len q → @LT.lt Nat _ q g.heap.length → PlainAct (g.node q)

variable {fresh : Nat → String} {g g' g0 : G} {r : Ref} {nodes : List Ref} {len : Nat}

theorem Mid.fr (h : Mid nodes len r g) (f : InFr g g') : Mid nodes len r g' := by
  have hp : ∀ q, PlainAct (g.node q) → PlainAct (g'.node q) := fun q hq => ⟨by rw [f.dom]; exact hq.dom, by rw [f.out]; exact hq.named, by rw [f.op]; exact hq.op⟩
  refine ⟨by rw [f.len]; exact h.le, fun q hq => ?_, hp r h.self, fun q h1 h2 => hp q (h.new q h1 (by rw [← f.len]; exact h2))⟩
  rw [f.len]
  exact h.sub q (f.sub q hq)

theorem Mid.setNode (h : Mid nodes len r g) {n : Node} (hn : PlainAct n) : Mid nodes len r (g.setNode r n) := by
  refine ⟨by simpa [G.setNode] using h.le, fun q hq => by simpa [G.setNode] using h.sub q hq, ?_, fun q h1 h2 => ?_⟩
  · rcases node_setNode_or g r r n with e | ⟨-, e⟩ <;> rw [e]
    · exact h.self
    · exact hn
  · rcases node_setNode_or g r q n with e | ⟨-, e⟩ <;> rw [e]
    · exact h.new q h1 (by simpa [G.setNode] using h2)
    · exact hn

theorem Mid.made (h : Mid nodes len r g) (hr : @LT.lt Nat _ r g.heap.length) {k : Ref} {n : Node} (hn : PlainAct n) (m : Made g g' k n) :
    Mid nodes len r g' := by
  have hold : ∀ q, @LT.lt Nat _ q g.heap.length → g'.node q = g.node q := fun q hq => node_append_lt hq _ _ m.heap
  have hl : g'.heap.length = g.heap.length + 1 := by rw [m.heap]; simp
  have hk : @Eq Nat k g.heap.length := m.ref
  have h0 := h.le
  refine ⟨by omega, fun q hq => ?_, by rw [hold r hr]; exact h.self, fun q h1 h2 => ?_⟩
  · rw [m.nodes] at hq
    rcases List.mem_append.1 hq with hq | hq
    · exact (h.sub q hq).imp id fun ⟨a, b⟩ => ⟨a, by omega⟩
    · obtain rfl := List.mem_singleton.1 hq
      exact Or.inr ⟨by omega, by omega⟩
  · by_cases hlt : @LT.lt Nat _ q g.heap.length
    · rw [hold q hlt]; exact h.new q h1 hlt
    · have : @Eq Nat q g.heap.length := by omega
      have e : g'.node q = n := by
        simp only [G.node, m.heap, this]
        simp
      rw [e]; exact hn

theorem Mid.act (hf : FreshNames fresh) (h : Mid nodes len r g) (hr : @LT.lt Nat _ r g.heap.length) {a : Act} (ha : a.plain)
    (hok : G.act fresh g0 r g a = .ok g') : Mid nodes len r g' ∧ g.heap.length ≤ g'.heap.length := by
  cases a with
  | setType op => cases hok; exact ⟨h.setNode ⟨h.self.dom, h.self.named, ha⟩, by simp [G.setType, G.setNode]⟩
  | setAttr k v => cases hok; exact ⟨h.setNode ⟨h.self.dom, h.self.named, h.self.op⟩, by simp [G.setAttr, G.setNode]⟩
  | onnx => cases hok; exact ⟨h.setNode ⟨rfl, h.self.named, h.self.op⟩, by simp [G.rawFields, G.setNode]⟩
  | attrs a => cases hok; exact ⟨h.setNode ⟨h.self.dom, h.self.named, h.self.op⟩, by simp [G.rawFields, G.setNode]⟩
  | make s =>
    simp only [G.act] at hok
    cases hm : g.makeNode s.op s.xs (fresh g.heap.length) [if s.isConst then fresh g.heap.length else fresh g.heap.length ++ ":0"] s.attr with
    | error e => rw [hm] at hok; cases hok
    | ok p =>
      obtain ⟨g1, k⟩ := p
      rw [hm] at hok
      cases hok
      have m := makeNode_made hm
      refine ⟨h.made (n := ⟨_, s.op, _, _, _, _⟩) hr ⟨rfl, ?_, ha⟩ m, by rw [m.heap]; simp⟩
      simp only [List.mem_singleton]
      split
      · exact (hf.ne _).symm
      · intro e
        have := congrArg String.length e
        have h2 : (":0" : String).length = 2 := rfl
        simp [h2] at this
  | rawInputs xs => cases hok; exact ⟨h.setNode ⟨h.self.dom, h.self.named, h.self.op⟩, by simp [G.rawInputs, G.setNode]⟩
  | inputs xs =>
    cases hok
    have := replaceInputs_inFr (g := g) (r := r) xs
    exact ⟨h.fr this, by rw [this.len]⟩
  | inputAt i x =>
    simp only [G.act] at hok
    split at hok
    · have := (replaceInputAt_inFr hok).1
      exact ⟨h.fr this, by rw [this.len]⟩
    · cases hok
  | dropInput i =>
    simp only [G.act] at hok
    split at hok
    · have := removeInputAt_inFr hok
      exact ⟨h.fr this, by rw [this.len]⟩
    · cases hok
  | insertOut o =>
    simp only [G.act, bind, Except.bind] at hok
    split at hok
    · cases hok
    rename_i g1 hg1
    have := (insertNodeOnOutput_inFr hg1).trans (copyInfo_rdFr hok).toInFr
    exact ⟨h.fr this, by rw [this.len]⟩
  | remove =>
    have := (removeNode_rdFr hok).toInFr
    exact ⟨h.fr this, by rw [this.len]⟩
  | makeOut op xs attr name o =>
    simp only [G.act, bind, Except.bind] at hok
    split at hok
    · cases hok
    rename_i p hp
    obtain ⟨g1, k⟩ := p
    have m := makeNode_made hp
    have f := (copyInfo_rdFr hok).toInFr
    refine ⟨(h.made (n := ⟨_, op, _, _, _, [o]⟩) hr ⟨rfl, by simpa using ha.2.symm, ha.1⟩ m).fr f, ?_⟩
    rw [f.len, m.heap]; simp

theorem Mid.run (hf : FreshNames fresh) (as : List Act) : ∀ {g g' : G}, Mid nodes len r g → @LT.lt Nat _ r g.heap.length → (∀ a ∈ as, a.plain) →
    G.runActs fresh g0 r as g = .ok g' → Mid nodes len r g' := by
  induction as with
  | nil => intro g g' h _ _ hok; cases hok; exact h
  | cons a as ih =>
    intro g g' h hr ha hok
    simp only [G.runActs, bind, Except.bind] at hok
    split at hok
    · cases hok
    rename_i g1 hg1
    obtain ⟨h1, h2⟩ := h.act hf hr (ha a (by simp)) hg1
    exact ih h1 (by omega) (fun b hb => ha b (by simp [hb])) hok

/-- A handler given as calls without `Identity`: afterwards every node but the other old ones is a plain ONNX node. -/
theorem entry_plain (hf : FreshNames fresh) {onnxOp : Option String} {decide : G → Ref → Except String (List Act)}
    (hd : ∀ g r as, "" ∉ (g.node r).output → decide g r = .ok as → ∀ a ∈ as, a.plain)
    (ho : ∀ op, onnxOp = some op → op ≠ "Identity") (hv : WF g) (hr : r ∈ g.nodes) (hop : (g.node r).op ≠ "Identity")
    (hn : "" ∉ (g.node r).output) (h : (entry fresh onnxOp decide).convert g r = .ok g') :
    ∀ q ∈ g'.nodes, (q ∈ g.nodes ∧ q ≠ r) ∨ PlainAct (g'.node q) := by
  have hlt : @LT.lt Nat _ r g.heap.length := hv.valid r hr
  have key : ∀ g1 : G, g1.nodes = g.nodes → g1.heap.length = g.heap.length → (g1.node r).op ≠ "Identity" → "" ∉ (g1.node r).output →
      G.handle fresh decide g1 r = .ok g' → ∀ q ∈ g'.nodes, (q ∈ g.nodes ∧ q ≠ r) ∨ PlainAct (g'.node q) := by
    intro g1 e1 e2 e3 e4 h
    simp only [G.handle, bind, Except.bind] at h
    split at h
    · cases h
    rename_i as has
    simp only [G.runActs, G.act, bind, Except.bind] at h
    have hself : (g1.rawFields r (g1.node r).attr "").node r = { g1.node r with attr := (g1.node r).attr, domain := "" } :=
      node_setNode_self (by rw [e2]; exact hlt)
    have m0 : Mid g.nodes g.heap.length r (g1.rawFields r (g1.node r).attr "") := by
      refine ⟨by simp [G.rawFields, G.setNode, e2], fun q hq => Or.inl (by simpa [G.rawFields, G.setNode, e1] using hq), ?_, fun q h1 h2 => ?_⟩
      · rw [hself]; exact ⟨rfl, e4, e3⟩
      · simp [G.rawFields, G.setNode, e2] at h2; omega
    have m1 := Mid.run hf as m0 (by simpa [G.rawFields, G.setNode, e2] using hlt) (hd g1 r as e4 has) h
    intro q hq
    rcases m1.sub q hq with hq | ⟨h1, h2⟩
    · by_cases e : q = r
      · subst e; exact Or.inr m1.self
      · exact Or.inl ⟨hq, e⟩
    · exact Or.inr (m1.new q h1 h2)
  unfold MapInfo.convert entry at h
  cases onnxOp with
  | none => exact key g rfl rfl hop hn h
  | some op =>
    have hs : (g.setType r op).node r = { g.node r with op := op } := node_setNode_self hlt
    exact key (g.setType r op) rfl (by simp [G.setType, G.setNode]) (by rw [hs]; exact ho op rfl) (by rw [hs]; exact hn) h

/-- What the handler decides to do makes no `Identity` and no output without a name. -/
def PlainDec (decide : G → Ref → Except String (List Act)) : Prop :=
  ∀ g r as, "" ∉ (g.node r).output → decide g r = .ok as → ∀ a ∈ as, a.plain

theorem outp_ne {o : String} (hn : "" ∉ (g.node r).output) (h : g.outp r = .ok o) : o ≠ "" := by
  unfold G.outp at h
  split at h
  · rename_i x hx
    cases h
    rintro rfl
    exact hn (List.mem_of_getElem? hx)
  · cases h

theorem plain_pass : PlainDec passActs := by
  intro g r as _ h
  cases h
  simp

theorem plain_broadcast : PlainDec broadcast6Acts := by
  intro g r as _ h
  simp only [broadcast6Acts, bind, Except.bind] at h
  split at h
  · cases h
  split at h
  · cases h
  cases h
  intro a ha
  rcases List.mem_append.1 ha with ha | ha
  · split at ha
    · rw [List.mem_singleton] at ha; subst ha; simp [Act.plain]
    · simp at ha
  · generalize swaps _ _ _ = b at ha
    cases b with
    | true =>
      rcases List.mem_cons.1 ha with rfl | ha
      · trivial
      · rw [List.mem_singleton] at ha; subst ha; trivial
    | false => simp at ha

theorem plain_square : PlainDec squareActs := by
  intro g r as _ h
  simp only [squareActs, bind, Except.bind] at h
  split at h
  · cases h
  cases h
  simp [Act.plain]

theorem plain_relu6 : PlainDec (relu6Acts11 fresh) := by
  intro g r as _ h
  simp only [relu6Acts11, bind, Except.bind] at h
  split at h
  · cases h
  split at h
  · cases h
  cases h
  simp [Act.plain, scalarSpec, Spec.const]

theorem plain_rsqrt : PlainDec rsqrtActs := by
  intro g r as _ h
  simp only [rsqrtActs, bind, Except.bind] at h
  split at h
  · cases h
  cases h
  simp [Act.plain, Spec.mk']

theorem plain_sqDiff : PlainDec sqDiffActs := by
  intro g r as _ h
  simp only [sqDiffActs, bind, Except.bind] at h
  split at h
  · cases h
  cases h
  simp [Act.plain, Spec.mk']

theorem plain_sign : PlainDec signActs9 := by
  intro g r as _ h
  simp only [signActs9, bind, Except.bind] at h
  split at h
  · cases h
  split at h
  · cases h
  split at h
  · cases h
  cases h
  simp

theorem plain_divNoNan : PlainDec (divNoNanActs fresh) := by
  intro g r as _ h
  simp only [divNoNanActs, bind, Except.bind] at h
  split at h
  · cases h
  split at h
  · cases h
  split at h
  · cases h
  cases h
  simp [Act.plain, Spec.mk', scalarSpec, Spec.const]

theorem plain_floorDiv : PlainDec floorDivActs := by
  intro g r as _ h
  simp only [floorDivActs, bind, Except.bind] at h
  split at h
  · cases h
  split at h
  · cases h
  cases h
  split <;> simp [Act.plain, Spec.mk']

theorem plain_floorMod : PlainDec (floorModActs fresh) := by
  intro g r as hn h
  simp only [floorModActs, bind, Except.bind] at h
  split at h
  · cases h
  split at h
  · cases h
  split at h
  · cases h
  rename_i o ho
  cases h
  have := outp_ne hn ho
  split <;> simp [Act.plain, Spec.mk', this]

theorem castAll_plain (t : Nat) (xs : List String) : ∀ k i, ∀ a ∈ castAll fresh t k i xs, a.plain := by
  induction xs with
  | nil => simp [castAll]
  | cons x xs ih =>
    intro k i a ha
    simp only [castAll, List.mem_cons] at ha
    rcases ha with rfl | rfl | ha
    · simp [Act.plain, castSpec, Spec.mk']
    · trivial
    · exact ih _ _ a ha

theorem addCasts_plain (l : List Nat) (t : Nat) : ∀ a ∈ addCastsActs fresh l t g r, a.plain := by
  unfold addCastsActs
  split
  · simp
  · exact castAll_plain _ _ _ _

theorem castSame_plain (t : Nat) (xs : List String) : ∀ k i, ∀ a ∈ castSame fresh g t k i xs, a.plain := by
  induction xs with
  | nil => simp [castSame]
  | cons x xs ih =>
    intro k i a ha
    simp only [castSame] at ha
    split at ha
    · exact ih _ _ a ha
    simp only [List.mem_cons] at ha
    rcases ha with rfl | rfl | ha
    · simp [Act.plain, castSpec, Spec.mk']
    · trivial
    · exact ih _ _ a ha

theorem plain_greaterLess : PlainDec (greaterLess7Acts fresh) := by
  intro g r as _ h
  cases h
  exact addCasts_plain _ _

theorem plain_greaterLessEqual : PlainDec greaterLessEqual12Acts := by
  intro g r as _ h
  cases h
  simp only [List.mem_singleton, forall_eq, Act.plain]
  split <;> decide

theorem plain_equal : PlainDec (equal11Acts fresh) := by
  intro g r as _ h
  simp only [equal11Acts, bind, Except.bind] at h
  split at h
  · cases h
  split at h
  · cases h
  cases h
  intro a ha
  rcases List.mem_append.1 ha with ha | ha
  · exact castSame_plain _ _ _ _ a ha
  · unfold equalNotActs at ha
    split at ha
    · have : ∀ a ∈ [Act.setType "Equal", .make (.mk' "Not" [‹String›]), .insertOut ‹String›], a.plain := by simp [Act.plain, Spec.mk']
      exact this a ha
    · simp at ha

theorem plain_log : PlainDec (log6Acts fresh) := by
  intro g r as _ h
  simp only [log6Acts, bind, Except.bind] at h
  split at h
  · cases h
  split at h
  · cases h
  split at h
  · cases h; simp
  · cases h; simp [Act.plain, castSpec, Spec.mk']
  · cases h

theorem plain_isFinite : PlainDec (isFiniteActs fresh) := by
  intro g r as hn h
  simp only [isFiniteActs, bind, Except.bind] at h
  split at h
  · cases h
  rename_i o ho
  cases h
  simp [Act.plain, Spec.mk', outp_ne hn ho]

theorem plain_isInf : PlainDec isInfActs := by
  intro g r as hn h
  simp only [isInfActs, bind, Except.bind] at h
  split at h
  · cases h
  split at h
  · cases h
  split at h
  · cases h; simp
  · cases h

/-- The entries of the table. -/
theorem elemTable_plain {v : Nat} (hv : 12 ≤ v) {op : String} {m : MapInfo} (h : elemTable fresh v op = some m) :
    (op = "Placeholder" ∨ op = "Const") ∧ m = ⟨none, fun g _ _ => .ok g⟩ ∨
    ∃ onnxOp decide, m = entry fresh onnxOp decide ∧ PlainDec decide ∧ ∀ o, onnxOp = some o → o ≠ "Identity" := by
  unfold elemTable at h
  split at h
  · rename_i ho
    cases h
    exact Or.inl ⟨ho, rfl⟩
  right
  split at h
  · rename_i p hp
    have h2 := List.mem_of_find?_eq_some hp
    split at h
    · cases h
      refine ⟨_, _, rfl, plain_pass, fun o ho => ?_⟩
      exact (by decide : ∀ p ∈ passOps, ∀ o, p.2.1 = some o → o ≠ "Identity") p h2 o ho
    · cases h
  split at h
  · rename_i p hp
    have h2 := List.mem_of_find?_eq_some hp
    cases h
    refine ⟨_, _, rfl, plain_broadcast, fun o ho => ?_⟩
    exact (by decide : ∀ p ∈ broadcastOps, ∀ o, p.2 = some o → o ≠ "Identity") p h2 o ho
  have n8 : ¬ v < 12 := by omega
  have n9 : ¬ v < 9 := by omega
  have n10 : ¬ v < 10 := by omega
  have n11 : ¬ v < 11 := by omega
  unfold otherOp at h
  rw [if_neg n8, if_neg n8, if_neg n9, if_neg n9, if_neg n10, if_neg n10, if_neg n11, if_neg n11] at h
  have none_ok : ∀ o, (none : Option String) = some o → o ≠ "Identity" := by simp
  have some_ok : ∀ s : String, s ≠ "Identity" → ∀ o, some s = some o → o ≠ "Identity" := by
    rintro s hs o ⟨⟩; exact hs
  by_cases e : op = "Log"
  · rw [if_pos e] at h; exact ⟨_, _, (Option.some.inj h).symm, plain_log, none_ok⟩
  rw [if_neg e] at h; clear e
  by_cases e : op = "Square"
  · rw [if_pos e] at h; exact ⟨_, _, (Option.some.inj h).symm, plain_square, none_ok⟩
  rw [if_neg e] at h; clear e
  by_cases e : op = "Rsqrt"
  · rw [if_pos e] at h; exact ⟨_, _, (Option.some.inj h).symm, plain_rsqrt, none_ok⟩
  rw [if_neg e] at h; clear e
  by_cases e : op = "Relu6"
  · rw [if_pos e] at h; exact ⟨_, _, (Option.some.inj h).symm, plain_relu6, none_ok⟩
  rw [if_neg e] at h; clear e
  by_cases e : op = "Sign"
  · rw [if_pos e] at h; exact ⟨_, _, (Option.some.inj h).symm, plain_sign, none_ok⟩
  rw [if_neg e] at h; clear e
  by_cases e : op = "IsFinite"
  · rw [if_pos e] at h; exact ⟨_, _, (Option.some.inj h).symm, plain_isFinite, none_ok⟩
  rw [if_neg e] at h; clear e
  by_cases e : op = "IsInf"
  · rw [if_pos e] at h; exact ⟨_, _, (Option.some.inj h).symm, plain_isInf, some_ok _ (by decide)⟩
  rw [if_neg e] at h; clear e
  by_cases e : op = "Minimum"
  · rw [if_pos e] at h; exact ⟨_, _, (Option.some.inj h).symm, plain_pass, some_ok _ (by decide)⟩
  rw [if_neg e] at h; clear e
  by_cases e : op = "Maximum"
  · rw [if_pos e] at h; exact ⟨_, _, (Option.some.inj h).symm, plain_pass, some_ok _ (by decide)⟩
  rw [if_neg e] at h; clear e
  by_cases e : op = "Pow"
  · rw [if_pos e] at h; exact ⟨_, _, (Option.some.inj h).symm, plain_pass, none_ok⟩
  rw [if_neg e] at h; clear e
  by_cases e : op = "SquaredDifference"
  · rw [if_pos e] at h; exact ⟨_, _, (Option.some.inj h).symm, plain_sqDiff, none_ok⟩
  rw [if_neg e] at h; clear e
  by_cases e : op = "DivNoNan"
  · rw [if_pos e] at h; exact ⟨_, _, (Option.some.inj h).symm, plain_divNoNan, none_ok⟩
  rw [if_neg e] at h; clear e
  by_cases e : op = "FloorDiv"
  · rw [if_pos e] at h; exact ⟨_, _, (Option.some.inj h).symm, plain_floorDiv, none_ok⟩
  rw [if_neg e] at h; clear e
  by_cases e : op = "FloorMod"
  · rw [if_pos e] at h; exact ⟨_, _, (Option.some.inj h).symm, plain_floorMod, none_ok⟩
  rw [if_neg e] at h; clear e
  by_cases e : op = "Greater" ∨ op = "Less"
  · rw [if_pos e] at h; exact ⟨_, _, (Option.some.inj h).symm, plain_greaterLess, none_ok⟩
  rw [if_neg e] at h; clear e
  by_cases e : op = "GreaterEqual" ∨ op = "LessEqual"
  · rw [if_pos e] at h; exact ⟨_, _, (Option.some.inj h).symm, plain_greaterLessEqual, none_ok⟩
  rw [if_neg e] at h; clear e
  by_cases e : op = "Equal" ∨ op = "NotEqual"
  · rw [if_pos e] at h; exact ⟨_, _, (Option.some.inj h).symm, plain_equal, none_ok⟩
  rw [if_neg e] at h; clear e
  cases h

/-! ## The loop -/

theorem Tidy.seen {n n' : Node} (h : Tidy n) (ho : n'.op = n.op) (hd : n'.domain = n.domain) (hu : n'.output = n.output)
    (hl : n'.input.length = n.input.length)
    (hi : ∀ (i : Nat) (x x' : String), n.input[i]? = some x → n'.input[i]? = some x' → x' = "" → x = "") : Tidy n' := by
  refine ⟨by rw [hd]; exact h.dom, by rw [hu]; exact h.named, fun e => ?_⟩
  rw [ho] at e
  obtain ⟨h1, h2, h3⟩ := h.ident e
  refine ⟨hl.trans h1, by rw [hu]; exact h2, fun hc => ?_⟩
  obtain ⟨i, hlt, hx⟩ := List.getElem_of_mem hc
  have hx' := hi i _ "" (List.getElem?_eq_getElem (by omega)) (by rw [← hx]; exact List.getElem?_eq_getElem hlt) rfl
  exact h3 (hx' ▸ List.getElem_mem _)

theorem ConvStep.tidy {V : Type} {I : Interp V} {D : List (Option V) → Prop} {q : Ref} (s : ConvStep I D fresh g r g') (hq : q ∈ g.nodes)
    (hne : q ≠ r) (h : Tidy (g.node q)) : Tidy (g'.node q) := by
  obtain ⟨_, xs, hx⟩ := s.old q hq hne
  obtain ⟨hl, hs⟩ := s.seen q hq hne
  exact h.seen (by rw [hx]) (by rw [hx]) (by rw [hx]) hl fun i x x' h1 h2 e => (hs i x x' h1 h2).1.1 e

theorem HasSig.tidy {σ : Sig} (h0 : HasSig g r σ) (h1 : HasSig g' r σ) (h : Tidy (g.node r)) : Tidy (g'.node r) := by
  refine h.seen (h1.op.trans h0.op.symm) (h1.dom.trans h0.dom.symm) (h1.outs.trans h0.outs.symm) (h1.len.trans h0.len.symm) ?_
  intro i x x' hx hx' e
  have hlt : i < σ.ins.length := by rw [← h0.len]; exact (List.getElem?_eq_some_iff.1 hx).1
  have hs := List.getElem?_eq_getElem hlt
  exact (h0.ins i x _ hx hs).1.2 ((h1.ins i x' _ hx' hs).1.1 e)

/-- If every handler leaves only tidy nodes in place of the node it is called on, then after the loop every node is tidy, except those that
were not converted. -/
theorem mapping_tidy {V : Type} {I : Interp V} {table : String → Option MapInfo} {skip : Ref → Bool} {sig : Ref → Sig}
    {D : Ref → List (Option V) → Prop} {g : G} (h0 : HInv fresh g) (hsig : ∀ r ∈ g.nodes, HasSig g r (sig r))
    (hok : ∀ r, r ∈ g.nodes → skip r = false → ∀ m, table (g.node r).op = some m → Correct I fresh g.outputs m (sig r) (D r))
    (htd : ∀ r, r ∈ g.nodes → skip r = false → ∀ m, table (g.node r).op = some m → ∀ g1 g2, WF g1 → r ∈ g1.nodes → HasSig g1 r (sig r) →
      m.convert g1 r = .ok g2 → ∀ q ∈ g2.nodes, (q ∈ g1.nodes ∧ q ≠ r) ∨ Tidy (g2.node q))
    (hex : (g.mapping table skip).exceptions = []) :
    ∀ q ∈ (g.mapping table skip).g.nodes, (q ∈ g.nodes ∧ ¬ Converts table skip g q ∧ HasSig (g.mapping table skip).g q (sig q)) ∨
      Tidy ((g.mapping table skip).g.node q) := by
  have key : ∀ (rest : List Ref) (s : MapState), rest.Nodup → (∀ r ∈ rest, r ∈ g.nodes) →
      MapInv I fresh table skip sig D g rest s.g →
      (∀ q ∈ s.g.nodes, (q ∈ g.nodes ∧ (q ∈ rest ∨ ¬ Converts table skip g q)) ∨ Tidy (s.g.node q)) →
      (rest.foldl (mapNode table skip) s).exceptions = [] →
      ∀ q ∈ (rest.foldl (mapNode table skip) s).g.nodes,
        (q ∈ g.nodes ∧ ¬ Converts table skip g q ∧ HasSig (rest.foldl (mapNode table skip) s).g q (sig q)) ∨
        Tidy ((rest.foldl (mapNode table skip) s).g.node q) := by
    intro rest
    induction rest with
    | nil =>
      intro s _ _ hi hq _ q hqm
      rcases hq q hqm with ⟨h1, h2⟩ | h
      · refine Or.inl ⟨h1, h2.resolve_left (by simp), (hi.kept q h1 h2).2⟩
      · exact Or.inr h
    | cons r rest ih =>
      intro s hnd hsub hi hq hexs
      rw [List.foldl_cons] at hexs ⊢
      obtain ⟨l, hl⟩ := foldl_exceptions (table := table) (skip := skip) rest (mapNode table skip s r)
      rw [hexs] at hl
      have hexr : (mapNode table skip s r).exceptions = [] := (List.append_eq_nil_iff.1 hl.symm).1
      have hstep := mapLoop_step (I := I) (D := D) hsig hok hnd hsub s hi hexr
      have hr0 := hsub r (by simp)
      obtain ⟨hrm, hrs⟩ := hi.kept r hr0 (Or.inl (by simp))
      have hopeq : (s.g.node r).op = (g.node r).op := hrs.op.trans (hsig r hr0).op.symm
      refine ih _ (List.nodup_cons.1 hnd).2 (fun q h => hsub q (by simp [h])) hstep ?_ hexs
      -- not converted
      have stay : ¬ Converts table skip g r → ∀ q ∈ s.g.nodes, (q ∈ g.nodes ∧ (q ∈ rest ∨ ¬ Converts table skip g q)) ∨ Tidy (s.g.node q) := by
        intro hn q hqm
        rcases hq q hqm with ⟨h1, h2⟩ | h
        · refine Or.inl ⟨h1, ?_⟩
          rcases h2 with h2 | h2
          · rcases List.mem_cons.1 h2 with rfl | h2
            · exact Or.inr hn
            · exact Or.inl h2
          · exact Or.inr h2
        · exact Or.inr h
      unfold mapNode at hexr ⊢
      split
      · rename_i hs
        exact stay (fun hc => by rw [hc.2.1] at hs; cases hs)
      rename_i hskip
      rw [if_neg hskip] at hexr
      have hskip : skip r = false := by simpa using hskip
      split
      · rename_i hm
        refine stay fun hc => ?_
        obtain ⟨m, hm'⟩ := hc.2.2
        rw [hopeq, hm'] at hm
        cases hm
      rename_i m hm
      rw [hm] at hexr
      simp only at hexr
      split
      · rename_i g' hg'
        rw [hopeq] at hm
        have ht := htd r hr0 hskip m hm s.g g' hi.inv.reach.wf hrm hrs hg'
        intro q hqm
        simp only at hqm
        rcases ht q hqm with ⟨hqg, hne⟩ | h
        · rcases hok r hr0 hskip m hm s.g r g' hi.inv hi.outputs hrm hrs hg' with rfl | ⟨_, st⟩
          · rcases hq q hqg with ⟨h1, h2⟩ | h
            · exact Or.inl ⟨h1, h2.imp (fun h => (List.mem_cons.1 h).resolve_left hne) id⟩
            · exact Or.inr h
          · rcases hq q hqg with ⟨h1, h2⟩ | h
            · exact Or.inl ⟨h1, h2.imp (fun h => (List.mem_cons.1 h).resolve_left hne) id⟩
            · exact Or.inr (st.tidy hqg hne h)
        · exact Or.inr h
      · rename_i ex hg'
        rw [hg'] at hexr
        simp at hexr
  exact key g.nodes { g := g } h0.reach.wf.nodup (fun _ h => h)
    ⟨h0, rfl, rfl, fun _ _ => rfl, fun r hr _ => ⟨hr, hsig r hr⟩, fun env e he _ => ⟨e, he, fun _ _ => rfl, fun _ _ _ => rfl⟩⟩
    (fun q hq => Or.inl ⟨hq, Or.inl hq⟩) hex

theorem elemTable_all {v : Nat} (hv : 12 ≤ v) : ∀ op ∈ elemUn ++ elemBin, (elemTable fresh v op).isSome := by
  intro op hop
  have hpc : ¬ (op = "Placeholder" ∨ op = "Const") := by
    intro h
    rcases h with rfl | rfl
    · revert hop; decide
    · revert hop; decide
  unfold elemTable
  rw [if_neg hpc]
  cases hp : passOps.find? (fun p => p.1 = op) with
  | some p =>
    have h2 := (by decide : ∀ p ∈ passOps, p.2.2 ≤ 12) p (List.mem_of_find?_eq_some hp)
    have h3 : p.2.2 ≤ v := by omega
    simp [h3]
  | none =>
    cases hb : broadcastOps.find? (fun p => p.1 = op) with
    | some p => simp
    | none =>
      rw [List.find?_eq_none] at hp hb
      have hp' : op ∉ passOps.map Prod.fst := by
        intro h
        obtain ⟨p, h1, h2⟩ := List.mem_map.1 h
        exact hp p h1 (by simpa using h2)
      have hb' : op ∉ broadcastOps.map Prod.fst := by
        intro h
        obtain ⟨p, h1, h2⟩ := List.mem_map.1 h
        exact hb p h1 (by simpa using h2)
      have hop : op ∈ ["Log", "Square", "Rsqrt", "Relu6", "Sign", "IsFinite", "IsInf"] ∨ op ∈ ["Minimum", "Maximum", "Pow", "SquaredDifference",
          "DivNoNan", "FloorDiv", "FloorMod", "Greater", "Less", "GreaterEqual", "LessEqual", "Equal", "NotEqual"] := by
        simp only [elemUn, elemBin, List.mem_append] at hop
        rcases hop with (h | h) | (h | h)
        · exact absurd h hp'
        · exact Or.inl h
        · exact absurd h hb'
        · exact Or.inr h
      have n9 : ¬ v < 9 := by omega
      have n10 : ¬ v < 10 := by omega
      clear hp hb hp' hb' hpc
      show (otherOp fresh v op).isSome
      simp only [List.mem_cons, List.not_mem_nil, or_false] at hop
      rcases hop with (rfl | rfl | rfl | rfl | rfl | rfl | rfl) | (rfl | rfl | rfl | rfl | rfl | rfl | rfl | rfl | rfl | rfl | rfl | rfl | rfl)
      case inl.inr.inr.inr.inr.inr.inl => show (if v < 10 then none else some _ : Option MapInfo).isSome; rw [if_neg n10]; rfl
      case inl.inr.inr.inr.inr.inr.inr => show (if v < 10 then none else some _ : Option MapInfo).isSome; rw [if_neg n10]; rfl
      case inr.inr.inr.inr.inr.inl => show (if v < 9 then none else some _ : Option MapInfo).isSome; rw [if_neg n9]; rfl
      all_goals rfl

open Verif.Elem Verif.Cast in
/-- After converting a graph in which every node is an element-wise TensorFlow node or already a tidy ONNX node, every node is tidy: no
TensorFlow node is left. -/
theorem elem_mapping_tidy {v : Nat} {I : Interp (Ten Val)} {K T : Kern Val} {cast : DT → Val → Val} (on : OnnxOps v I K cast) (tf : TfOps I T)
    (el : ElemLaws T K) (hf : FreshTensors fresh) (hv : 12 ≤ v) {g : G} (h0 : HInv fresh g) (ty : Ref → DT)
    (hnodes : ∀ r ∈ g.nodes, (g.node r).op ∈ elemUn ++ elemBin → ElemNode v g r (ty r))
    (hother : ∀ r ∈ g.nodes, (g.node r).op ∉ elemUn ++ elemBin → Tidy (g.node r))
    (hex : (g.mapping (elemTable fresh v) (fun _ => false)).exceptions = []) :
    ∀ q ∈ (g.mapping (elemTable fresh v) (fun _ => false)).g.nodes, Tidy ((g.mapping (elemTable fresh v) (fun _ => false)).g.node q) := by
  obtain ⟨D, hs, hc, hD⟩ := elem_setup on tf el hf hv (skip := fun _ => false) ty hnodes
  have conv : ∀ r, r ∈ g.nodes → (fun _ : Ref => false) r = false → ∀ m, elemTable fresh v (g.node r).op = some m → ∀ g1 g2, WF g1 → r ∈ g1.nodes →
      HasSig g1 r (elemSig g ty r) → m.convert g1 r = .ok g2 → ∀ q ∈ g2.nodes, (q ∈ g1.nodes ∧ q ≠ r) ∨ Tidy (g2.node q) := by
    intro r hr _ m hm g1 g2 hw hr1 hsg hcv q hq
    by_cases hmem : (g.node r).op ∈ elemUn ++ elemBin
    · rcases elemTable_plain hv hm with ⟨ho, rfl⟩ | ⟨onnxOp, dec, rfl, hp, hi⟩
      · exact absurd hmem (by rcases ho with h | h <;> rw [h] <;> decide)
      · obtain ⟨-, -, -, -, -, o, ho, hoe, -⟩ := hnodes r hr hmem
        have e1 : (g1.node r).output = [o] := hsg.outs.trans ((hs r hr).outs.symm.trans ho)
        have e2 : (g1.node r).op ≠ "Identity" := by
          rw [hsg.op, ← (hs r hr).op]
          exact (by decide : ∀ op ∈ elemUn ++ elemBin, op ≠ "Identity") _ hmem
        exact (entry_plain hf.toFreshNames hp hi hw hr1 e2 (by rw [e1]; simpa using hoe.symm) hcv q hq).imp id PlainAct.tidy
    · rcases elemTable_ops hm with ⟨rfl, -⟩ | h | h
      · have hcv : g2 = g1 := (Except.ok.inj hcv).symm
        subst hcv
        by_cases e : q = r
        · subst e
          exact Or.inr ((hs q hr).tidy hsg (hother q hr hmem))
        · exact Or.inl ⟨hq, e⟩
      · exact absurd (List.mem_append_left _ h) hmem
      · exact absurd (List.mem_append_right _ h) hmem
  intro q hq
  rcases mapping_tidy (I := I) h0 hs hc conv hex q hq with ⟨h1, h2, h3⟩ | h
  · exact (hs q h1).tidy h3 (hother q h1 fun hm => h2 ⟨h1, rfl, Option.isSome_iff_exists.1 (elemTable_all hv _ hm)⟩)
  · exact h

end Verif.Graph
