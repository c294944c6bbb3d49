import Verif.Model.SmallOpts
import Verif.Props.HandlerSite
/-!
# Optimizers that visit the nodes one after the other (used by C61)
-/
namespace Verif.Graph
open Verif

variable {V : Type} {I : Interp V} {fresh : Nat → String} {g g' : G} {r : Ref} {o : String}

/-- What a rewriting step keeps, for runs that satisfy `Ok`: outputs and their values, inputs; `Ok` holds again. -/
structure OptStep (I : Interp V) (Inv : G → Prop) (Ok : G → (String → V) → Prop) (g g' : G) : Prop where
  inv : Inv g'
  outputs : g'.outputs = g.outputs
  inputs : g'.inputs.map (fun r => (g'.node r).output) = g.inputs.map (fun r => (g.node r).output)
  run : ∀ env e, Sat I env e g.nodeList → Ok g e → ∃ e', Sat I env e' g'.nodeList ∧ (∀ o ∈ g.outputs, e' o = e o) ∧ Ok g' e'

theorem OptStep.refl {Inv : G → Prop} {Ok : G → (String → V) → Prop} (h : Inv g) : OptStep I Inv Ok g g :=
  ⟨h, rfl, rfl, fun _ e he ho => ⟨e, he, fun _ _ => rfl, ho⟩⟩

theorem OptStep.trans {Inv : G → Prop} {Ok : G → (String → V) → Prop} {a b c : G} (h : OptStep I Inv Ok a b) (h' : OptStep I Inv Ok b c) :
    OptStep I Inv Ok a c := by
  refine ⟨h'.inv, h'.outputs.trans h.outputs, h'.inputs.trans h.inputs, fun env e he ho => ?_⟩
  obtain ⟨e1, a1, a2, a3⟩ := h.run env e he ho
  obtain ⟨e2, b1, b2, b3⟩ := h'.run env e1 a1 a3
  exact ⟨e2, b1, fun o ho => by rw [b2 o (by rw [h.outputs]; exact ho), a2 o ho], b3⟩

theorem optPass_spec {step : G → Ref → Except String (Option G)} {Inv : G → Prop} {Ok : G → (String → V) → Prop}
    (hs : ∀ g r g', Inv g → r ∈ g.nodes → step g r = .ok (some g') → OptStep I Inv Ok g g') (fuel : Nat) :
    ∀ {g g' : G} {i : Nat} {c b : Bool}, Inv g → G.optPass step fuel g i c = .ok (g', b) → OptStep I Inv Ok g g' := by
  induction fuel with
  | zero => intro g g' i c b _ h; cases h
  | succ fuel ih =>
    intro g g' i c b hi h
    rw [G.optPass] at h
    split at h
    · cases h; exact .refl hi
    · rename_i r hr
      split at h
      · cases h
      · exact ih hi h
      · rename_i g1 h1
        have h2 := hs g r g1 hi (List.mem_of_getElem? hr) h1
        exact h2.trans (ih h2.inv h)

theorem optLoop_spec {step : G → Ref → Except String (Option G)} {Inv : G → Prop} {Ok : G → (String → V) → Prop}
    (hs : ∀ g r g', Inv g → r ∈ g.nodes → step g r = .ok (some g') → OptStep I Inv Ok g g') (fuel : Nat) :
    ∀ {g g' : G}, Inv g → G.optLoop step fuel g = .ok g' → OptStep I Inv Ok g g' := by
  induction fuel with
  | zero => intro g g' _ h; cases h
  | succ fuel ih =>
    intro g g' hi h
    rw [G.optLoop] at h
    split at h
    · cases h
    · rename_i g1 h1
      have h2 := optPass_spec hs _ hi h1
      exact h2.trans (ih h2.inv h)
    · rename_i g1 h1
      cases h
      exact optPass_spec hs _ hi h1

/-- A run of steps gives the same model. -/
theorem OptStep.sameOn {Inv : G → Prop} {Ok : G → (String → V) → Prop} (hI : ∀ g, Inv g → HInv fresh g) (hg : Inv g) (s : OptStep I Inv Ok g g') :
    SameOn I (Ok g) g g' := by
  obtain ⟨ρ, hrk⟩ := (hI g hg).ranked
  obtain ⟨ρ', hrk'⟩ := (hI g' s.inv).ranked
  refine ⟨s.outputs, s.inputs, ?_⟩
  intro env hD out
  refine computes_of_transport (hI g hg).reach hrk.acyclic hrk'.acyclic s.outputs (fun e he => ?_) out
  obtain ⟨e', h1, h2, _⟩ := s.run env e he (hD e he)
  exact ⟨e', h1, h2⟩

/-- The nodes after a sequence of calls for node `r`: the other nodes read something else for `o`, the rest is the group. -/
theorem acts_nodes (hf : FreshTensors fresh) (hv : HInv fresh g) (h0 : r ∈ g.nodes) (hnin : (g.node r).isGraphInput = false)
    (hc : (g.node r).op ≠ "Const") (hout : (g.node r).output = [o]) (hoe : o ≠ "") {as : List Act} (h : G.runActs fresh g r as g = .ok g')
    (hok : Grp.allOk fresh o as (Grp.start (g.node r) g.heap.length o))
    (hown : (∃ xs, .inputs xs ∈ as) → ∀ q ∈ g.nodes, (g.node q).name ∉ (g.node q).input) {σ : Grp}
    (hσ : Grp.run fresh as (Grp.start (g.node r) g.heap.length o) = σ) :
    g'.heap.length = σ.len ∧
    (∀ q ∈ g.nodes, q ≠ r → q ∈ g'.nodes ∧ g'.node q = (g.node q).mapIn (fun x => if x = o then σ.out else x)) ∧
    ∀ q ∈ g'.nodes, (q ∈ g.nodes ∧ q ≠ r) ∨ g'.node q ∈ σ.nodes := by
  have hi := Grp.run_inv hf hv h0 hnin hc hout hoe hown (Grp.start_inv hv h0 hout) hok h
  rw [hσ] at hi
  refine ⟨hi.len, hi.conv.old, fun q hq => ?_⟩
  rcases hi.conv.mem q hq with h | h
  · exact Or.inl h
  · obtain ⟨p, hp, rfl⟩ := List.mem_map.1 h
    refine Or.inr ?_
    rw [hi.conv.node_eq hp, ← Grp.refs_snd σ r]
    exact List.mem_map.2 ⟨p, hp, rfl⟩

/-- Calls that record nothing, or record for the new tensor what is recorded for the old one. -/
def Act.light : Act → Bool
  | .remove | .makeOut .. => false
  | _ => true

/-- What is recorded about shapes: nothing new for old tensors; for new ones nothing, or what was recorded for `o`. -/
structure ShapesLike (fresh : Nat → String) (g0 : G) (o : String) (g : G) : Prop where
  old : ∀ y, (∀ k, g0.heap.length ≤ k → ¬ Mine fresh k y) → g.shapes.get y = g0.shapes.get y
  new : ∀ k y, g0.heap.length ≤ k → Mine fresh k y → g.shapes.get y = none ∨ g.shapes.get y = g0.shapes.get o
  far : ∀ k y, g.heap.length ≤ k → Mine fresh k y → g.shapes.get y = none

theorem ShapesLike.tab {g0 g1 : G} (h : ShapesLike fresh g0 o g) (ht : g1.shapes = g.shapes) (hl : g.heap.length ≤ g1.heap.length) :
    ShapesLike fresh g0 o g1 :=
  ⟨fun y hy => by rw [ht]; exact h.old y hy, fun k y hk hy => by rw [ht]; exact h.new k y hk hy,
    fun k y hk hy => by rw [ht]; exact h.far k y (Nat.le_trans hl hk) hy⟩

theorem act_tab {g0 : G} {a : Act} (ha : a.light = true) (hno : ∀ x, a ≠ .insertOut x) (h : G.act fresh g0 r g a = .ok g') : g'.shapes = g.shapes := by
  cases a with
  | setType op => cases h; rfl
  | setAttr k v => cases h; rfl
  | onnx => cases h; rfl
  | attrs a => cases h; rfl
  | make s =>
    simp only [G.act, Except.map] at h
    split at h
    · cases h
    · rename_i p hp
      cases h
      exact (makeNode_tab (r := p.2) hp).1
  | rawInputs xs => cases h; rfl
  | inputs xs => cases h; exact (replaceInputs_tab g r xs).1
  | inputAt i x =>
    simp only [G.act] at h
    split at h
    · exact (replaceInputAt_tab h).1
    · cases h
  | dropInput i =>
    simp only [G.act] at h
    split at h
    · exact (removeInputAt_tab h).1
    · cases h
  | insertOut x => exact (hno x rfl).elim
  | remove => cases ha
  | makeOut => cases ha

theorem act_shapes (hf : FreshTensors fresh) {g0 : G} (hv : HInv fresh g0) (h0 : r ∈ g0.nodes) (hnin : (g0.node r).isGraphInput = false)
    (hc : (g0.node r).op ≠ "Const") (hout : (g0.node r).output = [o]) (hoe : o ≠ "") {σ : Grp} {a : Act}
    (hown : (∃ xs, a = .inputs xs) → ∀ q ∈ g0.nodes, (g0.node q).name ∉ (g0.node q).input)
    (hi : Grp.Inv fresh g0 r o g σ) (hok : σ.ok o a) (hs : ShapesLike fresh g0 o g) (ha : a.light = true) (h : G.act fresh g0 r g a = .ok g') :
    Grp.Inv fresh g0 r o g' (σ.act fresh a) ∧ ShapesLike fresh g0 o g' := by
  have hi' := Grp.act_inv hf hv h0 hnin hc hout hoe hi hown hok h
  refine ⟨hi', ?_⟩
  have hlen : g.heap.length ≤ g'.heap.length := by
    rw [hi.len, hi'.len]
    cases a <;> simp only [Grp.act] <;> omega
  by_cases hno : ∀ x, a ≠ .insertOut x
  · exact hs.tab (act_tab ha hno h) hlen
  · have hno : ∃ x, a = .insertOut x := by
      by_contra hn
      exact hno fun x hx => hn ⟨x, hx⟩
    obtain ⟨x, rfl⟩ := hno
    obtain ⟨hx, -, -, htop⟩ := hok
    obtain ⟨hpos, l, n, z, hnews, hz, hmine, hne⟩ := hi.top htop
    have hnode : g.node (g.heap.length - 1) = n := by
      rw [hi.len]
      exact hi.conv.node_eq (p := (σ.len - 1, n)) (by simp [Grp.refs, hnews])
    simp only [G.act, bind, Except.bind, hnode, hz, List.headD] at h
    split at h
    · cases h
    rename_i g1 h1
    have ht := insertNodeOnOutput_tab h1
    simp only [G.copyInfo, bind, Except.bind] at h
    split at h
    · cases h
    rename_i g2 h2
    obtain ⟨-, a2, a3⟩ := setShapeOpt_keeps h2
    obtain ⟨b1, -, -⟩ := setDtypeOpt_keeps h
    have hge : g0.heap.length ≤ σ.len - 1 := (hi.newOut (σ.len - 1, n) (by rw [hnews]; simp)).1
    have hotherS : ∀ y, y ≠ z → g'.shapes.get y = g.shapes.get y := by
      intro y hy
      rw [b1, a2 y hy, ht.1]
    have hzS : g'.shapes.get z = none ∨ g'.shapes.get z = g0.shapes.get o := by
      have hsrc : g.shapes.get x = none ∨ g.shapes.get x = g0.shapes.get o := by
        rw [hx]
        rcases hi.outIs with h | ⟨k, hk, -, hm⟩
        · rw [h]
          refine Or.inr (hs.old o fun k hk hm => ?_)
          exact hv.unmade k o hk hm r h0 (by rw [hout]; simp)
        · exact hs.new k _ hk hm
      rw [ht.1] at a3 h2
      cases hq : g.shapes.get x with
      | none =>
        rw [hq] at h2
        cases h2
        rw [b1, ht.1]
        exact hs.new _ z hge hmine
      | some s =>
        rw [b1, a3 s hq]
        rcases hsrc with h | h
        · rw [hq] at h; cases h
        · exact Or.inr (by rw [← h, hq])
    refine ⟨fun y hy => ?_, fun k y hk hy => ?_, fun k y hk hy => ?_⟩
    · have : y ≠ z := by rintro rfl; exact hy _ hge hmine
      rw [hotherS y this]; exact hs.old y hy
    · by_cases e : y = z
      · rw [e]; exact hzS
      · rw [hotherS y e]; exact hs.new k y hk hy
    · have hyz : y ≠ z := by
        rintro rfl
        have := Mine.inj hf hy hmine
        have h3 := hi.len
        omega
      rw [hotherS y hyz]
      exact hs.far k y (Nat.le_trans hlen hk) hy

theorem acts_shapes (hf : FreshTensors fresh) {g0 : G} (hv : HInv fresh g0) (h0 : r ∈ g0.nodes) (hnin : (g0.node r).isGraphInput = false)
    (hc : (g0.node r).op ≠ "Const") (hout : (g0.node r).output = [o]) (hoe : o ≠ "") {as : List Act} (ha : ∀ a ∈ as, a.light = true)
    (hown : (∃ xs, .inputs xs ∈ as) → ∀ q ∈ g0.nodes, (g0.node q).name ∉ (g0.node q).input) : ∀ {g : G} {σ : Grp},
    Grp.Inv fresh g0 r o g σ → Grp.allOk fresh o as σ → ShapesLike fresh g0 o g → G.runActs fresh g0 r as g = .ok g' →
    ShapesLike fresh g0 o g' := by
  induction as with
  | nil => intro g σ _ _ hs h; cases h; exact hs
  | cons a as ih =>
    intro g σ hi hok hs h
    simp only [G.runActs, bind, Except.bind] at h
    split at h
    · cases h
    rename_i g1 h1
    obtain ⟨k1, k2⟩ := act_shapes hf hv h0 hnin hc hout hoe (fun ⟨xs, h⟩ => hown ⟨xs, by simp [h]⟩) hi hok.1 hs (ha a (by simp)) h1
    exact ih (fun a h => ha a (by simp [h])) (fun ⟨xs, h⟩ => hown ⟨xs, by simp [h]⟩) k1 hok.2 k2 h

end Verif.Graph
