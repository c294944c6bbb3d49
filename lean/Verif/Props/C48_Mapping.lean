import Verif.Model.Mapping
import Verif.Props.HandlerBase
/-!
# C48: converting all nodes of a graph, one after the other
-/
namespace Verif.Graph
open Verif

/-- What is known of an input: whether it is there, and what must at least be recorded for it. -/
structure InSig where
  there : Bool := true
  dtype : Option Nat := none
  shape : Option Shapes.Shape := none

/-- What is known of a node before it is converted. -/
structure Sig where
  name : String
  op : String
  dom : String
  attr : Dict String Attr
  outs : List String
  ins : List InSig

/-- The node is as the signature says. -/
structure HasSig (g : G) (r : Ref) (σ : Sig) : Prop where
  name : (g.node r).name = σ.name
  op : (g.node r).op = σ.op
  dom : (g.node r).domain = σ.dom
  attr : (g.node r).attr = σ.attr
  outs : (g.node r).output = σ.outs
  len : (g.node r).input.length = σ.ins.length
  ins : ∀ (i : Nat) (x : String) (s : InSig), (g.node r).input[i]? = some x → σ.ins[i]? = some s →
    (x = "" ↔ s.there = false) ∧ (∀ t, s.dtype = some t → g.dtypes.get x = some t) ∧ (∀ d, s.shape = some d → g.shapes.get x = some d)

/-- The handler converts nodes with signature `σ` correctly: whenever it returns, in whatever graph, it has either done nothing or
made a conversion step that keeps the values for arguments in `D`. -/
def Correct {V : Type} (I : Interp V) (fresh : Nat → String) (outputs : List String) (m : MapInfo) (σ : Sig)
    (D : List (Option V) → Prop) : Prop :=
  ∀ g r g', HInv fresh g → g.outputs = outputs → r ∈ g.nodes → HasSig g r σ → m.convert g r = .ok g' →
    g' = g ∨ (g.node r).isGraphInput = false ∧ ConvStep I D fresh g r g'

variable {V : Type} {I : Interp V} {fresh : Nat → String} {table : String → Option MapInfo} {skip : Ref → Bool}

theorem ConvStep.hasSig {D : List (Option V) → Prop} {g g' : G} {r q : Ref} (s : ConvStep I D fresh g r g') (hq : q ∈ g.nodes)
    (hne : q ≠ r) {σ : Sig} (h : HasSig g q σ) : HasSig g' q σ := by
  obtain ⟨_, xs, hx⟩ := s.old q hq hne
  obtain ⟨hl, hs⟩ := s.seen q hq hne
  refine ⟨by rw [hx]; exact h.name, by rw [hx]; exact h.op, by rw [hx]; exact h.dom, by rw [hx]; exact h.attr, by rw [hx]; exact h.outs,
    hl.trans h.len, ?_⟩
  intro i x' si hx' hsi
  have hlt : i < (g.node q).input.length := by
    rw [← hl]; exact (List.getElem?_eq_some_iff.1 hx').1
  obtain ⟨h1, h2⟩ := hs i _ x' (List.getElem?_eq_getElem hlt) hx'
  obtain ⟨k1, k2, k3⟩ := h.ins i _ si (List.getElem?_eq_getElem hlt) hsi
  exact ⟨h1.trans k1, fun t ht => h2.dtype t (k2 t ht), fun d hd => h2.shape d (k3 d hd)⟩

/-- The nodes a run converts. -/
def Converts (table : String → Option MapInfo) (skip : Ref → Bool) (g : G) (r : Ref) : Prop :=
  r ∈ g.nodes ∧ skip r = false ∧ ∃ m, table (g.node r).op = some m

/-- Where the loop stands after some nodes, `rest` being still to come. -/
structure MapInv (I : Interp V) (fresh : Nat → String) (table : String → Option MapInfo) (skip : Ref → Bool) (sig : Ref → Sig)
    (D : Ref → List (Option V) → Prop) (g0 : G) (rest : List Ref) (g : G) : Prop where
  inv : HInv fresh g
  outputs : g.outputs = g0.outputs
  inputs : g.inputs = g0.inputs
  inputNodes : ∀ r ∈ g0.inputs, (g.node r).output = (g0.node r).output
  kept : ∀ r ∈ g0.nodes, (r ∈ rest ∨ ¬ Converts table skip g0 r) → r ∈ g.nodes ∧ HasSig g r (sig r)
  run : ∀ env e, Sat I env e g0.nodeList → (∀ r, Converts table skip g0 r → D r (argVals e (g0.node r))) →
    ∃ e', Sat I env e' g.nodeList ∧ (∀ o ∈ g0.outputs, e' o = e o) ∧
      ∀ r ∈ g0.nodes, (r ∈ rest ∨ ¬ Converts table skip g0 r) → argVals e' (g.node r) = argVals e (g0.node r)

theorem mapNode_exceptions (s : MapState) (r : Ref) : ∃ l, (mapNode table skip s r).exceptions = s.exceptions ++ l := by
  unfold mapNode
  split
  · exact ⟨[], by simp⟩
  split
  · exact ⟨[], by simp⟩
  split
  · exact ⟨[], by simp⟩
  · exact ⟨_, rfl⟩

theorem foldl_exceptions (rs : List Ref) (s : MapState) : ∃ l, (rs.foldl (mapNode table skip) s).exceptions = s.exceptions ++ l := by
  induction rs generalizing s with
  | nil => exact ⟨[], by simp⟩
  | cons r rs ih =>
    obtain ⟨l, h⟩ := ih (mapNode table skip s r)
    obtain ⟨l', h'⟩ := mapNode_exceptions (table := table) (skip := skip) s r
    exact ⟨l' ++ l, by rw [List.foldl_cons, h, h', List.append_assoc]⟩

theorem mapLoop_step {sig : Ref → Sig} {D : Ref → List (Option V) → Prop} {g0 : G}
    (hsig : ∀ r ∈ g0.nodes, HasSig g0 r (sig r))
    (hok : ∀ r, r ∈ g0.nodes → skip r = false → ∀ m, table (g0.node r).op = some m → Correct I fresh g0.outputs m (sig r) (D r))
    {r : Ref} {rest : List Ref} (hnd : (r :: rest).Nodup) (hsub : ∀ q ∈ r :: rest, q ∈ g0.nodes)
    (s : MapState) (hi : MapInv I fresh table skip sig D g0 (r :: rest) s.g) (hexr : (mapNode table skip s r).exceptions = []) :
    MapInv I fresh table skip sig D g0 rest (mapNode table skip s r).g := by
  obtain ⟨hr, hnd⟩ := List.nodup_cons.1 hnd
  have hr0 := hsub r (by simp)
  obtain ⟨hrm, hrs⟩ := hi.kept r hr0 (Or.inl (by simp))
  have hopeq : (s.g.node r).op = (g0.node r).op := hrs.op.trans (hsig r hr0).op.symm
  -- the graph stays as it is
  have stay : MapInv I fresh table skip sig D g0 rest s.g :=
    ⟨hi.inv, hi.outputs, hi.inputs, hi.inputNodes, fun q hq h => hi.kept q hq (h.imp (fun h => by simp [h]) id), fun env e he hD => by
      obtain ⟨e', h1, h2, h3⟩ := hi.run env e he hD
      exact ⟨e', h1, h2, fun q hq h => h3 q hq (h.imp (fun h => by simp [h]) id)⟩⟩
  unfold mapNode at hexr ⊢
  split
  · exact stay
  rename_i hskip
  rw [if_neg hskip] at hexr
  have hskip : skip r = false := by simpa using hskip
  split
  · exact stay
  rename_i m hm
  rw [hm] at hexr
  simp only at hexr
  split
  · rename_i g' hg'
    have hconv : Converts table skip g0 r := ⟨hr0, hskip, m, by rw [← hopeq]; exact hm⟩
    rcases hok r hr0 hskip m (by rw [← hopeq]; exact hm) s.g r g' hi.inv hi.outputs hrm hrs hg' with rfl | ⟨hnin, st⟩
    · exact stay
    · have hne : ∀ q, (q ∈ rest ∨ ¬ Converts table skip g0 q) → q ≠ r := by
        rintro q (h | h) rfl
        · exact hr h
        · exact h hconv
      refine ⟨st.inv, st.outputs.trans hi.outputs, st.inputs.trans hi.inputs, ?_, ?_, ?_⟩
      · intro q hq
        have hq' : q ∈ s.g.inputs := by rw [hi.inputs]; exact hq
        have hqr : q ≠ r := by
          rintro rfl
          have := hi.inv.inputs q hq'
          rw [hnin] at this
          cases this
        obtain ⟨_, xs, hx⟩ := st.old q (hi.inv.inputsIn q hq') hqr
        rw [hx]
        exact hi.inputNodes q hq
      · intro q hq h
        obtain ⟨k1, k2⟩ := hi.kept q hq (h.imp (fun h => by simp [h]) id)
        exact ⟨(st.old q k1 (hne q h)).1, st.hasSig k1 (hne q h) k2⟩
      · intro env e he hD
        obtain ⟨e1, a1, a2, a3⟩ := hi.run env e he hD
        have hDr := hD r hconv
        rw [← a3 r hr0 (Or.inl (by simp))] at hDr
        obtain ⟨e2, b1, b2, b3⟩ := st.run env e1 a1 hDr
        refine ⟨e2, b1, fun o ho => ?_, fun q hq h => ?_⟩
        · rw [b2 o (by rw [hi.outputs]; exact ho), a2 o ho]
        · rw [b3 q (hi.kept q hq (h.imp (fun h => by simp [h]) id)).1 (hne q h)]
          exact a3 q hq (h.imp (fun h => by simp [h]) id)
  · rename_i ex hg'
    rw [hg'] at hexr
    simp at hexr

theorem mapLoop_inv {sig : Ref → Sig} {D : Ref → List (Option V) → Prop} {g0 : G}
    (hsig : ∀ r ∈ g0.nodes, HasSig g0 r (sig r))
    (hok : ∀ r, r ∈ g0.nodes → skip r = false → ∀ m, table (g0.node r).op = some m → Correct I fresh g0.outputs m (sig r) (D r))
    (rest : List Ref) (hnd : rest.Nodup) (hsub : ∀ r ∈ rest, r ∈ g0.nodes) :
    ∀ (s : MapState), MapInv I fresh table skip sig D g0 rest s.g → (rest.foldl (mapNode table skip) s).exceptions = [] →
      MapInv I fresh table skip sig D g0 [] (rest.foldl (mapNode table skip) s).g := by
  induction rest with
  | nil => intro s hi _; exact hi
  | cons r rest ih =>
    intro s hi hex
    rw [List.foldl_cons] at hex ⊢
    refine ih (List.nodup_cons.1 hnd).2 (fun q hq => hsub q (by simp [hq])) _ ?_ hex
    obtain ⟨l, hl⟩ := foldl_exceptions (table := table) (skip := skip) rest (mapNode table skip s r)
    rw [hex] at hl
    have hexr : (mapNode table skip s r).exceptions = [] := (List.append_eq_nil_iff.1 hl.symm).1
    exact mapLoop_step hsig hok hnd hsub s hi hexr

/-- **C48**: if every handler is correct for the nodes it is called on, the mapping loop, when no handler raises, gives the same
model: same outputs and inputs, same results for all fed values under which the arguments of every converted node are in its
handler's domain (in the graph before the conversion). Nodes that are skipped or have no handler keep operator, attributes and outputs. -/
theorem mapping_preserves_model {sig : Ref → Sig} {D : Ref → List (Option V) → Prop} {g : G} (h0 : HInv fresh g)
    (hsig : ∀ r ∈ g.nodes, HasSig g r (sig r))
    (hok : ∀ r, r ∈ g.nodes → skip r = false → ∀ m, table (g.node r).op = some m → Correct I fresh g.outputs m (sig r) (D r))
    (hex : (g.mapping table skip).exceptions = []) :
    SameOn I (fun e => ∀ r, Converts table skip g r → D r (argVals e (g.node r))) g (g.mapping table skip).g ∧
      HInv fresh (g.mapping table skip).g ∧
      ∀ r ∈ g.nodes, ¬ Converts table skip g r → r ∈ (g.mapping table skip).g.nodes ∧ HasSig (g.mapping table skip).g r (sig r) := by
  have hi := mapLoop_inv (I := I) (D := D) hsig hok g.nodes h0.reach.wf.nodup (fun _ h => h) { g := g }
    ⟨h0, rfl, rfl, fun _ _ => rfl, fun r hr _ => ⟨hr, hsig r hr⟩, fun env e he _ => ⟨e, he, fun _ _ => rfl, fun _ _ _ => rfl⟩⟩ hex
  have hfin : (g.nodes.foldl (mapNode table skip) { g := g }).g = (g.mapping table skip).g := rfl
  rw [hfin] at hi
  refine ⟨⟨hi.outputs, ?_, ?_⟩, hi.inv, fun r hr h => hi.kept r hr (Or.inr h)⟩
  · rw [hi.inputs]
    exact List.map_congr_left hi.inputNodes
  · intro env hD out
    obtain ⟨ρ, hrk⟩ := h0.ranked
    obtain ⟨ρ', hrk'⟩ := hi.inv.ranked
    refine computes_of_transport h0.reach hrk.acyclic hrk'.acyclic hi.outputs (fun e he => ?_) out
    obtain ⟨e', h1, h2, _⟩ := hi.run env e he (hD e he)
    exact ⟨e', h1, h2⟩

/-- The counters: every node is counted once, unless skipped, as mapped or unmapped by its operator (when no handler changes the
operator of another node). -/
theorem mapping_counts {sig : Ref → Sig} {D : Ref → List (Option V) → Prop} {g : G} (h0 : HInv fresh g)
    (hsig : ∀ r ∈ g.nodes, HasSig g r (sig r))
    (hok : ∀ r, r ∈ g.nodes → skip r = false → ∀ m, table (g.node r).op = some m → Correct I fresh g.outputs m (sig r) (D r))
    (hex : (g.mapping table skip).exceptions = []) :
    (g.mapping table skip).unmapped = ((g.nodes.filter (fun r => skip r = false)).map (fun r => (g.node r).op)).filter
      (fun op => (table op).isNone) ∧
    (g.mapping table skip).mapped = ((g.nodes.filter (fun r => skip r = false)).map (fun r => (g.node r).op)).filter
      (fun op => (table op).isSome) := by
  have key : ∀ (pre rest : List Ref) (s : MapState), pre ++ rest = g.nodes → MapInv I fresh table skip sig D g rest s.g →
      (rest.foldl (mapNode table skip) s).exceptions = [] →
      (rest.foldl (mapNode table skip) s).unmapped = s.unmapped ++ ((rest.filter (fun r => skip r = false)).map (fun r => (g.node r).op)).filter
        (fun op => (table op).isNone) ∧
      (rest.foldl (mapNode table skip) s).mapped = s.mapped ++ ((rest.filter (fun r => skip r = false)).map (fun r => (g.node r).op)).filter
        (fun op => (table op).isSome) := by
    intro pre rest
    induction rest generalizing pre with
    | nil => intro s _ _ _; simp
    | cons r rest ih =>
      intro s hpre hi hex
      have hnd := h0.reach.wf.nodup
      rw [← hpre] at hnd
      have hndr := (List.nodup_append.1 hnd).2.1
      have hr0 : r ∈ g.nodes := by rw [← hpre]; simp
      rw [List.foldl_cons] at hex ⊢
      -- one step
      have hex1 : ([r].foldl (mapNode table skip) s).exceptions = [] := by
        obtain ⟨l, hl⟩ := foldl_exceptions (table := table) (skip := skip) rest (mapNode table skip s r)
        rw [hex] at hl
        exact (List.append_eq_nil_iff.1 hl.symm).1
      have hopeq : (s.g.node r).op = (g.node r).op :=
        (hi.kept r hr0 (Or.inl (by simp))).2.op.trans (hsig r hr0).op.symm
      have hstep := mapLoop_step (I := I) (D := D) hsig hok hndr (fun q hq => by rw [← hpre]; simp [List.mem_cons] at hq ⊢; tauto) s hi hex1
      obtain ⟨i1, i2⟩ := ih (pre ++ [r]) (mapNode table skip s r) (by simp [hpre]) hstep hex
      rw [i1, i2]
      simp only [List.foldl_cons, List.foldl_nil] at hex1
      unfold mapNode at hex1 ⊢
      cases hs : skip r with
      | true => simp [hs]
      | false =>
        cases ht : table (g.node r).op with
        | none => simp [hs, hopeq, ht]
        | some m =>
          cases hc : m.convert s.g r with
          | ok g' => simp [hs, hopeq, ht, hc]
          | error ex => simp [hs, hopeq, ht, hc] at hex1
  have := key [] g.nodes { g := g } (by simp)
    ⟨h0, rfl, rfl, fun _ _ => rfl, fun r hr _ => ⟨hr, hsig r hr⟩, fun env e he _ => ⟨e, he, fun _ _ => rfl, fun _ _ _ => rfl⟩⟩ hex
  simpa [G.mapping] using this

end Verif.Graph
