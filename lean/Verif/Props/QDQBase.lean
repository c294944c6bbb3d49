import Verif.Props.C14_Merge
import Verif.Model.QDQ
/-!
# C43 (1): what the quantization optimizer relies on; cancelling; redirecting the inputs

The value of a tensor is abstract; what the operators must satisfy is `QDQLaw`.
-/
namespace Verif.Graph
open Verif

/-! ## Specification -/

/-- Apply `f` to the operands at the positions `idx`. -/
def mapAt {V : Type} (idx : List Nat) (f : V → V) (args : List (Option V)) : List (Option V) :=
  args.mapIdx (fun k a => if k ∈ idx then a.map f else a)

/-- Quantize with the given scale and zero point operands, per tensor (no `axis`). -/
def quant {V : Type} (I : Interp V) (ps : List (Option V)) (x : V) : V := I "QuantizeLinear" "" [] (some x :: ps) 0

/-- Dequantize with the given scale and zero point operands, per tensor (no `axis`). -/
def dequant {V : Type} (I : Interp V) (ps : List (Option V)) (x : V) : V := I "DequantizeLinear" "" [] (some x :: ps) 0

/-- Scale and zero point are scalar constants. -/
def ScalarParams {V : Type} (I : Interp V) (ps : List (Option V)) : Prop :=
  ∀ p ∈ ps, ∃ dom attr t, Dict.get attr "value" = some (.tensor t) ∧ t.dims = [] ∧ p = some (I "Const" dom attr [] 0)

/-- `ScatterND` and `ScatterElements` (opset 16 and later) do not only move elements when they have a reduction. -/
def NoReduction (n : Node) : Prop := n.attr.get "reduction" = none ∨ n.attr.get "reduction" = some (.str "none")

/-- What the operators satisfy: an element-wise function with scalar parameters may be applied before or after moving
elements around, and quantizing a dequantized quantized value gives it back. -/
structure QDQLaw (V : Type) (I : Interp V) : Prop where
  quant_commutes : ∀ n inps outs, tensorIdx n = some (inps, outs) → NoReduction n → ∀ ps, ScalarParams I ps →
    ∀ args : List (Option V), args.length = n.input.length → (∀ k ∈ inps, ∃ v, args[k]? = some (some v)) →
    ∀ j ∈ outs, I n.op "" n.attr (mapAt inps (quant I ps) args) j = quant I ps (I n.op "" n.attr args j)
  dequant_commutes : ∀ n inps outs, tensorIdx n = some (inps, outs) → NoReduction n → ∀ ps, ScalarParams I ps →
    ∀ args : List (Option V), args.length = n.input.length → (∀ k ∈ inps, ∃ v, args[k]? = some (some v)) →
    ∀ j ∈ outs, I n.op "" n.attr (mapAt inps (dequant I ps) args) j = dequant I ps (I n.op "" n.attr args j)
  requantize : ∀ ps, ScalarParams I ps → ∀ y, quant I ps (dequant I ps (quant I ps y)) = quant I ps y

/-- The node quantizes or dequantizes per tensor. -/
def IsQD (n : Node) : Prop := (n.op = "QuantizeLinear" ∨ n.op = "DequantizeLinear") ∧ n.attr.get "axis" = none

/-- `p` is produced by a scalar constant. -/
def ScalarConst (g : G) (p : String) : Prop :=
  p ≠ "" ∧ ∃ c ∈ g.nodes, (g.node c).op = "Const" ∧ (g.node c).input = [] ∧ (g.node c).output = [p] ∧
    ∃ t, (g.node c).attr.get "value" = some (.tensor t) ∧ t.dims = []

/-- ONNX signatures and types of the nodes concerned. `isIdx` marks the tensors of an index-like type: operands of a shape
operator that are not data (shapes, indices, ...) are of such a type, quantized or dequantized tensors are not, and the data
operands and results of a shape operator have the same type. -/
structure QShape (g : G) (isIdx : String → Prop) : Prop where
  qd : ∀ r ∈ g.nodes, IsQD (g.node r) → (g.node r).attr = [] ∧ (g.node r).domain = "" ∧
    ∃ x ps o, (g.node r).input = x :: ps ∧ (g.node r).output = [o] ∧ x ≠ "" ∧ o ≠ "" ∧ ¬ isIdx x ∧ ¬ isIdx o ∧
      ∀ p ∈ ps, ScalarConst g p
  domain : ∀ r ∈ g.nodes, ∀ io, tensorIdx (g.node r) = some io → (g.node r).domain = "" ∧ NoReduction (g.node r)
  outs : ∀ r ∈ g.nodes, ∀ inps outs, tensorIdx (g.node r) = some (inps, outs) →
    outs = List.range (g.node r).output.length ∧ "" ∉ (g.node r).output
  data : ∀ r ∈ g.nodes, ∀ inps outs, tensorIdx (g.node r) = some (inps, outs) → ∀ k ∈ inps,
    ∃ x, (g.node r).input[k]? = some x ∧ x ≠ "" ∧ ∀ o ∈ (g.node r).output, (isIdx x ↔ isIdx o)
  other : ∀ r ∈ g.nodes, ∀ inps outs, tensorIdx (g.node r) = some (inps, outs) → ∀ k x,
    (g.node r).input[k]? = some x → k ∉ inps → x ≠ "" → isIdx x
  inputs : ∀ r ∈ g.inputs, (g.node r).isGraphInput = true

/-- `isQ` marks the tensors of a quantized type: a per-tensor dequantization reads one and gives none, a per-tensor
quantization gives one, and the data operands and results of a shape operator have the same type. -/
structure QKind (g : G) (isQ : String → Prop) : Prop where
  dq : ∀ r ∈ g.nodes, (g.node r).op = "DequantizeLinear" → (g.node r).attr.get "axis" = none →
    (∀ x ps, (g.node r).input = x :: ps → isQ x) ∧ ∀ o ∈ (g.node r).output, ¬ isQ o
  q : ∀ r ∈ g.nodes, (g.node r).op = "QuantizeLinear" → (g.node r).attr.get "axis" = none → ∀ o ∈ (g.node r).output, isQ o
  data : ∀ r ∈ g.nodes, ∀ inps outs, tensorIdx (g.node r) = some (inps, outs) → ∀ k ∈ inps, ∀ x : String,
    (g.node r).input[k]? = some x → ∀ o ∈ (g.node r).output, (isQ x ↔ isQ o)

/-- In a run, every tensor that is dequantized per tensor is a quantized tensor of the element type that its scale and zero
point call for: some value quantizes to it. -/
def TypedRun {V : Type} (I : Interp V) (e : String → V) (g : G) : Prop :=
  ∀ r ∈ g.nodes, (g.node r).op = "DequantizeLinear" → (g.node r).attr.get "axis" = none →
    ∀ x ps, (g.node r).input = x :: ps → ∃ y, e x = quant I (ps.map (argVal e)) y

/-- Names of new nodes are distinct and not empty. -/
structure FreshNames (fresh : Nat → String) : Prop where
  inj : ∀ i j, fresh i = fresh j → i = j
  ne : ∀ i, fresh i ≠ ""

/-- The output name of new node number `k`. -/
def outName (fresh : Nat → String) (k : Nat) : String := fresh k ++ ":0"

theorem outName_ne {fresh : Nat → String} (k : Nat) : outName fresh k ≠ "" := by
  intro h
  have := congrArg String.length h
  simp [outName] at this

theorem outName_inj {fresh : Nat → String} (hf : FreshNames fresh) {i j : Nat} (h : outName fresh i = outName fresh j) :
    i = j := by
  apply hf.inj
  unfold outName at h
  have := congrArg String.toList h
  simp only [String.toList_append] at this
  exact String.toList_inj.1 (List.append_cancel_right this)

/-- The invariant of the optimizer. -/
structure QInv (fresh : Nat → String) (g : G) : Prop where
  reach : Reachable g
  idx : Idx g
  ranked : ∃ ρ, RankedBy g ρ
  shape : ∃ isIdx, QShape g isIdx
  kinds : ∃ isQ, QKind g isQ
  unread : ∀ k, g.heap.length ≤ k → (∀ r ∈ g.nodes, outName fresh k ∉ (g.node r).input) ∧ outName fresh k ∉ g.outputs
  unmade : ∀ k, g.heap.length ≤ k → ∀ r ∈ g.nodes, outName fresh k ∉ (g.node r).output

/-- What each step guarantees. -/
structure QStep (fresh : Nat → String) (g g' : G) : Prop where
  inv : QInv fresh g'
  outputs : g'.outputs = g.outputs
  inputs : g'.inputs.map (fun r => (g'.node r).output) = g.inputs.map (fun r => (g.node r).output)
  run : ∀ (V : Type) (I : Interp V), QDQLaw V I → ∀ env e, Sat I env e g.nodeList → TypedRun I e g →
    ∃ e', Sat I env e' g'.nodeList ∧ TypedRun I e' g' ∧ ∀ o ∈ g.outputs, e' o = e o

theorem QStep.refl {fresh : Nat → String} {g : G} (h : QInv fresh g) : QStep fresh g g :=
  ⟨h, rfl, rfl, fun _ _ _ _ e he ht => ⟨e, he, ht, fun _ _ => rfl⟩⟩

theorem QStep.trans {fresh : Nat → String} {a b c : G} (h : QStep fresh a b) (h' : QStep fresh b c) : QStep fresh a c := by
  refine ⟨h'.inv, h'.outputs.trans h.outputs, h'.inputs.trans h.inputs, ?_⟩
  intro V I hI env e he ht
  obtain ⟨e1, h1, h2, h3⟩ := h.run V I hI env e he ht
  obtain ⟨e2, h4, h5, h6⟩ := h'.run V I hI env e1 h1 h2
  refine ⟨e2, h4, h5, fun o ho => ?_⟩
  rw [h6 o (by rw [h.outputs]; exact ho), h3 o ho]

/-! ## Chains of redirections -/

/-- The effect of redirecting `p.1` to `p.2` for each pair in turn. -/
def applyPairs (ps : List (String × String)) (x : String) : String :=
  ps.foldl (fun x p => if x = p.1 then p.2 else x) x

theorem applyPairs_append (ps qs : List (String × String)) (x : String) :
    applyPairs (ps ++ qs) x = applyPairs qs (applyPairs ps x) := by
  simp [applyPairs, List.foldl_append]

/-- If no target is a source: either the name is no source and stays, or it goes to the target of a pair. -/
theorem applyPairs_spec (ps : List (String × String)) (x : String) (h : ∀ p ∈ ps, ∀ q ∈ ps, p.2 ≠ q.1) :
    ((∀ p ∈ ps, p.1 ≠ x) ∧ applyPairs ps x = x) ∨ ∃ p ∈ ps, p.1 = x ∧ applyPairs ps x = p.2 := by
  induction ps generalizing x with
  | nil => exact Or.inl ⟨by simp, rfl⟩
  | cons a ps ih =>
    have ih := fun x => ih x (fun p hp q hq => h p (by simp [hp]) q (by simp [hq]))
    have e : applyPairs (a :: ps) x = applyPairs ps (if x = a.1 then a.2 else x) := rfl
    rw [e]
    by_cases hx : x = a.1
    · rw [if_pos hx]
      rcases ih a.2 with ⟨_, h2⟩ | ⟨p, hp, h1, _⟩
      · exact Or.inr ⟨a, by simp, hx.symm, h2⟩
      · exact absurd h1.symm (h a (by simp) p (by simp [hp]))
    · rw [if_neg hx]
      rcases ih x with ⟨h1, h2⟩ | ⟨p, hp, h1, h2⟩
      · refine Or.inl ⟨?_, h2⟩
        intro p hp
        rcases List.mem_cons.1 hp with rfl | hp
        · exact fun e => hx e.symm
        · exact h1 p hp
      · exact Or.inr ⟨p, by simp [hp], h1, h2⟩

/-- `g'` is `g` with all inputs redirected along `ps`. -/
structure Redir (g g' : G) (ps : List (String × String)) : Prop where
  same : Same g g'
  reach : Reachable g → Reachable g'
  idx : Idx g'
  node : ∀ r ∈ g.nodes, g'.node r = { g.node r with input := (g.node r).input.map (applyPairs ps) }
  other : ∀ r, r ∉ g.nodes → g'.node r = g.node r

theorem Redir.refl {g : G} (h : Idx g) : Redir g g [] :=
  ⟨Same.refl g, id, h, fun r _ => by
    have : applyPairs [] = id := rfl
    rw [this, List.map_id], fun _ _ => rfl⟩

theorem Redir.trans {a b c : G} {ps qs : List (String × String)} (h : Redir a b ps) (h' : Redir b c qs) :
    Redir a c (ps ++ qs) := by
  refine ⟨h.same.trans h'.same, fun hr => h'.reach (h.reach hr), h'.idx, fun r hr => ?_, fun r hr => by
    rw [h'.other r (by rw [h.same.nodes]; exact hr), h.other r hr]⟩
  rw [h'.node r (by rw [h.same.nodes]; exact hr), h.node r hr]
  simp only [List.map_map]
  congr 1
  apply List.map_congr_left
  intro x _
  simp [applyPairs_append]

theorem replaceAllInputs_redir {g g' : G} (hw : WF g) (hi : Idx g) {old new : String}
    (h : g.replaceAllInputs old new none = .ok g') : Redir g g' [(old, new)] := by
  obtain ⟨s, hn⟩ := replaceAllInputs_all hw hi h
  obtain ⟨_, h2, h3, _⟩ := replaceAllInputs_spec hw (by intro l hl; cases hl) h
  exact ⟨s, fun hr => .step (e := .replaceAllInputs old new none) hr (by intro l hl; cases hl) h, h3 hi,
    fun r hr => by rw [hn r hr]; rfl, fun r hr => by
      rw [h2, if_neg]
      intro hc
      exact hr (consumerRefs_mem hw hc)⟩

/-- Redirecting a reader's output to what it reads keeps the ranking. -/
theorem redirect_ranked {ρ : Ref → Nat} {g g' : G} (hw : WF g) (hrk : RankedBy g ρ) {old o : String} (hd : Redir g g' [(old, o)])
    {c t : Ref} (hc : c ∈ g.nodes) (hold : old ∈ (g.node c).output) (hon : old ≠ "") (ht : t ∈ g.nodes)
    (hot : o ∈ (g.node t).output) (ho : o ≠ "") (hct : ρ t < ρ c) : RankedBy g' ρ := by
  rintro r hr p hp ⟨x, hx, hin, hout⟩
  rw [hd.same.nodes] at hr hp
  rw [hd.node r hr] at hin
  rw [hd.same.output] at hout
  simp only [List.mem_map] at hin
  obtain ⟨y, hy, e⟩ := hin
  have e' : (if y = old then o else y) = x := e
  split at e'
  · rename_i hyo
    subst hyo; subst e'
    have hpt := hw.out_inj ho hp ht hout hot
    subst hpt
    exact Nat.lt_trans hct (hrk r hr c hc ⟨y, hon, hy, hold⟩)
  · subst e'
    exact hrk r hr p hp ⟨y, hx, hy, hout⟩

/-! ## Cancelling -/

theorem IsQD.not_const {n : Node} (h : IsQD n) : n.op ≠ "Const" := by
  rcases h.1 with e | e <;> rw [e] <;> decide

theorem IsQD.not_input {n : Node} (h : IsQD n) : n.isGraphInput = false := by
  unfold Node.isGraphInput
  rcases h.1 with e | e <;> rw [e] <;> decide

theorem IsQD.not_tensor {n : Node} (h : IsQD n) : tensorIdx n = none := by
  unfold tensorIdx
  rcases h.1 with e | e <;> rw [e] <;> simp

theorem tensor_not_input {n : Node} {io : List Nat × List Nat} (h : tensorIdx n = some io) : n.isGraphInput = false := by
  cases hg : n.isGraphInput with
  | false => rfl
  | true =>
    unfold Node.isGraphInput at hg
    simp only [Bool.or_eq_true, decide_eq_true_eq] at hg
    unfold tensorIdx at h
    rcases hg with (e | e) | e <;> rw [e] at h <;> simp at h

theorem tensor_not_const {n : Node} {io : List Nat × List Nat} (h : tensorIdx n = some io) : n.op ≠ "Const" := by
  intro e
  unfold tensorIdx at h
  rw [e] at h
  simp at h

theorem map_argVal_congr {V : Type} {e e' : String → V} {ps : List String} (h : ∀ p ∈ ps, e' p = e p) :
    ps.map (argVal e') = ps.map (argVal e) := by
  apply List.map_congr_left
  intro p hp
  unfold argVal
  rw [h p hp]

theorem typed_congr {V : Type} {I : Interp V} {e e' : String → V} {x : String} {ps : List String} {y : V} (h : e' x = e x)
    (hp : ∀ p ∈ ps, e' p = e p) (hy : e x = quant I (ps.map (argVal e)) y) : e' x = quant I (ps.map (argVal e')) y := by
  rw [map_argVal_congr hp, h, hy]

/-- `if not graph.find_output_consumers(o): graph.remove_node(name)`. -/
theorem removeIfUnread_spec {fresh : Nat → String} {g g' : G} (hv : QInv fresh g) {d : Ref} (hd : d ∈ g.nodes)
    (hq : IsQD (g.node d)) {o : String} (hout : (g.node d).output = [o]) (hno : o ∉ g.outputs)
    (h : g.removeIfUnread d o = .ok g') :
    QStep fresh g g' ∧ (∀ r, g'.node r = g.node r) ∧ ∀ r ∈ g.nodes, r ≠ d → r ∈ g'.nodes := by
  unfold G.removeIfUnread at h
  split at h
  · rename_i hcons
    have hw := hv.reach.wf
    obtain ⟨ρ, hrk⟩ := hv.ranked
    obtain ⟨isIdx, hs⟩ := hv.shape
    obtain ⟨isQ, hk⟩ := hv.kinds
    have hunread : ∀ r ∈ g.nodes, o ∉ (g.node r).input := by
      intro r hr hin
      have : r ∈ g.findOutputConsumers o :=
        (mem_findOutputConsumers hw o r).2 ⟨hr, hin, hv.idx.complete r hr o hin⟩
      rw [hcons] at this
      simp at this
    obtain ⟨r', hname, hrem⟩ := removeNode_removed hw h
    have : r' = d := hw.name_inj hrem.mem hd hname
    subst this
    have hmem : ∀ q, q ∈ g'.nodes ↔ q ≠ r' ∧ q ∈ g.nodes := by
      intro q; rw [hrem.nodes, hw.nodup.mem_erase_iff]
    have hnin : r' ∉ g.inputs := by
      intro hc
      have := hs.inputs r' hc
      rw [hq.not_input] at this; cases this
    have hinp : g'.inputs = g.inputs := by rw [hrem.inputs, List.erase_of_not_mem hnin]
    have hsc : ∀ p, ScalarConst g p → ScalarConst g' p := by
      rintro p ⟨hp, c, hc, h1, h2⟩
      refine ⟨hp, c, (hmem c).2 ⟨?_, hc⟩, ?_⟩
      · rintro rfl; exact hq.not_const h1
      · rw [hrem.node]; exact ⟨h1, h2⟩
    refine ⟨⟨⟨.step (e := .removeNode _) hv.reach trivial h, hrem.idx hw hv.idx, ⟨ρ, ?_⟩, ⟨isIdx, ?_⟩, ⟨isQ, ?_⟩, ?_, ?_⟩, hrem.outputs, ?_, ?_⟩,
      hrem.node, fun r hr hne => (hmem r).2 ⟨hne, hr⟩⟩
    · rintro q hq p hp ⟨x, hx, hxin, hxout⟩
      rw [hrem.node] at hxin hxout
      exact hrk q ((hmem q).1 hq).2 p ((hmem p).1 hp).2 ⟨x, hx, hxin, hxout⟩
    · constructor
      · intro r hr hqr
        rw [hrem.node] at hqr ⊢
        obtain ⟨h1, h2, x, ps, o', h3, h4, h5, h6, h7, h8, h9⟩ := hs.qd r ((hmem r).1 hr).2 hqr
        exact ⟨h1, h2, x, ps, o', h3, h4, h5, h6, h7, h8, fun p hp => hsc p (h9 p hp)⟩
      · intro r hr; rw [hrem.node]; exact hs.domain r ((hmem r).1 hr).2
      · intro r hr; rw [hrem.node]; exact hs.outs r ((hmem r).1 hr).2
      · intro r hr; rw [hrem.node]; exact hs.data r ((hmem r).1 hr).2
      · intro r hr; rw [hrem.node]; exact hs.other r ((hmem r).1 hr).2
      · intro r hr; rw [hinp] at hr; rw [hrem.node]; exact hs.inputs r hr
    · constructor
      · intro r hr; rw [hrem.node]; exact hk.dq r ((hmem r).1 hr).2
      · intro r hr; rw [hrem.node]; exact hk.q r ((hmem r).1 hr).2
      · intro r hr; rw [hrem.node]; exact hk.data r ((hmem r).1 hr).2
    · intro k hk
      rw [hrem.heap] at hk
      obtain ⟨h1, h2⟩ := hv.unread k hk
      refine ⟨fun r hr => ?_, by rw [hrem.outputs]; exact h2⟩
      rw [hrem.node]; exact h1 r ((hmem r).1 hr).2
    · intro k hk r hr
      rw [hrem.heap] at hk
      rw [hrem.node]; exact hv.unmade k hk r ((hmem r).1 hr).2
    · rw [hinp]; exact List.map_congr_left (fun r _ => by rw [hrem.node])
    · intro V I _ env e he ht
      have hagree : ∀ r ∈ g.nodes, ∀ i ∈ (g.node r).input, (if i = o then env i else e i) = e i := by
        intro r hr i hi
        rw [if_neg]
        rintro rfl
        exact hunread r hr hi
      refine ⟨fun x => if x = o then env x else e x, ⟨?_, ?_⟩, ?_, ?_⟩
      · intro n hn
        obtain ⟨q, hq', rfl⟩ := mem_nodeList.1 hn
        have hqm := (hmem q).1 hq'
        rw [hrem.node]
        intro j y hj hy
        have hyd : y ≠ o := by
          rintro rfl
          exact hqm.1 (hw.out_inj hy hqm.2 hd (List.mem_of_getElem? hj) (by simp [hout]))
        rw [argVals_congr (e' := e) (fun i hi _ => hagree q hqm.2 i hi)]
        simp only [if_neg hyd]
        exact he.1 _ (mem_nodeList.2 ⟨q, hqm.2, rfl⟩) j y hj hy
      · intro x hx
        simp only
        split
        · rfl
        · rename_i hxo
          apply he.2
          refine hx.imp id (fun hx n hn hxn => ?_)
          obtain ⟨q, hq', rfl⟩ := mem_nodeList.1 hn
          by_cases e' : q = r'
          · subst e'; rw [hout] at hxn; simp at hxn; exact hxo hxn
          · exact hx _ (mem_nodeList.2 ⟨q, (hmem q).2 ⟨e', hq'⟩, rfl⟩) (by rw [hrem.node]; exact hxn)
      · intro r hr hop hax x ps hin
        rw [hrem.node] at hop hax hin
        have hr' := ((hmem r).1 hr).2
        obtain ⟨y, hy⟩ := ht r hr' hop hax x ps hin
        refine ⟨y, ?_⟩
        exact typed_congr (hagree r hr' x (by simp [hin])) (fun p hp => hagree r hr' p (by simp [hin, hp])) hy
      · intro x hx
        simp only
        rw [if_neg]
        rintro rfl; exact hno hx
  · cases h
    exact ⟨QStep.refl hv, fun _ => rfl, fun r hr _ => hr⟩

theorem scalarConst_value {V : Type} {I : Interp V} {env e : String → V} {g : G} (he : Sat I env e g.nodeList) {p : String}
    (h : ScalarConst g p) : ∃ dom attr t, Dict.get attr "value" = some (.tensor t) ∧ t.dims = [] ∧
      argVal e p = some (I "Const" dom attr [] 0) := by
  obtain ⟨hp, c, hc, h1, h2, h3, t, h4, h5⟩ := h
  refine ⟨(g.node c).domain, (g.node c).attr, t, h4, h5, ?_⟩
  have := he.1 _ (mem_nodeList.2 ⟨c, hc, rfl⟩) 0 p (by simp [h3]) hp
  have hni : (g.node c).isGraphInput = false := by unfold Node.isGraphInput; rw [h1]; decide
  rw [hni] at this
  simp only [argVal, if_neg hp]
  rw [this]
  simp [argVals, h2, h1]

theorem scalarParams_of {V : Type} {I : Interp V} {env e : String → V} {g : G} (he : Sat I env e g.nodeList)
    {ps : List String} (h : ∀ p ∈ ps, ScalarConst g p) : ScalarParams I (ps.map (argVal e)) := by
  intro q hq
  obtain ⟨p, hp, rfl⟩ := List.mem_map.1 hq
  exact scalarConst_value he (h p hp)

/-- The value of a per-tensor quantization node. -/
theorem quant_value {V : Type} {I : Interp V} {env e : String → V} {g : G} (he : Sat I env e g.nodeList) {r : Ref}
    (hr : r ∈ g.nodes) (hop : (g.node r).op = "QuantizeLinear") (hat : (g.node r).attr = []) (hdom : (g.node r).domain = "")
    {x o : String} {ps : List String} (hin : (g.node r).input = x :: ps) (hout : (g.node r).output = [o]) (hx : x ≠ "")
    (ho : o ≠ "") : e o = quant I (ps.map (argVal e)) (e x) := by
  have := he.1 _ (mem_nodeList.2 ⟨r, hr, rfl⟩) 0 o (by simp [hout]) ho
  have hni : (g.node r).isGraphInput = false := by unfold Node.isGraphInput; rw [hop]; decide
  rw [hni] at this
  rw [this, hop, hat, hdom]
  simp [argVals, hin, quant, argVal, hx]

/-- The value of a per-tensor dequantization node. -/
theorem dequant_value {V : Type} {I : Interp V} {env e : String → V} {g : G} (he : Sat I env e g.nodeList) {r : Ref}
    (hr : r ∈ g.nodes) (hop : (g.node r).op = "DequantizeLinear") (hat : (g.node r).attr = [])
    (hdom : (g.node r).domain = "") {x o : String} {ps : List String} (hin : (g.node r).input = x :: ps)
    (hout : (g.node r).output = [o]) (hx : x ≠ "") (ho : o ≠ "") : e o = dequant I (ps.map (argVal e)) (e x) := by
  have := he.1 _ (mem_nodeList.2 ⟨r, hr, rfl⟩) 0 o (by simp [hout]) ho
  have hni : (g.node r).isGraphInput = false := by unfold Node.isGraphInput; rw [hop]; decide
  rw [hni] at this
  rw [this, hop, hat, hdom]
  simp [argVals, hin, dequant, argVal, hx]

theorem ScalarConst.mono {g g' : G} {p : String} (h : ScalarConst g p) (hn : ∀ r ∈ g.nodes, r ∈ g'.nodes)
    (hk : ∀ r ∈ g.nodes, (g.node r).op = "Const" → (g.node r).input = [] → g'.node r = g.node r) : ScalarConst g' p := by
  obtain ⟨hp, c, hc, h1, h2, h3⟩ := h
  refine ⟨hp, c, hn c hc, ?_⟩
  rw [hk c hc h1 h2]
  exact ⟨h1, h2, h3⟩

/-- A scalar constant is not an output of a node that is no constant. -/
theorem ScalarConst.not_output {g : G} (hw : WF g) {p : String} (h : ScalarConst g p) {r : Ref} (hr : r ∈ g.nodes)
    (hop : (g.node r).op ≠ "Const") : p ∉ (g.node r).output := by
  obtain ⟨hp, c, hc, h1, h2, h3, _⟩ := h
  intro hin
  have := hw.out_inj hp hr hc hin (by simp [h3])
  subst this
  exact hop h1

theorem applyPairs_one (a b x : String) : applyPairs [(a, b)] x = if x = a then b else x := rfl

/-- The redirection that cancels a quantization of a dequantized tensor. -/
theorem cancelRedirect_spec {fresh : Nat → String} {g g' : G} (hv : QInv fresh g) {q t : Ref} (hq : q ∈ g.nodes)
    (ht : t ∈ g.nodes) (hqop : (g.node q).op = "QuantizeLinear") (hqa : (g.node q).attr.get "axis" = none)
    (htop : (g.node t).op = "DequantizeLinear") (hta : (g.node t).attr.get "axis" = none) {x qo y : String}
    {ps : List String} (hqin : (g.node q).input = x :: ps) (hqo : (g.node q).output = [qo]) (hxo : x ∈ (g.node t).output)
    (htin : (g.node t).input = y :: ps) (hno : qo ∉ g.outputs) (h : g.replaceAllInputs qo y = .ok g') :
    QStep fresh g g' ∧ Redir g g' [(qo, y)] := by
  have hw := hv.reach.wf
  have hd := replaceAllInputs_redir hw hv.idx h
  obtain ⟨ρ, hrk⟩ := hv.ranked
  obtain ⟨isIdx, hs⟩ := hv.shape
  obtain ⟨isQ, hkd⟩ := hv.kinds
  obtain ⟨hqat, hqdom, x', ps', qo', e1, e2, hx, hqo0, hxi, hqoi, hps⟩ := hs.qd q hq ⟨Or.inl hqop, hqa⟩
  rw [hqin] at e1; cases e1
  rw [hqo] at e2; cases e2
  obtain ⟨htat, htdom, y', ps'', tout, e1, e2, hy, hto0, hyi, htoi, _⟩ := hs.qd t ht ⟨Or.inr htop, hta⟩
  rw [htin] at e1; cases e1
  rw [e2] at hxo
  simp only [List.mem_singleton] at hxo
  subst hxo
  have hqt : ρ t < ρ q := hrk q hq t ht ⟨x, hx, by simp [hqin], by simp [e2]⟩
  have hgi : ∀ r ∈ g.nodes, (g'.node r).isGraphInput = (g.node r).isGraphInput := by
    intro r hr; rw [hd.node r hr]; rfl
  have htens : ∀ r ∈ g.nodes, tensorIdx (g'.node r) = tensorIdx (g.node r) := by
    intro r hr
    rw [hd.node r hr]
    unfold tensorIdx
    simp
  have hsc : ∀ p, ScalarConst g p → ScalarConst g' p := by
    intro p hp
    refine hp.mono (by rw [hd.same.nodes]; exact fun _ h => h) ?_
    intro r hr _ hin
    rw [hd.node r hr, hin]
    cases hn : g.node r
    rw [hn] at hin
    simp at hin
    simp [hin]
  have hrank' : RankedBy g' ρ := by
    rintro r hr p hp ⟨z, hz, hzin, hzout⟩
    rw [hd.same.nodes] at hr hp
    rw [hd.node r hr] at hzin
    rw [hd.same.output] at hzout
    simp only [List.mem_map, applyPairs_one] at hzin
    obtain ⟨w, hwi, hwe⟩ := hzin
    split at hwe
    · rename_i e
      subst e; subst hwe
      have h1 := hrk r hr q hq ⟨w, hqo0, hwi, by simp [hqo]⟩
      have h2 := hrk t ht p hp ⟨y, hy, by simp [htin], hzout⟩
      omega
    · subst hwe
      exact hrk r hr p hp ⟨w, hz, hwi, hzout⟩
  refine ⟨⟨⟨hd.reach hv.reach, hd.idx, ⟨ρ, hrank'⟩, ⟨isIdx, ?_⟩, ⟨isQ, ?_⟩, ?_, ?_⟩, hd.same.outputs, ?_, ?_⟩, hd⟩
  · constructor
    · intro r hr hqr
      rw [hd.same.nodes] at hr
      rw [hd.node r hr] at hqr ⊢
      obtain ⟨h1, h2, a, as, b, h3, h4, h5, h6, h7, h8, h9⟩ := hs.qd r hr hqr
      refine ⟨h1, h2, (if a = qo then y else a), as, b, ?_, h4, ?_, h6, ?_, h8, fun p hp => hsc p (h9 p hp)⟩
      · simp only [h3, List.map_cons, applyPairs_one, List.cons.injEq, true_and]
        conv => rhs; rw [← List.map_id as]
        apply List.map_congr_left
        intro p hp
        rw [applyPairs_one, if_neg]
        · rfl
        · rintro rfl
          exact (h9 p hp).not_output hw hq (by rw [hqop]; decide) (by simp [hqo])
      · split
        · exact hy
        · exact h5
      · split
        · exact hyi
        · exact h7
    · intro r hr io hio
      rw [hd.same.nodes] at hr
      rw [htens r hr] at hio
      rw [hd.node r hr]
      exact hs.domain r hr io hio
    · intro r hr inps outs hio
      rw [hd.same.nodes] at hr
      rw [htens r hr] at hio
      rw [hd.node r hr]
      exact hs.outs r hr inps outs hio
    · intro r hr inps outs hio k hk
      rw [hd.same.nodes] at hr
      rw [htens r hr] at hio
      rw [hd.node r hr]
      obtain ⟨a, h1, h2, h3⟩ := hs.data r hr inps outs hio k hk
      refine ⟨if a = qo then y else a, by simp [h1, applyPairs_one], ?_, ?_⟩
      · split
        · exact hy
        · exact h2
      · intro o ho
        rw [← h3 o ho]
        split
        · rename_i e; subst e; simp [hyi, hqoi]
        · rfl
    · intro r hr inps outs hio k a ha hk hane
      rw [hd.same.nodes] at hr
      rw [htens r hr] at hio
      rw [hd.node r hr] at ha
      simp only [List.getElem?_map, Option.map_eq_some_iff, applyPairs_one] at ha
      obtain ⟨b, hb, hbe⟩ := ha
      have hb' := hs.other r hr inps outs hio k b hb hk
      split at hbe
      · rename_i e
        subst e
        exact absurd (hb' hqo0) hqoi
      · subst hbe; exact hb' hane
    · intro r hr
      rw [hd.same.inputs] at hr
      have hop : (g'.node r).op = (g.node r).op := by
        by_cases hrn : r ∈ g.nodes
        · rw [hd.node r hrn]
        · rw [hd.other r hrn]
      have := hs.inputs r hr
      unfold Node.isGraphInput at this ⊢
      rwa [hop]
  · have hqoQ : isQ qo := hkd.q q hq hqop hqa qo (by simp [hqo])
    have hyQ : isQ y := (hkd.dq t ht htop hta).1 y ps htin
    constructor
    · intro r hr hop hax
      rw [hd.same.nodes] at hr
      rw [hd.node r hr] at hop hax ⊢
      obtain ⟨h1, h2⟩ := hkd.dq r hr hop hax
      refine ⟨?_, h2⟩
      intro a as ha
      obtain ⟨_, _, a0, as0, _, h3, _⟩ := hs.qd r hr ⟨Or.inr hop, hax⟩
      simp only [h3, List.map_cons, List.cons.injEq, applyPairs_one] at ha
      rw [← ha.1]
      split
      · exact hyQ
      · exact h1 a0 as0 h3
    · intro r hr hop hax
      rw [hd.same.nodes] at hr
      rw [hd.node r hr] at hop hax ⊢
      exact hkd.q r hr hop hax
    · intro r hr inps outs hio k hk a ha o ho
      rw [hd.same.nodes] at hr
      rw [htens r hr] at hio
      rw [hd.node r hr] at ha ho
      simp only [List.getElem?_map, Option.map_eq_some_iff, applyPairs_one] at ha
      obtain ⟨b, hb, hbe⟩ := ha
      rw [← hkd.data r hr inps outs hio k hk b hb o ho, ← hbe]
      split
      · rename_i e; subst e; simp [hyQ, hqoQ]
      · rfl
  · intro k hk
    rw [hd.same.len] at hk
    obtain ⟨h1, h2⟩ := hv.unread k hk
    refine ⟨fun r hr hin => ?_, by rw [hd.same.outputs]; exact h2⟩
    rw [hd.same.nodes] at hr
    rw [hd.node r hr] at hin
    simp only [List.mem_map, applyPairs_one] at hin
    obtain ⟨b, hb, hbe⟩ := hin
    split at hbe
    · exact h1 t ht (by rw [htin, hbe]; simp)
    · subst hbe; exact h1 r hr hb
  · intro k hk r hr
    rw [hd.same.len] at hk
    rw [hd.same.nodes] at hr
    rw [hd.same.output]; exact hv.unmade k hk r hr
  · rw [hd.same.inputs]
    exact List.map_congr_left (fun r _ => hd.same.output r)
  · intro V I hI env e he htyped
    have hpv := scalarParams_of he hps
    have hxv : e x = dequant I (ps.map (argVal e)) (e y) := dequant_value he ht htop htat htdom htin e2 hy hx
    have hqv : e qo = quant I (ps.map (argVal e)) (e x) := quant_value he hq hqop hqat hqdom hqin hqo hx hqo0
    have heq : e qo = e y := by
      obtain ⟨z, hz⟩ := htyped t ht htop hta y ps htin
      rw [hqv, hxv, hz]
      exact hI.requantize _ hpv z
    have hargs : ∀ r ∈ g.nodes, argVals e (g'.node r) = argVals e (g.node r) := by
      intro r hr
      rw [hd.node r hr]
      exact redirect_argVals (n := g.node r) hqo0 hy heq
    refine ⟨e, ⟨?_, fun z hz => he.2 z ((same_unproduced hd.same z).1 hz)⟩, ?_, fun _ _ => rfl⟩
    · intro n hn
      obtain ⟨r, hr, rfl⟩ := mem_nodeList.1 hn
      rw [hd.same.nodes] at hr
      have hsat := he.1 _ (mem_nodeList.2 ⟨r, hr, rfl⟩)
      intro j o hj ho
      rw [hargs r hr]
      rw [hd.node r hr] at hj ⊢
      exact hsat j o hj ho
    · intro r hr hop hax a as hin
      rw [hd.same.nodes] at hr
      rw [hd.node r hr] at hop hax hin
      obtain ⟨_, _, a0, as0, b, h3, _, _, _, _, _, h9⟩ := hs.qd r hr ⟨Or.inr hop, hax⟩
      obtain ⟨z, hz⟩ := htyped r hr hop hax a0 as0 h3
      simp only [h3, List.map_cons, List.cons.injEq, applyPairs_one] at hin
      obtain ⟨ha, has⟩ := hin
      have has' : as = as0 := by
        rw [← has]
        conv => rhs; rw [← List.map_id as0]
        apply List.map_congr_left
        intro p hp
        rw [applyPairs_one, if_neg]
        · rfl
        · rintro rfl
          exact (h9 p hp).not_output hw hq (by rw [hqop]; decide) (by simp [hqo])
      refine ⟨z, ?_⟩
      rw [has', ← hz, ← ha]
      split
      · rename_i e3; rw [e3]; exact heq.symm
      · rfl

/-! ## Pushing a quantization up: the inputs -/

/-- The node `make_q_or_dq` makes. -/
def newQ (fresh : Nat → String) (op : String) (m : Nat) (x : String) (ps : List String) : Node :=
  ⟨fresh m, op, "", [], x :: ps, [outName fresh m]⟩

/-- The state while slots of node `t` are redirected to new quantization nodes: `done` are the slots done, `nu k` the new
tensor at slot `k`. -/
structure Up1 (fresh : Nat → String) (ps : List String) (g0 g : G) (t : Ref) (done : List Nat) (nu : Nat → String) : Prop where
  reach : Reachable g
  len : g0.heap.length ≤ g.heap.length
  sub : ∀ r ∈ g0.nodes, r ∈ g.nodes
  old : ∀ r, r < g0.heap.length → r ≠ t → g.node r = g0.node r
  tnode : g.node t = { g0.node t with input := (g.node t).input }
  tlen : (g.node t).input.length = (g0.node t).input.length
  slot : ∀ k ∈ done, k < (g0.node t).input.length → (g.node t).input[k]? = some (nu k)
  slot' : ∀ k, k ∉ done → (g.node t).input[k]? = (g0.node t).input[k]?
  new : ∀ r ∈ g.nodes, r ∉ g0.nodes → ∃ k ∈ done, ∃ m x, g0.heap.length ≤ m ∧ m < g.heap.length ∧
    (g0.node t).input[k]? = some x ∧ g.node r = newQ fresh "QuantizeLinear" m x ps ∧ nu k = outName fresh m
  made : ∀ k ∈ done, ∃ r ∈ g.nodes, r ∉ g0.nodes ∧ ∃ m x, g0.heap.length ≤ m ∧ m < g.heap.length ∧
    (g0.node t).input[k]? = some x ∧ g.node r = newQ fresh "QuantizeLinear" m x ps ∧ nu k = outName fresh m
  inputs : g.inputs = g0.inputs
  outputs : g.outputs = g0.outputs
  consNodup : ∀ x, (g.cons x).Nodup
  consOther : ∀ r ∈ g.nodes, r ≠ t → ∀ i ∈ (g.node r).input, (g.node r).name ∈ g.cons i
  consT : ∀ (k : Nat) (x : String), (g.node t).input[k]? = some x → (∀ k' ∈ done, (g0.node t).input[k']? ≠ some x) → (g.node t).name ∈ g.cons x

theorem Up1.start {fresh : Nat → String} {ps : List String} {g : G} (hr : Reachable g) (hi : Idx g) {t : Ref} (ht : t ∈ g.nodes)
    (nu : Nat → String) : Up1 fresh ps g g t [] nu where
  reach := hr
  len := Nat.le_refl _
  sub := fun _ h => h
  old := fun _ _ _ => rfl
  tnode := rfl
  tlen := rfl
  slot := by simp
  slot' := fun _ _ => rfl
  new := fun r h h' => absurd h h'
  made := by simp
  inputs := rfl
  outputs := rfl
  consNodup := hi.setNodup
  consOther := fun r h _ => hi.complete r h
  consT := fun _ x h _ => hi.complete t ht x (List.mem_of_getElem? h)

theorem pushUpInputs_spec {fresh : Nat → String} (hf : FreshNames fresh) {g0 : G} (hw0 : WF g0) {t : Ref} (ht : t ∈ g0.nodes)
    {qn : Node} (hqa : qn.attr.get "axis" = none)
    (hunread : ∀ k, g0.heap.length ≤ k → ∀ r ∈ g0.nodes, outName fresh k ∉ (g0.node r).input) (is : List Nat) :
    ∀ (done : List Nat) (nu : Nat → String) (g g' : G), (done ++ is).Nodup →
      Up1 fresh (qn.input.drop 1) g0 g t done nu → G.pushUpInputs fresh t qn is g = .ok g' →
      ∃ nu', Up1 fresh (qn.input.drop 1) g0 g' t (done ++ is) nu' := by
  induction is with
  | nil =>
    intro done nu g g' _ hu h
    cases h
    exact ⟨nu, by simpa using hu⟩
  | cons i is ih =>
    intro done nu g g' hnd hu h
    have hi : i ∉ done := by
      intro hc
      rw [List.nodup_append] at hnd
      exact hnd.2.2 i hc i (by simp) rfl
    simp only [G.pushUpInputs] at h
    split at h
    · cases h
    rename_i x hx
    have hx0 : (g0.node t).input[i]? = some x := by rw [← hu.slot' i hi]; exact hx
    simp only [bind, Except.bind, G.makeQDQ] at h
    split at h
    · cases h
    rename_i p hp
    obtain ⟨g1, r⟩ := p
    have hattr : qdqAttr qn = [] := by unfold qdqAttr; rw [hqa]
    rw [hattr] at hp
    have m := makeNode_made hp
    have hlen : g1.heap.length = g.heap.length + 1 := by rw [m.heap]; simp
    have hself : g1.node r = newQ fresh "QuantizeLinear" g.heap.length x (qn.input.drop 1) := by
      simp [G.node, m.heap, m.ref, newQ, outName]
    have hw := hu.reach.wf
    have hreach1 : Reachable g1 := by
      refine .step (e := .makeNode "QuantizeLinear" (x :: qn.input.drop 1) (fresh g.heap.length)
        [fresh g.heap.length ++ ":0"] [] "") hu.reach ⟨hf.ne _, ?_⟩ ?_
      · have h1 : fresh g.heap.length ++ ":0" ≠ "" := outName_ne (fresh := fresh) _
        rw [List.filter_cons_of_pos (by simpa using h1)]
        simp
      · simp only [G.apply, hp]; rfl
    have hw1 := hreach1.wf
    have htg : t ∈ g.nodes := hu.sub t ht
    have hrt : r ≠ t := by
      rintro rfl
      have := hw.valid r htg
      rw [m.ref] at this
      exact Nat.lt_irrefl _ this
    have hnode1 : ∀ q, q < g.heap.length → g1.node q = g.node q := fun q hq => node_append_lt hq _ _ m.heap
    have htlt : t < g.heap.length := hw.valid t htg
    have ht1 : t ∈ g1.nodes := by rw [m.nodes]; simp [htg]
    rw [hself] at h
    simp only [newQ] at h
    split at h
    · cases h
    rename_i g2 hg2
    obtain ⟨c1, c2, c3, c4, c5⟩ := replaceInputAt_spec hg2
    have hreach2 : Reachable g2 := .step (e := .replaceInputAt t x (outName fresh g.heap.length) i) hreach1 ht1 hg2
    have hnode2 : ∀ q, q ≠ t → g2.node q = g1.node q := by
      intro q hq
      rw [node_of_heap_set c3, node_setNode_ne (Ne.symm hq)]
    have htn2 : g2.node t = (g.node t).setInput i (outName fresh g.heap.length) := by
      rw [node_of_heap_set c3, node_setNode_self (hw1.valid t ht1), hnode1 t htlt]
    have hilt : i < (g.node t).input.length := by
      by_contra hge
      rw [List.getElem?_eq_none (Nat.le_of_not_lt hge)] at hx; cases hx
    have hlen2 : g2.heap.length = g.heap.length + 1 := by rw [c2.len, hlen]
    have hnodes2 : g2.nodes = g.nodes ++ [r] := by rw [c2.nodes, m.nodes]
    have hnames : ∀ q, (g2.node q).name = (g1.node q).name := c2.name
    have hrn0 : r ∉ g0.nodes := by
      intro hc
      have := hw0.valid r hc
      rw [m.ref] at this
      exact Nat.lt_irrefl _ (Nat.lt_of_lt_of_le this hu.len)
    -- the originals are not new names
    have horig : ∀ (k : Nat) (y : String), (g0.node t).input[k]? = some y → ∀ n, g0.heap.length ≤ n → y ≠ outName fresh n := by
      intro k y hk n hn e
      exact hunread n hn t ht (by rw [← e]; exact List.mem_of_getElem? hk)
    let nu' : Nat → String := fun k => if k = i then outName fresh g.heap.length else nu k
    have hnu' : ∀ k ∈ done, nu' k = nu k := by
      intro k hk
      have : k ≠ i := by rintro rfl; exact hi hk
      simp [nu', this]
    have hnui : nu' i = outName fresh g.heap.length := by simp [nu']
    have hup : Up1 fresh (qn.input.drop 1) g0 g2 t (done ++ [i]) nu' := by
      refine
        { reach := hreach2
          len := by rw [hlen2]; exact Nat.le_succ_of_le hu.len
          sub := fun q hq => by rw [hnodes2]; simp [hu.sub q hq]
          old := ?_, tnode := ?_, tlen := ?_, slot := ?_, slot' := ?_, new := ?_, made := ?_
          inputs := by rw [c2.inputs, m.inputs, hu.inputs]
          outputs := by rw [c2.outputs, m.outputs, hu.outputs]
          consNodup := c5 (m.consNodup hu.consNodup)
          consOther := ?_, consT := ?_ }
      · intro q hq hqt
        rw [hnode2 q hqt, hnode1 q (Nat.lt_of_lt_of_le hq hu.len), hu.old q hq hqt]
      · have e1 := hu.tnode
        have e2 : (g2.node t).input = (g.node t).input.set i (outName fresh g.heap.length) := by rw [htn2]; rfl
        rw [e2, htn2]
        unfold Node.setInput
        conv => lhs; rw [e1]
      · rw [htn2]; simp [Node.setInput, hu.tlen]
      · intro k hk hkl
        rw [htn2]
        simp only [Node.setInput, List.getElem?_set]
        by_cases e : i = k
        · subst e
          rw [if_pos rfl, if_pos hilt, hnui]
        · rw [if_neg e]
          have hk' : k ∈ done := by simpa [Ne.symm e] using hk
          rw [hu.slot k hk' hkl, hnu' k hk']
      · intro k hk
        simp only [List.mem_append, List.mem_singleton, not_or] at hk
        rw [htn2]
        simp only [Node.setInput]
        rw [List.getElem?_set_ne (Ne.symm hk.2)]
        exact hu.slot' k hk.1
      · intro q hq hq0
        rw [hnodes2] at hq
        simp only [List.mem_append, List.mem_singleton] at hq
        rcases hq with hq | rfl
        · obtain ⟨k, hk, n, y, h1, h2, h3, h4, h5⟩ := hu.new q hq hq0
          have hqt : q ≠ t := by rintro rfl; exact hq0 ht
          refine ⟨k, by simp [hk], n, y, h1, by omega, h3, ?_, by rw [hnu' k hk]; exact h5⟩
          rw [hnode2 q hqt, hnode1 q (hw.valid q hq), h4]
        · refine ⟨i, by simp, g.heap.length, x, hu.len, by omega, hx0, ?_, hnui⟩
          rw [hnode2 q hrt, hself]
      · intro k hk
        simp only [List.mem_append, List.mem_singleton] at hk
        rcases hk with hk | rfl
        · obtain ⟨q, hq, hq0, n, y, h1, h2, h3, h4, h5⟩ := hu.made k hk
          have hqt : q ≠ t := by rintro rfl; exact hq0 ht
          refine ⟨q, by rw [hnodes2]; simp [hq], hq0, n, y, h1, by omega, h3, ?_, by rw [hnu' k hk]; exact h5⟩
          rw [hnode2 q hqt, hnode1 q (hw.valid q hq), h4]
        · refine ⟨r, by rw [hnodes2]; simp, hrn0, g.heap.length, x, hu.len, by omega, hx0, ?_, hnui⟩
          rw [hnode2 r hrt, hself]
      · intro q hq hqt y hy
        rw [hnodes2] at hq
        rw [hnode2 q hqt] at hy ⊢
        rw [c4]
        have hne : ¬ (y = x ∧ (g1.node q).name = (g1.node t).name) := by
          rintro ⟨_, e⟩
          exact hqt (hw1.name_inj (by rw [m.nodes]; exact hq) ht1 e)
        refine Or.inl ⟨?_, hne⟩
        rw [m.cons]
        simp only [List.mem_append, List.mem_singleton] at hq
        rcases hq with hq | rfl
        · rw [hnode1 q (hw.valid q hq)] at hy ⊢
          exact Or.inl (hu.consOther q hq hqt y hy)
        · rw [hself] at hy ⊢
          exact Or.inr ⟨hy, rfl⟩
      · intro k y hy hk
        rw [hnames, c4]
        rw [htn2] at hy
        simp only [Node.setInput, List.getElem?_set] at hy
        by_cases e : i = k
        · subst e
          rw [if_pos rfl, if_pos hilt] at hy
          cases hy
          exact Or.inr ⟨rfl, rfl⟩
        · rw [if_neg e] at hy
          have hyx : y ≠ x := by rintro rfl; exact hk i (by simp) hx0
          refine Or.inl ⟨?_, fun h => hyx h.1⟩
          rw [m.cons, hnode1 t htlt]
          exact Or.inl (hu.consT k y hy (fun k' hk' => hk k' (by simp [hk'])))
    have := ih (done ++ [i]) nu' g2 g' (by simpa using hnd) hup h
    simpa using this

end Verif.Graph
