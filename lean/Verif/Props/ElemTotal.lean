import Verif.Props.MappingTotal
import Verif.Props.C48_Table
/-!
# The table of the element-wise operators: when no handler raises (used by C52)
-/
namespace Verif.Graph
open Verif Verif.Elem Verif.Cast

variable {v : Nat} {fresh : Nat → String} {outputs : List String} {dt : String → Option Nat}
  {g g' : G} {r : Ref} {name op dom : String} {attr : Dict String Attr} {x y o : String} {t : DT} {P : Ref → Prop}

/-- What a conversion of `r` gives, if it raises nothing. -/
def Converted (fresh : Nat → String) (P : Ref → Prop) (g : G) (r : Ref) (res : Except String G) : Prop :=
  ∃ g', res = .ok g' ∧ NInv fresh (fun q => P q ∧ q ∈ g.nodes ∧ q ≠ r) g' ∧
    ∀ q ∈ g.nodes, q ≠ r → ∀ x ∈ (g.node q).output, x ≠ "" → Keeps g x g' x

/-- **A handler that is a sequence of calls raises nothing**, on a TensorFlow node with one output. -/
theorem site_total {xs : List String} (hf : FreshTensors fresh) (S : Site fresh g r name op attr xs o) (hn : NInv fresh P g) (hP : P r) {as : List Act}
    (hok : Grp.allOk fresh o as (Grp.start ⟨name, op, "tf", attr, xs, [o]⟩ g.heap.length o))
    (hokt : Grp.allOkT fresh ⟨name, op, "tf", attr, xs, [o]⟩ o as (Grp.start ⟨name, op, "tf", attr, xs, [o]⟩ g.heap.length o) false)
    (hno : ∀ xs, .inputs xs ∉ as) : Converted fresh P g r (G.runActs fresh g r as g) := by
  have hc : (g.node r).op ≠ "Const" := by
    have := S.plain
    simp only [List.mem_cons, not_or] at this
    rw [S.node]; exact this.1
  exact acts_total hf S.inv hn S.mem hP S.nin hc (by rw [S.node]) S.oe (by rw [S.node]; exact hok) (by rw [S.node]; exact hokt)
    (fun ⟨xs, h⟩ => absurd h (hno xs))

theorem convert_renamed {decide : G → Ref → Except String (List Act)} {op' : String} {as : List Act} {xs : List String}
    (S : Site fresh g r name op attr xs o) (hd : decide (g.setType r op') r = .ok as) :
    (entry fresh (some op') decide).convert g r = G.runActs fresh g r (.setType op' :: .onnx :: as) g := by
  simp only [MapInfo.convert, entry, G.handle, hd]
  have : G.runActs fresh g r (.setType op' :: .onnx :: as) g = G.runActs fresh g r (.onnx :: as) (g.setType r op') := rfl
  rw [this, ← runActs_cast (g0 := g.setType r op')]
  · rfl
  · rw [S.setType_node, S.node]
  · rfl
  · rfl

theorem convert_run {decide : G → Ref → Except String (List Act)} {as : List Act} (hd : decide g r = .ok as) :
    (entry fresh none decide).convert g r = G.runActs fresh g r (.onnx :: as) g := by
  simp only [MapInfo.convert, entry, G.handle, hd]
  rfl

/-- What the calls need. -/
macro "grpT" "[" xs:Lean.Parser.Tactic.simpLemma,* "]" : tactic =>
  `(tactic| simp [Grp.allOkT, Grp.okT, staleAct, Grp.act, Grp.start, Grp.input, Node.redirect, Node.setInput, Spec.node, Spec.mk', Spec.const, scalarSpec,
    castSpec, lastOut, redirectInit, port, $xs,*])

/-- What else the handlers need, so as not to raise: `Sign` looks at the type recorded for the output, `IsInf` does not take half floats. -/
structure NoRaise (dt : String → Option Nat) (op o : String) (t : DT) : Prop where
  sign : op = "Sign" → ∃ u, dt o = some u ∧ u ∉ [9, 14, 15]
  inf : op = "IsInf" → t = .float ∨ t = .double

/-- The entries with one operand raise nothing. -/
theorem elemTable_un_total (hf : FreshTensors fresh) (hv : 12 ≤ v) (hop : op ∈ elemUn)
    (ht : elemTypes v op t = true) (hname : name ≠ "") (hoe : o ≠ "") (hnr : NoRaise dt op o t) {m : MapInfo} (hm : elemTable fresh v op = some m) :
    Total fresh outputs dt m (unSig name op attr o t) := by
  intro g r P hg hout hn hP hr hs hdt
  obtain ⟨x, hin, hx⟩ := hs.one
  have hplain : op ∉ ["Const", "Placeholder", "PlaceholderWithDefault", "PlaceholderV2"] :=
    (by decide : ∀ op ∈ elemUn, op ∉ ["Const", "Placeholder", "PlaceholderWithDefault", "PlaceholderV2"]) op hop
  have S : Site fresh g r name op attr [x] o := ⟨hg, hr, hs.node hin, hoe, hname, hplain⟩
  have hox : x ≠ o := fun h => S.own (by simp [h])
  change Converted fresh P g r (m.convert g r)
  have h9 : ¬ v < 9 := by omega
  have h10 : ¬ v < 10 := by omega
  have h11 : ¬ v < 11 := by omega
  rcases List.mem_append.1 hop with h | h
  · obtain ⟨p, hp, rfl⟩ := List.mem_map.1 h
    rw [elemTable_pass p hp] at hm
    split at hm
    · cases hm
      cases hp2 : p.2.1 with
      | none =>
        rw [convert_run (as := []) rfl]
        exact site_total hf S hn hP (by grp []) (by grpT []) (by simp)
      | some q =>
        rw [convert_renamed (as := []) S rfl]
        exact site_total hf S hn hP (by grp []) (by grpT []) (by simp)
    · simp at hm
  · simp only [List.mem_cons, List.not_mem_nil, or_false] at h
    rcases h with rfl | rfl | rfl | rfl | rfl | rfl | rfl
    · cases hm
      obtain rfl : t = .float := of_decide_eq_true ht
      have hx : g.dtypes.get x = some 1 := hx
      rw [convert_run (as := []) (by acts [log6Acts, S.node, hx])]
      exact site_total hf S hn hP (by grp []) (by grpT []) (by simp)
    · cases hm
      rw [convert_run (as := [.setType "Mul", .rawInputs [x, x]]) (by acts [squareActs, S.node])]
      exact site_total hf S hn hP (by grp []) (by grpT []) (by simp)
    · cases hm
      rw [convert_run (as := [.setType "Sqrt", .make (.mk' "Reciprocal" [o]), .insertOut o]) (by acts [rsqrtActs, S.node])]
      exact site_total hf S hn hP (by grp []) (by grpT []) (by simp)
    · change some (entry fresh none (if v < 11 then relu6Acts1 else relu6Acts11 fresh)) = some m at hm
      rw [if_neg h11] at hm
      cases hm
      rw [convert_run (as := [.setType "Clip", .make (scalarSpec (code t) 0), .make (scalarSpec (code t) 6),
        .rawInputs [x, fresh g.heap.length], .rawInputs [x, fresh g.heap.length, fresh (g.heap.length + 1)]]) (by acts [relu6Acts11, S.node, hx])]
      exact site_total hf S hn hP (by grp []) (by grpT []) (by simp)
    · change some (entry fresh none (if v < 9 then signActs1 fresh else signActs9)) = some m at hm
      rw [if_neg h9] at hm
      cases hm
      obtain ⟨u, hu, hu'⟩ := hnr.sign rfl
      have hu := hdt o (by simp [unSig]) hoe u hu
      simp only [List.mem_cons, List.not_mem_nil, or_false, not_or] at hu'
      rw [convert_run (as := []) (by acts [signActs9, S.node, hu, hu'])]
      exact site_total hf S hn hP (by grp []) (by grpT []) (by simp)
    · change (if v < 10 then none else some (entry fresh none (isFiniteActs fresh))) = some m at hm
      rw [if_neg h10] at hm
      cases hm
      rw [convert_run (as := [.remove, .make (.mk' "IsInf" [x]), .make (.mk' "IsNaN" [x]),
        .make (.mk' "Or" [port fresh g.heap.length, port fresh (g.heap.length + 1)]), .makeOut "Not" [port fresh (g.heap.length + 2)] [] name o])
        (by acts [isFiniteActs, S.node])]
      have mk : ∀ k, g.heap.length ≤ k → o ≠ fresh k ++ ":0" := fun k hk => (S.mine hk (Or.inr rfl)).2.symm
      have m0 := mk _ (Nat.le_refl _)
      have m1 := mk (g.heap.length + 1) (by omega)
      have m2 := mk (g.heap.length + 1 + 1) (by omega)
      exact site_total hf S hn hP (by grp [S.name]) (by grpT [m0, m1, m2]) (by simp)
    · change (if v < 10 then none else some (entry fresh (some "IsInf") isInfActs)) = some m at hm
      rw [if_neg h10] at hm
      cases hm
      have hc : code t = 1 ∨ code t = 11 := by rcases hnr.inf rfl with rfl | rfl <;> simp [code]
      rw [convert_renamed (as := []) S (by acts [isInfActs, S.setType_node, setType_dtypes, hx, hc])]
      exact site_total hf S hn hP (by grp []) (by grpT []) (by simp)

/-- The entries with two operands raise nothing. -/
theorem elemTable_bin_total (hf : FreshTensors fresh) (hv : 12 ≤ v) (hop : op ∈ elemBin)
    (ht : elemTypes v op t = true) (hname : name ≠ "") (hoe : o ≠ "") {s0 s1 : Option Shapes.Shape}
    (hsh : op ∈ ["Add", "AddV2", "Mul"] → ∃ d0 d1, s0 = some (some d0) ∧ s1 = some (some d1) ∧ d1.length ≤ d0.length)
    {m : MapInfo} (hm : elemTable fresh v op = some m) : Total fresh outputs dt m (binSig name op attr o t s0 s1) := by
  intro g r P hg hout hn hP hr hs hdt
  obtain ⟨x, y, hin, hx, hy, hs0, hs1⟩ := hs.two
  have hplain : op ∉ ["Const", "Placeholder", "PlaceholderWithDefault", "PlaceholderV2"] :=
    (by decide : ∀ op ∈ elemBin, op ∉ ["Const", "Placeholder", "PlaceholderWithDefault", "PlaceholderV2"]) op hop
  have S : Site fresh g r name op attr [x, y] o := ⟨hg, hr, hs.node hin, hoe, hname, hplain⟩
  have hox : x ≠ o ∧ y ≠ o := ⟨fun h => S.own (by simp [h]), fun h => S.own (by simp [h])⟩
  have m0 : ∀ k, g.heap.length ≤ k → o ≠ fresh k ++ ":0" := fun k hk => (S.mine hk (Or.inr rfl)).2.symm
  change Converted fresh P g r (m.convert g r)
  have h9 : ¬ v < 9 := by omega
  have h11 : ¬ v < 11 := by omega
  have h12 : ¬ v < 12 := by omega
  have a0 := m0 _ (Nat.le_refl _)
  have a1 := m0 (g.heap.length + 1) (by omega)
  have a2 := m0 (g.heap.length + 2) (by omega)
  rcases List.mem_append.1 hop with h | h
  · obtain ⟨p, hp, rfl⟩ := List.mem_map.1 h
    obtain ⟨q, h1, h2, h3, h4, -, -, -⟩ := broadcast_facts (v := v) p hp
    rw [elemTable_broadcast p hp] at hm
    cases hm
    have hsw : swaps q (g.shapes.get x) (g.shapes.get y) = false := by
      by_cases hq : p.1 ∈ ["Add", "AddV2", "Mul"]
      · obtain ⟨d0, d1, rfl, rfl, hl⟩ := hsh hq
        rw [hs0 _ rfl, hs1 _ rfl, no_swap hl]
      · rw [other_no_swap (h4 hq)]
    have hfix : ∀ p ∈ sameBin, p.2 ≠ "AddV2" ∧ (p.1 = "AddV2" → p.2 = "Add") := by decide
    obtain ⟨f1, f2⟩ := hfix _ h1
    rcases h2 with h2 | ⟨h2, h5⟩
    · rw [h2, convert_renamed (as := []) S (by acts [broadcast6Acts, S.setType_node, setType_shapes, f1, hsw])]
      exact site_total hf S hn hP (by grp []) (by grpT []) (by simp)
    · by_cases h6 : p.1 = "AddV2"
      · rw [h2, convert_run (as := [.setType "Add"]) (by acts [broadcast6Acts, S.node, h6, ← f2 h6, hsw])]
        exact site_total hf S hn hP (by grp []) (by grpT []) (by simp)
      · have h7 := h5.resolve_right h6
        rw [h2, convert_run (as := []) (by acts [broadcast6Acts, S.node, h6]; rw [h7, hsw])]
        exact site_total hf S hn hP (by grp []) (by grpT []) (by simp)
  · simp only [List.mem_cons, List.not_mem_nil, or_false] at h
    rcases h with rfl | rfl | rfl | rfl | rfl | rfl | rfl | rfl | rfl | rfl | rfl | rfl | rfl
    · change some (entry fresh (some "Min") (if v < 12 then minMaxActs fresh else passActs)) = some m at hm
      rw [if_neg h12] at hm
      cases hm
      rw [convert_renamed (as := []) S rfl]
      exact site_total hf S hn hP (by grp []) (by grpT []) (by simp)
    · change some (entry fresh (some "Max") (if v < 12 then minMaxActs fresh else passActs)) = some m at hm
      rw [if_neg h12] at hm
      cases hm
      rw [convert_renamed (as := []) S rfl]
      exact site_total hf S hn hP (by grp []) (by grpT []) (by simp)
    · cases hm
      rw [convert_run (as := []) rfl]
      exact site_total hf S hn hP (by grp []) (by grpT []) (by simp)
    · cases hm
      rw [convert_run (as := [.setType "Sub", .make (.mk' "Mul" [o, o]), .insertOut o]) (by acts [sqDiffActs, S.node])]
      exact site_total hf S hn hP (by grp []) (by grpT []) (by simp)
    · change (if v < 9 then none else some (entry fresh none (divNoNanActs fresh))) = some m at hm
      rw [if_neg h9] at hm
      cases hm
      have n0 : fresh g.heap.length ≠ o := (S.mine (Nat.le_refl _) (Or.inl rfl)).2
      have n1 : fresh (g.heap.length + 1) ++ ":0" ≠ o := (S.mine (Nat.le_succ _) (Or.inr rfl)).2
      rw [convert_run (as := [.setType "Div", .make (scalarSpec (code t) 0), .make (.mk' "Equal" [y, fresh g.heap.length]),
        .make (.mk' "Where" [port fresh (g.heap.length + 1), fresh g.heap.length, o]), .insertOut o]) (by acts [divNoNanActs, S.node, hy])]
      exact site_total hf S hn hP (by grp [hox.2.symm, n0.symm, n1.symm]) (by grpT [n0.symm, n1.symm, hox.2.symm]) (by simp)
    · cases hm
      by_cases hfl : g.isFloat x = true
      · rw [convert_run (as := [.setType "Div", .make (.mk' "Floor" [o]), .insertOut o]) (by acts [floorDivActs, S.node, hfl])]
        exact site_total hf S hn hP (by grp []) (by grpT []) (by simp)
      · rw [convert_run (as := [.setType "Div"]) (by acts [floorDivActs, S.node, hfl])]
        exact site_total hf S hn hP (by grp []) (by grpT []) (by simp)
    · cases hm
      by_cases hfl : g.isFloat x = true
      · rw [convert_run (as := [.make (.mk' "Div" [x, y]), .make (.mk' "Floor" [port fresh g.heap.length]),
          .make (.mk' "Mul" [port fresh (g.heap.length + 1), y]), .remove, .makeOut "Sub" [x, port fresh (g.heap.length + 2)] [] name o])
          (by acts [floorModActs, S.node, hfl])]
        exact site_total hf S hn hP (by grp [S.name]) (by grpT [a0, a1, a2]) (by simp)
      · rw [convert_run (as := [.make (.mk' "Div" [x, y]), .make (.mk' "Mul" [port fresh g.heap.length, y]), .remove,
          .makeOut "Sub" [x, port fresh (g.heap.length + 1)] [] name o]) (by acts [floorModActs, S.node, hfl])]
        exact site_total hf S hn hP (by grp [S.name]) (by grpT [a0, a1, a2]) (by simp)
    iterate 2
      cases hm
      by_cases hfl : code t ∈ floatCodes
      · rw [convert_run (as := []) (by acts [greaterLess7Acts, addCasts_skip hin hx hy hfl])]
        exact site_total hf S hn hP (by grp []) (by grpT []) (by simp)
      · rw [convert_run (as := castAll fresh 1 g.heap.length 0 [x, y]) (by acts [greaterLess7Acts, addCasts_cast hin hx hfl])]
        exact site_total hf S hn hP (by grp [castAll]) (by grpT [castAll]) (by simp [castAll])
    iterate 2
      change some (entry fresh none (if v < 12 then greaterLessEqual7Acts fresh else greaterLessEqual12Acts)) = some m at hm
      rw [if_neg h12] at hm
      cases hm
      rw [convert_run (as := _) (by simp only [greaterLessEqual12Acts]; rfl)]
      exact site_total hf S hn hP (by grp []) (by grpT []) (by simp)
    all_goals
      change some (entry fresh none (if v < 11 then equal7Acts fresh else equal11Acts fresh)) = some m at hm
      rw [if_neg h11] at hm
      cases hm
      have h : (numeric t || decide (t = .bool)) = true := ht
      have hcode : code t ∈ equal11Codes := by revert h; cases t <;> simp [code, equal11Codes, numeric, fl3, int8s]
    · rw [convert_run (as := []) (by acts [equal11Acts, S.node, equalNotActs, G.dtypeIn, hx, hy, hcode, castSame])]
      exact site_total hf S hn hP (by grp []) (by grpT []) (by simp)
    · rw [convert_run (as := [.setType "Equal", .make (.mk' "Not" [o]), .insertOut o])
        (by acts [equal11Acts, S.node, equalNotActs, G.dtypeIn, hx, hy, hcode, castSame])]
      exact site_total hf S hn hP (by grp []) (by grpT []) (by simp)

/-- **The mapping loop raises nothing** on a graph of element-wise TensorFlow operators (and others, which stay), from operator set 12 on. -/
theorem elem_mapping_total {I : Interp (Ten Val)} {K T : Kern Val} {cast : DT → Val → Val} (on : OnnxOps v I K cast) (tf : TfOps I T)
    (el : ElemLaws T K) (hf : FreshTensors fresh) (hv : 12 ≤ v) {skip : Ref → Bool} (h0 : HInv fresh g) (hn : NInv fresh (fun _ => True) g)
    (ty : Ref → DT) (hnodes : ∀ r ∈ g.nodes, (g.node r).op ∈ elemUn ++ elemBin → ElemNode v g r (ty r))
    (hnr : ∀ r ∈ g.nodes, ∀ o ∈ (g.node r).output, NoRaise g.dtypes.get (g.node r).op o (ty r)) :
    (g.mapping (elemTable fresh v) skip).exceptions = [] ∧
      (ReadsMade g → ReadsMade (g.mapping (elemTable fresh v) skip).g) ∧
      ∀ o ∈ g.outputs, o ≠ "" → (∃ p ∈ g.nodes, o ∈ (g.node p).output) →
        ∃ p ∈ (g.mapping (elemTable fresh v) skip).g.nodes, o ∈ ((g.mapping (elemTable fresh v) skip).g.node p).output := by
  obtain ⟨D, hs, hc, -⟩ := elem_setup on tf el hf hv (skip := skip) ty hnodes
  refine mapping_total (I := I) h0 hs hc ?_ hn
  intro r hr _ m hm
  rcases elemTable_ops hm with ⟨rfl, -⟩ | h | h
  · exact total_pass
  · obtain ⟨hn, -, ht, -, -, o, ho, hoe, -⟩ := hnodes r hr (List.mem_append_left _ h)
    have e1 : (g.node r).output.headD "" = o := by simp [ho]
    simp only [elemSig, h, if_true, e1]
    exact elemTable_un_total hf hv h ht hn hoe (hnr r hr o (by rw [ho]; simp)) hm
  · obtain ⟨hn, -, ht, -, hb, o, ho, hoe, -⟩ := hnodes r hr (List.mem_append_right _ h)
    obtain ⟨x, y, hin, -, -, -, -, hsh⟩ := hb h
    have hnun : (g.node r).op ∉ elemUn := (by decide : ∀ op ∈ elemBin, op ∉ elemUn) _ h
    have e1 : (g.node r).output.headD "" = o := by simp [ho]
    have e2 : (g.node r).input.getD 0 "" = x := by simp [hin]
    have e3 : (g.node r).input.getD 1 "" = y := by simp [hin]
    simp only [elemSig, h, hnun, if_true, if_false, e1, e2, e3]
    exact elemTable_bin_total hf hv h ht hn hoe hsh hm

end Verif.Graph
