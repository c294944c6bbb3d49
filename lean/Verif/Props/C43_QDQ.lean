import Verif.Props.QDQDown3
import Mathlib.Data.Rat.Floor
/-!
# C43: moving and cancelling quantization preserves the model
-/
namespace Verif.Graph
open Verif

/-- Running the optimizer for quantization nodes does not change what a model computes: same outputs and graph inputs, and
the same results for every meaning of the operators that satisfies `QDQLaw` and every fed values for which dequantized
tensors hold values of the quantized type. Hypotheses: the consumer index is complete (C07), the graph is acyclic and typed
(`QShape`, `QKind`), and names of new nodes are fresh. Missing from the full property: scatter operators with a reduction,
scales that are not scalar constants, and quantization without zero point of a tensor not of the default type; there the
property is false (`qdq_scatter_reduction_violated`, `qdq_default_axis_violated`, `qdq_default_zero_point_violated`). -/
theorem qdq_optimizer_preserves_model_partial {fresh : Nat → String} (hf : FreshNames fresh) {fuel : Nat} {g g' : G}
    (hr : Reachable g) (hi : Idx g) (ha : Acyclic g.nodeList) (hs : ∃ isIdx, QShape g isIdx) (hk : ∃ isQ, QKind g isQ)
    (hu : ∀ k, g.heap.length ≤ k → (∀ r ∈ g.nodes, outName fresh k ∉ (g.node r).input ∧ outName fresh k ∉ (g.node r).output) ∧
      outName fresh k ∉ g.outputs)
    (h : g.qdqOptimize fresh fuel = .ok g') :
    g'.outputs = g.outputs ∧
    g'.inputs.map (fun r => (g'.node r).output) = g.inputs.map (fun r => (g.node r).output) ∧
    ∀ (V : Type) (I : Interp V), QDQLaw V I → ∀ env, (∀ e, Sat I env e g.nodeList → TypedRun I e g) →
      ∀ out, Computes I g' env out ↔ Computes I g env out := by
  have hv : QInv fresh g := ⟨hr, hi, ha.ranked hr.wf, hs, hk, fun k hk => ⟨fun r hr => ((hu k hk).1 r hr).1, (hu k hk).2⟩,
    fun k hk r hr => ((hu k hk).1 r hr).2⟩
  simp only [G.qdqOptimize, bind, Except.bind] at h
  split at h
  · cases h
  rename_i g1 hg1
  have s := qdqLoop_spec hf _ hv hg1
  obtain ⟨ρ, hrk⟩ := s.inv.ranked
  have hd := deleteUnused_sameModel (P := fun _ _ => True) s.inv.reach hrk.acyclic h
  refine ⟨hd.outputs.trans s.outputs, hd.inputs.trans s.inputs, ?_⟩
  intro V I hI env ht out
  rw [hd.values V I trivial env out]
  refine computes_of_transport hr ha hrk.acyclic s.outputs ?_ out
  intro e he
  obtain ⟨e', h1, _, h3⟩ := s.run V I hI env e he (ht e he)
  exact ⟨e', h1, h3⟩

/-! ## The laws hold of quantization as ONNX defines it

Tensors are lists of rationals (their layout does not matter for element-wise functions). -/

/-- Saturation to the range of the quantized type. -/
def saturate (lo hi : Int) (n : Int) : Int := max lo (min hi n)

/-- `saturate(round(x / scale) + zero_point)` (ONNX `QuantizeLinear`), for a rounding function. -/
def quantize (rnd : Rat → Int) (lo hi : Int) (s : Rat) (z : Int) (x : Rat) : Rat := (saturate lo hi (rnd (x / s) + z) : Int)

/-- `(x - zero_point) * scale` (ONNX `DequantizeLinear`). -/
def dequantize (s : Rat) (z : Int) (x : Rat) : Rat := (x - z) * s

theorem saturate_idem {lo hi n : Int} : saturate lo hi (saturate lo hi n) = saturate lo hi n := by
  unfold saturate; omega

/-- Quantizing a dequantized quantized value gives it back, whatever the scale, zero point, range and rounding mode. -/
theorem requantize_exact (rnd : Rat → Int) (hrnd : ∀ n : Int, rnd n = n) (lo hi : Int) (s : Rat) (z : Int) (x : Rat) :
    quantize rnd lo hi s z (dequantize s z (quantize rnd lo hi s z x)) = quantize rnd lo hi s z x := by
  by_cases hs : s = 0
  · subst hs
    simp [quantize, dequantize]
  · have : ∀ n : Int, quantize rnd lo hi s z (dequantize s z (n : Rat)) = (saturate lo hi n : Int) := by
      intro n
      unfold quantize dequantize
      rw [mul_div_assoc, div_self hs, mul_one]
      have h1 : ((n : Rat) - (z : Rat)) = ((n - z : Int) : Rat) := by push_cast; rfl
      rw [h1, hrnd, Int.sub_add_cancel]
    unfold quantize
    have h2 := this (saturate lo hi (rnd (x / s) + z))
    unfold quantize at h2
    rw [h2, saturate_idem]

/-- First element of an operand. -/
def scalarOf (d : Rat) (a : Option (Option (List Rat))) : Rat :=
  match a with
  | some (some (v :: _)) => v
  | _ => d

/-- Operand `k`, empty if absent. -/
def operand (args : List (Option (List Rat))) (k : Nat) : List Rat := ((args[k]?).getD none).getD []

/-- A meaning of the operators: quantization as in ONNX with 8-bit signed range, operators that move elements (here: reverse,
append), constants. -/
def listInterp (rnd : Rat → Int) : Interp (List Rat) := fun op _ attr args _ =>
  if op = "QuantizeLinear" then
    (operand args 0).map (quantize rnd (-128) 127 (scalarOf 1 args[1]?) (scalarOf 0 args[2]?).floor)
  else if op = "DequantizeLinear" then
    (operand args 0).map (dequantize (scalarOf 1 args[1]?) (scalarOf 0 args[2]?).floor)
  else if op = "Concat" then args.flatMap (fun a => a.getD [])
  else if op = "Scatter" ∨ op = "ScatterND" ∨ op = "ScatterElements" then operand args 0 ++ operand args 2
  else if op = "Const" then
    match Dict.get attr "value" with
    | some (.tensor t) => t.data.map (fun (i : Int) => (i : Rat) / 2)
    | _ => []
  else (operand args 0).reverse

theorem operand_mapAt {idx : List Nat} {f : Rat → Rat} {args : List (Option (List Rat))} {k : Nat} (hk : k ∈ idx) :
    operand (mapAt idx (List.map f) args) k = (operand args k).map f := by
  unfold operand
  rw [mapAt_get]
  cases args[k]? with
  | none => rfl
  | some a =>
    cases a with
    | none => simp
    | some v => simp [hk]

/-- Element-wise functions commute with the operators that move elements, in this meaning. -/
theorem listInterp_natural (rnd : Rat → Int) (n : Node) (inps outs : List Nat) (h : tensorIdx n = some (inps, outs))
    (f : Rat → Rat) (args : List (Option (List Rat))) (hl : args.length = n.input.length) (j : Nat) :
    listInterp rnd n.op "" n.attr (mapAt inps (List.map f) args) j = (listInterp rnd n.op "" n.attr args j).map f := by
  unfold tensorIdx at h
  have hrev : ∀ args' : List (Option (List Rat)), operand args' 0 = (operand args 0).map f →
      (operand args' 0).reverse = (operand args 0).reverse.map f := by
    intro args' ha; rw [ha, List.map_reverse]
  split at h
  · rename_i hop
    cases h
    simp only [List.mem_cons, List.not_mem_nil, or_false] at hop
    have h0 := operand_mapAt (f := f) (args := args) (idx := [0]) (k := 0) (by simp)
    rcases hop with e | e | e | e | e | e | e | e <;> rw [e] <;> simp [listInterp, h0, List.map_reverse]
  split at h
  · rename_i hop
    cases h
    simp only [List.mem_cons, List.not_mem_nil, or_false] at hop
    have h0 := operand_mapAt (f := f) (args := args) (idx := [0]) (k := 0) (by simp)
    rcases hop with e | e | e <;> rw [e] <;> simp [listInterp, h0, List.map_reverse]
  split at h
  · rename_i hop
    cases h
    simp only [List.mem_cons, List.not_mem_nil, or_false] at hop
    have h0 := operand_mapAt (f := f) (args := args) (idx := [0, 2]) (k := 0) (by simp)
    have h2 := operand_mapAt (f := f) (args := args) (idx := [0, 2]) (k := 2) (by simp)
    rcases hop with e | e | e <;> rw [e] <;> simp [listInterp, h0, h2]
  split at h
  · rename_i hop
    cases h
    rw [hop]
    simp only [listInterp, String.reduceEq, if_false, if_true]
    rw [← hl]
    have : mapAt (List.range args.length) (List.map f) args = args.map (Option.map (List.map f)) := by
      apply List.ext_getElem?
      intro k
      rw [mapAt_get, List.getElem?_map]
      cases hk : args[k]? with
      | none => rfl
      | some a =>
        have : k < args.length := by
          by_contra hge
          rw [List.getElem?_eq_none (Nat.le_of_not_lt hge)] at hk; cases hk
        simp [this]
    rw [this, List.flatMap_map, List.map_flatMap]
    congr 1
    funext a
    cases a <;> rfl
  split at h
  · rename_i hop
    cases h
    have h0 := operand_mapAt (f := f) (args := args) (idx := [0]) (k := 0) (by simp)
    rw [hop]
    simp [listInterp, h0, List.map_reverse]
  split at h
  · rename_i hop
    cases h
    simp only [List.mem_cons, List.not_mem_nil, or_false] at hop
    have h0 := operand_mapAt (f := f) (args := args) (idx := [0]) (k := 0) (by simp)
    rcases hop with e | e | e | e <;> rw [e] <;> simp [listInterp, h0, List.map_reverse]
  · cases h

/-- The hypotheses on operators are met by quantization as ONNX defines it, for every rounding function that fixes integers. -/
theorem listInterp_law (rnd : Rat → Int) (hrnd : ∀ n : Int, rnd n = n) : QDQLaw (List Rat) (listInterp rnd) := by
  have hq : ∀ ps, quant (listInterp rnd) ps =
      List.map (quantize rnd (-128) 127 (scalarOf 1 ps[0]?) (scalarOf 0 ps[1]?).floor) := by
    intro ps; funext x; simp [quant, listInterp, operand]
  have hd : ∀ ps, dequant (listInterp rnd) ps =
      List.map (dequantize (scalarOf 1 ps[0]?) (scalarOf 0 ps[1]?).floor) := by
    intro ps; funext x; simp [dequant, listInterp, operand]
  refine ⟨?_, ?_, ?_⟩
  · intro n inps outs h _ ps _ args hl _ j _
    rw [hq]
    exact listInterp_natural rnd n inps outs h _ args hl j
  · intro n inps outs h _ ps _ args hl _ j _
    rw [hd]
    exact listInterp_natural rnd n inps outs h _ args hl j
  · intro ps _ y
    rw [hq, hd]
    simp only [List.map_map]
    apply List.map_congr_left
    intro x _
    exact requantize_exact rnd hrnd _ _ _ _ x

example : ∀ n : Int, Rat.floor (n : Rat) = n := fun n => Rat.floor_intCast n

/-! ## A concrete case -/

/-- `out = Relu(Q(Concat(Transpose(DQ(a)), DQ(b))))`: everything dequantized and requantized. -/
def qdqScript : List Edit :=
  [.addGraphInput "pa" "a", .addGraphInput "pb" "b",
   .makeNode "Const" [] "cs" ["s"] [("value", .tensor ⟨1, [], [1]⟩)] "",
   .makeNode "Const" [] "cz" ["z"] [("value", .tensor ⟨3, [], [0]⟩)] "",
   .makeNode "DequantizeLinear" ["a", "s", "z"] "d1" ["fa"] [] "",
   .makeNode "DequantizeLinear" ["b", "s", "z"] "d2" ["fb"] [] "",
   .makeNode "Transpose" ["fa"] "t" ["ta"] [] "",
   .makeNode "Concat" ["ta", "fb"] "c" ["cc"] [] "",
   .makeNode "QuantizeLinear" ["cc", "s", "z"] "q" ["qc"] [] "",
   .makeNode "Relu" ["qc"] "r" ["out"] [] "", .addGraphOutput "out"]

/-- Names of new nodes in the example. -/
def exFresh (k : Nat) : String := "new" ++ String.ofList (List.replicate k '\'')
theorem exFresh_fresh : FreshNames exFresh := by
  refine ⟨?_, ?_⟩
  · intro i j h
    have := congrArg String.length h
    simpa [exFresh] using this
  · intro i h
    have := congrArg String.length h
    simp [exFresh] at this

/-- Scripts that only add nodes, graph inputs and outputs. -/
def Building : Edit → Prop
  | .makeNode _ _ name output _ _ => name ≠ "" ∧ (output.filter (· ≠ "")).Nodup
  | .addGraphInput nodeName _ => nodeName ≠ ""
  | .addGraphOutput _ => True
  | .setDtype _ _ => True
  | .setShape _ _ => True
  | _ => False

instance : DecidablePred Building := fun e => by unfold Building; cases e <;> infer_instance

theorem run_building {s : List Edit} (hs : ∀ e ∈ s, Building e) {g g' : G} (hg : ReachableSafe g) (h : g.run s = .ok g') :
    ReachableSafe g' := by
  induction s generalizing g with
  | nil => cases h; exact hg
  | cons e s ih =>
    simp only [G.run, bind, Except.bind] at h
    split at h
    · cases h
    rename_i g1 hg1
    refine ih (fun e he => hs e (by simp [he])) (.step hg ?_ ?_ hg1) h
    · have := hs e (by simp)
      cases e <;> first | exact this | exact this.elim
    · have := hs e (by simp)
      cases e <;> trivial

/-- The graph of the script. -/
def qdqGraph : G := match G.run {} qdqScript with
  | .ok g => g
  | .error _ => {}

theorem qdqGraph_run : G.run {} qdqScript = .ok qdqGraph := rfl

theorem qdqGraph_nodes : qdqGraph.nodes = [0, 1, 2, 3, 4, 5, 6, 7, 8, 9] := rfl

/-- The optimizer removes all quantization from the example. -/
theorem qdqGraph_optimized : ∃ g', qdqGraph.qdqOptimize exFresh 30 = .ok g' ∧
    g'.nodeList.map (fun n => (n.op, n.input, n.output)) =
      [("Placeholder", [], ["a"]), ("Transpose", ["a"], ["ta"]), ("Placeholder", [], ["b"]), ("Concat", ["ta", "b"], ["cc"]),
       ("Relu", ["cc"], ["out"])] := ⟨_, rfl, by decide⟩

theorem qdqGraph_scalar : ∀ p ∈ ["s", "z"], ScalarConst qdqGraph p := by
  intro p hp
  simp only [List.mem_cons, List.not_mem_nil, or_false] at hp
  rcases hp with rfl | rfl
  · exact ⟨by decide, 2, by decide, rfl, rfl, rfl, ⟨1, [], [1]⟩, rfl, rfl⟩
  · exact ⟨by decide, 3, by decide, rfl, rfl, rfl, ⟨3, [], [0]⟩, rfl, rfl⟩

/-- The example is typed; no tensor of it is index-like. -/
theorem qdqGraph_shape : QShape qdqGraph (fun _ => False) := by
  have hm : ∀ r ∈ qdqGraph.nodes, r = 0 ∨ r = 1 ∨ r = 2 ∨ r = 3 ∨ r = 4 ∨ r = 5 ∨ r = 6 ∨ r = 7 ∨ r = 8 ∨ r = 9 := by
    rw [qdqGraph_nodes]; simp
  refine ⟨?_, ?_, ?_, ?_, ?_, by decide⟩
  · intro r hr hq
    rcases hm r hr with rfl | rfl | rfl | rfl | rfl | rfl | rfl | rfl | rfl | rfl
    iterate 4 exact absurd hq.1 (by decide)
    · exact ⟨rfl, rfl, "a", ["s", "z"], "fa", rfl, rfl, by decide, by decide, id, id, qdqGraph_scalar⟩
    · exact ⟨rfl, rfl, "b", ["s", "z"], "fb", rfl, rfl, by decide, by decide, id, id, qdqGraph_scalar⟩
    iterate 2 exact absurd hq.1 (by decide)
    · exact ⟨rfl, rfl, "cc", ["s", "z"], "qc", rfl, rfl, by decide, by decide, id, id, qdqGraph_scalar⟩
    · exact absurd hq.1 (by decide)
  · intro r hr io _
    rcases hm r hr with rfl | rfl | rfl | rfl | rfl | rfl | rfl | rfl | rfl | rfl <;> exact ⟨rfl, Or.inl rfl⟩
  · intro r hr inps outs h
    rcases hm r hr with rfl | rfl | rfl | rfl | rfl | rfl | rfl | rfl | rfl | rfl <;> cases h <;> exact ⟨rfl, by decide⟩
  · intro r hr inps outs h k hk
    rcases hm r hr with rfl | rfl | rfl | rfl | rfl | rfl | rfl | rfl | rfl | rfl <;> cases h
    · rw [List.mem_singleton.1 hk]; exact ⟨"fa", rfl, by decide, fun _ _ => Iff.rfl⟩
    · have : k = 0 ∨ k = 1 := by
        have := List.mem_range.1 hk
        change k < 2 at this
        omega
      rcases this with rfl | rfl
      · exact ⟨"ta", rfl, by decide, fun _ _ => Iff.rfl⟩
      · exact ⟨"fb", rfl, by decide, fun _ _ => Iff.rfl⟩
  · intro r hr inps outs h k x hx hk _
    rcases hm r hr with rfl | rfl | rfl | rfl | rfl | rfl | rfl | rfl | rfl | rfl <;> cases h
    · change (["fa"] : List String)[k]? = some x at hx
      rcases k with _ | k
      · exact hk (by simp)
      · simp at hx
    · change (["ta", "fb"] : List String)[k]? = some x at hx
      rcases k with _ | _ | k
      · exact hk (by decide)
      · exact hk (by decide)
      · simp at hx

/-- The quantized tensors of the example. -/
theorem qdqGraph_kind : QKind qdqGraph (fun x => x ∈ ["a", "b", "qc"]) := by
  have hm : ∀ r ∈ qdqGraph.nodes, r = 0 ∨ r = 1 ∨ r = 2 ∨ r = 3 ∨ r = 4 ∨ r = 5 ∨ r = 6 ∨ r = 7 ∨ r = 8 ∨ r = 9 := by
    rw [qdqGraph_nodes]; simp
  refine ⟨?_, by decide, ?_⟩
  · intro r hr ho _
    rcases hm r hr with rfl | rfl | rfl | rfl | rfl | rfl | rfl | rfl | rfl | rfl
    iterate 4 exact absurd ho (by decide)
    · refine ⟨fun x ps h => ?_, by decide⟩
      cases h; decide
    · refine ⟨fun x ps h => ?_, by decide⟩
      cases h; decide
    iterate 4 exact absurd ho (by decide)
  · intro r hr inps outs h k hk x hx o ho
    rcases hm r hr with rfl | rfl | rfl | rfl | rfl | rfl | rfl | rfl | rfl | rfl <;> cases h
    · rw [List.mem_singleton.1 hk] at hx
      cases hx
      rw [List.mem_singleton.1 ho]; decide
    · rw [List.mem_singleton.1 ho]
      have : k = 0 ∨ k = 1 := by
        have := List.mem_range.1 hk
        change k < 2 at this
        omega
      rcases this with rfl | rfl <;> cases hx <;> decide

/-- Names of new tensors do not occur in the example. -/
theorem qdqGraph_unused (k : Nat) : (∀ r ∈ qdqGraph.nodes, outName exFresh k ∉ (qdqGraph.node r).input ∧
    outName exFresh k ∉ (qdqGraph.node r).output) ∧ outName exFresh k ∉ qdqGraph.outputs := by
  have h5 : ∀ y : String, y.length < 5 → y ≠ outName exFresh k := by
    rintro y hy rfl
    have h3 : "new".length = 3 := rfl
    have h2 : ":0".length = 2 := rfl
    simp only [outName, exFresh, String.length_append, h3, h2] at hy
    omega
  have hn : ∀ r ∈ qdqGraph.nodes, ∀ y ∈ (qdqGraph.node r).input ++ (qdqGraph.node r).output ++ qdqGraph.outputs,
    y.length < 5 := by decide
  refine ⟨fun r hr => ⟨fun h => ?_, fun h => ?_⟩, fun h => ?_⟩
  · exact h5 _ (hn r hr _ (by simp [h])) rfl
  · exact h5 _ (hn r hr _ (by simp [h])) rfl
  · exact h5 _ (hn 0 (by decide) _ (by simp [h])) rfl

/-- The theorem applies to the example: for quantized values fed to it, with quantization as ONNX defines it, removing all
quantization nodes leaves the result unchanged. -/
example : ∃ g', qdqGraph.qdqOptimize exFresh 30 = .ok g' ∧ g'.nodes.length = 5 ∧
    ∀ env out, (∃ u v, env "a" = List.map (quantize Rat.floor (-128) 127 (1 / 2) 0) u ∧
        env "b" = List.map (quantize Rat.floor (-128) 127 (1 / 2) 0) v) →
      (Computes (listInterp Rat.floor) g' env out ↔ Computes (listInterp Rat.floor) qdqGraph env out) := by
  obtain ⟨g', hg, hl⟩ := qdqGraph_optimized
  refine ⟨g', hg, ?_, ?_⟩
  · have := congrArg List.length hl
    simpa [G.nodeList] using this
  rintro env out ⟨u, v, hu, hv⟩
  have hrs : ReachableSafe qdqGraph := run_building (s := qdqScript) (by decide) .empty qdqGraph_run
  refine (qdq_optimizer_preserves_model_partial exFresh_fresh hrs.reachable hrs.idx ⟨_, .refl _, by decide⟩ ⟨_, qdqGraph_shape⟩
    ⟨_, qdqGraph_kind⟩ (fun k _ => qdqGraph_unused k) hg).2.2 _ _ (listInterp_law _ (fun n => Rat.floor_intCast n)) env ?_ out
  intro e he r hr ho _ x ps hx
  have hm : ∀ r ∈ qdqGraph.nodes, (qdqGraph.node r).op = "DequantizeLinear" → r = 4 ∨ r = 5 := by decide
  have ha : e "a" = env "a" := by
    rw [he.1 _ (List.mem_map_of_mem (f := qdqGraph.node) (show 0 ∈ qdqGraph.nodes by decide)) 0 "a" rfl (by decide)]
    rfl
  have hb : e "b" = env "b" := by
    rw [he.1 _ (List.mem_map_of_mem (f := qdqGraph.node) (show 1 ∈ qdqGraph.nodes by decide)) 0 "b" rfl (by decide)]
    rfl
  have hs : e "s" = [1 / 2] := by
    rw [he.1 _ (List.mem_map_of_mem (f := qdqGraph.node) (show 2 ∈ qdqGraph.nodes by decide)) 0 "s" rfl (by decide)]
    change List.map (fun (i : Int) => (i : Rat) / 2) [1] = _
    simp
  have hz : e "z" = [0] := by
    rw [he.1 _ (List.mem_map_of_mem (f := qdqGraph.node) (show 3 ∈ qdqGraph.nodes by decide)) 0 "z" rfl (by decide)]
    change List.map (fun (i : Int) => (i : Rat) / 2) [0] = _
    simp
  have hq : ∀ w, quant (listInterp Rat.floor) (["s", "z"].map (argVal e)) w =
      w.map (quantize Rat.floor (-128) 127 (1 / 2) 0) := by
    intro w
    simp [quant, listInterp, operand, argVal, hs, hz, scalarOf]
    intro a _
    rw [show Rat.floor 0 = 0 from Rat.floor_intCast 0]
  rcases hm r hr ho with rfl | rfl
  · cases hx
    exact ⟨u, by rw [hq, ha, hu]⟩
  · cases hx
    exact ⟨v, by rw [hq, hb, hv]⟩

/-! ## Where the code is wrong: witnesses for the hypotheses -/

/-- Operand 0, `d` if absent. -/
def firstArg {V : Type} (d : V) (args : List (Option V)) : V := ((args[0]?).getD none).getD d

theorem tensorIdx_zero {n : Node} {inps outs : List Nat} (h : tensorIdx n = some (inps, outs)) (hl : 0 < n.input.length) :
    0 ∈ inps := by
  unfold tensorIdx at h
  repeat' split at h
  all_goals first | cases h; simp [hl] | cases h

theorem firstArg_mapAt {V : Type} {d : V} {idx : List Nat} {f : V → V} {args : List (Option V)}
    (h : args ≠ [] → 0 ∈ idx) (hd : args = [] → f d = d) (ha : ∀ k ∈ idx, ∃ v, args[k]? = some (some v)) :
    firstArg d (mapAt idx f args) = f (firstArg d args) := by
  cases args with
  | nil => simp [firstArg, mapAt, hd rfl]
  | cons a as =>
    have h0 := h (by simp)
    obtain ⟨v, hv⟩ := ha 0 h0
    unfold firstArg
    rw [mapAt_get, hv]
    simp [h0]

/-- Meanings in which every operator that moves elements does the same to operand 0. -/
theorem law_of_first {V : Type} (I : Interp V) (d : V) (r : V → V)
    (hI : ∀ n io, tensorIdx n = some io → NoReduction n → ∀ args j, I n.op "" n.attr args j = r (firstArg d args))
    (hq : ∀ ps, ScalarParams I ps → quant I ps d = d ∧ ∀ x, r (quant I ps x) = quant I ps (r x))
    (hd : ∀ ps, ScalarParams I ps → dequant I ps d = d ∧ ∀ x, r (dequant I ps x) = dequant I ps (r x))
    (hr : ∀ ps, ScalarParams I ps → ∀ y, quant I ps (dequant I ps (quant I ps y)) = quant I ps y) : QDQLaw V I := by
  refine ⟨?_, ?_, hr⟩
  · intro n inps outs h hn ps hp args hl ha j _
    rw [hI n _ h hn, hI n _ h hn, firstArg_mapAt ?_ (fun _ => (hq ps hp).1) ha, (hq ps hp).2]
    intro hne
    exact tensorIdx_zero h (by rw [← hl]; exact List.length_pos_iff.2 hne)
  · intro n inps outs h hn ps hp args hl ha j _
    rw [hI n _ h hn, hI n _ h hn, firstArg_mapAt ?_ (fun _ => (hd ps hp).1) ha, (hd ps hp).2]
    intro hne
    exact tensorIdx_zero h (by rw [← hl]; exact List.length_pos_iff.2 hne)

theorem tensorIdx_op {n : Node} {io : List Nat × List Nat} (h : tensorIdx n = some io) :
    n.op ≠ "QuantizeLinear" ∧ n.op ≠ "DequantizeLinear" ∧ n.op ≠ "Const" := by
  refine ⟨?_, ?_, ?_⟩ <;> intro e <;> simp [tensorIdx, e] at h

/-- A graph computes what running its nodes in an executable order computes. -/
theorem computes_exec_order {g : G} (order : List Ref) (hp : order.Perm g.nodes) (hu : UniqueOutputs g.nodeList)
    (hx : Executable (order.map g.node)) {V : Type} (I : Interp V) (env : String → V) (out : List V) :
    Computes I g env out ↔ out = g.outputs.map (exec I env (order.map g.node)) := by
  have hp' : (order.map g.node).Perm g.nodeList := hp.map _
  have hs := (exec_sat (I := I) (env := env) (hu.perm hp'.symm) hx).perm hp'
  constructor
  · rintro ⟨e, he, rfl⟩; rw [sat_unique ⟨_, hp', hx⟩ he hs]
  · rintro rfl; exact ⟨_, hs, rfl⟩

/-- The optimizer changes what the model computes, for a meaning of the operators that satisfies `QDQLaw`. -/
def ChangesModel (script : List Edit) : Prop :=
  ∃ g g', G.run {} script = .ok g ∧ ReachableSafe g ∧ Acyclic g.nodeList ∧ g.qdqOptimize exFresh 30 = .ok g' ∧
    ∃ (V : Type) (I : Interp V), QDQLaw V I ∧ ∃ env out, Computes I g env out ∧ ¬ Computes I g' env out

/-- `ScatterND` that adds; a quantized type with largest value 10. -/
def reduceInterp : Interp Int := fun op _ attr args _ =>
  if op = "QuantizeLinear" then min 10 (firstArg 0 args)
  else if Dict.get attr "reduction" = some (.str "add") then firstArg 0 args + ((args[2]?).getD none).getD 0
  else firstArg 0 args

/-- `out = Relu(Q(ScatterND(x, i, u, reduction="add")))`. -/
def reduceScript : List Edit :=
  [.addGraphInput "px" "x", .addGraphInput "pi" "i", .addGraphInput "pu" "u",
   .makeNode "Const" [] "cs" ["s"] [("value", .tensor ⟨1, [], [1]⟩)] "",
   .makeNode "ScatterND" ["x", "i", "u"] "sc" ["y"] [("reduction", .str "add")] "",
   .makeNode "QuantizeLinear" ["y", "s"] "q" ["qy"] [] "",
   .makeNode "Relu" ["qy"] "r" ["out"] [] "", .addGraphOutput "out"]

/-- The optimizer is wrong about `ScatterND` and `ScatterElements` with a reduction: quantizing before adding is not
quantizing the sum. -/
theorem qdq_scatter_reduction_violated : ChangesModel reduceScript := by
  refine ⟨_, _, rfl, run_building (s := reduceScript) (by decide) .empty rfl, ⟨_, .refl _, by decide⟩, rfl, Int, reduceInterp, ?_,
    (fun x => if x = "x" then 7 else if x = "u" then 7 else 0), [10], ?_, ?_⟩
  · refine law_of_first _ 0 id ?_ ?_ ?_ ?_
    · intro n io h hn args j
      obtain ⟨h1, _, _⟩ := tensorIdx_op h
      rcases hn with hn | hn <;> simp [reduceInterp, h1, hn]
    · intro ps _; simp [quant, reduceInterp, firstArg]
    · intro ps _; simp [dequant, reduceInterp, firstArg, Dict.get]
    · intro ps _ y; simp [quant, dequant, reduceInterp, firstArg, Dict.get]
  · exact (computes_exec_order [0, 1, 2, 3, 4, 5, 6] (by decide) (by decide) (by decide) _ _ _).2 (by rfl)
  · intro h
    exact absurd ((computes_exec_order [0, 1, 2, 3, 7, 8, 4, 6] (by decide) (by decide) (by decide) _ _ _).1 h) (by decide)

/-- A quantized type 0..255; dequantization also accepts -128..127. -/
def unsignedInterp : Interp Int := fun op _ _ args _ =>
  if op = "QuantizeLinear" then max 0 (min 255 (firstArg 0 args)) else firstArg 0 args

/-- `out = Relu(Q(DQ(x)))`, no zero points: `x` may be signed, the result of `Q` is unsigned. -/
def noZeroPointScript : List Edit :=
  [.addGraphInput "px" "x", .makeNode "Const" [] "cs" ["s"] [("value", .tensor ⟨1, [], [1]⟩)] "",
   .makeNode "DequantizeLinear" ["x", "s"] "d" ["f"] [] "", .makeNode "QuantizeLinear" ["f", "s"] "q" ["qf"] [] "",
   .makeNode "Relu" ["qf"] "r" ["out"] [] "", .addGraphOutput "out"]

/-- The optimizer is wrong about quantization without a zero point operand, when the dequantized tensor is not of the default
type: `QuantizeLinear(DequantizeLinear(x))` is cancelled although it changes the type. -/
theorem qdq_default_zero_point_violated : ChangesModel noZeroPointScript := by
  refine ⟨_, _, rfl, run_building (s := noZeroPointScript) (by decide) .empty rfl, ⟨_, .refl _, by decide⟩, rfl, Int, unsignedInterp,
    ?_, (fun _ => -5), [0], ?_, ?_⟩
  · refine law_of_first _ 0 id ?_ ?_ ?_ ?_
    · intro n io h _ args j
      obtain ⟨h1, _, _⟩ := tensorIdx_op h
      simp [unsignedInterp, h1]
    · intro ps _; simp [quant, unsignedInterp, firstArg]
    · intro ps _; simp [dequant, unsignedInterp, firstArg]
    · intro ps _ y
      simp only [quant, dequant, unsignedInterp, firstArg]
      simp
  · exact (computes_exec_order [0, 1, 2, 3, 4] (by decide) (by decide) (by decide) _ _ _).2 (by rfl)
  · intro h
    exact absurd ((computes_exec_order [0, 4] (by decide) (by decide) (by decide) _ _ _).1 h) (by decide)

/-- Quantization with one bound per element or one for all; moving elements reverses. -/
def channelInterp : Interp (List Int) := fun op _ attr args _ =>
  if op = "QuantizeLinear" then
    match args[1]? with
    | some (some [c]) => (firstArg [] args).map (min c)
    | some (some cs) => List.zipWith min (firstArg [] args) cs
    | _ => firstArg [] args
  else if op = "DequantizeLinear" then firstArg [] args
  else if op = "Const" then
    match Dict.get attr "value" with
    | some (.tensor t) => if t.dims = [] then [t.data.headD 0] else t.data
    | _ => []
  else (firstArg [] args).reverse

/-- `out = Relu(Q(Transpose(x)))`, one scale per channel along the default axis. -/
def channelScript : List Edit :=
  [.addGraphInput "px" "x", .makeNode "Const" [] "cs" ["s"] [("value", .tensor ⟨1, [2], [1, 2]⟩)] "",
   .makeNode "Transpose" ["x"] "t" ["tx"] [] "", .makeNode "QuantizeLinear" ["tx", "s"] "q" ["qt"] [] "",
   .makeNode "Relu" ["qt"] "r" ["out"] [] "", .addGraphOutput "out"]

/-- The optimizer is wrong about quantization with one scale per channel along the default axis (attribute `axis` left out):
it is moved across `Transpose` as if it were per tensor. -/
theorem qdq_default_axis_violated : ChangesModel channelScript := by
  refine ⟨_, _, rfl, run_building (s := channelScript) (by decide) .empty rfl, ⟨_, .refl _, by decide⟩, rfl, List Int, channelInterp,
    ?_, (fun _ => [5, 6]), [[2, 1]], ?_, ?_⟩
  · have hs : ∀ ps, ScalarParams channelInterp ps → ps = [] ∨ ∃ c ps', ps = some [c] :: ps' := by
      intro ps hp
      cases ps with
      | nil => exact Or.inl rfl
      | cons p ps =>
        obtain ⟨dom, attr, t, h1, h2, h3⟩ := hp p (by simp)
        exact Or.inr ⟨t.data.headD 0, ps, by rw [h3]; simp [channelInterp, h1, h2]⟩
    refine law_of_first _ [] List.reverse ?_ ?_ ?_ ?_
    · intro n io h _ args j
      obtain ⟨h1, h2, h3⟩ := tensorIdx_op h
      simp [channelInterp, h1, h2, h3]
    · intro ps hp
      rcases hs ps hp with rfl | ⟨c, ps', rfl⟩ <;> simp [quant, channelInterp, firstArg]
    · intro ps _; simp [dequant, channelInterp, firstArg]
    · intro ps hp y
      rcases hs ps hp with rfl | ⟨c, ps', rfl⟩ <;> simp [quant, dequant, channelInterp, firstArg]
  · exact (computes_exec_order [0, 1, 2, 3, 4] (by decide) (by decide) (by decide) _ _ _).2 (by rfl)
  · intro h
    exact absurd ((computes_exec_order [0, 1, 5, 2, 4] (by decide) (by decide) (by decide) _ _ _).1 h) (by decide)

end Verif.Graph
