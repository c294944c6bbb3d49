import Verif.Props.C56_Lstm
import Mathlib.Order.MinMax
/-!
# C56: LSTM cells, main theorems
-/
set_option linter.unusedSectionVars false
namespace Verif.Rnn
open Verif.Tensor Verif.Emit

variable {K : Type} [Field K] [LinearOrder K]

/-! ## Activations -/

theorem onnxAct_default (A : String → K → K) {a : String} (h : a ∈ defaultActs) : onnxAct A a = A a := by
  funext x
  unfold onnxAct
  rw [if_neg]
  rintro rfl
  exact absurd h (by decide)

theorem hard_eq (A : String → K → K) : onnxAct A "HardSigmoid" = (TfAct.hard (1 / 5) (1 / 2) 1 0 : TfAct K).fn A := by
  funext x
  show (if "HardSigmoid" = "HardSigmoid" then _ else _) = _
  rw [if_pos rfl]
  show max 0 (min 1 (1 / 5 * x + 1 / 2)) = max (min (x * (1 / 5) + 1 / 2) 1) 0
  rw [max_comm, min_comm, mul_comm]

/-- The activations that are written are those of the forget gate and the two others. -/
theorem actsFgh_fn (A : String → K → K) {G : Gates K} {acts : List String} (h : actsFgh G = some acts) (ho : G.oneAct) :
    acts.length = 3 ∧ onnxAct A (acts.getD 0 "") = G.af.fn A ∧ onnxAct A (acts.getD 1 "") = G.ag.fn A ∧ onnxAct A (acts.getD 2 "") = G.ah.fn A := by
  obtain ⟨_, _, hh⟩ := ho
  unfold actsFgh at h
  split at h
  · rename_i f i o g hh' e1 e2 e3 e4 e5
    split at h
    · rename_i hm
      injection h with h
      subst h
      refine ⟨rfl, ?_, ?_, ?_⟩
      · rw [e1]; exact onnxAct_default A (hm f (by simp))
      · rw [e4]; exact onnxAct_default A (hm g (by simp))
      · rw [e5]; exact onnxAct_default A (hm hh' (by simp))
    · exact absurd h (by simp)
  · rename_i a b hi lo _ _ _ _ _ _ _ _ g hh' e1 e2 e3 e4 e5
    split at h
    · rename_i hm
      injection h with h
      subst h
      obtain ⟨rfl, rfl, rfl, rfl⟩ := hh _ _ _ _ e1
      refine ⟨rfl, ?_, ?_, ?_⟩
      · rw [e1]; exact hard_eq A
      · rw [e4]; exact onnxAct_default A (hm g (by simp))
      · rw [e5]; exact onnxAct_default A (hm hh' (by simp))
    · exact absurd h (by simp)
  · exact absurd h (by simp)

/-! ## One step -/

/-- If the gates of the node are the gates of the cell, the steps are the same. -/
theorem step_of_gates {A : String → K → K} {G : Gates K} {nd : LstmNode K} {H : Nat} {fb : K} {s : Lstm K} {x : Nat → K} {z : Nat → Nat → K} (hH : nd.hidden = H)
    (ho : G.ai = G.af ∧ G.ao = G.af) (af : onnxAct A (nd.act 0 0) = G.af.fn A) (ag : onnxAct A (nd.act 0 1) = G.ag.fn A)
    (ah : onnxAct A (nd.act 0 2) = G.ah.fn A)
    (hi : ∀ j < H, nd.gate 0 0 s x j = z G.i j) (hO : ∀ j < H, nd.gate 0 1 s x j = z G.o j) (hf : ∀ j < H, nd.gate 0 2 s x j = z G.f j + fb)
    (hg : ∀ j < H, nd.gate 0 3 s x j = z G.g j) : nd.step A 0 s x = G.update A H z fb s := by
  unfold LstmNode.step Gates.update
  rw [af, ag, ah, hH]
  have hc : ∀ j < H, G.af.fn A (nd.gate 0 2 s x j) * s.c j + G.af.fn A (nd.gate 0 0 s x j) * G.ag.fn A (nd.gate 0 3 s x j) =
      G.af.fn A (z G.f j + fb) * s.c j + G.ai.fn A (z G.i j) * G.ag.fn A (z G.g j) := by
    intro j hj
    rw [hi j hj, hf j hj, hg j hj, ho.1]
  refine congrArg₂ Lstm.mk (vec_congr (fun j hj => ?_)) (vec_congr hc)
  have := hc j hj
  simp only [hO j hj, this, ho.2]

/-- The step of a node with the weights of a TensorFlow cell. -/
theorem tf_step {A : String → K → K} {c : TfLstm K} {bias : T K} (hF : c.Fits) (ord : c.gates.tfOrder) (ho : c.gates.ai = c.gates.af ∧ c.gates.ao = c.gates.af)
    (hb : bias.shape = [4 * c.H]) (hv : ∀ m < 4 * c.H, bias.get [m] = c.bias.elim 0 (fun b => b.get [m])) {acts : List String}
    (hlen : acts = [] ∨ acts.length = 3)
    (af : ∀ W R B, onnxAct A ((⟨.forward, c.H, acts, W, R, B⟩ : LstmNode K).act 0 0) = c.gates.af.fn A)
    (ag : ∀ W R B, onnxAct A ((⟨.forward, c.H, acts, W, R, B⟩ : LstmNode K).act 0 1) = c.gates.ag.fn A)
    (ah : ∀ W R B, onnxAct A ((⟨.forward, c.H, acts, W, R, B⟩ : LstmNode K).act 0 2) = c.gates.ah.fn A) :
    ∃ W R B, lstmWeightsTf c.kernel bias c.forget = some (W, R, B) ∧ nth R.shape 2 = c.H ∧
      LstmAgrees A (c.step A) c.I c.H ⟨.forward, c.H, acts, W, R, B⟩ := by
  obtain ⟨W, R, B, e, hW, hR, hB, vW, vR, vB, vB0⟩ := lstmWeightsTf_get (forget := c.forget) hF.pos hF.kernel hb
  refine ⟨W, R, B, e, by rw [hR]; rfl, LstmAgrees.of_step ⟨hW, hR, hB, hlen⟩ rfl rfl ?_⟩
  intro s x
  obtain ⟨o1, o2, o3, o4⟩ := ord
  have gate : ∀ k < 4, ∀ j < c.H, (⟨.forward, c.H, acts, W, R, B⟩ : LstmNode K).gate 0 k s x j =
      (dot (c.I + c.H) (join c.I x s.h) (fun i => c.kernel.get [i, pTf k * c.H + j]) + (c.bias.elim 0 (fun b => b.get [pTf k * c.H + j]))) +
        if k = 2 then c.forget else 0 := by
    intro k hk j hj
    unfold LstmNode.gate
    rw [dot_join, show nth W.shape 2 = c.I by rw [hW]; rfl]
    show dot c.I x (fun i => W.get [0, k * c.H + j, i]) + dot c.H s.h (fun i => R.get [0, k * c.H + j, i]) + B.get [0, k * c.H + j] +
      B.get [0, 4 * c.H + (k * c.H + j)] = _
    rw [vB0 _ (col_lt hk hj), vB k hk j hj, hv _ (col_lt (pTf_lt k hk) hj), dot_congr (fun _ _ => rfl) (fun i _ => vW k hk j hj i),
      dot_congr (n := c.H) (fun _ _ => rfl) (fun i _ => vR k hk j hj i)]
    ring
  refine step_of_gates (fb := c.forget) rfl ho (af W R B) (ag W R B) (ah W R B) ?_ ?_ ?_ ?_
  · intro j hj; rw [gate 0 (by omega) j hj, o1, if_neg (by omega), add_zero]; rfl
  · intro j hj; rw [gate 1 (by omega) j hj, o4, if_neg (by omega), add_zero]; rfl
  · intro j hj; rw [gate 2 (by omega) j hj, o3, if_pos rfl]; rfl
  · intro j hj; rw [gate 3 (by omega) j hj, o2, if_neg (by omega), add_zero]; rfl

/-! ## Theorems -/

/-- TensorFlow 2, a TensorFlow cell with a bias whose gates are in TensorFlow's order and have one activation: whenever the rewriter makes a node, the node
computes what the loop computes, for all sequences, lengths and initial states. -/
theorem lstmTf2_converts (A : String → K → K) {c : TfLstm K} (hF : c.Fits) (ord : c.gates.tfOrder) (one : c.gates.oneAct) {nd : LstmNode K}
    (h : lstmTf2 c = some nd) : LstmAgrees A (c.step A) c.I c.H nd := by
  unfold lstmTf2 at h
  cases hb : c.bias with
  | none => rw [hb] at h; simp at h
  | some b =>
    cases ha : actsFgh c.gates with
    | none => rw [hb, ha] at h; simp at h
    | some acts =>
      obtain ⟨h3, af, ag, ah⟩ := actsFgh_fn A ha one
      have hne : acts ≠ [] := by rintro rfl; simp at h3
      obtain ⟨W, R, B, e, eH, ok⟩ := tf_step (A := A) hF ord ⟨one.1, one.2.1⟩ (hF.bias b hb) (fun m _ => by rw [hb]; rfl) (acts := acts) (Or.inr h3)
        (fun W R B => by unfold LstmNode.act; rw [if_neg hne]; exact af) (fun W R B => by unfold LstmNode.act; rw [if_neg hne]; exact ag)
        (fun W R B => by unfold LstmNode.act; rw [if_neg hne]; exact ah)
      rw [hb, ha] at h
      simp only [Option.bind_eq_bind, Option.bind_some, e] at h
      split at h
      · exact absurd h (by simp)
      · injection h with h
        rw [← h, eH]
        exact ok

/-- The same for keras; here the hard sigmoid with keras' constants is an activation as well, and the bias may be missing. -/
theorem lstmKeras_converts (A : String → K → K) {c : KerasLstm K} (hF : c.Fits) (ord : c.gates.kerasOrder) (one : c.gates.oneAct) {nd : LstmNode K}
    (h : lstmKeras c = some nd) : LstmAgrees A (c.step A) c.I c.H nd := by
  unfold lstmKeras at h
  cases ha : actsFgh c.gates with
  | none => rw [ha] at h; simp at h
  | some acts =>
    obtain ⟨h3, af, ag, ah⟩ := actsFgh_fn A ha one
    have hne : acts ≠ [] := by rintro rfl; simp at h3
    obtain ⟨W, R, B, e, hW, hR, hB, vW, vR, vB, vB0⟩ := lstmWeightsKeras_get hF.kernel hF.recurrent hF.bias
    have eH : nth R.shape 2 = c.H := by rw [hR]; rfl
    rw [ha] at h
    simp only [Option.bind_eq_bind, Option.bind_some, e, eH] at h
    injection h with h
    subst h
    refine LstmAgrees.of_step ⟨hW, hR, hB, Or.inr h3⟩ rfl rfl ?_
    intro s x
    obtain ⟨o1, o2, o3, o4⟩ := ord
    have gate : ∀ k < 4, ∀ j < c.H, (⟨.forward, c.H, acts, W, R, B⟩ : LstmNode K).gate 0 k s x j =
        dot c.I x (fun i => c.kernel.get [i, pKeras k * c.H + j]) + dot c.H s.h (fun i => c.recurrent.get [i, pKeras k * c.H + j]) +
        (c.bias.elim 0 (fun b => b.get [pKeras k * c.H + j])) := by
      intro k hk j hj
      unfold LstmNode.gate
      rw [show nth W.shape 2 = c.I by rw [hW]; rfl]
      show dot c.I x (fun i => W.get [0, k * c.H + j, i]) + dot c.H s.h (fun i => R.get [0, k * c.H + j, i]) + B.get [0, k * c.H + j] +
        B.get [0, 4 * c.H + (k * c.H + j)] = _
      rw [vB0 _ (col_lt hk hj), vB k hk j hj, dot_congr (fun _ _ => rfl) (fun i _ => vW k hk j hj i),
        dot_congr (n := c.H) (fun _ _ => rfl) (fun i _ => vR k hk j hj i), add_zero]
    have act : ∀ k, (⟨.forward, c.H, acts, W, R, B⟩ : LstmNode K).act 0 k = acts.getD (3 * 0 + k) "" := fun k => if_neg hne
    refine step_of_gates (fb := 0) rfl ⟨one.1, one.2.1⟩ (by rw [act]; exact af) (by rw [act]; exact ag) (by rw [act]; exact ah) ?_ ?_ ?_ ?_
    · intro j hj; rw [gate 0 (by omega) j hj, o1]; rfl
    · intro j hj; rw [gate 1 (by omega) j hj, o4]; rfl
    · intro j hj; rw [gate 2 (by omega) j hj, o2, add_zero]; rfl
    · intro j hj; rw [gate 3 (by omega) j hj, o3]; rfl

/-- TensorFlow 1: the same for a cell with the default activations, with or without bias. -/
theorem lstmTf1_converts (A : String → K → K) {c : TfLstm K} (hF : c.Fits) (ord : c.gates.tfOrder) (one : c.gates.defaults) {nd : LstmNode K}
    (h : lstmTf1 c = some nd) : LstmAgrees A (c.step A) c.I c.H nd := by
  obtain ⟨d1, d2, d3, d4, d5⟩ := one
  have hcols : nth c.kernel.shape 1 = 4 * c.H := by rw [hF.kernel]; rfl
  have hb : (c.bias.getD (npZeros [nth c.kernel.shape 1])).shape = [4 * c.H] := by
    cases hb : c.bias with
    | none => show [nth c.kernel.shape 1] = _; rw [hcols]
    | some b => exact hF.bias b hb
  obtain ⟨W, R, B, e, eH, ok⟩ := tf_step (A := A) hF ord ⟨d1.trans d2.symm, d3.trans d2.symm⟩ hb
    (fun m _ => by cases hb : c.bias <;> rfl) (acts := []) (Or.inl rfl)
    (fun W R B => by rw [d2]; exact onnxAct_default A (a := "Sigmoid") (by decide)) (fun W R B => by rw [d4]; exact onnxAct_default A (a := "Tanh") (by decide))
    (fun W R B => by rw [d5]; exact onnxAct_default A (a := "Tanh") (by decide))
  unfold lstmTf1 at h
  simp only at h
  split at h
  · exact absurd h (by simp)
  · cases ha : actsFgh c.gates with
    | none => rw [ha] at h; simp at h
    | some acts =>
      rw [ha] at h
      simp only [Option.bind_eq_bind, Option.bind_some, e] at h
      split at h
      · exact absurd h (by simp)
      · injection h with h
        rw [← h, eH]
        exact ok

/-! ## The rewriters make a node -/

theorem lstmTf2_some {c : TfLstm K} (hF : c.Fits) (one : c.gates.defaults) (hb : c.bias ≠ none) : ∃ nd, lstmTf2 c = some nd := by
  obtain ⟨d1, d2, d3, d4, d5⟩ := one
  obtain ⟨b, hb⟩ := Option.ne_none_iff_exists'.1 hb
  obtain ⟨W, R, B, e, _⟩ := lstmWeightsTf_get (forget := c.forget) hF.pos hF.kernel (hF.bias b hb)
  have ha : actsFgh c.gates = some ["Sigmoid", "Tanh", "Tanh"] := by
    unfold actsFgh
    rw [d1, d2, d3, d4, d5]
    exact if_pos (by decide)
  refine ⟨⟨.forward, nth R.shape 2, ["Sigmoid", "Tanh", "Tanh"], W, R, B⟩, ?_⟩
  unfold lstmTf2
  rw [hb, ha]
  simp only [Option.bind_eq_bind, Option.bind_some, e]
  exact if_neg (by decide)

theorem lstmTf1_some {c : TfLstm K} (hF : c.Fits) (hI : 0 < c.I + c.H) (one : c.gates.defaults) : ∃ nd, lstmTf1 c = some nd := by
  obtain ⟨d1, d2, d3, d4, d5⟩ := one
  have hcols : nth c.kernel.shape 1 = 4 * c.H := by rw [hF.kernel]; rfl
  have hb : (c.bias.getD (npZeros [nth c.kernel.shape 1])).shape = [4 * c.H] := by
    cases hb : c.bias with
    | none => show [nth c.kernel.shape 1] = _; rw [hcols]
    | some b => exact hF.bias b hb
  obtain ⟨W, R, B, e, _⟩ := lstmWeightsTf_get (forget := c.forget) hF.pos hF.kernel hb
  have ha : actsFgh c.gates = some ["Sigmoid", "Tanh", "Tanh"] := by
    unfold actsFgh
    rw [d1, d2, d3, d4, d5]
    exact if_pos (by decide)
  have hsz : ¬ (Tensor.size c.kernel.shape = 0 ∨ nth (c.bias.getD (npZeros [nth c.kernel.shape 1])).shape 0 ≠ nth c.kernel.shape 1) := by
    rintro (h | h)
    · rw [hF.kernel] at h
      have := hF.pos
      have h2 : (c.I + c.H) * (4 * c.H * 1) = 0 := h
      rcases Nat.mul_eq_zero.1 h2 with h | h <;> omega
    · rw [hb, hcols] at h
      exact h rfl
  refine ⟨⟨.forward, nth R.shape 2, [], W, R, B⟩, ?_⟩
  unfold lstmTf1
  simp only [if_neg hsz, ha, Option.bind_eq_bind, Option.bind_some, e]
  exact if_neg (by decide)

theorem lstmKeras_some {c : KerasLstm K} (hF : c.Fits) {acts : List String} (ha : actsFgh c.gates = some acts) : ∃ nd, lstmKeras c = some nd := by
  obtain ⟨W, R, B, e, _⟩ := lstmWeightsKeras_get hF.kernel hF.recurrent hF.bias
  refine ⟨⟨.forward, nth R.shape 2, acts, W, R, B⟩, ?_⟩
  unfold lstmKeras
  simp only [ha, Option.bind_eq_bind, Option.bind_some, e]

end Verif.Rnn
