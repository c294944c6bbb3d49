import Verif.Props.C56_Bi
import Mathlib.Tactic.NormNum
import Mathlib.Algebra.Order.Ring.Rat
import Mathlib.Algebra.Field.Rat
/-!
# C56: examples, and what the rewriters do not look at
-/
set_option linter.unusedSectionVars false
namespace Verif.Rnn.Ex
open Verif.Tensor Verif.Emit

def vecT (l : List ℚ) : T ℚ := ⟨[l.length], fun i => l.getD (nth i 0) 0⟩
def matT (r : Nat) (l : List (List ℚ)) : T ℚ := ⟨[l.length, r], fun i => (l.getD (nth i 0) []).getD (nth i 1) 0⟩

/-- Gates of TensorFlow with activations. -/
def tfGates (ai ag af ao ah : String) : Gates ℚ := ⟨0, 1, 2, 3, .op ai, .op ag, .op af, .op ao, .op ah⟩

/-- Default gates. -/
def dflt : Gates ℚ := tfGates "Sigmoid" "Tanh" "Sigmoid" "Sigmoid" "Tanh"

/-- A cell with two inputs and one hidden unit. -/
def cell : TfLstm ℚ := ⟨2, 1, matT 4 [[1, 2, 3, 4], [5, 6, 7, 8], [9, 1, 2, 3]], some (vecT [1, 0, -1, 2]), 1, dflt⟩

theorem cell_fits : cell.Fits := ⟨by decide, rfl, by rintro b h; injection h with h; subst h; rfl⟩

/-- The hypotheses of `lstmTf2_converts` hold for `cell`, and a node is made. -/
example (A : String → ℚ → ℚ) : ∃ nd, lstmTf2 cell = some nd ∧ LstmAgrees A (cell.step A) 2 1 nd := by
  obtain ⟨nd, h⟩ := lstmTf2_some cell_fits ⟨rfl, rfl, rfl, rfl, rfl⟩ (by simp [cell])
  exact ⟨nd, h, lstmTf2_converts A cell_fits ⟨rfl, rfl, rfl, rfl⟩ ⟨rfl, rfl, fun _ _ _ _ h => by simp [cell, dflt, tfGates] at h⟩ h⟩

/-- Those of `lstmTf1_converts`. -/
example (A : String → ℚ → ℚ) : ∃ nd, lstmTf1 cell = some nd ∧ LstmAgrees A (cell.step A) 2 1 nd := by
  obtain ⟨nd, h⟩ := lstmTf1_some cell_fits (by decide) ⟨rfl, rfl, rfl, rfl, rfl⟩
  exact ⟨nd, h, lstmTf1_converts A cell_fits ⟨rfl, rfl, rfl, rfl⟩ ⟨rfl, rfl, rfl, rfl, rfl⟩ h⟩

/-- A keras cell with the hard sigmoid and no bias. -/
def kcell : KerasLstm ℚ := ⟨2, 1, matT 4 [[1, 2, 3, 4], [5, 6, 7, 8]], matT 4 [[9, 1, 2, 3]], none,
  ⟨0, 2, 1, 3, .hard (1 / 5) (1 / 2) 1 0, .op "Tanh", .hard (1 / 5) (1 / 2) 1 0, .hard (1 / 5) (1 / 2) 1 0, .op "Relu"⟩⟩

theorem kcell_acts : actsFgh kcell.gates = some ["HardSigmoid", "Tanh", "Relu"] := by
  simp only [kcell, actsFgh]
  exact if_pos (by decide)

theorem kcell_fits : kcell.Fits := ⟨rfl, rfl, by rintro b h; simp [kcell] at h⟩

/-- Those of `lstmKeras_converts`. -/
example (A : String → ℚ → ℚ) : ∃ nd, lstmKeras kcell = some nd ∧ LstmAgrees A (kcell.step A) 2 1 nd := by
  have ha : actsFgh kcell.gates = some ["HardSigmoid", "Tanh", "Relu"] := kcell_acts
  obtain ⟨nd, h⟩ := lstmKeras_some kcell_fits ha
  refine ⟨nd, h, lstmKeras_converts A kcell_fits ⟨rfl, rfl, rfl, rfl⟩ ⟨rfl, rfl, ?_⟩ h⟩
  intro a b hi lo h
  simp only [kcell, TfAct.hard.injEq] at h
  obtain ⟨rfl, rfl, rfl, rfl⟩ := h
  exact ⟨rfl, rfl, rfl, rfl⟩

/-- A stack of two cells: two inputs, then one. -/
def layers : List (Layer ℚ) :=
  [⟨"cell_0/kernel".toList, id, cell⟩, ⟨"cell_1/kernel".toList, id, ⟨1, 1, matT 4 [[1, 2, 3, 4], [5, 6, 7, 8]], none, 1, dflt⟩⟩]

/-- Those of `lstmStack1_converts`. -/
example (A : String → ℚ → ℚ) : ∃ nds, lstmStack1 layers = some nds ∧ StackAgrees A layers nds 2 := by
  have f2 : (⟨1, 1, matT 4 [[1, 2, 3, 4], [5, 6, 7, 8]], none, 1, dflt⟩ : TfLstm ℚ).Fits := ⟨by decide, rfl, by rintro b h; simp at h⟩
  obtain ⟨n1, h1⟩ := lstmTf1_some cell_fits (by decide) ⟨rfl, rfl, rfl, rfl, rfl⟩
  obtain ⟨n2, h2⟩ := lstmTf1_some f2 (by decide) ⟨rfl, rfl, rfl, rfl, rfl⟩
  have ho : layers.Pairwise (fun a b => a.name ≤ b.name) := by
    simp only [layers, List.pairwise_cons, List.mem_singleton, List.not_mem_nil]
    refine ⟨?_, by simp, List.Pairwise.nil⟩
    rintro _ rfl
    decide
  have h : lstmStack1 layers = some [n1, n2] := by
    unfold lstmStack1
    rw [List.Pairwise.insertionSort_eq ho]
    simp only [layers, List.mapM_cons, List.mapM_nil, h1, h2]
    rfl
  refine ⟨_, h, lstmStack1_converts A (by simp [layers]) ?_ ?_ (show SizesFit 2 layers from ⟨rfl, rfl, trivial⟩) ho h⟩
  · intro l hl
    simp only [layers, List.mem_cons, List.not_mem_nil, or_false] at hl
    rcases hl with rfl | rfl
    · exact ⟨cell_fits, ⟨rfl, rfl, rfl, rfl⟩, ⟨rfl, rfl, rfl, rfl, rfl⟩⟩
    · exact ⟨f2, ⟨rfl, rfl, rfl, rfl⟩, ⟨rfl, rfl, rfl, rfl, rfl⟩⟩
  · intro l hl
    simp only [layers, List.mem_cons, List.not_mem_nil, or_false] at hl
    rcases hl with rfl | rfl <;> rfl

/-- A GRU cell. -/
def gcell : TfGru ℚ := ⟨2, 1, matT 2 [[1, 2], [3, 4], [5, 6]], vecT [1, 1], 0, 1, .op "Tanh", .inl (matT 1 [[1], [2], [3]], vecT [4])⟩

theorem gcell_fits : gcell.Fits := ⟨rfl, rfl, ⟨rfl, rfl⟩⟩

/-- Those of `gruTf_converts`. -/
example (A : String → ℚ → ℚ) (tf2 : Bool) : ∃ nd, gruTf tf2 gcell = some nd ∧ GruAgrees A (gcell.step A) 2 1 nd := by
  obtain ⟨W, R, B, e, _⟩ := gruWeights_get (rbh := none) gcell_fits.gateKernel gcell_fits.gateBias (hk := matT 1 [[1], [2], [3]]) (hb := vecT [4]) rfl rfl
    (fun _ h => by simp at h)
  have h : gruTf tf2 gcell = some ⟨.forward, nth R.shape 2, ["Sigmoid", "Tanh"], false, W, R, B⟩ := by
    unfold gruTf
    simp only [gcell, actName, Option.bind_eq_bind, Option.bind_some]
    rw [if_neg (by simp [defaultActs])]
    have e' := e
    simp only [gcell] at e'
    rw [e']
    rfl
  exact ⟨_, h, gruTf_converts A gcell_fits ⟨rfl, rfl⟩ (by simp [gcell]) (by rintro p h; simp [gcell] at h) h⟩

/-- The Cudnn compatible cell. -/
def ccell (a : String) : TfGru ℚ := ⟨2, 1, matT 2 [[1, 2], [3, 4], [5, 6]], vecT [1, 1], 0, 1, .op a, .inr ((matT 1 [[1], [2]], vecT [1]), (matT 1 [[3]], vecT [2]))⟩

theorem ccell_some (a : String) : ∃ W R B, gruTf false (ccell a) = some ⟨.forward, 1, ["Sigmoid", "Tanh"], true, W, R, B⟩ := by
  have ks : (concat 0 0 [matT 1 [[1], [2]], matT 1 [[3]]] : T ℚ).shape = [2 + 1, 1] := rfl
  obtain ⟨W, R, B, e, hW, hR, _⟩ := gruWeights_get (rbh := some (vecT [2])) (gk := matT 2 [[1, 2], [3, 4], [5, 6]]) (gb := vecT [1, 1]) (hb := vecT [1]) (I := 2) (H := 1) rfl rfl ks rfl
    (fun b h => by injection h with h; subst h; rfl)
  refine ⟨W, R, B, ?_⟩
  have eH : nth R.shape 2 = 1 := by rw [hR]; rfl
  unfold gruTf
  simp only [ccell, actName, Option.bind_eq_bind, Option.bind_some]
  rw [if_neg (by simp), if_neg (by simp), e]
  simp only [Option.bind_some, eH]

example (A : String → ℚ → ℚ) : ∃ nd, gruTf false (ccell "Tanh") = some nd ∧ GruAgrees A ((ccell "Tanh").step A) 2 1 nd := by
  obtain ⟨W, R, B, h⟩ := ccell_some "Tanh"
  exact ⟨_, h, gruTf_converts A (show (ccell "Tanh").Fits from ⟨rfl, rfl, ⟨rfl, rfl, rfl, rfl⟩⟩) ⟨rfl, rfl⟩ (by simp [ccell]) (fun _ _ => rfl) h⟩

/-- The activation of the Cudnn compatible cell is lost. -/
theorem cudnn_activation_lost : ∃ W R B, gruTf false (ccell "Relu") = some ⟨.forward, 1, ["Sigmoid", "Tanh"], true, W, R, B⟩ := ccell_some "Relu"

/-- A keras GRU cell. -/
def gkcell : KerasGru ℚ := ⟨2, 1, matT 3 [[1, 2, 3], [4, 5, 6]], matT 3 [[7, 8, 9]], vecT [1, 2, 3], vecT [4, 5, 6], 0, 1, 2, .op "Relu"⟩

/-- Those of `gruKeras_converts`. -/
example (A : String → ℚ → ℚ) : ∃ nd, gruKeras gkcell = some nd ∧ GruAgrees A (gkcell.step A) 2 1 nd := by
  have h : ∃ nd, gruKeras gkcell = some nd := ⟨_, rfl⟩
  obtain ⟨nd, h⟩ := h
  exact ⟨nd, h, gruKeras_converts A ⟨rfl, rfl, rfl, rfl⟩ ⟨rfl, rfl, rfl⟩ h⟩

/-- Those of `biLstm_converts`. -/
example (A : String → ℚ → ℚ) : ∃ fw bw nd, lstmTf2 cell = some fw ∧ lstmKeras kcell = some bw ∧ biLstm fw bw = some nd ∧ LstmMerged A fw bw nd 2 := by
  obtain ⟨fw, h⟩ := lstmTf2_some cell_fits ⟨rfl, rfl, rfl, rfl, rfl⟩ (by simp [cell])
  have a1 := lstmTf2_converts A cell_fits ⟨rfl, rfl, rfl, rfl⟩ ⟨rfl, rfl, fun _ _ _ _ h => by simp [cell, dflt, tfGates] at h⟩ h
  have ha : actsFgh kcell.gates = some ["HardSigmoid", "Tanh", "Relu"] := kcell_acts
  obtain ⟨bw, h'⟩ := lstmKeras_some kcell_fits ha
  have hk : kcell.gates.oneAct := by
    refine ⟨rfl, rfl, ?_⟩
    intro a b hi lo h
    simp only [kcell, TfAct.hard.injEq] at h
    obtain ⟨rfl, rfl, rfl, rfl⟩ := h
    exact ⟨rfl, rfl, rfl, rfl⟩
  have a2 := lstmKeras_converts A kcell_fits ⟨rfl, rfl, rfl, rfl⟩ hk h'
  have s1 : fw.dir = .forward ∧ fw.hidden = 1 ∧ fw.acts = ["Sigmoid", "Tanh", "Tanh"] := by
    obtain ⟨W, R, B, e, hW, hR, _⟩ := lstmWeightsTf_get (forget := cell.forget) cell_fits.pos cell_fits.kernel (cell_fits.bias _ rfl)
    have ea : actsFgh cell.gates = some ["Sigmoid", "Tanh", "Tanh"] := by
      simp only [cell, dflt, tfGates, actsFgh]
      exact if_pos (by decide)
    have eH : nth R.shape 2 = 1 := by rw [hR]; rfl
    unfold lstmTf2 at h
    rw [ea] at h
    simp only [cell] at e h
    simp only [Option.bind_eq_bind, Option.bind_some, e, eH] at h
    rw [if_neg (by decide)] at h
    injection h with h
    subst h
    exact ⟨rfl, rfl, rfl⟩
  have s2 : bw.dir = .forward ∧ bw.hidden = 1 ∧ bw.acts = ["HardSigmoid", "Tanh", "Relu"] := by
    obtain ⟨W, R, B, e, hW, hR, _⟩ := lstmWeightsKeras_get kcell_fits.kernel kcell_fits.recurrent kcell_fits.bias
    have eH : nth R.shape 2 = 1 := by rw [hR]; rfl
    unfold lstmKeras at h'
    rw [ha] at h'
    simp only [Option.bind_eq_bind, Option.bind_some, e, eH] at h'
    injection h' with h'
    subst h'
    exact ⟨rfl, rfl, rfl⟩
  have hb : biLstm fw bw = some ⟨.bidirectional, fw.hidden, fw.acts ++ bw.acts, concat 0 0 [fw.W, bw.W], concat 0 0 [fw.R, bw.R], concat 0 0 [fw.B, bw.B]⟩ :=
    if_pos (s1.2.1.trans s2.2.1.symm)
  exact ⟨fw, bw, _, h, h', hb, biLstm_converts A s1.1 s2.1 a1.1 a2.1 (by rw [s1.2.2, s2.2.2]; simp) hb⟩

/-! ## What is not looked at -/

/-- A node that agrees with two cells: the cells do the same, from the zero state with zero input. -/
theorem two_agree {A : String → ℚ → ℚ} {f g : Lstm ℚ → (Nat → ℚ) → Lstm ℚ} {nd : LstmNode ℚ} (hf : LstmAgrees A f 1 1 nd) (hg : LstmAgrees A g 1 1 nd) :
    (f ⟨fun _ => 0, fun _ => 0⟩ (fun _ => 0)).c 0 = (g ⟨fun _ => 0, fun _ => 0⟩ (fun _ => 0)).c 0 := by
  have z : ∀ n : Nat, (vec n (fun _ => 0) : Nat → ℚ) = fun _ => 0 := by
    intro n; funext i; unfold vec; split <;> rfl
  have b : Batch (npZeros [1, 1, 1] : T ℚ) none 1 1 1 := ⟨rfl, by simp⟩
  have h1 := (hf.2 (npZeros [1, 1, 1]) none 1 1 (npZeros [1, 1]) (npZeros [1, 1]) b rfl rfl).2.2
  have h2 := (hg.2 (npZeros [1, 1, 1]) none 1 1 (npZeros [1, 1]) (npZeros [1, 1]) b rfl rfl).2.2
  have h3 := (h1.symm.trans h2).2 [0, 0] ⟨rfl, by
    intro k hk
    match k, hk with
    | 0, _ => exact Nat.zero_lt_one
    | 1, _ => exact Nat.zero_lt_one
    | k + 2, hk => simp [tfState] at hk⟩
  have e : ∀ s : Lstm ℚ → (Nat → ℚ) → Lstm ℚ, (tfState s Lstm.c 1 (tfInit (npZeros [1, 1]) (npZeros [1, 1])) (npZeros [1, 1, 1]) none).get [0, 0] =
      (s ⟨fun _ => 0, fun _ => 0⟩ (fun _ => 0)).c 0 := by
    intro s
    show (s ⟨vec 1 (fun _ => 0), vec 1 (fun _ => 0)⟩ (vec 1 (fun _ => 0))).c 0 = _
    rw [z]
  rw [e, e] at h3
  exact h3

/-- A cell with zero weights; gate number `k` of the split is `b k`. -/
def zcell (b : List ℚ) (G : Gates ℚ) : TfLstm ℚ := ⟨1, 1, npZeros [2, 4], some ⟨[4], fun i => b.getD (nth i 0) 0⟩, 0, G⟩

theorem zcell_fits (b : List ℚ) (G : Gates ℚ) : (zcell b G).Fits := ⟨Nat.zero_lt_one, rfl, by rintro b h; injection h with h; subst h; rfl⟩

theorem zcell_step (A : String → ℚ → ℚ) (b : List ℚ) (G : Gates ℚ) :
    ((zcell b G).step A ⟨fun _ => 0, fun _ => 0⟩ (fun _ => 0)).c 0 = G.ai.fn A (b.getD G.i 0) * G.ag.fn A (b.getD G.g 0) := by
  have d : ∀ (m : Nat) (f : Nat → ℚ), dot m f (fun _ => 0) = 0 := by intro m f; simp [dot]
  show G.af.fn A _ * 0 + G.ai.fn A (dot _ _ (fun _ => 0) + b.getD (G.i * 1 + 0) 0) * G.ag.fn A (dot _ _ (fun _ => 0) + b.getD (G.g * 1 + 0) 0) = _
  simp only [d]
  simp

/-- TensorFlow 1: the activation of a cell is lost; with `Relu`, the node does not compute what the loop computes. -/
theorem tf1_activation_lost (A : String → ℚ → ℚ) (h1 : A "Sigmoid" 0 ≠ 0) (h2 : A "Relu" 1 ≠ A "Tanh" 1) :
    ∃ nd, lstmTf1 (zcell [0, 1, 0, 0] (tfGates "Sigmoid" "Relu" "Sigmoid" "Sigmoid" "Relu")) = some nd ∧
      ¬ LstmAgrees A ((zcell [0, 1, 0, 0] (tfGates "Sigmoid" "Relu" "Sigmoid" "Sigmoid" "Relu")).step A) 1 1 nd := by
  obtain ⟨nd, h⟩ := lstmTf1_some (zcell_fits [0, 1, 0, 0] dflt) (by decide) ⟨rfl, rfl, rfl, rfl, rfl⟩
  refine ⟨nd, h, fun hb => ?_⟩
  have hg := lstmTf1_converts A (zcell_fits [0, 1, 0, 0] dflt) ⟨rfl, rfl, rfl, rfl⟩ ⟨rfl, rfl, rfl, rfl, rfl⟩ h
  have := two_agree hb hg
  rw [zcell_step, zcell_step] at this
  exact h2 (mul_left_cancel₀ h1 this)

/-- TensorFlow 2: only the activation of the forget gate is looked at. -/
theorem tf2_gate_activation_lost (A : String → ℚ → ℚ) (h1 : A "Tanh" 1 ≠ 0) (h2 : A "Relu" 1 ≠ A "Sigmoid" 1) :
    ∃ nd, lstmTf2 (zcell [1, 1, 0, 0] (tfGates "Relu" "Tanh" "Sigmoid" "Sigmoid" "Tanh")) = some nd ∧
      ¬ LstmAgrees A ((zcell [1, 1, 0, 0] (tfGates "Relu" "Tanh" "Sigmoid" "Sigmoid" "Tanh")).step A) 1 1 nd := by
  obtain ⟨nd, h⟩ := lstmTf2_some (zcell_fits [1, 1, 0, 0] dflt) ⟨rfl, rfl, rfl, rfl, rfl⟩ (by simp [zcell])
  refine ⟨nd, h, fun hb => ?_⟩
  have hg := lstmTf2_converts A (zcell_fits [1, 1, 0, 0] dflt) ⟨rfl, rfl, rfl, rfl⟩ ⟨rfl, rfl, fun _ _ _ _ h => by simp [zcell, dflt, tfGates] at h⟩ h
  have := two_agree hb hg
  rw [zcell_step, zcell_step] at this
  exact h2 (mul_right_cancel₀ h1 this)

/-- Which part of the split a gate reads is not looked at: a cell whose input gate is the last part. -/
theorem gate_order_ignored (A : String → ℚ → ℚ) (h1 : A "Tanh" 0 ≠ 0 ∨ A "Tanh" 1 ≠ 0) (h2 : A "Sigmoid" 0 ≠ A "Sigmoid" 1) :
    ∃ b nd, lstmTf2 (zcell b { dflt with i := 3, o := 0 }) = some nd ∧ ¬ LstmAgrees A ((zcell b { dflt with i := 3, o := 0 }).step A) 1 1 nd := by
  have key : ∀ x : ℚ, A "Tanh" x ≠ 0 → ∃ nd, lstmTf2 (zcell [0, x, 0, 1] { dflt with i := 3, o := 0 }) = some nd ∧
      ¬ LstmAgrees A ((zcell [0, x, 0, 1] { dflt with i := 3, o := 0 }).step A) 1 1 nd := by
    intro x hx
    obtain ⟨nd, h⟩ := lstmTf2_some (zcell_fits [0, x, 0, 1] dflt) ⟨rfl, rfl, rfl, rfl, rfl⟩ (by simp [zcell])
    refine ⟨nd, h, fun hb => ?_⟩
    have hg := lstmTf2_converts A (zcell_fits [0, x, 0, 1] dflt) ⟨rfl, rfl, rfl, rfl⟩ ⟨rfl, rfl, fun _ _ _ _ h => by simp [zcell, dflt, tfGates] at h⟩ h
    have := two_agree hb hg
    rw [zcell_step, zcell_step] at this
    exact h2 (mul_right_cancel₀ hx this).symm
  rcases h1 with h1 | h1
  · exact ⟨_, key 0 h1⟩
  · exact ⟨_, key 1 h1⟩

/-- A keras cell with zero weights. -/
def zkcell (b : List ℚ) (G : Gates ℚ) : KerasLstm ℚ := ⟨1, 1, npZeros [1, 4], npZeros [1, 4], some ⟨[4], fun i => b.getD (nth i 0) 0⟩, G⟩

theorem zkcell_fits (b : List ℚ) (G : Gates ℚ) : (zkcell b G).Fits := ⟨rfl, rfl, by rintro b h; injection h with h; subst h; rfl⟩

theorem zkcell_step (A : String → ℚ → ℚ) (b : List ℚ) (G : Gates ℚ) :
    ((zkcell b G).step A ⟨fun _ => 0, fun _ => 0⟩ (fun _ => 0)).c 0 = G.ai.fn A (b.getD G.i 0) * G.ag.fn A (b.getD G.g 0) := by
  have d : ∀ (m : Nat) (f : Nat → ℚ), dot m f (fun _ => 0) = 0 := by intro m f; simp [dot]
  show G.af.fn A _ * 0 + G.ai.fn A (dot _ _ (fun _ => 0) + dot _ _ (fun _ => 0) + b.getD (G.i * 1 + 0) 0) *
    G.ag.fn A (dot _ _ (fun _ => 0) + dot _ _ (fun _ => 0) + b.getD (G.g * 1 + 0) 0) = _
  simp only [d]
  simp

/-- Keras gates with a hard sigmoid `max(0, min(1, a * x + 1 / 2))`. -/
def hardGates (a : ℚ) : Gates ℚ := ⟨0, 2, 1, 3, .hard a (1 / 2) 1 0, .op "Tanh", .hard a (1 / 2) 1 0, .hard a (1 / 2) 1 0, .op "Tanh"⟩

theorem hard_acts (a : ℚ) (b : List ℚ) : actsFgh (zkcell b (hardGates a)).gates = some ["HardSigmoid", "Tanh", "Tanh"] := by
  simp only [zkcell, hardGates, actsFgh]
  exact if_pos (by decide)

/-- The constants of the hard sigmoid are not looked at: with slope 1/6, the node computes something else. -/
theorem hard_sigmoid_constants_ignored (A : String → ℚ → ℚ) (h1 : A "Tanh" 1 ≠ 0) :
    ∃ nd, lstmKeras (zkcell [1, 0, 1, 0] (hardGates (1 / 6))) = some nd ∧ ¬ LstmAgrees A ((zkcell [1, 0, 1, 0] (hardGates (1 / 6))).step A) 1 1 nd := by
  obtain ⟨nd, h⟩ := lstmKeras_some (zkcell_fits [1, 0, 1, 0] (hardGates (1 / 5))) (hard_acts _ _)
  have h' : lstmKeras (zkcell [1, 0, 1, 0] (hardGates (1 / 6))) = some nd := by
    rw [← h]
    unfold lstmKeras
    rw [hard_acts, hard_acts]
    rfl
  refine ⟨nd, h', fun hb => ?_⟩
  have ho : (zkcell [1, 0, 1, 0] (hardGates (1 / 5))).gates.oneAct := by
    refine ⟨rfl, rfl, ?_⟩
    intro a b hi lo h
    simp only [zkcell, hardGates, TfAct.hard.injEq] at h
    obtain ⟨rfl, rfl, rfl, rfl⟩ := h
    exact ⟨rfl, rfl, rfl, rfl⟩
  have hg := lstmKeras_converts A (zkcell_fits [1, 0, 1, 0] (hardGates (1 / 5))) ⟨rfl, rfl, rfl, rfl⟩ ho h
  have := two_agree hb hg
  rw [zkcell_step, zkcell_step] at this
  have h3 := mul_right_cancel₀ h1 this
  simp only [hardGates, TfAct.fn, List.getD_cons_zero] at h3
  norm_num at h3

/-- TensorFlow 1, one tensor for the state: `h` and `c` are exchanged. -/
theorem tf1_state_swapped {s : T ℚ} {N H : Nat} (hs : s.shape = [N, 2 * H]) (n : Nat) :
    lstmInit (initBoth1 H s).1 (initBoth1 H s).2 0 n = tfInit (stateC H s) (stateH H s) n := by
  unfold lstmInit tfInit row3 row2 initBoth1
  have h1 : nth (expand0 (splitChunk 1 [H, H] 0 s)).shape 2 = H := by
    show nth (1 :: setAt s.shape 1 H) 2 = _
    rw [hs]; rfl
  have h2 : nth (expand0 (splitChunk 1 [H, H] 1 s)).shape 2 = H := by
    show nth (1 :: setAt s.shape 1 H) 2 = _
    rw [hs]; rfl
  rw [h1, h2]
  refine congrArg₂ Lstm.mk (vec_congr (fun i _ => rfl)) (vec_congr (fun i _ => ?_))
  show s.get [n, i + H] = s.get [n, H + i]
  rw [Nat.add_comm]

theorem sort_two {x y : Layer ℚ} (h : ¬ x.name ≤ y.name) : List.insertionSort (fun a b : Layer ℚ => a.name ≤ b.name) [x, y] = [y, x] := by
  simp only [List.insertionSort, List.foldr, List.orderedInsert]
  rw [if_neg h]

/-- Layers are sorted by the name of the kernel as a string: from eleven layers on, the order is wrong. -/
theorem layers_sorted_by_string (c d : TfLstm ℚ) (f g : (Nat → ℚ) → Nat → ℚ) :
    lstmStack1 [⟨"cell_2/kernel".toList, f, c⟩, ⟨"cell_10/kernel".toList, g, d⟩] = [d, c].mapM lstmTf1 := by
  have h : ¬ ("cell_2/kernel".toList ≤ "cell_10/kernel".toList) := by decide
  unfold lstmStack1
  rw [sort_two (x := ⟨"cell_2/kernel".toList, f, c⟩) (y := ⟨"cell_10/kernel".toList, g, d⟩) h]
  rfl

/-- What a layer reads is not looked at (dropout, residual connections, anything between two layers). -/
theorem wrappers_ignored {K : Type} [Field K] [LinearOrder K] (l : List (Layer K)) (f : Layer K → (Nat → K) → Nat → K) :
    lstmStack1 (l.map (fun x => { x with pre := f x })) = lstmStack1 l := by
  have key : ∀ l : List (Layer K), (l.map (fun x => { x with pre := f x })).insertionSort (fun a b => a.name ≤ b.name) =
      (l.insertionSort (fun a b => a.name ≤ b.name)).map (fun x => { x with pre := f x }) := by
    intro l
    exact (List.map_insertionSort (r := fun a b : Layer K => a.name ≤ b.name) (s := fun a b : Layer K => a.name ≤ b.name) (f := fun x => { x with pre := f x }) (l := l) (fun _ _ _ _ => Iff.rfl)).symm
  unfold lstmStack1
  rw [key, List.mapM_map]
  rfl

/-- A node whose candidate is `Tanh(x)`. -/
def tanhNode : LstmNode ℚ := ⟨.forward, 1, [], ⟨[1, 4, 1], fun i => if nth i 1 = 3 then 1 else 0⟩, npZeros [1, 4, 1], npZeros [1, 8]⟩

theorem tanhNode_step (A : String → ℚ → ℚ) (x : Nat → ℚ) :
    (tanhNode.step A 0 ⟨fun _ => 0, fun _ => 0⟩ x).c 0 = A "Sigmoid" 0 * A "Tanh" (x 0) := by
  simp [tanhNode, LstmNode.step, LstmNode.gate, LstmNode.act, onnxAct, vec, dot, npZeros, nth]

/-- Two steps: 0, then 1. -/
def twoSteps : T ℚ := ⟨[2, 1, 1], fun i => if nth i 0 = 1 then 1 else 0⟩

/-- How the input of the second network is reversed is not looked at: with `ReverseV2` (whole sequences) and sequence lengths, the merged node computes
something else. -/
theorem reversal_ignored (A : String → ℚ → ℚ) (h1 : A "Sigmoid" 0 ≠ 0) (h2 : A "Tanh" 0 ≠ A "Tanh" 1) : ∃ nd, biLstm tanhNode tanhNode = some nd ∧
    let z := npZeros [1, 1, 1]
    ¬ Same (biSlice 0 1 (nd.eval A twoSteps (some fun _ => 1) (biInit z z) (biInit z z)).2.2)
      (tanhNode.eval A (revTime none twoSteps) (some fun _ => 1) z z).2.2 := by
  have hb : biLstm tanhNode tanhNode = some ⟨.bidirectional, 1, [], concat 0 0 [tanhNode.W, tanhNode.W], concat 0 0 [tanhNode.R, tanhNode.R], concat 0 0 [tanhNode.B, tanhNode.B]⟩ := rfl
  have m := biLstm_converts A (I := 1) rfl rfl ⟨rfl, rfl, rfl, Or.inl rfl⟩ ⟨rfl, rfl, rfl, Or.inl rfl⟩ Iff.rfl hb
  have hm := (m.2 twoSteps (some fun _ => 1) 2 1 (npZeros [1, 1, 1]) (npZeros [1, 1, 1]) (npZeros [1, 1, 1]) (npZeros [1, 1, 1])
    ⟨rfl, by rintro l h n _; injection h with h; subst h; exact Nat.le_succ 1⟩ (by simp [npZeros, tanhNode])).2.2.2.2.2
  refine ⟨_, hb, fun hc => ?_⟩
  have h := (hm.symm.trans hc).2 [0, 0, 0] ⟨rfl, by
    intro k hk
    match k, hk with
    | 0, _ => exact Nat.zero_lt_one
    | 1, _ => exact Nat.zero_lt_one
    | 2, _ => exact Nat.zero_lt_one
    | k + 3, hk => simp [LstmNode.eval, onnxLast] at hk⟩
  have z : ∀ n : Nat, (vec n (fun _ => 0) : Nat → ℚ) = fun _ => 0 := by
    intro n; funext i; unfold vec; split <;> rfl
  have e : ∀ X : T ℚ, (tanhNode.eval A X (some fun _ => 1) (npZeros [1, 1, 1]) (npZeros [1, 1, 1])).2.2.get [0, 0, 0] = A "Sigmoid" 0 * A "Tanh" (row3 X 0 0 0) := by
    intro X
    show (tanhNode.step A 0 ⟨vec 1 (fun _ => 0), vec 1 (fun _ => 0)⟩ (row3 X 0 0)).c 0 = _
    rw [z, tanhNode_step]
  rw [e, e] at h
  exact h2 (mul_left_cancel₀ h1 h)

end Verif.Rnn.Ex
