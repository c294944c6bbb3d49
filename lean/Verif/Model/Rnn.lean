import Verif.Spec.Rnn
import Verif.Spec.OnnxEval
import Mathlib.Data.List.Sort
/-!
# Rewriting TensorFlow recurrent cells to ONNX `LSTM` and `GRU` nodes

The rewriters find a cell by matching a pattern against the loop body; what the pattern matched is described by the cell types of `Spec/Rnn` (which part of
the split a gate reads, its activation, the constant weights). Not modelled: how the loop itself is found, names, recorded shapes and types.
An exception or a pattern that does not match is `none` (the loop is then converted as a loop).
-/
namespace Verif.Rnn
open Verif.Tensor Verif.Emit

variable {K : Type} [Field K] [LinearOrder K]

/-! ## numpy -/

/-- `np.split(x, n, axis)`: raises if the axis cannot be split into `n` equal parts. -/
def npSplit (a n : Nat) (x : T K) : Option (List (T K)) :=
  if n ∣ nth x.shape a then some ((List.range n).map (fun k => splitChunk a (List.replicate n (nth x.shape a / n)) k x)) else none

/-- `np.split(x, [k], axis)`. -/
def npSplitAt (a k : Nat) (x : T K) : T K × T K :=
  (splitChunk a [k, nth x.shape a - k] 0 x, splitChunk a [k, nth x.shape a - k] 1 x)

/-- `np.zeros(shape)`. -/
def npZeros (s : List Nat) : T K := ⟨s, fun _ => 0⟩

/-- `np.expand_dims(x, axis=0)`, `np.array([x])`, and `Unsqueeze` of axis 0. -/
def expand0 (x : T K) : T K := ⟨1 :: x.shape, fun idx => x.get idx.tail⟩

/-- `np.reshape(b, (1, n))` of a vector. -/
def asRow (b : T K) : T K := expand0 b

/-- `Squeeze` of axis `a` (rank `r`). -/
def squeezeAt (r a : Nat) (x : T K) : T K := Tensor.squeeze (axSet r [(a : Int)]) x

/-! ## LSTM (tf2onnx/rewriter/lstm_rewriter.py) -/

/-- Element `k` of a list of arrays. -/
def part (l : List (T K)) (k : Nat) : T K := l.getD k (npZeros [])

/-- `_convert_gates_icfo_to_iofc` with axis 1 (lstm_rewriter.py:217-219). -/
def icfoToIofc (g : List (T K)) : T K := concat 0 1 [part g 0, part g 3, part g 2, part g 1]

/-- `_convert_gates_ifco_to_iofc` with axis 1 (lstm_rewriter.py:221-223). -/
def ifcoToIofc (g : List (T K)) : T K := concat 0 1 [part g 0, part g 3, part g 1, part g 2]

/-- The end of `_process_weights_and_bias_per_layer` (lstm_rewriter.py:266-281): the gates reordered by `conv`, transposed, with one direction. -/
def lstmWeights (conv : List (T K) → T K) (wx wh wb : T K) (biasDim : Nat) : Option (T K × T K × T K) := do
  let gw ← npSplit 1 4 wx
  let gh ← npSplit 1 4 wh
  some (expand0 (transpose [1, 0] (conv gw)), expand0 (transpose [1, 0] (conv gh)), concat 0 1 [wb, npZeros [1, biasDim]])

/-- `_process_weights_and_bias_per_layer`, not from keras (lstm_rewriter.py:248-281): the forget bias is added to the third gate of the bias. -/
def lstmWeightsTf (kernel bias : T K) (forget : K) : Option (T K × T K × T K) := do
  let dim := nth bias.shape 0
  let H := dim / 4
  let gb ← npSplit 1 4 (asRow bias)
  let gb := gb.set 2 ⟨(part gb 2).shape, fun i => (part gb 2).get i + forget⟩
  let (wx, wh) := npSplitAt 0 (if H = 0 then 0 else nth kernel.shape 0 - H) kernel
  if nth wx.shape 1 / 4 = H then lstmWeights icfoToIofc wx wh (icfoToIofc gb) dim else none

/-- `_process_weights_and_bias_per_layer` from keras (lstm_rewriter.py:228-246, 266-281). -/
def lstmWeightsKeras (wx wh : T K) (bias : Option (T K)) : Option (T K × T K × T K) :=
  let H := nth wx.shape 1 / 4
  match bias with
  | some b => do
    let gb ← npSplit 1 4 (asRow b)
    if nth b.shape 0 / 4 = H then lstmWeights ifcoToIofc wx wh (ifcoToIofc gb) (nth b.shape 0) else none
  | none => lstmWeights ifcoToIofc wx wh (npZeros [1, 4 * H]) (4 * H)

/-- `default_activations` (lstm_tf2_rewriter.py:52). -/
def defaultActs : List String := ["Relu", "Sigmoid", "Tanh"]

/-- The activations of the pattern (rnn_utils.py:30-48, 92-116) and `activations_fgh` (lstm_tf2_rewriter.py:45-63): the input and the output gate are
matched, but only the activation of the forget gate is looked at; neither are the constants of the hard sigmoid. -/
def actsFgh (G : Gates K) : Option (List String) :=
  match G.af, G.ai, G.ao, G.ag, G.ah with
  | .op f, .op i, .op o, .op g, .op h => if ∀ a ∈ [f, i, o, g, h], a ∈ defaultActs then some [f, g, h] else none
  | .hard .., .hard .., .hard .., .op g, .op h => if ∀ a ∈ [g, h], a ∈ defaultActs then some ["HardSigmoid", g, h] else none
  | _, _, _, _, _ => none

/-- `rewriter_lstm_tf2` for a TensorFlow cell (lstm_tf2_rewriter.py:29-291; the pattern has no hard sigmoid): which part of the split a gate reads is not
looked at. `create_single_rnn_node` (lstm_rewriter.py:372-395) makes a forward node. -/
def lstmTf2 (c : TfLstm K) : Option (LstmNode K) := do
  let b ← c.bias
  let acts ← actsFgh c.gates
  if acts.getD 0 "" = "HardSigmoid" then none
  else
    let (W, R, B) ← lstmWeightsTf c.kernel b c.forget
    some ⟨.forward, nth R.shape 2, acts, W, R, B⟩

/-- `rewriter_lstm_tf2` for a keras cell. -/
def lstmKeras (c : KerasLstm K) : Option (LstmNode K) := do
  let acts ← actsFgh c.gates
  let (W, R, B) ← lstmWeightsKeras c.kernel c.recurrent c.bias
  some ⟨.forward, nth R.shape 2, acts, W, R, B⟩

/-- `LSTMRewriter` for one cell (lstm_rewriter.py:93-127, 129-141, 225-305): `_get_weight_and_bias_for_lstm_cell` gives zeros for a missing bias and
gives up if kernel and bias do not fit; no activations are written into the node (`parse_attributes` looks at block cells only). -/
def lstmTf1 (c : TfLstm K) : Option (LstmNode K) := do
  let b := c.bias.getD (npZeros [nth c.kernel.shape 1])
  if Tensor.size c.kernel.shape = 0 ∨ nth b.shape 0 ≠ nth c.kernel.shape 1 then none
  else
    let acts ← actsFgh c.gates
    if acts.getD 0 "" = "HardSigmoid" then none
    else
      let (W, R, B) ← lstmWeightsTf c.kernel b c.forget
      some ⟨.forward, nth R.shape 2, [], W, R, B⟩

/-- A cell in a stack: the name of its kernel, and what is done to its input before the cell reads it. -/
structure Layer (K : Type) where
  name : List Char
  pre : (Nat → K) → Nat → K
  cell : TfLstm K

/-- All cells of a loop body (lstm_rewriter_base.py:62-64: sorted by the name of the kernel; lstm_rewriter.py:397-415: every node reads the output of the
one before). What the cells really read is not looked at. -/
def lstmStack1 (l : List (Layer K)) : Option (List (LstmNode K)) :=
  (l.insertionSort (fun a b => a.name ≤ b.name)).mapM (fun x => lstmTf1 x.cell)

/-- `create_rnn_node` (lstm_rewriter.py:397-415) and `_connect_lstm_yh_to_graph`, `_connect_lstm_yc_to_graph` (:417-441): what the nodes compute, each from
the squeezed `Y` of the one before; `init` are the initial `h` and `c`. -/
def runNodes (A : String → K → K) (lens : Option (Nat → Nat)) : List (LstmNode K) → List (T K × T K) → T K → T K × List (T K × T K)
  | nd :: nds, i :: init, X =>
    let y := nd.eval A X lens (expand0 i.1) (expand0 i.2)
    let r := runNodes A lens nds init (squeezeAt 4 1 y.1)
    (r.1, (squeezeAt 3 0 y.2.1, squeezeAt 3 0 y.2.2) :: r.2)
  | _, _, X => (X, [])

/-- Initial `(h, c)` from one tensor for both, `_process_non_tuple_ch_init_nodes` (lstm_rewriter.py:315-316, 332-347). -/
def initBoth1 (H : Nat) (s : T K) : T K × T K :=
  (expand0 (splitChunk 1 [H, H] 0 s), expand0 (splitChunk 1 [H, H] 1 s))

/-- Initial `(h, c)` from one constant for both (lstm_tf2_rewriter.py:238-247). -/
def initBoth2 (s : T K) : Option (T K × T K) := do
  if s.shape.length = 2 then
    let l ← npSplit 2 2 (expand0 s)
    some (part l 1, part l 0)
  else none

/-- The final state as one tensor: `Concat([Y_c, Y_h])`, `Squeeze` (lstm_rewriter.py:443-463, lstm_tf2_rewriter.py:307-312). -/
def finalBoth (yh yc : T K) : T K := squeezeAt 3 0 (concat 0 2 [yc, yh])

/-! ## GRU (tf2onnx/rewriter/gru_rewriter.py) -/

/-- `process_weights_and_bias` (gru_rewriter.py:158-205); `rbh` is `Rb_h`. -/
def gruWeights (gateKernel gateBias hKernel hBias : T K) (rbh : Option (T K)) : Option (T K × T K × T K) :=
  let H := nth hKernel.shape 1
  let I := nth hKernel.shape 0 - H
  let rz := npSplitAt 1 H gateKernel
  let b := npSplitAt 0 H gateBias
  let r := npSplitAt 0 I rz.1
  let z := npSplitAt 0 I rz.2
  let h := npSplitAt 0 I hKernel
  let W := expand0 (transpose [1, 0] (concat 0 1 [z.1, r.1, h.1]))
  let R := expand0 (transpose [1, 0] (concat 0 1 [z.2, r.2, h.2]))
  let zero := npZeros b.2.shape
  let B := expand0 (concat 0 0 [concat 0 0 [b.2, b.1, hBias], concat 0 0 [zero, zero, rbh.getD zero]])
  if W.shape = [1, 3 * H, I] ∧ R.shape = [1, 3 * H, H] ∧ B.shape = [1, 6 * H] then some (W, R, B) else none

/-- The name of an activation that is one operator. -/
def actName : TfAct K → Option String
  | .op a => some a
  | .hard .. => none

/-- `GRUUnitRewriter` (gru_rewriter.py:48-94, 112-120, 213-243) and `rewrite_gru_tf2` for a TensorFlow cell (gru_tf2_rewriter.py:18-172; `tf2`): the
latter accepts three activations only, and knows the cell with one kernel only. For the Cudnn compatible cell the activation is not looked at. -/
def gruTf (tf2 : Bool) (c : TfGru K) : Option (GruNode K) := do
  let a ← actName c.act
  if tf2 = true ∧ a ∉ defaultActs then none
  else
    match c.cand with
    | .inl (k, b) =>
      let (W, R, B) ← gruWeights c.gateKernel c.gateBias k b none
      some ⟨.forward, nth R.shape 2, ["Sigmoid", a], false, W, R, B⟩
    | .inr ((wx, bx), (wh, bh)) =>
      if tf2 then none
      else
        let (W, R, B) ← gruWeights c.gateKernel c.gateBias (concat 0 0 [wx, wh]) bx (some bh)
        some ⟨.forward, nth R.shape 2, ["Sigmoid", "Tanh"], true, W, R, B⟩

/-- `rewrite_gru_tf2` for a keras cell with `_process_weights_and_bias_keras` (gru_rewriter.py:149-156). -/
def gruKeras (c : KerasGru K) : Option (GruNode K) := do
  let a ← actName c.act
  if a ∉ defaultActs then none
  else
    let W := expand0 (transpose [1, 0] c.kernel)
    let R := expand0 (transpose [1, 0] c.recurrent)
    some ⟨.forward, nth R.shape 2, ["Sigmoid", a], true, W, R, expand0 (concat 0 0 [c.biasI, c.biasR])⟩

/-! ## Bidirectional networks (tf2onnx/rewriter/bilstm_rewriter.py, bigru_rewriter.py) -/

/-- `process_bilstm` (bilstm_rewriter.py:20-75) after `belong_to_birnn` (rnn_utils.py:560-592): weights and activations one after the other. The input of
the new node is that of the forward node. -/
def biLstm (fw bw : LstmNode K) : Option (LstmNode K) :=
  if fw.hidden = bw.hidden then
    some ⟨.bidirectional, fw.hidden, fw.acts ++ bw.acts, concat 0 0 [fw.W, bw.W], concat 0 0 [fw.R, bw.R], concat 0 0 [fw.B, bw.B]⟩
  else none

/-- `process_bigru` (bigru_rewriter.py:20-70). -/
def biGru (fw bw : GruNode K) : Option (GruNode K) :=
  if fw.hidden = bw.hidden ∧ fw.linearBeforeReset = bw.linearBeforeReset then
    some ⟨.bidirectional, fw.hidden, fw.acts ++ bw.acts, fw.linearBeforeReset, concat 0 0 [fw.W, bw.W], concat 0 0 [fw.R, bw.R], concat 0 0 [fw.B, bw.B]⟩
  else none

/-- `process_single_init_node` (rnn_utils.py:648-661). -/
def biInit (fw bw : T K) : T K := concat 0 0 [fw, bw]

/-- The part of an output of the new node that replaces an output of the old ones: a slice `[d, d + 1)` of axis 1 of `Y` or axis 0 of the others
(rnn_utils.py:694-714). -/
def biSlice (axis d : Nat) (y : T K) : T K := slice 0 [(axis : Int)] [⟨d, d + 1, 1⟩] y

end Verif.Rnn
