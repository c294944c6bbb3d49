import Verif.Spec.TensorOps
import Mathlib.Algebra.BigOperators.Group.Finset.Basic
import Mathlib.Algebra.Field.Defs
import Mathlib.Order.Defs.LinearOrder
/-!
# Recurrent networks: TensorFlow cells, and the ONNX operators `LSTM` and `GRU`

Written from the documentation of TensorFlow (`BasicLSTMCell`, `LSTMCell`, `GRUCell`, `CudnnCompatibleGRUCell`, keras `LSTM` and `GRU`, `dynamic_rnn`)
and from the ONNX operator specification, independently of `tf2onnx`. Arithmetic is exact. A vector of length `n` is a function that is 0 from `n` on.
-/
namespace Verif.Rnn
open Verif.Tensor

variable {K : Type} [Field K] [LinearOrder K]

/-- The vector of length `n` with elements `f`. -/
def vec (n : Nat) (f : Nat → K) : Nat → K := fun i => if i < n then f i else 0

/-- Product of two vectors of length `n`. -/
def dot (n : Nat) (x m : Nat → K) : K := ∑ i ∈ Finset.range n, x i * m i

/-- `x` (of length `n`) and then `h`. -/
def join (n : Nat) (x h : Nat → K) : Nat → K := fun i => if i < n then x i else h (i - n)

/-! ## Activations -/

/-- What an activation in a TensorFlow cell is: an operator, or the keras hard sigmoid written out,
`Maximum(Minimum(x * a + b, hi), lo)`. -/
inductive TfAct (K : Type)
  | op (name : String)
  | hard (a b hi lo : K)

/-- Meaning of the activations that TensorFlow and ONNX have in common, by name; `HardSigmoid` with the default parameters of ONNX is
`max(0, min(1, x / 5 + 1 / 2))`. -/
def onnxAct (A : String → K → K) (name : String) (x : K) : K :=
  if name = "HardSigmoid" then max 0 (min 1 (1 / 5 * x + 1 / 2)) else A name x

/-- Meaning of an activation in a TensorFlow cell. -/
def TfAct.fn (A : String → K → K) : TfAct K → K → K
  | .op name, x => A name x
  | .hard a b hi lo, x => max (min (x * a + b) hi) lo

/-! ## TensorFlow cells -/

/-- State of an LSTM. -/
structure Lstm (K : Type) where
  h : Nat → K
  c : Nat → K

/-- Where the gates of a cell come from: which part of the split each gate reads, and its activation. -/
structure Gates (K : Type) where
  (i g f o : Nat)
  (ai ag af ao ah : TfAct K)

/-- The cell update from the four parts `z k` of the split: `c' = f * c + i * g`, `h' = o * act(c')`. -/
def Gates.update (A : String → K → K) (G : Gates K) (H : Nat) (z : Nat → Nat → K) (fb : K) (s : Lstm K) : Lstm K :=
  let c := fun j => G.af.fn A (z G.f j + fb) * s.c j + G.ai.fn A (z G.i j) * G.ag.fn A (z G.g j)
  ⟨vec H (fun j => G.ao.fn A (z G.o j) * G.ah.fn A (c j)), vec H c⟩

/-- A TensorFlow LSTM cell: `split([x, h] * kernel + bias, 4)`, a forget bias is added. -/
structure TfLstm (K : Type) where
  (I H : Nat)
  kernel : T K
  bias : Option (T K)
  forget : K
  gates : Gates K

/-- One step of the cell. -/
def TfLstm.step (A : String → K → K) (c : TfLstm K) (s : Lstm K) (x : Nat → K) : Lstm K :=
  c.gates.update A c.H
    (fun k j => dot (c.I + c.H) (join c.I x s.h) (fun i => c.kernel.get [i, k * c.H + j]) + (c.bias.elim 0 (fun b => b.get [k * c.H + j]))) c.forget s

/-- A keras LSTM cell: `split(x * W + h * R + bias, 4)`. -/
structure KerasLstm (K : Type) where
  (I H : Nat)
  kernel : T K
  recurrent : T K
  bias : Option (T K)
  gates : Gates K

/-- One step of the cell. -/
def KerasLstm.step (A : String → K → K) (c : KerasLstm K) (s : Lstm K) (x : Nat → K) : Lstm K :=
  c.gates.update A c.H
    (fun k j => dot c.I x (fun i => c.kernel.get [i, k * c.H + j]) + dot c.H s.h (fun i => c.recurrent.get [i, k * c.H + j]) +
      (c.bias.elim 0 (fun b => b.get [k * c.H + j]))) 0 s

/-- A TensorFlow GRU cell: reset and update gate are the two parts of `sigmoid([x, h] * gate_kernel + gate_bias)`; the candidate is
`act([x, r * h] * kernel + bias)`, or, for the Cudnn compatible cell, `act(x * Wx + bx + r * (h * Wh + bh))`. `r` and `u`: the parts. -/
structure TfGru (K : Type) where
  (I H : Nat)
  gateKernel : T K
  gateBias : T K
  (r u : Nat)
  act : TfAct K
  cand : T K × T K ⊕ (T K × T K) × (T K × T K)

/-- One step of the cell: `h' = u * h + (1 - u) * c`. -/
def TfGru.step (A : String → K → K) (c : TfGru K) (h : Nat → K) (x : Nat → K) : Nat → K :=
  let z := fun k j => A "Sigmoid" (dot (c.I + c.H) (join c.I x h) (fun i => c.gateKernel.get [i, k * c.H + j]) + c.gateBias.get [k * c.H + j])
  let n := fun j => c.act.fn A (match c.cand with
    | .inl (k, b) => dot (c.I + c.H) (join c.I x (fun i => z c.r i * h i)) (fun i => k.get [i, j]) + b.get [j]
    | .inr ((wx, bx), (wh, bh)) => z c.r j * (dot c.H h (fun i => wh.get [i, j]) + bh.get [j]) + (dot c.I x (fun i => wx.get [i, j]) + bx.get [j]))
  vec c.H (fun j => z c.u j * h j + (1 - z c.u j) * n j)

/-- A keras GRU cell (`reset_after`): `split(x * W + bi, 3)` and `split(h * R + br, 3)`. `z`, `r`, `n`: the parts read by the update gate, the reset gate
and the candidate. -/
structure KerasGru (K : Type) where
  (I H : Nat)
  kernel : T K
  recurrent : T K
  biasI : T K
  biasR : T K
  (z r n : Nat)
  act : TfAct K

/-- One step of the cell. -/
def KerasGru.step (A : String → K → K) (c : KerasGru K) (h : Nat → K) (x : Nat → K) : Nat → K :=
  let a := fun k j => dot c.I x (fun i => c.kernel.get [i, k * c.H + j]) + c.biasI.get [k * c.H + j]
  let b := fun k j => dot c.H h (fun i => c.recurrent.get [i, k * c.H + j]) + c.biasR.get [k * c.H + j]
  let z := fun j => A "Sigmoid" (a c.z j + b c.z j)
  let r := fun j => A "Sigmoid" (a c.r j + b c.r j)
  vec c.H (fun j => z j * h j + (1 - z j) * c.act.fn A (a c.n j + r j * b c.n j))

/-! ## Unrolling, TensorFlow -/

/-- `dynamic_rnn`: the state before step `t` of a sequence of length `len`; steps from `len` on leave it alone. -/
def dynState {S X : Type} (step : S → X → S) (len : Nat) (s : S) (x : Nat → X) : Nat → S
  | 0 => s
  | t + 1 => if len ≤ t then dynState step len s x t else step (dynState step len s x t) (x t)

/-- Vector `[t, n, :]` of a tensor of rank 3. -/
def row3 (X : T K) (t n : Nat) : Nat → K := vec (nth X.shape 2) (fun i => X.get [t, n, i])

/-- Vector `[n, :]` of a matrix. -/
def row2 (X : T K) (n : Nat) : Nat → K := vec (nth X.shape 1) (fun i => X.get [n, i])

/-- The length of sequence `n` in a batch of sequences of (maximal) length `len`. -/
def lenOf (len : Nat) (lens : Option (Nat → Nat)) (n : Nat) : Nat := lens.elim len (fun l => l n)

/-- Outputs of `dynamic_rnn` (time major): `[time, batch, hidden]`; 0 after the end of a sequence. `out` reads the output from the state. -/
def tfOut {S : Type} (step : S → (Nat → K) → S) (out : S → Nat → K) (H : Nat) (s0 : Nat → S) (X : T K) (lens : Option (Nat → Nat)) : T K :=
  { shape := [nth X.shape 0, nth X.shape 1, H]
    get := fun idx =>
      let t := nth idx 0
      let n := nth idx 1
      let len := lenOf (nth X.shape 0) lens n
      if len ≤ t then 0 else out (step (dynState step len (s0 n) (row3 X · n) t) (row3 X t n)) (nth idx 2) }

/-- A part of the final state of `dynamic_rnn`: `[batch, hidden]`. -/
def tfState {S : Type} (step : S → (Nat → K) → S) (out : S → Nat → K) (H : Nat) (s0 : Nat → S) (X : T K) (lens : Option (Nat → Nat)) : T K :=
  { shape := [nth X.shape 1, H]
    get := fun idx =>
      let n := nth idx 0
      out (dynState step (lenOf (nth X.shape 0) lens n) (s0 n) (row3 X · n) (nth X.shape 0)) (nth idx 1) }

/-- A stack of cells (`MultiRNNCell`): every cell reads the output of the one before. -/
def stackStep {S X : Type} (out : S → X) : List (S → X → S) → List S → X → List S
  | f :: fs, s :: ss, x => f s x :: stackStep out fs ss (out (f s x))
  | _, _, _ => []

/-- The output of a stack is that of its last cell. -/
def lastH : List (Lstm K) → Nat → K
  | [] => fun _ => 0
  | [s] => s.h
  | _ :: s :: ss => lastH (s :: ss)

/-! ## ONNX -/

/-- Direction of an ONNX recurrent operator. -/
inductive Dir
  | forward | reverse | bidirectional
  deriving DecidableEq

/-- Number of directions. -/
def Dir.num : Dir → Nat
  | .bidirectional => 2
  | _ => 1

/-- Direction number `d` runs backwards. -/
def Dir.back (dir : Dir) (d : Nat) : Bool :=
  match dir with
  | .forward => false
  | .reverse => true
  | .bidirectional => d = 1

/-- The state after `t` steps. -/
def runState {S X : Type} (step : S → X → S) (s : S) (x : Nat → X) : Nat → S
  | 0 => s
  | t + 1 => step (runState step s x t) (x t)

/-- The step in which position `t` of a sequence is read, and the position that is read in step `t`. -/
def pos (back : Bool) (len t : Nat) : Nat := if back then len - 1 - t else t

/-- Output `Y` of an ONNX recurrent operator: `[time, directions, batch, hidden]`; 0 after the end of a sequence. -/
def onnxY {S : Type} (dir : Dir) (step : Nat → S → (Nat → K) → S) (out : S → Nat → K) (H : Nat) (s0 : Nat → Nat → S) (X : T K)
    (lens : Option (Nat → Nat)) : T K :=
  { shape := [nth X.shape 0, dir.num, nth X.shape 1, H]
    get := fun idx =>
      let t := nth idx 0
      let d := nth idx 1
      let n := nth idx 2
      let len := lenOf (nth X.shape 0) lens n
      if t < len then out (runState (step d) (s0 d n) (fun t => row3 X (pos (dir.back d) len t) n) (pos (dir.back d) len t + 1)) (nth idx 3) else 0 }

/-- Outputs `Y_h` and `Y_c`: `[directions, batch, hidden]`, the state after the last step of each sequence. -/
def onnxLast {S : Type} (dir : Dir) (step : Nat → S → (Nat → K) → S) (out : S → Nat → K) (H : Nat) (s0 : Nat → Nat → S) (X : T K)
    (lens : Option (Nat → Nat)) : T K :=
  { shape := [dir.num, nth X.shape 1, H]
    get := fun idx =>
      let d := nth idx 0
      let n := nth idx 1
      let len := lenOf (nth X.shape 0) lens n
      out (runState (step d) (s0 d n) (fun t => row3 X (pos (dir.back d) len t) n) len) (nth idx 2) }

/-- An ONNX `LSTM` node. No activations: `Sigmoid`, `Tanh`, `Tanh` in every direction. -/
structure LstmNode (K : Type) where
  dir : Dir
  hidden : Nat
  acts : List String
  (W R B : T K)

/-- Activation `k` (f, g, h) of direction `d`. -/
def LstmNode.act (nd : LstmNode K) (d k : Nat) : String :=
  if nd.acts = [] then (if k = 0 then "Sigmoid" else "Tanh") else nd.acts.getD (3 * d + k) ""

/-- What the operator accepts, for inputs of size `I`. -/
structure LstmNode.Ok (nd : LstmNode K) (I : Nat) : Prop where
  W : nd.W.shape = [nd.dir.num, 4 * nd.hidden, I]
  R : nd.R.shape = [nd.dir.num, 4 * nd.hidden, nd.hidden]
  B : nd.B.shape = [nd.dir.num, 8 * nd.hidden]
  acts : nd.acts = [] ∨ nd.acts.length = 3 * nd.dir.num

/-- Gate `k` of direction `d`, before the activation: `X * W[k]^T + H * R[k]^T + Wb[k] + Rb[k]`. The gates are in the order i, o, f, c. -/
def LstmNode.gate (nd : LstmNode K) (d k : Nat) (s : Lstm K) (x : Nat → K) (j : Nat) : K :=
  dot (nth nd.W.shape 2) x (fun i => nd.W.get [d, k * nd.hidden + j, i]) + dot nd.hidden s.h (fun i => nd.R.get [d, k * nd.hidden + j, i]) +
    nd.B.get [d, k * nd.hidden + j] + nd.B.get [d, 4 * nd.hidden + (k * nd.hidden + j)]

/-- One step: `C = f * C + i * c`, `H = o * h(C)`. -/
def LstmNode.step (A : String → K → K) (nd : LstmNode K) (d : Nat) (s : Lstm K) (x : Nat → K) : Lstm K :=
  let f := onnxAct A (nd.act d 0)
  let g := onnxAct A (nd.act d 1)
  let h := onnxAct A (nd.act d 2)
  let c := fun j => f (nd.gate d 2 s x j) * s.c j + f (nd.gate d 0 s x j) * g (nd.gate d 3 s x j)
  ⟨vec nd.hidden (fun j => f (nd.gate d 1 s x j) * h (c j)), vec nd.hidden c⟩

/-- The initial state of direction `d`, batch `n`: `initial_h` and `initial_c` are `[directions, batch, hidden]`. -/
def lstmInit (h0 c0 : T K) (d n : Nat) : Lstm K := ⟨row3 h0 d n, row3 c0 d n⟩

/-- The outputs `Y`, `Y_h` and `Y_c`. -/
def LstmNode.eval (A : String → K → K) (nd : LstmNode K) (X : T K) (lens : Option (Nat → Nat)) (h0 c0 : T K) : T K × T K × T K :=
  (onnxY nd.dir (nd.step A) Lstm.h nd.hidden (lstmInit h0 c0) X lens,
   onnxLast nd.dir (nd.step A) Lstm.h nd.hidden (lstmInit h0 c0) X lens,
   onnxLast nd.dir (nd.step A) Lstm.c nd.hidden (lstmInit h0 c0) X lens)

/-- An ONNX `GRU` node. No activations: `Sigmoid`, `Tanh` in every direction. -/
structure GruNode (K : Type) where
  dir : Dir
  hidden : Nat
  acts : List String
  linearBeforeReset : Bool
  (W R B : T K)

/-- Activation `k` (f, g) of direction `d`. -/
def GruNode.act (nd : GruNode K) (d k : Nat) : String :=
  if nd.acts = [] then (if k = 0 then "Sigmoid" else "Tanh") else nd.acts.getD (2 * d + k) ""

/-- What the operator accepts, for inputs of size `I`. -/
structure GruNode.Ok (nd : GruNode K) (I : Nat) : Prop where
  W : nd.W.shape = [nd.dir.num, 3 * nd.hidden, I]
  R : nd.R.shape = [nd.dir.num, 3 * nd.hidden, nd.hidden]
  B : nd.B.shape = [nd.dir.num, 6 * nd.hidden]
  acts : nd.acts = [] ∨ nd.acts.length = 2 * nd.dir.num

/-- `X * W[k]^T`; the gates are in the order z, r, h. -/
def GruNode.xW (nd : GruNode K) (d k : Nat) (x : Nat → K) (j : Nat) : K :=
  dot (nth nd.W.shape 2) x (fun i => nd.W.get [d, k * nd.hidden + j, i])

/-- `H * R[k]^T`. -/
def GruNode.hR (nd : GruNode K) (d k : Nat) (h : Nat → K) (j : Nat) : K :=
  dot nd.hidden h (fun i => nd.R.get [d, k * nd.hidden + j, i])

/-- `Wb[k]` and `Rb[k]`. -/
def GruNode.wb (nd : GruNode K) (d k j : Nat) : K := nd.B.get [d, k * nd.hidden + j]
def GruNode.rb (nd : GruNode K) (d k j : Nat) : K := nd.B.get [d, 3 * nd.hidden + (k * nd.hidden + j)]

/-- One step: `H = (1 - z) * h + z * H`. -/
def GruNode.step (A : String → K → K) (nd : GruNode K) (d : Nat) (h : Nat → K) (x : Nat → K) : Nat → K :=
  let f := onnxAct A (nd.act d 0)
  let g := onnxAct A (nd.act d 1)
  let z := fun j => f (nd.xW d 0 x j + nd.hR d 0 h j + nd.wb d 0 j + nd.rb d 0 j)
  let r := fun j => f (nd.xW d 1 x j + nd.hR d 1 h j + nd.wb d 1 j + nd.rb d 1 j)
  let n := fun j =>
    if nd.linearBeforeReset then g (nd.xW d 2 x j + r j * (nd.hR d 2 h j + nd.rb d 2 j) + nd.wb d 2 j)
    else g (nd.xW d 2 x j + nd.hR d 2 (fun i => r i * h i) j + nd.rb d 2 j + nd.wb d 2 j)
  vec nd.hidden (fun j => (1 - z j) * n j + z j * h j)

/-- The outputs `Y` and `Y_h`. -/
def GruNode.eval (A : String → K → K) (nd : GruNode K) (X : T K) (lens : Option (Nat → Nat)) (h0 : T K) : T K × T K :=
  (onnxY nd.dir (nd.step A) id nd.hidden (row3 h0) X lens, onnxLast nd.dir (nd.step A) id nd.hidden (row3 h0) X lens)

end Verif.Rnn
