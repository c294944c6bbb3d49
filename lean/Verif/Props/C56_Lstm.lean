import Verif.Props.C56_Kit
/-!
# C56: LSTM cells

`lstmTf2_converts`, `lstmKeras_converts`, `lstmTf1_converts`: outputs and final states of the ONNX node are those of the TensorFlow loop.
-/
set_option linter.unusedSectionVars false
namespace Verif.Rnn
open Verif.Tensor Verif.Emit

variable {K : Type} [Field K] [LinearOrder K]

/-! ## Statement -/

/-- The weights of a cell have the dimensions TensorFlow requires. -/
structure TfLstm.Fits (c : TfLstm K) : Prop where
  pos : 0 < c.H
  kernel : c.kernel.shape = [c.I + c.H, 4 * c.H]
  bias : ∀ b, c.bias = some b → b.shape = [4 * c.H]

/-- The same for keras. -/
structure KerasLstm.Fits (c : KerasLstm K) : Prop where
  kernel : c.kernel.shape = [c.I, 4 * c.H]
  recurrent : c.recurrent.shape = [c.H, 4 * c.H]
  bias : ∀ b, c.bias = some b → b.shape = [4 * c.H]

/-- The order of the gates in TensorFlow: input, candidate, forget, output. -/
def Gates.tfOrder (G : Gates K) : Prop := G.i = 0 ∧ G.g = 1 ∧ G.f = 2 ∧ G.o = 3

/-- The order of the gates in keras: input, forget, candidate, output. -/
def Gates.kerasOrder (G : Gates K) : Prop := G.i = 0 ∧ G.f = 1 ∧ G.g = 2 ∧ G.o = 3

/-- The three gates have the same activation; if it is a hard sigmoid, it is the one of keras. -/
def Gates.oneAct (G : Gates K) : Prop := G.ai = G.af ∧ G.ao = G.af ∧ ∀ a b hi lo, G.af = .hard a b hi lo → a = 1 / 5 ∧ b = 1 / 2 ∧ hi = 1 ∧ lo = 0

/-- The activations are those TensorFlow uses if the user does not ask for others. -/
def Gates.defaults (G : Gates K) : Prop :=
  G.ai = .op "Sigmoid" ∧ G.af = .op "Sigmoid" ∧ G.ao = .op "Sigmoid" ∧ G.ag = .op "Tanh" ∧ G.ah = .op "Tanh"

/-- The initial state of batch `n` in TensorFlow: `h` and `c` are `[batch, hidden]`. -/
def tfInit (h0 c0 : T K) (n : Nat) : Lstm K := ⟨row2 h0 n, row2 c0 n⟩

/-- A batch of sequences: `X` is `[time, batch, I]`, lengths are at most `time`. -/
structure Batch (X : T K) (lens : Option (Nat → Nat)) (len N I : Nat) : Prop where
  X : X.shape = [len, N, I]
  lens : ∀ l, lens = some l → ∀ n < N, l n ≤ len

/-- The node computes what the loop with cell `step` computes: the outputs after `Squeeze`, and the final `h` and `c`. -/
def LstmAgrees (A : String → K → K) (step : Lstm K → (Nat → K) → Lstm K) (I H : Nat) (nd : LstmNode K) : Prop :=
  nd.Ok I ∧ ∀ (X : T K) (lens : Option (Nat → Nat)) (len N : Nat) (h0 c0 : T K), Batch X lens len N I → h0.shape = [N, H] → c0.shape = [N, H] →
    let y := nd.eval A X lens (expand0 h0) (expand0 c0)
    Same (squeezeAt 4 1 y.1) (tfOut step Lstm.h H (tfInit h0 c0) X lens) ∧
    Same (squeezeAt 3 0 y.2.1) (tfState step Lstm.h H (tfInit h0 c0) X lens) ∧
    Same (squeezeAt 3 0 y.2.2) (tfState step Lstm.c H (tfInit h0 c0) X lens)

/-! ## Unrolling -/

theorem lenOf_le {X : T K} {lens : Option (Nat → Nat)} {len N I n : Nat} (b : Batch X lens len N I) (hn : n < N) :
    lenOf (nth X.shape 0) lens n ≤ nth X.shape 0 := by
  have e : nth X.shape 0 = len := by rw [b.X]; rfl
  rw [e]
  cases lens with
  | none => exact Nat.le_refl _
  | some l => exact b.lens l rfl n hn

variable {S : Type}

/-- A forward node computes the outputs of the loop, if one step is the same. -/
theorem forward_Y {step : Nat → S → (Nat → K) → S} {tf : S → (Nat → K) → S} {out : S → Nat → K} {H len N I : Nat} {s0 : Nat → Nat → S} {t0 : Nat → S} {X : T K}
    {lens : Option (Nat → Nat)} (b : Batch X lens len N I) (hs : ∀ s x, step 0 s x = tf s x) (h0 : ∀ n < N, s0 0 n = t0 n) :
    Same (squeezeAt 4 1 (onnxY .forward step out H s0 X lens)) (tfOut tf out H t0 X lens) := by
  have hY : (onnxY .forward step out H s0 X lens).shape = [len, 1, N, H] := by
    show [nth X.shape 0, 1, nth X.shape 1, H] = _
    rw [b.X]; rfl
  obtain ⟨h1, h2⟩ := squeeze_Y _ hY
  refine ⟨by rw [h1]; show _ = [nth X.shape 0, nth X.shape 1, H]; rw [b.X]; rfl, ?_⟩
  intro idx hi
  rw [h1] at hi
  obtain ⟨t, n, j, rfl, ht, hn, hj⟩ := InB_three hi
  rw [h2]
  show (if t < lenOf (nth X.shape 0) lens n then out (runState (step 0) (s0 0 n) (fun t => row3 X t n) (t + 1)) j else 0) =
    if lenOf (nth X.shape 0) lens n ≤ t then 0 else out (tf (dynState tf (lenOf (nth X.shape 0) lens n) (t0 n) (row3 X · n) t) (row3 X t n)) j
  by_cases hlt : t < lenOf (nth X.shape 0) lens n
  · rw [if_pos hlt, if_neg (by omega), h0 n hn, runState_step hs]
    exact congrArg (fun s => out s j) (dyn_out (x := (row3 X · n)) hlt).symm
  · rw [if_neg hlt, if_pos (by omega)]

/-- The same for the final state. -/
theorem forward_last {step : Nat → S → (Nat → K) → S} {tf : S → (Nat → K) → S} {out : S → Nat → K} {H len N I : Nat} {s0 : Nat → Nat → S} {t0 : Nat → S}
    {X : T K} {lens : Option (Nat → Nat)} (b : Batch X lens len N I) (hs : ∀ s x, step 0 s x = tf s x) (h0 : ∀ n < N, s0 0 n = t0 n) :
    Same (squeezeAt 3 0 (onnxLast .forward step out H s0 X lens)) (tfState tf out H t0 X lens) := by
  have hY : (onnxLast .forward step out H s0 X lens).shape = [1, N, H] := by
    show [1, nth X.shape 1, H] = _
    rw [b.X]; rfl
  obtain ⟨h1, h2⟩ := squeeze_last _ hY
  refine ⟨by rw [h1]; show _ = [nth X.shape 1, H]; rw [b.X]; rfl, ?_⟩
  intro idx hi
  rw [h1] at hi
  obtain ⟨n, j, rfl, hn, hj⟩ := InB_two hi
  rw [h2]
  show out (runState (step 0) (s0 0 n) (fun t => row3 X t n) (lenOf (nth X.shape 0) lens n)) j =
    out (dynState tf (lenOf (nth X.shape 0) lens n) (t0 n) (row3 X · n) (nth X.shape 0)) j
  rw [dynState_ge (lenOf_le b hn), h0 n hn, runState_step hs]

theorem row3_expand0 (h0 : T K) {N H : Nat} (h : h0.shape = [N, H]) (n : Nat) : row3 (expand0 h0) 0 n = row2 h0 n := by
  unfold row3 row2 expand0
  rw [h]; rfl

/-- A node whose step is the step of the cell. -/
theorem LstmAgrees.of_step {A : String → K → K} {step : Lstm K → (Nat → K) → Lstm K} {I H : Nat} {nd : LstmNode K} (hok : nd.Ok I) (hd : nd.dir = .forward)
    (hH : nd.hidden = H) (hs : ∀ s x, nd.step A 0 s x = step s x) : LstmAgrees A step I H nd := by
  refine ⟨hok, ?_⟩
  intro X lens len N h0 c0 b hh hc
  have e : ∀ n < N, lstmInit (expand0 h0) (expand0 c0) 0 n = tfInit h0 c0 n := by
    intro n _
    unfold lstmInit tfInit
    rw [row3_expand0 h0 hh, row3_expand0 c0 hc]
  simp only [LstmNode.eval, hd, hH]
  exact ⟨forward_Y b hs e, forward_last b hs e, forward_last b hs e⟩

/-! ## Weights -/

/-- The gates in another order. -/
def reorder (p : Nat → Nat) (g : List (T K)) : T K := concat 0 1 [part g (p 0), part g (p 1), part g (p 2), part g (p 3)]

/-- The parts of a matrix with four gates, in another order. -/
theorem reorder_get {p : Nat → Nat} (hp : ∀ k < 4, p k < 4) {g : List (T K)} {r H : Nat} (hs : ∀ k < 4, (part g k).shape = [r, H]) :
    (reorder p g).shape = [r, 4 * H] ∧ ∀ k < 4, ∀ j < H, ∀ i, (reorder p g).get [i, k * H + j] = (part g (p k)).get [i, j] := by
  have h0 := hs _ (hp 0 (by omega))
  have h1 := hs _ (hp 1 (by omega))
  have h2 := hs _ (hp 2 (by omega))
  have h3 := hs _ (hp 3 (by omega))
  constructor
  · simp only [reorder, concat, List.map_cons, List.map_nil, h0, h1, h2, h3]
    show [r, H + (H + (H + (H + 0)))] = _
    congr 2; omega
  · intro k hk j hj i
    have hl : ∀ x ∈ [part g (p 0), part g (p 1), part g (p 2), part g (p 3)], nth x.shape 1 = H := by
      intro x hx
      simp only [List.mem_cons, List.not_mem_nil, or_false] at hx
      rcases hx with rfl | rfl | rfl | rfl
      · rw [h0]; rfl
      · rw [h1]; rfl
      · rw [h2]; rfl
      · rw [h3]; rfl
    have := concat_col (l := [part g (p 0), part g (p 1), part g (p 2), part g (p 3)]) hl hk i hj
    show concatGet 0 1 _ _ = _
    rw [this]
    have : k = 0 ∨ k = 1 ∨ k = 2 ∨ k = 3 := by omega
    rcases this with rfl | rfl | rfl | rfl <;> rfl

theorem transpose_get (x : T K) {a b : Nat} (h : x.shape = [a, b]) :
    (transpose [1, 0] x).shape = [b, a] ∧ ∀ i j, (transpose [1, 0] x).get [i, j] = x.get [j, i] := by
  refine ⟨by simp only [transpose, h]; rfl, fun i j => rfl⟩

/-- What `lstmWeights` gives: gate `k` of the result is gate `p k` of the operands. -/
theorem lstmWeights_get {p : Nat → Nat} (hp : ∀ k < 4, p k < 4) {wx wh wb : T K} {I H : Nat} (hx : wx.shape = [I, 4 * H]) (hh : wh.shape = [H, 4 * H])
    (hb : wb.shape = [1, 4 * H]) :
    ∃ W R B, lstmWeights (reorder p) wx wh wb (4 * H) = some (W, R, B) ∧ W.shape = [1, 4 * H, I] ∧ R.shape = [1, 4 * H, H] ∧ B.shape = [1, 8 * H] ∧
      (∀ k < 4, ∀ j < H, ∀ i, W.get [0, k * H + j, i] = wx.get [i, p k * H + j]) ∧
      (∀ k < 4, ∀ j < H, ∀ i, R.get [0, k * H + j, i] = wh.get [i, p k * H + j]) ∧
      (∀ m < 4 * H, B.get [0, m] = wb.get [0, m]) ∧ ∀ m < 4 * H, B.get [0, 4 * H + m] = 0 := by
  obtain ⟨gw, ew, _, sw, vw⟩ := npSplit_cols wx (n := 4) (by omega) hx
  obtain ⟨gh, eh, _, sh, vh⟩ := npSplit_cols wh (n := 4) (by omega) hh
  obtain ⟨cs, cv⟩ := reorder_get hp sw
  obtain ⟨ds, dv⟩ := reorder_get hp sh
  obtain ⟨ts, tv⟩ := transpose_get (reorder p gw) cs
  obtain ⟨us, uv⟩ := transpose_get (reorder p gh) ds
  refine ⟨expand0 (transpose [1, 0] (reorder p gw)), expand0 (transpose [1, 0] (reorder p gh)), concat 0 1 [wb, npZeros [1, 4 * H]], ?_, ?_, ?_, ?_, ?_, ?_, ?_, ?_⟩
  · simp only [lstmWeights, ew, eh, Option.bind_eq_bind, Option.bind_some]
  · simp only [expand0, ts]
  · simp only [expand0, us]
  · simp only [concat, List.map_cons, List.map_nil, hb, npZeros]
    show [1, 4 * H + (4 * H + 0)] = _
    congr 2; omega
  · intro k hk j hj i
    show (transpose [1, 0] (reorder p gw)).get [k * H + j, i] = _
    rw [tv, cv k hk j hj i, vw (p k) (hp k hk)]
  · intro k hk j hj i
    show (transpose [1, 0] (reorder p gh)).get [k * H + j, i] = _
    rw [uv, dv k hk j hj i, vh (p k) (hp k hk)]
  · intro m hm
    have := concat_col (K := K) (H := 4 * H) (l := [wb, npZeros [1, 4 * H]]) (k := 0) (by
      intro x hx
      simp only [List.mem_cons, List.not_mem_nil, or_false] at hx
      rcases hx with rfl | rfl
      · rw [hb]; rfl
      · rfl) (by simp) 0 hm
    rw [Nat.zero_mul, Nat.zero_add] at this
    exact this
  · intro m hm
    have := concat_col (K := K) (H := 4 * H) (l := [wb, npZeros [1, 4 * H]]) (k := 1) (by
      intro x hx
      simp only [List.mem_cons, List.not_mem_nil, or_false] at hx
      rcases hx with rfl | rfl
      · rw [hb]; rfl
      · rfl) (by simp) 0 hm
    rw [Nat.one_mul] at this
    exact this

/-- Order of the gates: TensorFlow, keras. -/
def pTf (k : Nat) : Nat := [0, 3, 2, 1].getD k 0
def pKeras (k : Nat) : Nat := [0, 3, 1, 2].getD k 0

theorem pTf_lt : ∀ k < 4, pTf k < 4 := by decide
theorem pKeras_lt : ∀ k < 4, pKeras k < 4 := by decide
theorem icfo_eq : (icfoToIofc : List (T K) → T K) = reorder pTf := rfl
theorem ifco_eq : (ifcoToIofc : List (T K) → T K) = reorder pKeras := rfl

theorem col_lt {H k j : Nat} (hk : k < 4) (hj : j < H) : k * H + j < 4 * H := by
  have : (k + 1) * H ≤ 4 * H := Nat.mul_le_mul_right H hk
  rw [Nat.succ_mul] at this
  omega

theorem gate_of_weights {nd : LstmNode K} {H I : Nat} {wx wh wb : T K} {p : Nat → Nat} (hH : nd.hidden = H) (hI : nth nd.W.shape 2 = I)
    (hW : ∀ k < 4, ∀ j < H, ∀ i, nd.W.get [0, k * H + j, i] = wx.get [i, p k * H + j])
    (hR : ∀ k < 4, ∀ j < H, ∀ i, nd.R.get [0, k * H + j, i] = wh.get [i, p k * H + j])
    (hB : ∀ m < 4 * H, nd.B.get [0, m] = wb.get [0, m]) (hB0 : ∀ m < 4 * H, nd.B.get [0, 4 * H + m] = 0)
    {k j : Nat} (hk : k < 4) (hj : j < H) (s : Lstm K) (x : Nat → K) :
    nd.gate 0 k s x j = dot I x (fun i => wx.get [i, p k * H + j]) + dot H s.h (fun i => wh.get [i, p k * H + j]) + wb.get [0, k * H + j] := by
  have hm := col_lt hk hj
  unfold LstmNode.gate
  rw [hH, hI, hB _ hm, hB0 _ hm, add_zero, dot_congr (fun _ _ => rfl) (fun i _ => hW k hk j hj i), dot_congr (n := H) (fun _ _ => rfl) (fun i _ => hR k hk j hj i)]

theorem npSplit_bias {b : T K} {H : Nat} (h : b.shape = [4 * H]) :
    ∃ l, npSplit 1 4 (asRow b) = some l ∧ l.length = 4 ∧ (∀ k < 4, (part l k).shape = [1, H]) ∧ ∀ k < 4, ∀ j, (part l k).get [0, j] = b.get [k * H + j] := by
  obtain ⟨l, e, el, es, ev⟩ := npSplit_cols (asRow b) (n := 4) (r := 1) (H := H) (by omega) (by show 1 :: b.shape = _; rw [h])
  exact ⟨l, e, el, es, fun k hk j => ev k hk 0 j⟩

/-- The weights of a TensorFlow cell. -/
theorem lstmWeightsTf_get {kernel bias : T K} {forget : K} {I H : Nat} (hH : 0 < H) (hk : kernel.shape = [I + H, 4 * H]) (hb : bias.shape = [4 * H]) :
    ∃ W R B, lstmWeightsTf kernel bias forget = some (W, R, B) ∧ W.shape = [1, 4 * H, I] ∧ R.shape = [1, 4 * H, H] ∧ B.shape = [1, 8 * H] ∧
      (∀ k < 4, ∀ j < H, ∀ i, W.get [0, k * H + j, i] = kernel.get [i, pTf k * H + j]) ∧
      (∀ k < 4, ∀ j < H, ∀ i, R.get [0, k * H + j, i] = kernel.get [I + i, pTf k * H + j]) ∧
      (∀ k < 4, ∀ j < H, B.get [0, k * H + j] = bias.get [pTf k * H + j] + if k = 2 then forget else 0) ∧ ∀ m < 4 * H, B.get [0, 4 * H + m] = 0 := by
  obtain ⟨gb, eb, el, sb, vb⟩ := npSplit_bias hb
  obtain ⟨s1, s2, v1, v2⟩ := npSplitAt_rows I kernel hk
  have hdim : nth bias.shape 0 = 4 * H := by rw [hb]; rfl
  have hdiv : 4 * H / 4 = H := Nat.mul_div_cancel_left H (by omega)
  let gb' := gb.set 2 ⟨(part gb 2).shape, fun i => (part gb 2).get i + forget⟩
  have hp2 : part gb' 2 = ⟨(part gb 2).shape, fun i => (part gb 2).get i + forget⟩ := by
    simp [part, gb', List.getD, el]
  have hpn : ∀ k, k ≠ 2 → part gb' k = part gb k := by
    intro k h
    simp [part, gb', List.getD, List.getElem?_set_ne (Ne.symm h)]
  have sb' : ∀ k < 4, (part gb' k).shape = [1, H] := by
    intro k hk
    by_cases h : k = 2
    · subst h; rw [hp2]; exact sb 2 hk
    · rw [hpn k h]; exact sb k hk
  obtain ⟨cs, cv⟩ := reorder_get pTf_lt sb'
  obtain ⟨W, R, B, e, hW, hR, hB, vW, vR, vB, vB0⟩ := lstmWeights_get pTf_lt (wx := (npSplitAt 0 I kernel).1) (wh := (npSplitAt 0 I kernel).2)
    (wb := reorder pTf gb') (I := I) (H := H) s1 (by rw [s2]; congr 1; omega) cs
  refine ⟨W, R, B, ?_, hW, hR, hB, fun k hk j hj i => by rw [vW k hk j hj, v1], fun k hk j hj i => by rw [vR k hk j hj, v2], ?_, vB0⟩
  · have hcut : (if H = 0 then 0 else nth kernel.shape 0 - H) = I := by
      rw [if_neg (by omega), hk]
      show I + H - H = I
      omega
    have hd : nth (npSplitAt 0 I kernel).1.shape 1 / 4 = H := by
      rw [s1]; exact hdiv
    unfold lstmWeightsTf
    simp only [eb, Option.bind_eq_bind, Option.bind_some, hdim, hdiv, hcut, hd, if_true, icfo_eq]
    exact e
  · intro k hk j hj
    rw [vB _ (col_lt hk hj), cv k hk j hj 0]
    have hv := vb (pTf k) (pTf_lt k hk) j
    by_cases h : k = 2
    · subst h
      have : pTf 2 = 2 := rfl
      rw [this] at hv ⊢
      rw [hp2]
      show (part gb 2).get [0, j] + forget = _
      rw [hv]; simp
    · have : pTf k ≠ 2 := by
        have : k = 0 ∨ k = 1 ∨ k = 3 := by omega
        rcases this with rfl | rfl | rfl <;> decide
      rw [hpn _ this, hv, if_neg h, add_zero]

/-- The weights of a keras cell. -/
theorem lstmWeightsKeras_get {wx wh : T K} {bias : Option (T K)} {I H : Nat} (hx : wx.shape = [I, 4 * H]) (hh : wh.shape = [H, 4 * H])
    (hb : ∀ b, bias = some b → b.shape = [4 * H]) :
    ∃ W R B, lstmWeightsKeras wx wh bias = some (W, R, B) ∧ W.shape = [1, 4 * H, I] ∧ R.shape = [1, 4 * H, H] ∧ B.shape = [1, 8 * H] ∧
      (∀ k < 4, ∀ j < H, ∀ i, W.get [0, k * H + j, i] = wx.get [i, pKeras k * H + j]) ∧
      (∀ k < 4, ∀ j < H, ∀ i, R.get [0, k * H + j, i] = wh.get [i, pKeras k * H + j]) ∧
      (∀ k < 4, ∀ j < H, B.get [0, k * H + j] = bias.elim 0 (fun b => b.get [pKeras k * H + j])) ∧ ∀ m < 4 * H, B.get [0, 4 * H + m] = 0 := by
  have hdiv : 4 * H / 4 = H := Nat.mul_div_cancel_left H (by omega)
  have hdx : nth wx.shape 1 / 4 = H := by rw [hx]; exact hdiv
  cases bias with
  | none =>
    obtain ⟨W, R, B, e, hW, hR, hB, vW, vR, vB, vB0⟩ := lstmWeights_get pKeras_lt (wb := npZeros [1, 4 * H]) hx hh rfl
    refine ⟨W, R, B, ?_, hW, hR, hB, vW, vR, fun k hk j hj => by rw [vB _ (col_lt hk hj)]; rfl, vB0⟩
    unfold lstmWeightsKeras
    simp only [hdx, ifco_eq]
    exact e
  | some b =>
    have hb := hb b rfl
    obtain ⟨gb, eb, el, sb, vb⟩ := npSplit_bias hb
    obtain ⟨cs, cv⟩ := reorder_get pKeras_lt sb
    obtain ⟨W, R, B, e, hW, hR, hB, vW, vR, vB, vB0⟩ := lstmWeights_get pKeras_lt (wb := reorder pKeras gb) hx hh cs
    refine ⟨W, R, B, ?_, hW, hR, hB, vW, vR, fun k hk j hj => ?_, vB0⟩
    · have hdim : nth b.shape 0 = 4 * H := by rw [hb]; rfl
      unfold lstmWeightsKeras
      simp only [eb, Option.bind_eq_bind, Option.bind_some, hdim, hdiv, hdx, if_true, ifco_eq]
      exact e
    · rw [vB _ (col_lt hk hj), cv k hk j hj 0, vb _ (pKeras_lt k hk)]
      rfl

end Verif.Rnn
