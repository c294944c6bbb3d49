import Verif.Props.C56_LstmMain
/-!
# C56: GRU cells
-/
set_option linter.unusedSectionVars false
namespace Verif.Rnn
open Verif.Tensor Verif.Emit

variable {K : Type} [Field K] [LinearOrder K]

/-! ## Statement -/

/-- The weights of a cell have the dimensions TensorFlow requires. -/
structure TfGru.Fits (c : TfGru K) : Prop where
  gateKernel : c.gateKernel.shape = [c.I + c.H, 2 * c.H]
  gateBias : c.gateBias.shape = [2 * c.H]
  cand : match c.cand with
    | .inl (k, b) => k.shape = [c.I + c.H, c.H] ∧ b.shape = [c.H]
    | .inr ((wx, bx), (wh, bh)) => wx.shape = [c.I, c.H] ∧ bx.shape = [c.H] ∧ wh.shape = [c.H, c.H] ∧ bh.shape = [c.H]

/-- The same for keras. -/
structure KerasGru.Fits (c : KerasGru K) : Prop where
  kernel : c.kernel.shape = [c.I, 3 * c.H]
  recurrent : c.recurrent.shape = [c.H, 3 * c.H]
  biasI : c.biasI.shape = [3 * c.H]
  biasR : c.biasR.shape = [3 * c.H]

/-- The node computes what the loop with cell `step` computes: the outputs after `Squeeze`, and the final state. -/
def GruAgrees (A : String → K → K) (step : (Nat → K) → (Nat → K) → Nat → K) (I H : Nat) (nd : GruNode K) : Prop :=
  nd.Ok I ∧ ∀ (X : T K) (lens : Option (Nat → Nat)) (len N : Nat) (h0 : T K), Batch X lens len N I → h0.shape = [N, H] →
    let y := nd.eval A X lens (expand0 h0)
    Same (squeezeAt 4 1 y.1) (tfOut step id H (row2 h0) X lens) ∧ Same (squeezeAt 3 0 y.2) (tfState step id H (row2 h0) X lens)

theorem GruAgrees.of_step {A : String → K → K} {step : (Nat → K) → (Nat → K) → Nat → K} {I H : Nat} {nd : GruNode K} (hok : nd.Ok I) (hd : nd.dir = .forward)
    (hH : nd.hidden = H) (hs : ∀ s x, nd.step A 0 s x = step s x) : GruAgrees A step I H nd := by
  refine ⟨hok, ?_⟩
  intro X lens len N h0 b hh
  simp only [GruNode.eval, hd, hH]
  exact ⟨forward_Y b hs (fun n _ => row3_expand0 h0 hh n), forward_last b hs (fun n _ => row3_expand0 h0 hh n)⟩

/-! ## Vectors and matrices -/

theorem expand0_get0 (x : T K) (idx : List Nat) : (expand0 x).get (0 :: idx) = x.get idx := (rfl)

/-- Axis 0 of a list of vectors, each with `H` elements. -/
theorem concat_elem {H : Nat} : ∀ {l : List (T K)} {k : Nat}, (∀ x ∈ l, nth x.shape 0 = H) → k < l.length → ∀ {j : Nat}, j < H →
    concatGet 0 0 l [k * H + j] = (part l k).get [j]
  | [], _, _, hk, _, _ => absurd hk (Nat.not_lt_zero _)
  | x :: l, 0, h, _, j, hj => by
    have e : nth x.shape 0 = H := h x (by simp)
    have : nth [0 * H + j] 0 = j := by simp [nth]
    unfold concatGet
    rw [if_pos (by rw [this, e]; exact hj)]
    simp [part]
  | x :: l, k + 1, h, hk, j, hj => by
    have e : nth x.shape 0 = H := h x (by simp)
    have e2 : nth [(k + 1) * H + j] 0 = (k + 1) * H + j := rfl
    have e3 : (k + 1) * H + j - H = k * H + j := by
      rw [Nat.succ_mul]; omega
    unfold concatGet
    rw [if_neg (by rw [e2, e, Nat.succ_mul]; omega), e2, e]
    have : setAt [(k + 1) * H + j] 0 ((k + 1) * H + j - H) = [k * H + j] := by rw [e3]; rfl
    rw [this, concat_elem (fun y hy => h y (by simp [hy])) (by simpa using hk) hj]
    simp [part]

/-- Three vectors. -/
theorem concat3_vec {a b c : T K} {H : Nat} (ha : a.shape = [H]) (hb : b.shape = [H]) (hc : c.shape = [H]) :
    (concat 0 0 [a, b, c]).shape = [3 * H] ∧ (∀ j < H, (concat 0 0 [a, b, c]).get [0 * H + j] = a.get [j]) ∧
    (∀ j < H, (concat 0 0 [a, b, c]).get [1 * H + j] = b.get [j]) ∧ ∀ j < H, (concat 0 0 [a, b, c]).get [2 * H + j] = c.get [j] := by
  have hl : ∀ x ∈ [a, b, c], nth x.shape 0 = H := by
    intro x hx
    simp only [List.mem_cons, List.not_mem_nil, or_false] at hx
    rcases hx with rfl | rfl | rfl
    · rw [ha]; rfl
    · rw [hb]; rfl
    · rw [hc]; rfl
  refine ⟨?_, fun j hj => concat_elem (k := 0) hl (by simp) hj, fun j hj => concat_elem (k := 1) hl (by simp) hj, fun j hj => concat_elem (k := 2) hl (by simp) hj⟩
  simp only [concat, List.map_cons, List.map_nil, ha, hb, hc]
  show [H + (H + (H + 0))] = _
  congr 1; omega

/-- Two vectors of length `3 * H`. -/
theorem concat2_vec {a b : T K} {H : Nat} (ha : a.shape = [H]) (hb : b.shape = [H]) :
    (concat 0 0 [a, b]).shape = [2 * H] ∧ (∀ j < H, (concat 0 0 [a, b]).get [j] = a.get [j]) ∧ ∀ j < H, (concat 0 0 [a, b]).get [H + j] = b.get [j] := by
  have hl : ∀ x ∈ [a, b], nth x.shape 0 = H := by
    intro x hx
    simp only [List.mem_cons, List.not_mem_nil, or_false] at hx
    rcases hx with rfl | rfl
    · rw [ha]; rfl
    · rw [hb]; rfl
  refine ⟨?_, fun j hj => ?_, fun j hj => ?_⟩
  · simp only [concat, List.map_cons, List.map_nil, ha, hb]
    show [H + (H + 0)] = _
    congr 1; omega
  · have := concat_elem (k := 0) hl (by simp) hj
    rw [Nat.zero_mul, Nat.zero_add] at this
    exact this
  · have := concat_elem (k := 1) hl (by simp) hj
    rw [Nat.one_mul] at this
    exact this

/-- Three matrices side by side. -/
theorem concat3_cols {a b c : T K} {r H : Nat} (ha : a.shape = [r, H]) (hb : b.shape = [r, H]) (hc : c.shape = [r, H]) :
    (concat 0 1 [a, b, c]).shape = [r, 3 * H] ∧ (∀ j < H, ∀ i, (concat 0 1 [a, b, c]).get [i, 0 * H + j] = a.get [i, j]) ∧
    (∀ j < H, ∀ i, (concat 0 1 [a, b, c]).get [i, 1 * H + j] = b.get [i, j]) ∧ ∀ j < H, ∀ i, (concat 0 1 [a, b, c]).get [i, 2 * H + j] = c.get [i, j] := by
  have hl : ∀ x ∈ [a, b, c], nth x.shape 1 = H := by
    intro x hx
    simp only [List.mem_cons, List.not_mem_nil, or_false] at hx
    rcases hx with rfl | rfl | rfl
    · rw [ha]; rfl
    · rw [hb]; rfl
    · rw [hc]; rfl
  refine ⟨?_, fun j hj i => concat_col (k := 0) hl (by simp) i hj, fun j hj i => concat_col (k := 1) hl (by simp) i hj,
    fun j hj i => concat_col (k := 2) hl (by simp) i hj⟩
  simp only [concat, List.map_cons, List.map_nil, ha, hb, hc]
  show [r, H + (H + (H + 0))] = _
  congr 2; omega

/-- One matrix below another. -/
theorem concat2_rows {a b : T K} {I J d : Nat} (ha : a.shape = [I, d]) (hb : b.shape = [J, d]) :
    (concat 0 0 [a, b]).shape = [I + J, d] ∧ (∀ i < I, ∀ j, (concat 0 0 [a, b]).get [i, j] = a.get [i, j]) ∧
    ∀ i < J, ∀ j, (concat 0 0 [a, b]).get [I + i, j] = b.get [i, j] := by
  refine ⟨?_, fun i hi j => ?_, fun i hi j => ?_⟩
  · simp only [concat, List.map_cons, List.map_nil, ha, hb]
    rfl
  · show concatGet 0 0 _ _ = _
    unfold concatGet
    rw [if_pos (by rw [ha]; exact hi)]
  · show concatGet 0 0 _ _ = _
    have e1 : nth [I + i, j] 0 = I + i := rfl
    have e2 : nth a.shape 0 = I := by rw [ha]; rfl
    have e3 : setAt [I + i, j] 0 (I + i - I) = [i, j] := by rw [Nat.add_sub_cancel_left]; rfl
    unfold concatGet
    rw [if_neg (by rw [e1, e2]; omega), e1, e2, e3]
    unfold concatGet
    rw [if_pos (by rw [hb]; exact hi)]

/-! ## Weights -/

/-- What `gruWeights` gives, for kernels `[x; h]` of the gates (reset, update) and the candidate. -/
theorem gruWeights_get {gk gb hk hb : T K} {rbh : Option (T K)} {I H : Nat} (sgk : gk.shape = [I + H, 2 * H]) (sgb : gb.shape = [2 * H])
    (shk : hk.shape = [I + H, H]) (shb : hb.shape = [H]) (srb : ∀ b, rbh = some b → b.shape = [H]) :
    ∃ W R B, gruWeights gk gb hk hb rbh = some (W, R, B) ∧ W.shape = [1, 3 * H, I] ∧ R.shape = [1, 3 * H, H] ∧ B.shape = [1, 6 * H] ∧
      (∀ j < H, ∀ i, W.get [0, 0 * H + j, i] = gk.get [i, 1 * H + j] ∧ W.get [0, 1 * H + j, i] = gk.get [i, 0 * H + j] ∧ W.get [0, 2 * H + j, i] = hk.get [i, j]) ∧
      (∀ j < H, ∀ i, R.get [0, 0 * H + j, i] = gk.get [I + i, 1 * H + j] ∧ R.get [0, 1 * H + j, i] = gk.get [I + i, 0 * H + j] ∧
        R.get [0, 2 * H + j, i] = hk.get [I + i, j]) ∧
      (∀ j < H, B.get [0, 0 * H + j] = gb.get [1 * H + j] ∧ B.get [0, 1 * H + j] = gb.get [0 * H + j] ∧ B.get [0, 2 * H + j] = hb.get [j]) ∧
      ∀ j < H, B.get [0, 3 * H + (0 * H + j)] = 0 ∧ B.get [0, 3 * H + (1 * H + j)] = 0 ∧ B.get [0, 3 * H + (2 * H + j)] = rbh.elim 0 (fun b => b.get [j]) := by
  have eH : nth hk.shape 1 = H := by rw [shk]; rfl
  have eI : nth hk.shape 0 - H = I := by
    rw [shk]
    show I + H - H = I
    omega
  obtain ⟨k1, k2, kv1, kv2⟩ := npSplitAt_cols H gk sgk
  have k2' : (npSplitAt 1 H gk).2.shape = [I + H, H] := by rw [k2]; congr 2; omega
  obtain ⟨b1, b2, bv1, bv2⟩ := npSplitAt_vec H gb sgb
  have b2' : (npSplitAt 0 H gb).2.shape = [H] := by rw [b2]; congr 1; omega
  obtain ⟨r1, r2, rv1, rv2⟩ := npSplitAt_rows I _ k1
  obtain ⟨z1, z2, zv1, zv2⟩ := npSplitAt_rows I _ k2'
  obtain ⟨h1, h2, hv1, hv2⟩ := npSplitAt_rows I _ shk
  have sub : I + H - I = H := by omega
  rw [sub] at r2 z2 h2
  obtain ⟨cs, c0, c1, c2⟩ := concat3_cols z1 r1 h1
  obtain ⟨ds, d0, d1, d2⟩ := concat3_cols z2 r2 h2
  obtain ⟨ts, tv⟩ := transpose_get _ cs
  obtain ⟨us, uv⟩ := transpose_get _ ds
  obtain ⟨es, e0, e1, e2⟩ := concat3_vec b2' b1 shb
  have szero : (npZeros (npSplitAt 0 H gb).2.shape : T K).shape = [H] := b2'
  have srb' : (rbh.getD (npZeros (npSplitAt 0 H gb).2.shape)).shape = [H] := by
    cases rbh with
    | none => exact szero
    | some b => exact srb b rfl
  obtain ⟨fs, f0, f1, f2⟩ := concat3_vec szero szero srb'
  obtain ⟨gs, g1, g2⟩ := concat2_vec es fs
  refine ⟨expand0 (transpose [1, 0] (concat 0 1 [(npSplitAt 0 I (npSplitAt 1 H gk).2).1, (npSplitAt 0 I (npSplitAt 1 H gk).1).1, (npSplitAt 0 I hk).1])),
    expand0 (transpose [1, 0] (concat 0 1 [(npSplitAt 0 I (npSplitAt 1 H gk).2).2, (npSplitAt 0 I (npSplitAt 1 H gk).1).2, (npSplitAt 0 I hk).2])),
    expand0 (concat 0 0 [concat 0 0 [(npSplitAt 0 H gb).2, (npSplitAt 0 H gb).1, hb], concat 0 0 [npZeros (npSplitAt 0 H gb).2.shape,
      npZeros (npSplitAt 0 H gb).2.shape, rbh.getD (npZeros (npSplitAt 0 H gb).2.shape)]]), ?_, ?_, ?_, ?_, ?_, ?_, ?_, ?_⟩
  · unfold gruWeights
    simp only [eH, eI]
    refine if_pos ⟨?_, ?_, ?_⟩
    · simp only [expand0, ts]
    · simp only [expand0, us]
    · simp only [expand0, gs]
      congr 2; omega
  · simp only [expand0, ts]
  · simp only [expand0, us]
  · simp only [expand0, gs]
    congr 2; omega
  · intro j hj i
    refine ⟨?_, ?_, ?_⟩
    · rw [expand0_get0, tv, c0 j hj, zv1, kv2, Nat.one_mul]
    · rw [expand0_get0, tv, c1 j hj, rv1, kv1, Nat.zero_mul, Nat.zero_add]
    · rw [expand0_get0, tv, c2 j hj, hv1]
  · intro j hj i
    refine ⟨?_, ?_, ?_⟩
    · rw [expand0_get0, uv, d0 j hj, zv2, kv2, Nat.one_mul]
    · rw [expand0_get0, uv, d1 j hj, rv2, kv1, Nat.zero_mul, Nat.zero_add]
    · rw [expand0_get0, uv, d2 j hj, hv2]
  · intro j hj
    refine ⟨?_, ?_, ?_⟩
    · show (concat 0 0 [_, _]).get [0 * H + j] = _
      rw [g1 _ (by omega), e0 j hj, bv2, Nat.one_mul]
    · show (concat 0 0 [_, _]).get [1 * H + j] = _
      rw [g1 _ (by omega), e1 j hj, bv1, Nat.zero_mul, Nat.zero_add]
    · show (concat 0 0 [_, _]).get [2 * H + j] = _
      rw [g1 _ (by omega), e2 j hj]
  · intro j hj
    refine ⟨?_, ?_, ?_⟩
    · show (concat 0 0 [_, _]).get [3 * H + (0 * H + j)] = _
      rw [g2 _ (by omega), f0 j hj]; rfl
    · show (concat 0 0 [_, _]).get [3 * H + (1 * H + j)] = _
      rw [g2 _ (by omega), f1 j hj]; rfl
    · show (concat 0 0 [_, _]).get [3 * H + (2 * H + j)] = _
      rw [g2 _ (by omega), f2 j hj]
      cases rbh <;> rfl

/-! ## Theorems -/

/-- A TensorFlow GRU cell whose gates are in TensorFlow's order (reset, update); its activation is not a hard sigmoid, and `Tanh` if it is the Cudnn
compatible cell: whenever the rewriter makes a node, the node computes what the loop computes. -/
theorem gruTf_converts (A : String → K → K) {tf2 : Bool} {c : TfGru K} (hF : c.Fits) (ord : c.r = 0 ∧ c.u = 1)
    (ha : c.act ≠ .op "HardSigmoid") (hc : ∀ p, c.cand = .inr p → c.act = .op "Tanh") {nd : GruNode K} (h : gruTf tf2 c = some nd) :
    GruAgrees A (c.step A) c.I c.H nd := by
  obtain ⟨o1, o2⟩ := ord
  obtain ⟨f1, f2, f3⟩ := hF
  have sig : onnxAct A "Sigmoid" = A "Sigmoid" := onnxAct_default A (by decide)
  cases hact : c.act with
  | hard a b hi lo => rw [gruTf, hact] at h; simp [actName] at h
  | op a =>
    have hA : onnxAct A a = A a := by
      funext x
      unfold onnxAct
      rw [if_neg]
      rintro rfl
      exact ha hact
    cases hcand : c.cand with
    | inl kb =>
      obtain ⟨k, b⟩ := kb
      rw [hcand] at f3
      obtain ⟨W, R, B, e, sW, sR, sB, vW, vR, vB, vB0⟩ := gruWeights_get (rbh := none) f1 f2 f3.1 f3.2 (fun _ h => by simp at h)
      have eH : nth R.shape 2 = c.H := by rw [sR]; rfl
      have eI : nth W.shape 2 = c.I := by rw [sW]; rfl
      unfold gruTf at h
      rw [hact, hcand] at h
      simp only [actName, Option.bind_eq_bind, Option.bind_some, e, eH] at h
      split at h
      · exact absurd h (by simp)
      · injection h with h
        subst h
        refine GruAgrees.of_step ⟨sW, sR, sB, Or.inr rfl⟩ rfl rfl ?_
        intro s x
        unfold GruNode.step TfGru.step
        rw [hcand, hact, o1, o2]
        refine vec_congr (fun j hj => ?_)
        show (1 - onnxAct A "Sigmoid" _) * (if false = true then _ else onnxAct A a _) + onnxAct A "Sigmoid" _ * s j = _
        have g0 : GruNode.act (⟨.forward, c.H, ["Sigmoid", a], false, W, R, B⟩ : GruNode K) 0 0 = "Sigmoid" := (rfl)
        rw [sig, hA, if_neg (by simp)]
        simp only [g0, TfAct.fn, GruNode.xW, GruNode.hR, GruNode.wb, GruNode.rb, eI, dot_join]
        have hr : ∀ i < c.H, onnxAct A "Sigmoid" (dot c.I x (fun l => W.get [0, 1 * c.H + i, l]) + dot c.H s (fun l => R.get [0, 1 * c.H + i, l]) +
            B.get [0, 1 * c.H + i] + B.get [0, 3 * c.H + (1 * c.H + i)]) =
            A "Sigmoid" (dot c.I x (fun l => c.gateKernel.get [l, 0 * c.H + i]) + dot c.H s (fun l => c.gateKernel.get [c.I + l, 0 * c.H + i]) +
              c.gateBias.get [0 * c.H + i]) := by
          intro i hi
          rw [sig, (vB i hi).2.1, (vB0 i hi).2.1, dot_congr (fun _ _ => rfl) (fun l _ => (vW i hi l).2.1),
            dot_congr (n := c.H) (fun _ _ => rfl) (fun l _ => (vR i hi l).2.1), add_zero]
        rw [(vB j hj).1, (vB j hj).2.2, (vB0 j hj).1, (vB0 j hj).2.2, dot_congr (fun _ _ => rfl) (fun i _ => (vW j hj i).1),
          dot_congr (n := c.H) (fun _ _ => rfl) (fun i _ => (vR j hj i).1), dot_congr (fun _ _ => rfl) (fun i _ => (vW j hj i).2.2),
          dot_congr (n := c.H) (x := fun i => onnxAct A "Sigmoid" _ * s i) (fun i hi => congrArg (· * s i) (hr i hi)) (fun i _ => (vR j hj i).2.2)]
        simp only [Option.elim_none, add_zero]
        ring
    | inr p =>
      obtain ⟨⟨wx, bx⟩, ⟨wh, bh⟩⟩ := p
      rw [hcand] at f3
      obtain ⟨g1, g2, g3, g4⟩ := f3
      have htanh := hc _ hcand
      obtain ⟨ks, kx, kh⟩ := concat2_rows g1 g3
      obtain ⟨W, R, B, e, sW, sR, sB, vW, vR, vB, vB0⟩ := gruWeights_get (rbh := some bh) f1 f2 ks g2 (fun b h => by injection h with h; rw [← h]; exact g4)
      have eH : nth R.shape 2 = c.H := by rw [sR]; rfl
      have eI : nth W.shape 2 = c.I := by rw [sW]; rfl
      unfold gruTf at h
      rw [hact, hcand] at h
      simp only [actName, Option.bind_eq_bind, Option.bind_some, e, eH] at h
      split at h
      · exact absurd h (by simp)
      · split at h
        · exact absurd h (by simp)
        · injection h with h
          subst h
          refine GruAgrees.of_step ⟨sW, sR, sB, Or.inr rfl⟩ rfl rfl ?_
          intro s x
          unfold GruNode.step TfGru.step
          rw [hcand, htanh, o1, o2]
          refine vec_congr (fun j hj => ?_)
          show (1 - onnxAct A "Sigmoid" _) * (if true = true then onnxAct A "Tanh" _ else _) + onnxAct A "Sigmoid" _ * s j = _
          rw [sig, onnxAct_default A (a := "Tanh") (by decide), if_pos rfl]
          simp only [TfAct.fn, GruNode.xW, GruNode.hR, GruNode.wb, GruNode.rb, eI, dot_join]
          have hr : onnxAct A "Sigmoid" (dot c.I x (fun l => W.get [0, 1 * c.H + j, l]) + dot c.H s (fun l => R.get [0, 1 * c.H + j, l]) +
              B.get [0, 1 * c.H + j] + B.get [0, 3 * c.H + (1 * c.H + j)]) =
              A "Sigmoid" (dot c.I x (fun l => c.gateKernel.get [l, 0 * c.H + j]) + dot c.H s (fun l => c.gateKernel.get [c.I + l, 0 * c.H + j]) +
                c.gateBias.get [0 * c.H + j]) := by
            rw [sig, (vB j hj).2.1, (vB0 j hj).2.1, dot_congr (fun _ _ => rfl) (fun l _ => (vW j hj l).2.1),
              dot_congr (n := c.H) (fun _ _ => rfl) (fun l _ => (vR j hj l).2.1), add_zero]
          have hr' := hr
          rw [sig] at hr'
          have kx' : dot c.I x (fun i => W.get [0, 2 * c.H + j, i]) = dot c.I x (fun i => wx.get [i, j]) :=
            dot_congr (fun _ _ => rfl) (fun i hi => ((vW j hj i).2.2).trans (kx i hi j))
          have kh' : dot c.H s (fun i => R.get [0, 2 * c.H + j, i]) = dot c.H s (fun i => wh.get [i, j]) :=
            dot_congr (fun _ _ => rfl) (fun i hi => ((vR j hj i).2.2).trans (kh i hi j))
          have zx' : dot c.I x (fun i => W.get [0, 0 * c.H + j, i]) = dot c.I x (fun i => c.gateKernel.get [i, 1 * c.H + j]) :=
            dot_congr (fun _ _ => rfl) (fun i _ => (vW j hj i).1)
          have zh' : dot c.H s (fun i => R.get [0, 0 * c.H + j, i]) = dot c.H s (fun i => c.gateKernel.get [c.I + i, 1 * c.H + j]) :=
            dot_congr (fun _ _ => rfl) (fun i _ => (vR j hj i).1)
          show (1 - A "Sigmoid" (dot c.I x (fun i => W.get [0, 0 * c.H + j, i]) + dot c.H s (fun i => R.get [0, 0 * c.H + j, i]) + B.get [0, 0 * c.H + j] +
            B.get [0, 3 * c.H + (0 * c.H + j)])) * A "Tanh" (dot c.I x (fun i => W.get [0, 2 * c.H + j, i]) +
              onnxAct A "Sigmoid" (dot c.I x (fun l => W.get [0, 1 * c.H + j, l]) + dot c.H s (fun l => R.get [0, 1 * c.H + j, l]) +
              B.get [0, 1 * c.H + j] + B.get [0, 3 * c.H + (1 * c.H + j)]) * (dot c.H s (fun i => R.get [0, 2 * c.H + j, i]) + B.get [0, 3 * c.H + (2 * c.H + j)]) +
              B.get [0, 2 * c.H + j]) + A "Sigmoid" (dot c.I x (fun i => W.get [0, 0 * c.H + j, i]) + dot c.H s (fun i => R.get [0, 0 * c.H + j, i]) +
              B.get [0, 0 * c.H + j] + B.get [0, 3 * c.H + (0 * c.H + j)]) * s j = _
          rw [hr, kx', kh', zx', zh', (vB j hj).1, (vB j hj).2.2, (vB0 j hj).1, (vB0 j hj).2.2, add_zero]
          simp only [Option.elim_some]
          have e5 : dot c.I x (fun i => wx.get [i, j]) + A "Sigmoid" (dot c.I x (fun l => c.gateKernel.get [l, 0 * c.H + j]) +
              dot c.H s (fun l => c.gateKernel.get [c.I + l, 0 * c.H + j]) + c.gateBias.get [0 * c.H + j]) * (dot c.H s (fun i => wh.get [i, j]) + bh.get [j]) + bx.get [j] =
              A "Sigmoid" (dot c.I x (fun l => c.gateKernel.get [l, 0 * c.H + j]) + dot c.H s (fun l => c.gateKernel.get [c.I + l, 0 * c.H + j]) + c.gateBias.get [0 * c.H + j]) *
              (dot c.H s (fun i => wh.get [i, j]) + bh.get [j]) + (dot c.I x (fun i => wx.get [i, j]) + bx.get [j]) := by ring
          rw [e5]
          ring

/-- A keras GRU cell whose gates are in keras' order (update, reset, candidate). -/
theorem gruKeras_converts (A : String → K → K) {c : KerasGru K} (hF : c.Fits) (ord : c.z = 0 ∧ c.r = 1 ∧ c.n = 2) {nd : GruNode K} (h : gruKeras c = some nd) :
    GruAgrees A (c.step A) c.I c.H nd := by
  obtain ⟨o1, o2, o3⟩ := ord
  obtain ⟨f1, f2, f3, f4⟩ := hF
  have sig : onnxAct A "Sigmoid" = A "Sigmoid" := onnxAct_default A (by decide)
  cases hact : c.act with
  | hard a b hi lo => rw [gruKeras, hact] at h; simp [actName] at h
  | op a =>
    obtain ⟨ts, tv⟩ := transpose_get c.kernel f1
    obtain ⟨us, uv⟩ := transpose_get c.recurrent f2
    obtain ⟨bs, b1, b2⟩ := concat2_vec f3 f4
    have eH : nth (expand0 (transpose [1, 0] c.recurrent)).shape 2 = c.H := by
      show nth (1 :: (transpose [1, 0] c.recurrent).shape) 2 = _
      rw [us]; rfl
    have eI : nth (expand0 (transpose [1, 0] c.kernel)).shape 2 = c.I := by
      show nth (1 :: (transpose [1, 0] c.kernel).shape) 2 = _
      rw [ts]; rfl
    unfold gruKeras at h
    rw [hact] at h
    simp only [actName, Option.bind_eq_bind, Option.bind_some, eH] at h
    split at h
    · exact absurd h (by simp)
    · rename_i hm
      have hm : a ∈ defaultActs := by simpa using hm
      injection h with h
      subst h
      refine GruAgrees.of_step ⟨?_, ?_, ?_, Or.inr rfl⟩ rfl rfl ?_
      · show 1 :: (transpose [1, 0] c.kernel).shape = _
        rw [ts]; rfl
      · show 1 :: (transpose [1, 0] c.recurrent).shape = _
        rw [us]; rfl
      · show 1 :: (concat 0 0 [c.biasI, c.biasR]).shape = _
        rw [bs]
        show [1, 2 * (3 * c.H)] = [1, 6 * c.H]
        congr 2; omega
      · intro s x
        unfold GruNode.step KerasGru.step
        rw [hact, o1, o2, o3]
        refine vec_congr (fun j hj => ?_)
        have hj : j < c.H := hj
        show (1 - onnxAct A "Sigmoid" _) * (if true = true then onnxAct A a _ else _) + onnxAct A "Sigmoid" _ * s j = _
        rw [sig, onnxAct_default A hm, if_pos rfl]
        have x0 : ∀ k < 3, (⟨.forward, c.H, ["Sigmoid", a], true, expand0 (transpose [1, 0] c.kernel), expand0 (transpose [1, 0] c.recurrent),
            expand0 (concat 0 0 [c.biasI, c.biasR])⟩ : GruNode K).xW 0 k x j = dot c.I x (fun i => c.kernel.get [i, k * c.H + j]) := by
          intro k hk
          unfold GruNode.xW
          simp only [eI]
          rfl
        have hm' : ∀ k < 3, k * c.H + j < 3 * c.H := by
          intro k hk
          have : (k + 1) * c.H ≤ 3 * c.H := Nat.mul_le_mul_right c.H hk
          rw [Nat.succ_mul] at this
          omega
        have b0 : ∀ k < 3, (⟨.forward, c.H, ["Sigmoid", a], true, expand0 (transpose [1, 0] c.kernel), expand0 (transpose [1, 0] c.recurrent),
            expand0 (concat 0 0 [c.biasI, c.biasR])⟩ : GruNode K).wb 0 k j = c.biasI.get [k * c.H + j] := fun k hk => b1 _ (hm' k hk)
        have r0 : ∀ k < 3, (⟨.forward, c.H, ["Sigmoid", a], true, expand0 (transpose [1, 0] c.kernel), expand0 (transpose [1, 0] c.recurrent),
            expand0 (concat 0 0 [c.biasI, c.biasR])⟩ : GruNode K).rb 0 k j = c.biasR.get [k * c.H + j] := fun k hk => b2 _ (hm' k hk)
        have h0 : ∀ k, (⟨.forward, c.H, ["Sigmoid", a], true, expand0 (transpose [1, 0] c.kernel), expand0 (transpose [1, 0] c.recurrent),
            expand0 (concat 0 0 [c.biasI, c.biasR])⟩ : GruNode K).hR 0 k s j = dot c.H s (fun i => c.recurrent.get [i, k * c.H + j]) := fun k => rfl
        rw [x0 0 (by omega), x0 2 (by omega), b0 0 (by omega), b0 2 (by omega), r0 0 (by omega), r0 2 (by omega), h0 0, h0 2]
        show (1 - A "Sigmoid" _) * A a (_ + onnxAct A "Sigmoid" (GruNode.xW _ 0 1 x j + GruNode.hR _ 0 1 s j + GruNode.wb _ 0 1 j + GruNode.rb _ 0 1 j) * _ + _) + _ = _
        rw [sig, x0 1 (by omega), b0 1 (by omega), r0 1 (by omega), h0 1]
        simp only [TfAct.fn]
        have e1 : ∀ p q r t : K, p + q + r + t = p + r + (q + t) := fun p q r t => by ring
        have e2 : ∀ p q r : K, p + q + r = p + r + q := fun p q r => by ring
        rw [e1, e1, e2 (dot c.I x fun i => c.kernel.get [i, 2 * c.H + j])]
        ring

end Verif.Rnn
