import Verif.Props.C56_Stack
import Verif.Props.C56_Gru
/-!
# C56: initial states in one tensor, and bidirectional networks
-/
set_option linter.unusedSectionVars false
namespace Verif.Rnn
open Verif.Tensor Verif.Emit

variable {K : Type} [Field K] [LinearOrder K]

/-! ## A state that is one tensor -/

/-- TensorFlow keeps `c` in the first half. -/
def stateC (H : Nat) (s : T K) : T K := ⟨[nth s.shape 0, H], fun i => s.get [nth i 0, nth i 1]⟩
/-- And `h` in the second. -/
def stateH (H : Nat) (s : T K) : T K := ⟨[nth s.shape 0, H], fun i => s.get [nth i 0, H + nth i 1]⟩

/-- A constant initial state: the node starts in the state TensorFlow starts in. -/
theorem initBoth2_ok {s : T K} {N H : Nat} (hs : s.shape = [N, 2 * H]) :
    ∃ h0 c0, initBoth2 s = some (h0, c0) ∧ h0.shape = [1, N, H] ∧ c0.shape = [1, N, H] ∧
      ∀ n, lstmInit h0 c0 0 n = tfInit (stateH H s) (stateC H s) n := by
  have e : nth (expand0 s).shape 2 = 2 * H := by show nth (1 :: s.shape) 2 = _; rw [hs]; rfl
  have ed : nth (expand0 s).shape 2 / 2 = H := by rw [e]; omega
  have e1 : npSplit 2 2 (expand0 s) = some [splitChunk 2 [H, H] 0 (expand0 s), splitChunk 2 [H, H] 1 (expand0 s)] := by
    unfold npSplit
    rw [if_pos (by rw [e]; exact ⟨H, rfl⟩), ed]
    rfl
  refine ⟨splitChunk 2 [H, H] 1 (expand0 s), splitChunk 2 [H, H] 0 (expand0 s), ?_, ?_, ?_, ?_⟩
  · unfold initBoth2
    rw [if_pos (by rw [hs]; rfl), e1]
    rfl
  · show setAt (1 :: s.shape) 2 H = _
    rw [hs]; rfl
  · show setAt (1 :: s.shape) 2 H = _
    rw [hs]; rfl
  · intro n
    unfold lstmInit tfInit row3 row2
    have h1 : nth (splitChunk 2 [H, H] 1 (expand0 s)).shape 2 = H := by
      show nth (setAt (1 :: s.shape) 2 H) 2 = _
      rw [hs]; rfl
    have h2 : nth (splitChunk 2 [H, H] 0 (expand0 s)).shape 2 = H := by
      show nth (setAt (1 :: s.shape) 2 H) 2 = _
      rw [hs]; rfl
    rw [h1, h2]
    refine congrArg₂ Lstm.mk (vec_congr (fun i _ => ?_)) (vec_congr (fun i _ => ?_))
    · show s.get [n, i + H] = s.get [n, H + i]
      rw [Nat.add_comm]
    · rfl

/-- The final state: `c` in the first half, `h` in the second. -/
theorem finalBoth_ok {yh yc : T K} {N H : Nat} (hh : yh.shape = [1, N, H]) (hc : yc.shape = [1, N, H]) :
    (finalBoth yh yc).shape = [N, 2 * H] ∧ Same (stateC H (finalBoth yh yc)) (squeezeAt 3 0 yc) ∧ Same (stateH H (finalBoth yh yc)) (squeezeAt 3 0 yh) := by
  have hs : (concat 0 2 [yc, yh]).shape = [1, N, 2 * H] := by
    show setAt yc.shape 2 _ = _
    simp only [List.map_cons, List.map_nil, hh, hc]
    show [1, N, H + (H + 0)] = _
    congr 3; omega
  obtain ⟨s1, s2⟩ := squeeze_last _ hs
  obtain ⟨c1, c2⟩ := squeeze_last _ hc
  obtain ⟨h1, h2⟩ := squeeze_last _ hh
  have eN : nth (finalBoth yh yc).shape 0 = N := by
    show nth (squeezeAt 3 0 _).shape 0 = N
    rw [s1]; rfl
  refine ⟨s1, ⟨?_, ?_⟩, ⟨?_, ?_⟩⟩
  · rw [c1]; show [nth (finalBoth yh yc).shape 0, H] = _; rw [eN]
  · intro idx hi
    have hi : InB [nth (finalBoth yh yc).shape 0, H] idx := hi
    rw [eN] at hi
    obtain ⟨n, j, rfl, hn, hj⟩ := InB_two hi
    show (squeezeAt 3 0 (concat 0 2 [yc, yh])).get [n, j] = _
    rw [s2, c2]
    show concatGet 0 2 _ _ = _
    unfold concatGet
    rw [if_pos (by rw [hc]; exact hj)]
  · rw [h1]; show [nth (finalBoth yh yc).shape 0, H] = _; rw [eN]
  · intro idx hi
    have hi : InB [nth (finalBoth yh yc).shape 0, H] idx := hi
    rw [eN] at hi
    obtain ⟨n, j, rfl, hn, hj⟩ := InB_two hi
    show (squeezeAt 3 0 (concat 0 2 [yc, yh])).get [n, H + j] = _
    rw [s2, h2]
    show concatGet 0 2 _ _ = _
    have e1 : nth [0, n, H + j] 2 = H + j := rfl
    have e2 : nth yc.shape 2 = H := by rw [hc]; rfl
    have e3 : setAt [0, n, H + j] 2 (H + j - H) = [0, n, j] := by rw [Nat.add_sub_cancel_left]; rfl
    unfold concatGet
    rw [if_neg (by rw [e1, e2]; omega), e1, e2, e3]
    unfold concatGet
    rw [if_pos (by rw [hh]; exact hj)]

/-! ## Bidirectional networks -/

/-- `ReverseSequence` (`lens`), or `ReverseV2` of the time axis (no lengths): `[time, batch, ..]`. -/
def revTime (lens : Option (Nat → Nat)) (x : T K) : T K :=
  { shape := x.shape
    get := fun idx =>
      let len := lenOf (nth x.shape 0) lens (nth idx 1)
      if nth idx 0 < len then x.get (setAt idx 0 (len - 1 - nth idx 0)) else x.get idx }

theorem dir_count : ∀ d < 2, SliceSpec.count ⟨((d : Nat) : Int), (d : Int) + 1, 1⟩ ((2 : Nat) : Int) = 1 ∧
    (SliceSpec.first ⟨((d : Nat) : Int), (d : Int) + 1, 1⟩ ((2 : Nat) : Int) + ((0 : Nat) : Int) * 1).toNat = d := by decide

theorem biSlice_Y (y : T K) {a b c : Nat} (h : y.shape = [a, 2, b, c]) {d : Nat} (hd : d < 2) :
    (biSlice 1 d y).shape = [a, 1, b, c] ∧ ∀ t n j, (biSlice 1 d y).get [t, 0, n, j] = y.get [t, d, n, j] := by
  obtain ⟨e1, e2⟩ := dir_count d hd
  unfold biSlice Tensor.slice axisOp
  rw [h]
  refine ⟨?_, fun t n j => ?_⟩
  · show [a, SliceSpec.count ⟨((d : Nat) : Int), (d : Int) + 1, 1⟩ ((2 : Nat) : Int), b, c] = _
    rw [e1]
  · dsimp only
    refine (if_pos ?_).trans ?_
    · intro i hi
      match i, hi with
      | 0, _ => rfl
      | 1, _ => rfl
      | 2, _ => rfl
      | 3, _ => rfl
      | i + 4, hi => simp at hi
    · show y.get [t, (SliceSpec.first ⟨((d : Nat) : Int), (d : Int) + 1, 1⟩ ((2 : Nat) : Int) + ((0 : Nat) : Int) * 1).toNat, n, j] = _
      rw [e2]

theorem biSlice_last (y : T K) {b c : Nat} (h : y.shape = [2, b, c]) {d : Nat} (hd : d < 2) :
    (biSlice 0 d y).shape = [1, b, c] ∧ ∀ n j, (biSlice 0 d y).get [0, n, j] = y.get [d, n, j] := by
  obtain ⟨e1, e2⟩ := dir_count d hd
  unfold biSlice Tensor.slice axisOp
  rw [h]
  refine ⟨?_, fun n j => ?_⟩
  · show [SliceSpec.count ⟨((d : Nat) : Int), (d : Int) + 1, 1⟩ ((2 : Nat) : Int), b, c] = _
    rw [e1]
  · dsimp only
    refine (if_pos ?_).trans ?_
    · intro i hi
      match i, hi with
      | 0, _ => rfl
      | 1, _ => rfl
      | 2, _ => rfl
      | i + 3, hi => simp at hi
    · show y.get [(SliceSpec.first ⟨((d : Nat) : Int), (d : Int) + 1, 1⟩ ((2 : Nat) : Int) + ((0 : Nat) : Int) * 1).toNat, n, j] = _
      rw [e2]

theorem InB_four_dir {a b c : Nat} {idx : List Nat} (h : InB [a, 1, b, c] idx) : ∃ t n j, idx = [t, 0, n, j] ∧ t < a ∧ n < b ∧ j < c := by
  obtain ⟨t, d, n, j, rfl, ht, hd, hn, hj⟩ := InB_four h
  have : d = 0 := by omega
  subst this
  exact ⟨t, n, j, rfl, ht, hn, hj⟩

theorem row3_revTime {X : T K} {lens : Option (Nat → Nat)} {t n : Nat} (h : t < lenOf (nth X.shape 0) lens n) :
    row3 (revTime lens X) t n = row3 X (lenOf (nth X.shape 0) lens n - 1 - t) n := by
  unfold row3
  refine vec_congr (fun i _ => ?_)
  show (if t < lenOf (nth X.shape 0) lens n then _ else _) = _
  rw [if_pos h]
  rfl

section
variable {S : Type} {step sf sb : Nat → S → (Nat → K) → S} {out : S → Nat → K} {H len N I : Nat} {s0 f0 b0 : Nat → Nat → S} {X : T K}
  {lens : Option (Nat → Nat)}

/-- Direction 0 is the forward network. -/
theorem bi_fw (b : Batch X lens len N I) (hs : ∀ s x, step 0 s x = sf 0 s x) (h0 : ∀ n < N, s0 0 n = f0 0 n) :
    Same (biSlice 1 0 (onnxY .bidirectional step out H s0 X lens)) (onnxY .forward sf out H f0 X lens) ∧
    Same (biSlice 0 0 (onnxLast .bidirectional step out H s0 X lens)) (onnxLast .forward sf out H f0 X lens) := by
  have hY : (onnxY .bidirectional step out H s0 X lens).shape = [len, 2, N, H] := by
    show [nth X.shape 0, 2, nth X.shape 1, H] = _
    rw [b.X]; rfl
  have hL : (onnxLast .bidirectional step out H s0 X lens).shape = [2, N, H] := by
    show [2, nth X.shape 1, H] = _
    rw [b.X]; rfl
  obtain ⟨a1, a2⟩ := biSlice_Y _ hY (d := 0) (by omega)
  obtain ⟨c1, c2⟩ := biSlice_last _ hL (d := 0) (by omega)
  refine ⟨⟨?_, ?_⟩, ⟨?_, ?_⟩⟩
  · rw [a1]; show _ = [nth X.shape 0, 1, nth X.shape 1, H]; rw [b.X]; rfl
  · intro idx hi
    rw [a1] at hi
    obtain ⟨t, n, j, rfl, ht, hn, hj⟩ := InB_four_dir hi
    rw [a2]
    show (if t < lenOf (nth X.shape 0) lens n then out (runState (step 0) (s0 0 n) (fun t => row3 X t n) (t + 1)) j else 0) =
      if t < lenOf (nth X.shape 0) lens n then out (runState (sf 0) (f0 0 n) (fun t => row3 X t n) (t + 1)) j else 0
    rw [h0 n hn, runState_step hs]
  · rw [c1]; show _ = [1, nth X.shape 1, H]; rw [b.X]; rfl
  · intro idx hi
    rw [c1] at hi
    obtain ⟨d, n, j, rfl, hd, hn, hj⟩ := InB_three hi
    have : d = 0 := by omega
    subst this
    rw [c2]
    show out (runState (step 0) (s0 0 n) (fun t => row3 X t n) (lenOf (nth X.shape 0) lens n)) j =
      out (runState (sf 0) (f0 0 n) (fun t => row3 X t n) (lenOf (nth X.shape 0) lens n)) j
    rw [h0 n hn, runState_step hs]

/-- Direction 1 is the other network, that reads the reversed sequences; its outputs are reversed. -/
theorem bi_bw (b : Batch X lens len N I) (hs : ∀ s x, step 1 s x = sb 0 s x) (h0 : ∀ n < N, s0 1 n = b0 0 n) :
    Same (squeezeAt 4 1 (biSlice 1 1 (onnxY .bidirectional step out H s0 X lens)))
      (revTime lens (squeezeAt 4 1 (onnxY .forward sb out H b0 (revTime lens X) lens))) ∧
    Same (biSlice 0 1 (onnxLast .bidirectional step out H s0 X lens)) (onnxLast .forward sb out H b0 (revTime lens X) lens) := by
  have hY : (onnxY .bidirectional step out H s0 X lens).shape = [len, 2, N, H] := by
    show [nth X.shape 0, 2, nth X.shape 1, H] = _
    rw [b.X]; rfl
  have hL : (onnxLast .bidirectional step out H s0 X lens).shape = [2, N, H] := by
    show [2, nth X.shape 1, H] = _
    rw [b.X]; rfl
  have hF : (onnxY .forward sb out H b0 (revTime lens X) lens).shape = [len, 1, N, H] := by
    show [nth X.shape 0, 1, nth X.shape 1, H] = _
    rw [b.X]; rfl
  obtain ⟨a1, a2⟩ := biSlice_Y _ hY (d := 1) (by omega)
  obtain ⟨c1, c2⟩ := biSlice_last _ hL (d := 1) (by omega)
  obtain ⟨s1, s2⟩ := squeeze_Y _ a1
  obtain ⟨r1, r2⟩ := squeeze_Y _ hF
  have e0 : nth X.shape 0 = len := by rw [b.X]; rfl
  have er : nth (squeezeAt 4 1 (onnxY .forward sb out H b0 (revTime lens X) lens)).shape 0 = nth X.shape 0 := by rw [r1, e0]; rfl
  have hrun : ∀ n < N, ∀ m ≤ lenOf (nth X.shape 0) lens n,
      runState (step 1) (s0 1 n) (fun t => row3 X (lenOf (nth X.shape 0) lens n - 1 - t) n) m =
      runState (sb 0) (b0 0 n) (fun t => row3 (revTime lens X) t n) m := by
    intro n hn m hm
    rw [h0 n hn, runState_step hs]
    refine runState_congr (fun i hi => (row3_revTime (by omega)).symm)
  refine ⟨⟨?_, ?_⟩, ⟨?_, ?_⟩⟩
  · rw [s1]; exact r1.symm
  · intro idx hi
    rw [s1] at hi
    obtain ⟨t, n, j, rfl, ht, hn, hj⟩ := InB_three hi
    rw [s2, a2]
    show (if t < lenOf (nth X.shape 0) lens n then out (runState (step 1) (s0 1 n) (fun t => row3 X (lenOf (nth X.shape 0) lens n - 1 - t) n)
      (lenOf (nth X.shape 0) lens n - 1 - t + 1)) j else 0) =
      if t < lenOf (nth (squeezeAt 4 1 (onnxY .forward sb out H b0 (revTime lens X) lens)).shape 0) lens n then
        (squeezeAt 4 1 (onnxY .forward sb out H b0 (revTime lens X) lens)).get
          [lenOf (nth (squeezeAt 4 1 (onnxY .forward sb out H b0 (revTime lens X) lens)).shape 0) lens n - 1 - t, n, j]
      else (squeezeAt 4 1 (onnxY .forward sb out H b0 (revTime lens X) lens)).get [t, n, j]
    rw [er, r2, r2]
    by_cases hlt : t < lenOf (nth X.shape 0) lens n
    · rw [if_pos hlt, if_pos hlt, hrun n hn _ (by omega)]
      show _ = if lenOf (nth X.shape 0) lens n - 1 - t < lenOf (nth X.shape 0) lens n then
        out (runState (sb 0) (b0 0 n) (fun t => row3 (revTime lens X) t n) (lenOf (nth X.shape 0) lens n - 1 - t + 1)) j else 0
      rw [if_pos (by omega)]
    · rw [if_neg hlt, if_neg hlt]
      show _ = if t < lenOf (nth X.shape 0) lens n then _ else 0
      rw [if_neg hlt]
  · rw [c1]; show _ = [1, nth X.shape 1, H]; rw [b.X]; rfl
  · intro idx hi
    rw [c1] at hi
    obtain ⟨d, n, j, rfl, hd, hn, hj⟩ := InB_three hi
    have : d = 0 := by omega
    subst this
    rw [c2]
    show out (runState (step 1) (s0 1 n) (fun t => row3 X (lenOf (nth X.shape 0) lens n - 1 - t) n) (lenOf (nth X.shape 0) lens n)) j =
      out (runState (sb 0) (b0 0 n) (fun t => row3 (revTime lens X) t n) (lenOf (nth X.shape 0) lens n)) j
    rw [hrun n hn _ (Nat.le_refl _)]

end

/-! ## Weights of both directions -/

theorem concat_dir {a b : T K} {l : List Nat} (ha : nth a.shape 0 = 1) (hb : nth b.shape 0 = 1) :
    (concat 0 0 [a, b]).get (0 :: l) = a.get (0 :: l) ∧ (concat 0 0 [a, b]).get (1 :: l) = b.get (0 :: l) := by
  refine ⟨?_, ?_⟩
  · show concatGet 0 0 _ _ = _
    unfold concatGet
    rw [if_pos (by rw [ha]; exact Nat.zero_lt_one)]
  · show concatGet 0 0 _ _ = _
    have e : nth (1 :: l) 0 = 1 := rfl
    unfold concatGet
    rw [if_neg (by rw [ha, e]; omega), e, ha]
    unfold concatGet
    have e2 : setAt (1 :: l) 0 (1 - 1) = 0 :: l := by
      simp [setAt]
    rw [e2, if_pos (by rw [hb]; exact Nat.zero_lt_one)]

/-- The shape of two weights, one after the other. -/
theorem concat_dir_shape {a b : T K} {l : List Nat} (ha : a.shape = 1 :: l) (hb : b.shape = 1 :: l) : (concat 0 0 [a, b]).shape = 2 :: l := by
  show setAt a.shape 0 _ = _
  simp only [List.map_cons, List.map_nil, ha, hb]
  simp [setAt, nth]

theorem row3_biInit {a b : T K} {N H : Nat} (ha : a.shape = [1, N, H]) (hb : b.shape = [1, N, H]) (n : Nat) :
    row3 (biInit a b) 0 n = row3 a 0 n ∧ row3 (biInit a b) 1 n = row3 b 0 n := by
  have hs : (biInit a b).shape = [2, N, H] := concat_dir_shape ha hb
  unfold row3
  rw [hs, ha, hb]
  exact ⟨vec_congr (fun i _ => (concat_dir (by rw [ha]; rfl) (by rw [hb]; rfl)).1), vec_congr (fun i _ => (concat_dir (by rw [ha]; rfl) (by rw [hb]; rfl)).2)⟩

/-- What two nodes, one reading the reversed sequences, and the merged node compute. `ef`: the forward node. -/
def LstmMerged (A : String → K → K) (fw bw nd : LstmNode K) (I : Nat) : Prop :=
  nd.Ok I ∧ ∀ (X : T K) (lens : Option (Nat → Nat)) (len N : Nat) (hf cf hb cb : T K), Batch X lens len N I →
    (∀ x ∈ [hf, cf, hb, cb], x.shape = [1, N, fw.hidden]) →
    let f := fw.eval A X lens hf cf
    let b := bw.eval A (revTime lens X) lens hb cb
    let y := nd.eval A X lens (biInit hf hb) (biInit cf cb)
    Same (biSlice 1 0 y.1) f.1 ∧ Same (biSlice 0 0 y.2.1) f.2.1 ∧ Same (biSlice 0 0 y.2.2) f.2.2 ∧
    Same (squeezeAt 4 1 (biSlice 1 1 y.1)) (revTime lens (squeezeAt 4 1 b.1)) ∧ Same (biSlice 0 1 y.2.1) b.2.1 ∧ Same (biSlice 0 1 y.2.2) b.2.2

/-- Merging a forward LSTM and one that reads the reversed sequences, if both have activations or neither has. -/
theorem biLstm_converts (A : String → K → K) {fw bw nd : LstmNode K} {I : Nat} (df : fw.dir = .forward) (db : bw.dir = .forward) (of : fw.Ok I) (ob : bw.Ok I)
    (ha : fw.acts = [] ↔ bw.acts = []) (h : biLstm fw bw = some nd) : LstmMerged A fw bw nd I := by
  obtain ⟨w1, r1, b1, a1⟩ := of
  obtain ⟨w2, r2, b2, a2⟩ := ob
  rw [df] at w1 r1 b1 a1
  rw [db] at w2 r2 b2 a2
  unfold biLstm at h
  split at h
  · rename_i hh
    injection h with h
    subst h
    rw [← hh] at w2 r2 b2
    have hacts : (fw.acts = [] ∧ bw.acts = []) ∨ (fw.acts.length = 3 ∧ bw.acts.length = 3) := by
      rcases a1 with a1 | a1
      · exact Or.inl ⟨a1, ha.1 a1⟩
      · rcases a2 with a2 | a2
        · have := ha.2 a2
          rw [this] at a1
          simp [Dir.num] at a1
        · exact Or.inr ⟨a1, a2⟩
    have act0 : ∀ k < 3, LstmNode.act (⟨.bidirectional, fw.hidden, fw.acts ++ bw.acts, concat 0 0 [fw.W, bw.W], concat 0 0 [fw.R, bw.R], concat 0 0 [fw.B, bw.B]⟩ : LstmNode K) 0 k = fw.act 0 k ∧
        LstmNode.act (⟨.bidirectional, fw.hidden, fw.acts ++ bw.acts, concat 0 0 [fw.W, bw.W], concat 0 0 [fw.R, bw.R], concat 0 0 [fw.B, bw.B]⟩ : LstmNode K) 1 k = bw.act 0 k := by
      intro k hk
      unfold LstmNode.act
      rcases hacts with ⟨e1, e2⟩ | ⟨e1, e2⟩
      · simp [e1, e2]
      · have n1 : fw.acts ≠ [] := by rintro e; rw [e] at e1; simp at e1
        have n2 : bw.acts ≠ [] := by rintro e; rw [e] at e2; simp at e2
        have n3 : fw.acts ++ bw.acts ≠ [] := by simp [n1]
        simp only [if_neg n1, if_neg n2, if_neg n3]
        refine ⟨?_, ?_⟩
        · rw [List.getD_eq_getElem?_getD, List.getD_eq_getElem?_getD, List.getElem?_append_left (by omega)]
        · rw [List.getD_eq_getElem?_getD, List.getD_eq_getElem?_getD, List.getElem?_append_right (by omega)]
          congr 2; omega
    have hW := concat_dir_shape w1 w2
    have hR := concat_dir_shape r1 r2
    have hB := concat_dir_shape b1 b2
    have d1 : ∀ x ∈ [fw.W, bw.W, fw.R, bw.R, fw.B, bw.B], nth x.shape 0 = 1 := by
      intro x hx
      simp only [List.mem_cons, List.not_mem_nil, or_false] at hx
      rcases hx with rfl | rfl | rfl | rfl | rfl | rfl
      · rw [w1]; rfl
      · rw [w2]; rfl
      · rw [r1]; rfl
      · rw [r2]; rfl
      · rw [b1]; rfl
      · rw [b2]; rfl
    have eW1 : nth fw.W.shape 2 = I := by rw [w1]; rfl
    have eW2 : nth bw.W.shape 2 = I := by rw [w2]; rfl
    have eW : nth (concat 0 0 [fw.W, bw.W]).shape 2 = I := by rw [hW]; rfl
    have cW := fun l => concat_dir (l := l) (d1 fw.W (by simp)) (d1 bw.W (by simp))
    have cR := fun l => concat_dir (l := l) (d1 fw.R (by simp)) (d1 bw.R (by simp))
    have cB := fun l => concat_dir (l := l) (d1 fw.B (by simp)) (d1 bw.B (by simp))
    have s0 : ∀ s x, LstmNode.step A (⟨.bidirectional, fw.hidden, fw.acts ++ bw.acts, concat 0 0 [fw.W, bw.W], concat 0 0 [fw.R, bw.R], concat 0 0 [fw.B, bw.B]⟩ : LstmNode K) 0 s x = fw.step A 0 s x := by
      intro s x
      unfold LstmNode.step LstmNode.gate
      simp only [(act0 0 (by omega)).1, (act0 1 (by omega)).1, (act0 2 (by omega)).1, eW, eW1, (cW _).1, (cR _).1, (cB _).1]
    have s1 : ∀ s x, LstmNode.step A (⟨.bidirectional, fw.hidden, fw.acts ++ bw.acts, concat 0 0 [fw.W, bw.W], concat 0 0 [fw.R, bw.R], concat 0 0 [fw.B, bw.B]⟩ : LstmNode K) 1 s x = bw.step A 0 s x := by
      intro s x
      unfold LstmNode.step LstmNode.gate
      simp only [(act0 0 (by omega)).2, (act0 1 (by omega)).2, (act0 2 (by omega)).2, eW, eW2, (cW _).2, (cR _).2, (cB _).2]
      simp only [hh]
    refine ⟨⟨hW, hR, hB, ?_⟩, ?_⟩
    · rcases hacts with ⟨e1, e2⟩ | ⟨e1, e2⟩
      · exact Or.inl (by rw [e1, e2]; rfl)
      · refine Or.inr ?_
        show (fw.acts ++ bw.acts).length = 3 * 2
        rw [List.length_append, e1, e2]
    · intro X lens len N hf cf hb cb b hs
      have i0 : ∀ n < N, lstmInit (biInit hf hb) (biInit cf cb) 0 n = lstmInit hf cf 0 n := by
        intro n _
        unfold lstmInit
        rw [(row3_biInit (hs hf (by simp)) (hs hb (by simp)) n).1, (row3_biInit (hs cf (by simp)) (hs cb (by simp)) n).1]
      have i1 : ∀ n < N, lstmInit (biInit hf hb) (biInit cf cb) 1 n = lstmInit hb cb 0 n := by
        intro n _
        unfold lstmInit
        rw [(row3_biInit (hs hf (by simp)) (hs hb (by simp)) n).2, (row3_biInit (hs cf (by simp)) (hs cb (by simp)) n).2]
      simp only [LstmNode.eval, df, db, ← hh]
      exact ⟨(bi_fw b s0 i0).1, (bi_fw b s0 i0).2, (bi_fw b s0 i0).2, (bi_bw b s1 i1).1, (bi_bw b s1 i1).2, (bi_bw b s1 i1).2⟩
  · exact absurd h (by simp)

/-- The same for GRU. -/
def GruMerged (A : String → K → K) (fw bw nd : GruNode K) (I : Nat) : Prop :=
  nd.Ok I ∧ ∀ (X : T K) (lens : Option (Nat → Nat)) (len N : Nat) (hf hb : T K), Batch X lens len N I →
    hf.shape = [1, N, fw.hidden] → hb.shape = [1, N, fw.hidden] →
    let f := fw.eval A X lens hf
    let b := bw.eval A (revTime lens X) lens hb
    let y := nd.eval A X lens (biInit hf hb)
    Same (biSlice 1 0 y.1) f.1 ∧ Same (biSlice 0 0 y.2) f.2 ∧
    Same (squeezeAt 4 1 (biSlice 1 1 y.1)) (revTime lens (squeezeAt 4 1 b.1)) ∧ Same (biSlice 0 1 y.2) b.2

theorem biGru_converts (A : String → K → K) {fw bw nd : GruNode K} {I : Nat} (df : fw.dir = .forward) (db : bw.dir = .forward) (of : fw.Ok I) (ob : bw.Ok I)
    (ha : fw.acts = [] ↔ bw.acts = []) (h : biGru fw bw = some nd) : GruMerged A fw bw nd I := by
  obtain ⟨w1, r1, b1, a1⟩ := of
  obtain ⟨w2, r2, b2, a2⟩ := ob
  rw [df] at w1 r1 b1 a1
  rw [db] at w2 r2 b2 a2
  unfold biGru at h
  split at h
  · rename_i hh
    obtain ⟨hh, hl⟩ := hh
    injection h with h
    subst h
    rw [← hh] at w2 r2 b2
    have hacts : (fw.acts = [] ∧ bw.acts = []) ∨ (fw.acts.length = 2 ∧ bw.acts.length = 2) := by
      rcases a1 with a1 | a1
      · exact Or.inl ⟨a1, ha.1 a1⟩
      · rcases a2 with a2 | a2
        · have := ha.2 a2
          rw [this] at a1
          simp [Dir.num] at a1
        · exact Or.inr ⟨a1, a2⟩
    have act0 : ∀ k < 2, GruNode.act (⟨.bidirectional, fw.hidden, fw.acts ++ bw.acts, fw.linearBeforeReset, concat 0 0 [fw.W, bw.W], concat 0 0 [fw.R, bw.R], concat 0 0 [fw.B, bw.B]⟩ : GruNode K) 0 k = fw.act 0 k ∧
        GruNode.act (⟨.bidirectional, fw.hidden, fw.acts ++ bw.acts, fw.linearBeforeReset, concat 0 0 [fw.W, bw.W], concat 0 0 [fw.R, bw.R], concat 0 0 [fw.B, bw.B]⟩ : GruNode K) 1 k = bw.act 0 k := by
      intro k hk
      unfold GruNode.act
      rcases hacts with ⟨e1, e2⟩ | ⟨e1, e2⟩
      · simp [e1, e2]
      · have n1 : fw.acts ≠ [] := by rintro e; rw [e] at e1; simp at e1
        have n2 : bw.acts ≠ [] := by rintro e; rw [e] at e2; simp at e2
        have n3 : fw.acts ++ bw.acts ≠ [] := by simp [n1]
        simp only [if_neg n1, if_neg n2, if_neg n3]
        refine ⟨?_, ?_⟩
        · rw [List.getD_eq_getElem?_getD, List.getD_eq_getElem?_getD, List.getElem?_append_left (by omega)]
        · rw [List.getD_eq_getElem?_getD, List.getD_eq_getElem?_getD, List.getElem?_append_right (by omega)]
          congr 2; omega
    have hW := concat_dir_shape w1 w2
    have hR := concat_dir_shape r1 r2
    have hB := concat_dir_shape b1 b2
    have d1 : ∀ x ∈ [fw.W, bw.W, fw.R, bw.R, fw.B, bw.B], nth x.shape 0 = 1 := by
      intro x hx
      simp only [List.mem_cons, List.not_mem_nil, or_false] at hx
      rcases hx with rfl | rfl | rfl | rfl | rfl | rfl
      · rw [w1]; rfl
      · rw [w2]; rfl
      · rw [r1]; rfl
      · rw [r2]; rfl
      · rw [b1]; rfl
      · rw [b2]; rfl
    have eW1 : nth fw.W.shape 2 = I := by rw [w1]; rfl
    have eW2 : nth bw.W.shape 2 = I := by rw [w2]; rfl
    have eW : nth (concat 0 0 [fw.W, bw.W]).shape 2 = I := by rw [hW]; rfl
    have cW := fun l => concat_dir (l := l) (d1 fw.W (by simp)) (d1 bw.W (by simp))
    have cR := fun l => concat_dir (l := l) (d1 fw.R (by simp)) (d1 bw.R (by simp))
    have cB := fun l => concat_dir (l := l) (d1 fw.B (by simp)) (d1 bw.B (by simp))
    have s0 : ∀ s x, GruNode.step A (⟨.bidirectional, fw.hidden, fw.acts ++ bw.acts, fw.linearBeforeReset, concat 0 0 [fw.W, bw.W], concat 0 0 [fw.R, bw.R], concat 0 0 [fw.B, bw.B]⟩ : GruNode K) 0 s x = fw.step A 0 s x := by
      intro s x
      unfold GruNode.step GruNode.xW GruNode.hR GruNode.wb GruNode.rb
      simp only [(act0 0 (by omega)).1, (act0 1 (by omega)).1, eW, eW1, (cW _).1, (cR _).1, (cB _).1]
    have s1 : ∀ s x, GruNode.step A (⟨.bidirectional, fw.hidden, fw.acts ++ bw.acts, fw.linearBeforeReset, concat 0 0 [fw.W, bw.W], concat 0 0 [fw.R, bw.R], concat 0 0 [fw.B, bw.B]⟩ : GruNode K) 1 s x = bw.step A 0 s x := by
      intro s x
      unfold GruNode.step GruNode.xW GruNode.hR GruNode.wb GruNode.rb
      simp only [(act0 0 (by omega)).2, (act0 1 (by omega)).2, eW, eW2, (cW _).2, (cR _).2, (cB _).2]
      simp only [hh, hl]
    refine ⟨⟨hW, hR, hB, ?_⟩, ?_⟩
    · rcases hacts with ⟨e1, e2⟩ | ⟨e1, e2⟩
      · exact Or.inl (by rw [e1, e2]; rfl)
      · refine Or.inr ?_
        show (fw.acts ++ bw.acts).length = 2 * 2
        rw [List.length_append, e1, e2]
    · intro X lens len N hf hb b sf sb
      have i0 : ∀ n < N, row3 (biInit hf hb) 0 n = row3 hf 0 n := fun n _ => (row3_biInit sf sb n).1
      have i1 : ∀ n < N, row3 (biInit hf hb) 1 n = row3 hb 0 n := fun n _ => (row3_biInit sf sb n).2
      simp only [GruNode.eval, df, db, ← hh]
      exact ⟨(bi_fw b s0 i0).1, (bi_fw b s0 i0).2, (bi_bw b s1 i1).1, (bi_bw b s1 i1).2⟩
  · exact absurd h (by simp)

/-- `return_sequences=False` without lengths: the last output of the reversed network is the first of direction 1. -/
theorem bi_tail {Y Z : T K} {len N H : Nat} (hpos : 0 < len) (hY : Y.shape = [len, N, H]) (h : Same Z (revTime none Y)) :
    ∀ n < N, ∀ j < H, Z.get [0, n, j] = Y.get [len - 1, n, j] := by
  intro n hn j hj
  have hs : Z.shape = [len, N, H] := h.1.trans hY
  rw [h.2 [0, n, j] (by
    rw [hs]
    refine ⟨rfl, ?_⟩
    intro k hk
    match k, hk with
    | 0, _ => exact hpos
    | 1, _ => exact hn
    | 2, _ => exact hj
    | k + 3, hk => simp at hk)]
  have e0 : nth Y.shape 0 = len := by rw [hY]; rfl
  show (if 0 < nth Y.shape 0 then Y.get [nth Y.shape 0 - 1 - 0, n, j] else _) = _
  rw [e0, if_pos hpos]
  rfl

end Verif.Rnn
