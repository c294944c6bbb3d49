import Verif.Props.C72_Softmax
/-!
# C72: cross-entropy
-/
namespace Verif.Softmax
open Verif.Tensor Verif.Emit Verif.Einsum Verif.Fourier

theorem src_self {d k : Nat} (h : k < d) : src d k = k := by
  unfold src
  split <;> omega

/-- **C72.** The converted `SoftmaxCrossEntropyWithLogits` is TensorFlow's loss, for labels that broadcast to the logits along the classes, and labels and logits that broadcast to
each other along the batch. -/
theorem crossEntropy_sound {v : Nat} {neg : Bool} (hv : 11 ≤ v ∨ neg = true) {labels logits : T ℝ} {n c m C : Nat} (hl : labels.shape = [n, c]) (hx : logits.shape = [m, C])
    (hb : n = m ∨ n = 1 ∨ m = 1) (hc : c = C ∨ c = 1) :
    ∃ y, crossEntropy v neg labels logits = some y ∧ y.shape = [common n m] ∧
      ∀ i, i < common n m → y.get [i] = tfCrossEntropy (fun a b => labels.get [a, b]) (fun a b => logits.get [a, b]) n c m C i := by
  have h1 : Is2 labels n c (fun a b => labels.get [a, b]) := ⟨hl, fun _ _ _ _ => rfl⟩
  have h2 : Is2 logits m C (fun a b => logits.get [a, b]) := ⟨hx, fun _ _ _ _ => rfl⟩
  obtain ⟨ls, e1, i1⟩ := logsoftmax2 (v := v) (neg := neg) h2
  obtain ⟨p, e2, i2⟩ := zip2 (fun a b : ℝ => a * b) h1 i1 hb (by omega)
  obtain ⟨s, e3, i3⟩ := reduce_keep (v := v) (neg := neg) (F := Multiset.sum) i2 (a := -1) (Or.inr rfl) (Or.inr hv)
  obtain ⟨t, e4, i4⟩ := neg2 i3
  obtain ⟨y, e5, i5⟩ := squeeze_col i4
  refine ⟨y, ?_, i5.shape, fun i hi => ?_⟩
  · unfold crossEntropy
    rw [e1, Option.bind_some, e2, Option.bind_some, e3, Option.bind_some, e4, Option.bind_some, e5]
  · rw [i5.get i hi, Multiset.sum_coe]
    have hC : common c C = C := by
      unfold common
      split <;> omega
    unfold tfCrossEntropy
    dsimp only
    rw [hC, neg_one_mul]
    congr 2
    apply List.map_congr_left
    intro k hk
    have hk := List.mem_range.1 hk
    congr 3
    congr 1
    apply List.map_congr_left
    intro l hl
    rw [src_self (List.mem_range.1 hl)]

/-- **C72, a defect.** Logits of one class and labels of two: TensorFlow broadcasts the logits before it takes the logarithms, the converted graph afterwards. With labels that add up to 1
the loss is `log 2` in TensorFlow and 0 in the converted graph. -/
theorem crossEntropy_broadcast_violated : ∃ (labels logits y : T ℝ), labels.shape = [1, 2] ∧ logits.shape = [1, 1] ∧ crossEntropy 17 false labels logits = some y ∧ y.get [0] = 0 ∧
    tfCrossEntropy (fun a b => labels.get [a, b]) (fun a b => logits.get [a, b]) 1 2 1 1 0 = Real.log 2 ∧ Real.log 2 ≠ 0 := by
  have h1 : Is2 (⟨[1, 2], fun i => if nth i 1 = 0 then 1 else 0⟩ : T ℝ) 1 2 (fun _ b => if b = 0 then 1 else 0) := ⟨rfl, fun _ _ _ _ => rfl⟩
  have h2 : Is2 (⟨[1, 1], fun _ => 0⟩ : T ℝ) 1 1 (fun _ _ => 0) := ⟨rfl, fun _ _ _ _ => rfl⟩
  obtain ⟨ls, e1, i1⟩ := logsoftmax2 (v := 17) (neg := false) h2
  obtain ⟨p, e2, i2⟩ := zip2 (fun a b : ℝ => a * b) h1 i1 (by omega) (by omega)
  obtain ⟨s, e3, i3⟩ := reduce_keep (v := 17) (neg := false) (F := Multiset.sum) i2 (a := -1) (Or.inr rfl) (Or.inr (Or.inl (by omega)))
  obtain ⟨t, e4, i4⟩ := neg2 i3
  obtain ⟨y, e5, i5⟩ := squeeze_col i4
  refine ⟨_, _, y, h1.shape, h2.shape, ?_, ?_, ?_, ?_⟩
  · unfold crossEntropy
    rw [e1, Option.bind_some, e2, Option.bind_some, e3, Option.bind_some, e4, Option.bind_some, e5]
  · rw [i5.get 0 (by decide)]
    simp [common, src, List.range_succ]
  · simp [tfCrossEntropy, common, src, List.range_succ, nth]
    norm_num
  · exact (Real.log_pos (by norm_num)).ne'

/-- **C72, a limit of the code.** Before operator set 11 the emitted `ReduceSum` has a negative axis, which the documents of these operator sets do not know: a runtime that
follows them does not take the model. -/
theorem crossEntropy_old_violated {v : Nat} (hv : v < 11) (labels logits : T ℝ) : crossEntropy v false labels logits = none := by
  have h : ∀ m : T ℝ, reduceOne v false Multiset.sum true (-1) m = none := by
    intro m
    unfold reduceOne
    rw [if_neg]
    rintro ⟨-, -, h⟩
    exact absurd (h hv rfl) (by decide)
  unfold crossEntropy
  simp only [h]
  cases onnxLogSoftmax v false none logits with
  | none => rfl
  | some a =>
    rw [Option.bind_some]
    cases zipT (fun a b : ℝ => a * b) labels a <;> rfl

/-- Cross-entropy with the one-hot row of a class is the cross-entropy with the number of the class. -/
theorem oneHot_sum (g : Nat → ℝ) (C l : Nat) (hl : l < C) : ((List.range C).map (fun k => (if l = k then (1 : ℝ) else 0) * g k)).sum = g l := by
  induction C with
  | zero => omega
  | succ C ih =>
    rw [List.range_succ, List.map_append, List.sum_append, List.map_singleton, List.sum_singleton]
    by_cases h : l = C
    · subst h
      have : ((List.range l).map (fun k => (if l = k then (1 : ℝ) else 0) * g k)).sum = 0 := by
        apply List.sum_eq_zero
        intro y hy
        obtain ⟨k, hk, rfl⟩ := List.mem_map.1 hy
        have := List.mem_range.1 hk
        rw [if_neg (by omega), zero_mul]
      rw [this, if_pos rfl, one_mul, zero_add]
    · rw [ih (by omega), if_neg h, zero_mul, add_zero]

/-- **C72.** The two kinds of cross-entropy of TensorFlow agree, so the specifications fit together. -/
theorem sparse_is_crossEntropy (x : Nat → Nat → ℝ) (C label : Nat) (h : label < C) (i : Nat) :
    tfCrossEntropy (fun _ k => if label = k then 1 else 0) x 1 C 2 C i = tfSparse (x i) C label := by
  unfold tfCrossEntropy tfSparse common
  dsimp only
  have hs : ∀ k, k < C → src C k = k := fun k hk => src_self hk
  rw [if_neg_or C]
  congr 1
  have e : (List.range C).map (fun l => Real.exp (x (src 2 i) (src C l))) = (List.range C).map (fun l => Real.exp (x i l)) := by
    apply List.map_congr_left
    intro l hl
    rw [hs l (List.mem_range.1 hl)]
    rfl
  rw [e]
  have e2 : (List.range C).map (fun k => (if label = src C k then (1 : ℝ) else 0) * (x (src 2 i) (src C k) - Real.log ((List.range C).map (fun l => Real.exp (x i l))).sum))
      = (List.range C).map (fun k => (if label = k then (1 : ℝ) else 0) * (x i k - Real.log ((List.range C).map (fun l => Real.exp (x i l))).sum)) := by
    apply List.map_congr_left
    intro k hk
    rw [hs k (List.mem_range.1 hk)]
    rfl
  rw [e2, oneHot_sum _ _ _ h]
where
  if_neg_or (C : Nat) : (if C = 1 then C else C) = C := by split <;> rfl

end Verif.Softmax
