import Verif.Model.ConvBatchNorm
import Mathlib.Algebra.BigOperators.Group.List.Basic
import Mathlib.Algebra.BigOperators.Ring.List
import Mathlib.Tactic.Ring
import Mathlib.Tactic.FieldSimp
import Mathlib.Algebra.Order.Ring.Rat
import Mathlib.Algebra.Field.Rat
/-!
# C42: fusing a batch normalization into a convolution keeps the result
-/
namespace Verif.ConvBN
open Verif Verif.Tensor

variable {K : Type} [Field K]

/-! ## Specification: ONNX `Conv` and `BatchNormalization` (inference) -/

/-- ONNX `Conv` with weights `[M, C/group, k1, k2]`. `read idx k` is the operand element that is multiplied with kernel
element `k` for output element `idx`; it depends on the operand, the padding, the strides, the dilations and the group, and
is 0 in the padding. `shape` is the shape of the result. -/
def conv (read : List Nat → List Nat → K) (shape : List Nat) (w : T K) (b : Option (T K)) : T K :=
  { shape := shape
    get := fun idx => ((allIdx w.shape.tail).map (fun k => w.get (nth idx 1 :: k) * read idx k)).sum +
      (match b with
       | none => 0
       | some b => b.get [nth idx 1]) }

/-- ONNX `BatchNormalization` in inference mode: `(x - mean) / sqrt(var + epsilon) * scale + B`, per channel. -/
def batchNorm (sqrt : K → K) (scale offset mean var : T K) (eps : K) (x : T K) : T K :=
  { shape := x.shape
    get := fun idx => (x.get idx - mean.get [nth idx 1]) / sqrt (var.get [nth idx 1] + eps) * scale.get [nth idx 1] +
      offset.get [nth idx 1] }

/-! ## Broadcasting of vectors -/

theorem npBin_vec {f : K → K → K} {a b : T K} {n : Nat} (ha : a.shape = [n]) (hb : b.shape = [n]) :
    (npBin f a b).shape = [n] ∧ ∀ i < n, (npBin f a b).get [i] = f (a.get [i]) (b.get [i]) := by
  constructor
  · simp [npBin, elementwise, elementwiseSame, expandRank, ha, hb, bdim, nth]
    by_cases h : n = 1 <;> simp [h]
  · intro i hi
    simp only [npBin, elementwise, elementwiseSame, ha, hb, expandRank, List.map_cons, List.map_nil, bidx,
      List.length_cons, List.length_nil, Nat.max_self, Nat.sub_self, List.replicate_zero, List.nil_append, List.drop_zero,
      List.getD_cons_zero, List.getD_cons_succ, Nat.zero_add, List.range_one, nth]
    by_cases h1 : n = 1
    · have : i = 0 := by omega
      subst this; subst h1
      rfl
    · rw [if_neg h1]

theorem npBin_scalar_vec {f : K → K → K} {a b : T K} {n : Nat} (ha : a.shape = []) (hb : b.shape = [n]) :
    (npBin f a b).shape = [n] ∧ ∀ i < n, (npBin f a b).get [i] = f (a.get []) (b.get [i]) := by
  constructor
  · simp [npBin, elementwise, elementwiseSame, expandRank, ha, hb, bdim, nth]
    by_cases h : n = 1 <;> simp [h]
  · intro i hi
    simp only [npBin, elementwise, elementwiseSame, ha, hb, expandRank, List.map_cons, List.map_nil, bidx,
      List.length_cons, List.length_nil, List.getD_cons_zero, List.getD_cons_succ, Nat.zero_add, nth]
    by_cases h1 : n = 1
    · have : i = 0 := by omega
      subst this; subst h1
      rfl
    · simp [h1]

/-- The last axis of a rank-4 tensor times a vector. -/
theorem npBin_last {f : K → K → K} {a b : T K} {d0 d1 d2 n : Nat} (ha : a.shape = [d0, d1, d2, n]) (hb : b.shape = [n]) :
    (npBin f a b).shape = [d0, d1, d2, n] ∧ ∀ i j k l, i < d0 → j < d1 → k < d2 → l < n →
      (npBin f a b).get [i, j, k, l] = f (a.get [i, j, k, l]) (b.get [l]) := by
  have hz : ∀ d i : Nat, i < d → (if d = 1 then 0 else i) = i := by intro d i h; split <;> omega
  constructor
  · simp [npBin, elementwise, elementwiseSame, expandRank, ha, hb, bdim, nth, List.range_succ]
    refine ⟨?_, ?_, ?_, ?_⟩
    · by_cases h : d0 = 1 <;> simp [h]
    · by_cases h : d1 = 1 <;> simp [h]
    · by_cases h : d2 = 1 <;> simp [h]
    · by_cases h : n = 1 <;> simp [h]
  · intro i j k l hi hj hk hl
    simp [npBin, elementwise, elementwiseSame, ha, hb, expandRank, bidx, nth, List.range_succ, hz _ _ hi, hz _ _ hj,
      hz _ _ hk, hz _ _ hl]

theorem scaleNew_spec {sqrt : K → K} {scale var : T K} {eps : K} {n : Nat} (hs : scale.shape = [n]) (hv : var.shape = [n]) :
    (scaleNew sqrt scale var eps).shape = [n] ∧
    ∀ i < n, (scaleNew sqrt scale var eps).get [i] = scale.get [i] / sqrt (var.get [i] + eps) :=
  npBin_vec (a := scale) (b := { shape := var.shape, get := fun i => sqrt (var.get i + eps) }) hs hv

theorem weightsNew_spec {w s : T K} {m c h v : Nat} (hw : w.shape = [m, c, h, v]) (hs : s.shape = [m]) :
    (weightsNew w s).shape = [m, c, h, v] ∧ ∀ i j k l, i < m → j < c → k < h → l < v →
      (weightsNew w s).get [i, j, k, l] = w.get [i, j, k, l] * s.get [i] := by
  have ht : (transpose [2, 3, 1, 0] w).shape = [h, v, c, m] := by simp [transpose, hw, nth]
  obtain ⟨h1, h2⟩ := npBin_last (f := (· * ·)) ht hs
  constructor
  · show [3, 2, 0, 1].map (nth (npBin (· * ·) (transpose [2, 3, 1, 0] w) s).shape) = _
    rw [h1]
    rfl
  · intro i j k l hi hj hk hl
    have e1 : (weightsNew w s).get [i, j, k, l] = (npBin (· * ·) (transpose [2, 3, 1, 0] w) s).get [k, l, j, i] := rfl
    rw [e1, h2 k l j i hk hl hj hi]
    rfl

theorem biasNew_vec {b mean s off : T K} {n : Nat} (hb : b.shape = [n]) (hm : mean.shape = [n]) (hs : s.shape = [n])
    (ho : off.shape = [n]) : (biasNew b mean s off).shape = [n] ∧
    ∀ i < n, (biasNew b mean s off).get [i] = (b.get [i] - mean.get [i]) * s.get [i] + off.get [i] := by
  obtain ⟨a1, a2⟩ := npBin_vec (f := (· - ·)) hb hm
  obtain ⟨b1, b2⟩ := npBin_vec (f := (· * ·)) a1 hs
  obtain ⟨c1, c2⟩ := npBin_vec (f := (· + ·)) b1 ho
  exact ⟨c1, fun i hi => by unfold biasNew; rw [c2 i hi, b2 i hi, a2 i hi]⟩

theorem biasNew_scalar {b mean s off : T K} {n : Nat} (hb : b.shape = []) (hm : mean.shape = [n]) (hs : s.shape = [n])
    (ho : off.shape = [n]) : (biasNew b mean s off).shape = [n] ∧
    ∀ i < n, (biasNew b mean s off).get [i] = (b.get [] - mean.get [i]) * s.get [i] + off.get [i] := by
  obtain ⟨a1, a2⟩ := npBin_scalar_vec (f := (· - ·)) hb hm
  obtain ⟨b1, b2⟩ := npBin_vec (f := (· * ·)) a1 hs
  obtain ⟨c1, c2⟩ := npBin_vec (f := (· + ·)) b1 ho
  exact ⟨c1, fun i hi => by unfold biasNew; rw [c2 i hi, b2 i hi, a2 i hi]⟩

theorem mem_allIdx_three {c h v : Nat} {k : List Nat} (hk : k ∈ allIdx [c, h, v]) :
    ∃ i j l, k = [i, j, l] ∧ i < c ∧ j < h ∧ l < v := by
  simp only [allIdx, List.mem_flatMap, List.mem_range, List.mem_map, List.mem_singleton] at hk
  obtain ⟨i, hi, _, ⟨j, hj, _, ⟨l, hl, _, rfl, rfl⟩, rfl⟩, rfl⟩ := hk
  exact ⟨i, j, l, rfl, hi, hj, hl⟩

theorem list_sum_mul (l : List (List Nat)) (f : List Nat → K) (c : K) :
    (l.map (fun k => f k * c)).sum = (l.map f).sum * c := by
  induction l with
  | nil => simp
  | cons k l ih => simp only [List.map_cons, List.sum_cons, ih]; ring

/-- The operands have the shapes that ONNX requires for `M` output channels. -/
def ShapesOk (p : Operands K) (m c h v : Nat) : Prop :=
  p.weights.shape = [m, c, h, v] ∧ (∀ b, p.bias = some b → b.shape = [m]) ∧ p.scale.shape = [m] ∧ p.offset.shape = [m] ∧
  p.mean.shape = [m] ∧ p.var.shape = [m]

/-- C42. Whenever the optimizer fuses, the new convolution computes what the convolution followed by the batch
normalization computed: for every operand, padding, stride, dilation and group (`read`), every kernel, bias and statistics,
and every function `sqrt`; the new operands have the shapes that ONNX requires. Exact arithmetic. -/
theorem conv_batchnorm_fusion {sqrt : K → K} {f : Facts} {p : Operands K} {m c h v : Nat} (hp : ShapesOk p m c h v)
    {w' b' : T K} (hf : fuse sqrt f p = some (w', b')) (read : List Nat → List Nat → K) (shape : List Nat)
    (hs : nth shape 1 = m) (hr : 1 < shape.length) :
    w'.shape = p.weights.shape ∧ b'.shape = [m] ∧
    Same (conv read shape w' (some b'))
      (batchNorm sqrt p.scale p.offset p.mean p.var p.epsilon (conv read shape p.weights p.bias)) := by
  obtain ⟨hw, hb, hsc, hof, hme, hva⟩ := hp
  have hf' : (weightsNew p.weights (scaleNew sqrt p.scale p.var p.epsilon),
      biasNew (p.bias.getD (scalar 0)) p.mean (scaleNew sqrt p.scale p.var p.epsilon) p.offset) = (w', b') := by
    unfold fuse at hf
    split at hf
    · cases hf
    split at hf
    · cases hf
    split at hf
    · cases hf
    split at hf
    · cases hf
    split at hf
    · cases hf
    split at hf
    · cases hf
    split at hf
    · cases hf
    split at hf
    · cases hf
    exact Option.some.inj hf
  cases hf'
  obtain ⟨s1, s2⟩ := scaleNew_spec (sqrt := sqrt) (eps := p.epsilon) hsc hva
  obtain ⟨w1, w2⟩ := weightsNew_spec hw s1
  -- the bias, if there is one, else 0
  have hbias : (biasNew (p.bias.getD (scalar 0)) p.mean (scaleNew sqrt p.scale p.var p.epsilon) p.offset).shape = [m] ∧
      ∀ i < m, (biasNew (p.bias.getD (scalar 0)) p.mean (scaleNew sqrt p.scale p.var p.epsilon) p.offset).get [i] =
        ((match p.bias with
          | none => 0
          | some b => b.get [i]) - p.mean.get [i]) * (scaleNew sqrt p.scale p.var p.epsilon).get [i] + p.offset.get [i] := by
    cases hbb : p.bias with
    | none => exact biasNew_scalar (b := scalar 0) rfl hme s1 hof
    | some b => exact biasNew_vec (hb b hbb) hme s1 hof
  refine ⟨by rw [w1, hw], hbias.1, rfl, ?_⟩
  intro idx hidx
  have hm : nth idx 1 < m := by
    rw [← hs]
    exact hidx.2 1 hr
  simp only [conv, batchNorm, w1, hw, List.tail_cons]
  rw [hbias.2 _ hm, s2 _ hm]
  have hsum : ((allIdx [c, h, v]).map (fun k =>
      (weightsNew p.weights (scaleNew sqrt p.scale p.var p.epsilon)).get (nth idx 1 :: k) * read idx k)).sum =
      ((allIdx [c, h, v]).map (fun k => p.weights.get (nth idx 1 :: k) * read idx k)).sum *
        (scaleNew sqrt p.scale p.var p.epsilon).get [nth idx 1] := by
    rw [← list_sum_mul]
    congr 1
    apply List.map_congr_left
    intro k hk
    obtain ⟨i, j, l, rfl, hi, hj, hl⟩ := mem_allIdx_three hk
    rw [w2 _ _ _ _ hm hi hj hl]
    ring
  rw [hsum, s2 _ hm]
  ring

/-- The nodes are fused only if this is safe for the rest of the graph: the convolution has no other consumer, and the
batch normalization neither is a graph output nor has further outputs in use; all operands that are baked in are
constant. -/
theorem conv_batchnorm_guard {sqrt : K → K} {f : Facts} {p : Operands K} {r : T K × T K} (h : fuse sqrt f p = some r) :
    f.consumers = 1 ∧ f.consumerIsBN = true ∧ f.bnIsOutput = false ∧ f.bnOtherUsed = false ∧ f.weightsConst = true ∧
    (p.bias.isSome → f.biasConst = true) ∧ ∀ b ∈ f.bnConst, b = true := by
  unfold fuse at h
  split at h
  · cases h
  rename_i h1
  split at h
  · cases h
  rename_i h2
  split at h
  · cases h
  rename_i h3
  split at h
  · cases h
  rename_i h4
  split at h
  · cases h
  split at h
  · cases h
  rename_i h5
  split at h
  · cases h
  rename_i h6
  split at h
  · cases h
  rename_i h7
  refine ⟨by omega, by simpa using h2, by simpa using h3, by simpa using h7, by simpa using h4, ?_, ?_⟩
  · intro hb; simpa [hb] using h5
  · intro b hb
    cases b with
    | true => rfl
    | false => exact absurd hb h6

/-! ## A case that meets the hypotheses -/

def sampleOperands : Operands ℚ :=
  { weights := { shape := [2, 1, 1, 2], get := fun i => 1 + nth i 0 + 2 * nth i 3 }
    bias := none
    scale := { shape := [2], get := fun i => 3 + nth i 0 }
    offset := { shape := [2], get := fun i => 5 - nth i 0 }
    mean := { shape := [2], get := fun i => 7 * nth i 0 }
    var := { shape := [2], get := fun i => 4 + 12 * nth i 0 }
    epsilon := 0 }
def sampleFacts : Facts := ⟨1, true, false, true, false, [true, true, true, true], false⟩
/-- Square root of 4 and 16. -/
def sampleSqrt (x : ℚ) : ℚ := if x = 4 then 2 else if x = 16 then 4 else 0

example : ShapesOk sampleOperands 2 1 1 2 := ⟨rfl, by simp [sampleOperands], rfl, rfl, rfl, rfl⟩
example : ∃ w' b', fuse sampleSqrt sampleFacts sampleOperands = some (w', b') ∧ w'.get [1, 0, 0, 1] = 4 ∧
    b'.get [1] = -3 := ⟨_, _, rfl, by decide +kernel, by decide +kernel⟩

end Verif.ConvBN
