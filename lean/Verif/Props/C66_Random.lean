import Verif.Model.PatternRewriters
import Mathlib.Tactic.Ring
import Mathlib.Tactic.Linarith
import Mathlib.Tactic.FieldSimp
import Mathlib.Tactic.Positivity
import Mathlib.Data.Nat.Find
import Mathlib.Algebra.Order.Ring.Int
/-!
# C66: random numbers and dropout

A converted operator is compared for every draw of the random numbers; dropout, which ONNX leaves out, on average.
-/
namespace Verif.Patt
open Verif.Tensor Verif.Emit Verif.Conv

/-! ## Dropout -/

/-- Average of `f` over the numbers 0, 1/N, ..., (N-1)/N, which is what a random number from [0, 1) is. -/
def average (N : Nat) (f : Rat → Rat) : Rat := ((List.range N).map (fun k : Nat => f ((k : Rat) / N))).sum / N

/-- A dropped element: `x * scaling` if the random number is at least `ratio`, otherwise 0 (`tf.nn.dropout`). -/
def dropped (scaling ratio x u : Rat) : Rat := x * scaling * (if ratio ≤ u then 1 else 0)

/-- The form of TensorFlow 1: `x / scaling` times `floor(keep + u)`. -/
def droppedFloor (scaling keep x u : Rat) : Rat := x / scaling * (Rat.floor (keep + u) : Int)

theorem sum_from (m N : Nat) (v : Rat) : ((List.range N).map (fun k : Nat => if m ≤ k then v else 0)).sum = ((N - m : Nat) : Rat) * v := by
  induction N with
  | zero => simp
  | succ N ih =>
    rw [List.range_succ, List.map_append, List.sum_append, ih]
    simp only [List.map_cons, List.map_nil, List.sum_cons, List.sum_nil, add_zero]
    by_cases h : m ≤ N
    · rw [if_pos h, Nat.succ_sub h, Nat.cast_succ]
      ring
    · rw [if_neg h]
      have e1 : N - m = 0 := by omega
      have e2 : N + 1 - m = 0 := by omega
      rw [e1, e2]
      simp

/-- Share of the numbers that are at least `r`. -/
theorem share {N : Nat} (hN : 0 < N) {r : Rat} (h0 : 0 ≤ r) (h1 : r ≤ 1) (v : Rat) :
    ∃ c : Rat, average N (fun u => v * (if r ≤ u then 1 else 0)) = v * c ∧ |c - (1 - r)| ≤ 1 / N := by
  have hq : (0 : Rat) < N := by exact_mod_cast hN
  have hex : ∃ m : Nat, r * N ≤ m := ⟨N, by nlinarith⟩
  let m := Nat.find hex
  have hm : r * N ≤ m := Nat.find_spec hex
  have hmN : m ≤ N := Nat.find_min' hex (by nlinarith)
  have hlow : (m : Rat) ≤ r * N + 1 := by
    by_cases hz : m = 0
    · rw [hz]
      have : 0 ≤ r * N := mul_nonneg h0 hq.le
      push_cast
      linarith
    · have := Nat.find_min hex (m := m - 1) (by show m - 1 < m; omega)
      rw [not_le] at this
      have e : ((m - 1 : Nat) : Rat) = m - 1 := by
        rw [Nat.cast_sub (by omega)]
        simp
      rw [e] at this
      linarith
  refine ⟨1 - m / N, ?_, ?_⟩
  · unfold average
    have hf : (List.range N).map (fun k : Nat => v * (if r ≤ (k : Rat) / N then (1 : Rat) else 0)) = (List.range N).map (fun k : Nat => if m ≤ k then v else 0) := by
      apply List.map_congr_left
      intro k _
      have hiff : r ≤ (k : Rat) / N ↔ m ≤ k := by
        rw [le_div_iff₀ hq]
        constructor
        · intro h
          exact Nat.find_min' hex h
        · intro h
          have : (m : Rat) ≤ k := by exact_mod_cast h
          linarith
      by_cases h : m ≤ k
      · rw [if_pos h, if_pos (hiff.2 h), mul_one]
      · rw [if_neg h, if_neg (fun hh => h (hiff.1 hh)), mul_zero]
    rw [hf, sum_from, Nat.cast_sub hmN]
    field_simp
  · have e : (1 : Rat) - m / N - (1 - r) = (r * N - m) / N := by
      field_simp
      ring
    rw [e, abs_div, abs_of_pos hq]
    apply div_le_div_of_nonneg_right _ hq.le
    rw [abs_le]
    constructor <;> linarith

/-- **C66**: where a dropout is replaced by `Dropout`, which does nothing at inference, its result is what TensorFlow computes on average, up to the tolerance of the
test and the grain of the random numbers. -/
theorem dropout_on_average {N : Nat} (hN : 0 < N) {scaling ratio x y : Rat} (h0 : 0 ≤ ratio) (h1 : ratio ≤ 1) (h : dropoutRewrite scaling ratio x = some y) :
    |average N (dropped scaling ratio x) - y| ≤ |x| * (1 / 100000000 + 1 / 100000 * |scaling * (1 - ratio)| + |scaling| / N) := by
  unfold dropoutRewrite at h
  split at h
  case isFalse => cases h
  rename_i hc
  obtain rfl : x = y := Option.some.inj h
  simp only [closeToOne, decide_eq_true_eq] at hc
  obtain ⟨c, h2, h3⟩ := share hN h0 h1 (x * scaling)
  have e : average N (dropped scaling ratio x) - x = x * (scaling * (c - (1 - ratio)) - (1 - scaling * (1 - ratio))) := by
    show average N (fun u => x * scaling * (if ratio ≤ u then 1 else 0)) - x = _
    rw [h2]
    ring
  rw [e, abs_mul]
  apply mul_le_mul_of_nonneg_left _ (abs_nonneg x)
  have h4 : |scaling * (c - (1 - ratio))| ≤ |scaling| / N := by
    rw [abs_mul, div_eq_mul_one_div]
    exact mul_le_mul_of_nonneg_left h3 (abs_nonneg _)
  calc |scaling * (c - (1 - ratio)) - (1 - scaling * (1 - ratio))| ≤ |scaling * (c - (1 - ratio))| + |1 - scaling * (1 - ratio)| := abs_sub _ _
    _ ≤ _ := by linarith

/-- Four grains, a quarter is dropped. -/
theorem dropout_example : dropoutRewrite (4 / 3) (1 / 4) 6 = some 6 ∧ average 4 (dropped (4 / 3) (1 / 4) 6) = 6 := by
  constructor
  · unfold dropoutRewrite closeToOne onnxDropout
    norm_num
  · simp [average, dropped, List.range_succ]
    norm_num

/-- The form of TensorFlow 1 (scaled by what is kept) is never recognized: the constant next to the random numbers is taken for what is dropped. -/
theorem dropout_floor_missed (keep x : Rat) (h0 : 0 ≤ keep) (h1 : keep ≤ 1) : dropoutRewrite keep keep x = none := by
  unfold dropoutRewrite closeToOne
  rw [if_neg]
  simp only [decide_eq_true_eq, not_le]
  have a1 : 0 ≤ keep * (1 - keep) := mul_nonneg h0 (by linarith)
  have a2 : keep * (1 - keep) ≤ 1 / 4 := by nlinarith [sq_nonneg (keep - 1 / 2)]
  rw [abs_of_nonneg a1, abs_of_nonneg (by linarith)]
  linarith

/-- **Defect**: other constants in that form pass the test. Half of the elements are kept and halved, which is a quarter on average; the model keeps all. -/
theorem dropout_floor_violated : dropoutRewrite 2 (1 / 2) 4 = some 4 ∧ average 2 (droppedFloor 2 (1 / 2) 4) = 1 := by
  constructor
  · unfold dropoutRewrite closeToOne onnxDropout
    norm_num
  · decide +kernel

/-- **Defect**: the operands of the comparison may be in the other order, where elements are kept if the random number is at most `ratio`. -/
theorem dropout_order_violated : dropoutRewrite 4 (3 / 4) 1 = some 1 ∧ average 8 (fun u => 1 * 4 * (if u ≤ 3 / 4 then 1 else 0)) = 7 / 2 := by
  constructor
  · unfold dropoutRewrite closeToOne onnxDropout
    norm_num
  · simp [average, List.range_succ]
    norm_num

/-! ## Random numbers -/

section
variable {α : Type} [CommRing α]

/-- What the recorded shape says of the result. -/
def ShapeIs (recorded : Option (List Int)) (dims : List Nat) : Prop := recorded = some (dims.map Int.ofNat)

theorem uniform_op (u : List Nat → α) (low high : α) (constShape : Bool) {recorded : Option (List Int)} {dims : List Nat} (h : constShape = true → ShapeIs recorded dims) :
    ∃ y, uniformOp u low high constShape recorded dims = .ok (some y) ∧ Same y ⟨dims, fun i => low + u i * (high - low)⟩ := by
  unfold uniformOp
  split
  · rename_i hc
    rw [h hc]
    cases dims with
    | nil =>
      refine ⟨_, rfl, rfl, fun i hi => ?_⟩
      have : i = [] := List.length_eq_zero_iff.1 hi.1
      subst this
      rfl
    | cons d s =>
      refine ⟨onnxUniform u low high (d :: s), ?_, Same.refl _⟩
      simp only [List.map_cons]
      rw [if_pos]
      · simp only [List.map_map, Int.toNat_natCast, Int.ofNat_eq_natCast]
        congr 3
        simp only [List.cons.injEq, true_and]
        exact (List.map_congr_left (fun a _ => Int.toNat_natCast a)).trans (List.map_id' s)
      · intro z hz
        rw [← List.map_cons (f := Int.ofNat)] at hz
        obtain ⟨a, -, rfl⟩ := List.mem_map.1 hz
        exact Int.natCast_nonneg a
  · exact ⟨_, rfl, Same.refl _⟩

/-- **C66**: for every draw of random numbers from [0, 1), `u * (max - min) + added` is what the new node gives, if `added` is `min` and the recorded shape is complete. -/
theorem random_uniform_partial (u : List Nat → α) (tmax tmin added : α) (constShape : Bool) {recorded : Option (List Int)} {dims : List Nat}
    (h : constShape = true → ShapeIs recorded dims) (hadd : added = tmin) :
    ∃ y, uniformRewrite u tmax tmin constShape recorded dims = .ok (some y) ∧ Same y ⟨dims, fun i => u i * (tmax - tmin) + added⟩ := by
  obtain ⟨y, h1, h2⟩ := uniform_op u tmin tmax constShape h
  refine ⟨y, h1, h2.trans ⟨rfl, fun i _ => ?_⟩⟩
  rw [hadd]
  show tmin + _ = _
  ring

/-- **C66**: the same where the difference is a constant; here what is added is looked at. -/
theorem random_uniform_folded (u : List Nat → α) (diff added : α) (constShape : Bool) {recorded : Option (List Int)} {dims : List Nat}
    (h : constShape = true → ShapeIs recorded dims) :
    ∃ y, uniformFoldRewrite u diff added constShape recorded dims = .ok (some y) ∧ Same y ⟨dims, fun i => u i * diff + added⟩ := by
  obtain ⟨y, h1, h2⟩ := uniform_op u added (added + diff) constShape h
  refine ⟨y, h1, h2.trans ⟨rfl, fun i _ => ?_⟩⟩
  show added + u i * (added + diff - added) = u i * diff + added
  ring

/-- **C66**: for every draw of the standard normal distribution; both patterns. -/
theorem random_normal_ok (u : List Nat → α) (mean scale : α) (fromShape : Bool) {recorded : Option (List Int)} {dims : List Nat}
    (h : fromShape = false → ∀ r, recorded = some r → -1 ∉ r → r = dims.map Int.ofNat) {z : Option (T α)} :
    (normalRewrite u (some (mean, scale)) fromShape recorded dims = some z → ∃ y, z = some y ∧ Same y ⟨dims, fun i => u i * scale + mean⟩) ∧
    (normalRewrite u none fromShape recorded dims = some z → ∃ y, z = some y ∧ Same y ⟨dims, u⟩) := by
  have key : ∀ c, normalRewrite u c fromShape recorded dims = some z → ∃ y, z = some y ∧
      Same y ⟨dims, fun i => (c.map Prod.fst).getD 0 + u i * (c.map Prod.snd).getD 1⟩ := by
    intro c hz
    unfold normalRewrite at hz
    dsimp only at hz
    split at hz
    · cases hz
      exact ⟨_, rfl, Same.refl _⟩
    · rename_i hf
      split at hz
      · cases hz
      · rename_i s
        split at hz
        · cases hz
        · rename_i hn
          have hs := h (by simpa using hf) s rfl hn
          rw [if_pos (by
            intro z hz
            rw [hs] at hz
            obtain ⟨a, -, rfl⟩ := List.mem_map.1 hz
            exact Int.natCast_nonneg a)] at hz
          cases hz
          refine ⟨_, rfl, ?_, fun _ _ => rfl⟩
          show s.map Int.toNat = dims
          rw [hs, List.map_map]
          exact (List.map_congr_left (fun a _ => Int.toNat_natCast a)).trans (List.map_id' dims)
  constructor
  · intro hz
    obtain ⟨y, h1, h2⟩ := key _ hz
    refine ⟨y, h1, h2.trans ⟨rfl, fun i _ => ?_⟩⟩
    show mean + u i * scale = _
    ring
  · intro hz
    obtain ⟨y, h1, h2⟩ := key _ hz
    refine ⟨y, h1, h2.trans ⟨rfl, fun i _ => ?_⟩⟩
    show (0 : α) + u i * 1 = _
    ring

end

theorem random_examples : ShapeIs (some [2, 3]) [2, 3] ∧ ShapeIs (some []) [] ∧
    (∃ y : T Int, uniformRewrite (fun i => (nth i 0 : Int)) 7 3 true (some [2, 3]) [2, 3] = .ok (some y) ∧ y.shape = [2, 3] ∧ y.get [1, 2] = 7) ∧
    ∃ y : T Int, normalRewrite (fun i => (nth i 0 : Int)) (some (10, 2)) false (some [2, 3]) [2, 3] = some (some y) ∧ y.shape = [2, 3] ∧ y.get [1, 2] = 12 :=
  ⟨rfl, rfl, ⟨_, rfl, rfl, by decide⟩, _, rfl, rfl, by decide⟩

/-- **Defect**: what is added to the scaled random numbers is not looked at. `u * (7 - 3) + 100` becomes numbers from [3, 7). -/
theorem random_uniform_violated : ∃ y : T Int, uniformRewrite (fun _ => 0) 7 3 true (some [2]) [2] = .ok (some y) ∧ y.get [0] = 3 ∧ (0 : Int) * (7 - 3) + 100 ≠ 3 :=
  ⟨_, rfl, by decide, by decide⟩

/-- **Defect**: a recorded shape that is not complete becomes an attribute that is not valid; a shape that is not recorded makes the conversion fail. -/
theorem random_shape_violated : (uniformRewrite (fun _ => (0 : Int)) 7 3 true (some [-1]) [2] = .ok none) ∧
    uniformRewrite (fun _ => (0 : Int)) 7 3 true none [2] = .error "TypeError: object of type 'NoneType' has no len()" := ⟨rfl, rfl⟩

/-! ## Batched ragged tensors -/

/-- The shape of the variant `RaggedTensorToVariant` makes of a ragged tensor with that many rows: one entry for each row if it is batched, otherwise a scalar. -/
def tfVariantShape (batched : Bool) (rows : Nat) : List Int := if batched then [(rows : Int)] else []

/-- **C66**: if the shape of a variant is computed from the row splits it is the shape of the variant; a batched variant of a ragged tensor of ragged rank 1 is treated.
The row splits have one entry more than there are rows. -/
theorem variant_shape (batched : Bool) (raggedRank rows : Nat) (splits : T Int) (h : splits.shape = [rows + 1]) :
    (∀ s, variantShape batched raggedRank splits = some s → s = tfVariantShape batched rows) ∧
      variantShape true 1 splits = some [(rows : Int)] := by
  refine ⟨fun s hs => ?_, by simp [variantShape, h]⟩
  cases batched with
  | false => simp [variantShape] at hs
  | true =>
    simp only [variantShape, h] at hs
    split at hs
    · cases hs
      simp [tfVariantShape]
    · cases hs

end Verif.Patt
