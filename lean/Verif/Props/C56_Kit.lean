import Verif.Model.Rnn
import Mathlib.Algebra.BigOperators.Intervals
import Mathlib.Tactic.Ring
/-!
# C56, tools: vectors, unrolling, splitting and joining matrices
-/
set_option linter.unusedSectionVars false
namespace Verif.Rnn
open Verif.Tensor Verif.Emit

variable {K : Type} [Field K] [LinearOrder K]

/-! ## Products -/

theorem dot_congr {n : Nat} {x y m k : Nat → K} (h : ∀ i < n, x i = y i) (hm : ∀ i < n, m i = k i) : dot n x m = dot n y k := by
  unfold dot
  exact Finset.sum_congr rfl (fun i hi => by rw [h i (Finset.mem_range.1 hi), hm i (Finset.mem_range.1 hi)])

theorem dot_join (I H : Nat) (x h m : Nat → K) : dot (I + H) (join I x h) m = dot I x m + dot H h (fun i => m (I + i)) := by
  unfold dot
  rw [Finset.sum_range_add]
  congr 1
  · refine Finset.sum_congr rfl (fun i hi => ?_)
    simp [join, Finset.mem_range.1 hi]
  · refine Finset.sum_congr rfl (fun i _ => ?_)
    simp [join]

theorem vec_congr {n : Nat} {f g : Nat → K} (h : ∀ i < n, f i = g i) : vec n f = vec n g := by
  funext i
  unfold vec
  split
  · exact h i ‹_›
  · rfl

theorem vec_get {n i : Nat} {f : Nat → K} (h : i < n) : vec n f i = f i := if_pos h

/-! ## Unrolling -/

variable {S X : Type}

theorem runState_congr {step : S → X → S} {s : S} {x y : Nat → X} : ∀ {t : Nat}, (∀ i < t, x i = y i) → runState step s x t = runState step s y t
  | 0, _ => rfl
  | t + 1, h => by
    show step _ _ = step _ _
    rw [runState_congr (fun i hi => h i (by omega)), h t (by omega)]

theorem runState_step {f g : S → X → S} {s : S} {x : Nat → X} (h : ∀ s x, f s x = g s x) : ∀ t, runState f s x t = runState g s x t
  | 0 => rfl
  | t + 1 => by
    show f _ _ = g _ _
    rw [runState_step h t, h]

theorem dynState_le {step : S → X → S} {len : Nat} {s : S} {x : Nat → X} : ∀ {t : Nat}, t ≤ len → dynState step len s x t = runState step s x t
  | 0, _ => rfl
  | t + 1, h => by
    show (if len ≤ t then _ else _) = _
    rw [if_neg (by omega), dynState_le (by omega)]
    rfl

theorem dynState_ge {step : S → X → S} {len : Nat} {s : S} {x : Nat → X} : ∀ {t : Nat}, len ≤ t → dynState step len s x t = runState step s x len
  | 0, h => by
    have e : len = 0 := by omega
    subst e; rfl
  | t + 1, h => by
    by_cases e : len = t + 1
    · rw [← e]; exact dynState_le (Nat.le_refl _)
    · show (if len ≤ t then _ else _) = _
      rw [if_pos (by omega)]
      exact dynState_ge (by omega)

/-- Both kinds of unrolling agree: outputs. -/
theorem dyn_out {step : S → X → S} {len t : Nat} {s : S} {x : Nat → X} (h : t < len) :
    step (dynState step len s x t) (x t) = runState step s x (t + 1) := by
  rw [dynState_le (by omega)]; rfl

/-! ## Matrices -/

/-- Axis 1 of a list of matrices, each with `H` columns: column `k * H + j` is column `j` of matrix `k`. -/
theorem concat_col {H : Nat} : ∀ {l : List (T K)} {k : Nat}, (∀ x ∈ l, nth x.shape 1 = H) → k < l.length → ∀ (r : Nat) {j : Nat}, j < H →
    concatGet 0 1 l [r, k * H + j] = (part l k).get [r, j]
  | [], _, _, hk, _, _, _ => absurd hk (Nat.not_lt_zero _)
  | x :: l, 0, h, _, r, j, hj => by
    have e : nth x.shape 1 = H := h x (by simp)
    have : nth [r, 0 * H + j] 1 = j := by simp [nth]
    unfold concatGet
    rw [if_pos (by rw [this, e]; exact hj)]
    simp [part]
  | x :: l, k + 1, h, hk, r, j, hj => by
    have e : nth x.shape 1 = H := h x (by simp)
    have e2 : nth [r, (k + 1) * H + j] 1 = (k + 1) * H + j := rfl
    have e3 : (k + 1) * H + j - H = k * H + j := by
      rw [Nat.succ_mul]; omega
    unfold concatGet
    rw [if_neg (by rw [e2, e, Nat.succ_mul]; omega), e2, e]
    have : setAt [r, (k + 1) * H + j] 1 ((k + 1) * H + j - H) = [r, k * H + j] := by rw [e3]; rfl
    rw [this, concat_col (fun y hy => h y (by simp [hy])) (by simpa using hk) r hj]
    simp [part]

theorem splitChunk_cols {n k : Nat} (x : T K) (hk : k < n) {r d : Nat} (hs : x.shape = [r, d]) :
    (splitChunk 1 (List.replicate n (d / n)) k x).shape = [r, d / n] ∧
    ∀ i j, (splitChunk 1 (List.replicate n (d / n)) k x).get [i, j] = x.get [i, k * (d / n) + j] := by
  constructor
  · simp only [splitChunk, hs]
    have : nth (List.replicate n (d / n)) k = d / n := by simp [nth, List.getD, hk]
    rw [this]; rfl
  · intro i j
    have e : ((List.replicate n (d / n)).take k).sum = k * (d / n) := by
      rw [List.take_replicate, List.sum_replicate_nat, Nat.min_eq_left (by omega)]
    simp only [splitChunk, e]
    have : setAt [i, j] 1 (nth [i, j] 1 + k * (d / n)) = [i, k * (d / n) + j] := by
      show [i, j + k * (d / n)] = _
      rw [Nat.add_comm]
    rw [this]

/-- What `np.split(x, n, axis=1)` gives for a matrix with `n * H` columns. -/
theorem npSplit_cols {n r H : Nat} (x : T K) (hn : 0 < n) (hs : x.shape = [r, n * H]) :
    ∃ l, npSplit 1 n x = some l ∧ l.length = n ∧ (∀ k < n, (part l k).shape = [r, H]) ∧ ∀ k < n, ∀ i j, (part l k).get [i, j] = x.get [i, k * H + j] := by
  have hd : nth x.shape 1 = n * H := by rw [hs]; rfl
  have hq : n * H / n = H := Nat.mul_div_cancel_left H hn
  have hp : ∀ k < n, part ((List.range n).map (fun k => splitChunk 1 (List.replicate n (nth x.shape 1 / n)) k x)) k =
      splitChunk 1 (List.replicate n (n * H / n)) k x := by
    intro k hk
    simp [part, List.getD, hk, hd]
  refine ⟨_, if_pos (by rw [hd]; exact Dvd.intro _ rfl), by simp, ?_, ?_⟩
  · intro k hk
    rw [hp k hk, (splitChunk_cols x hk hs).1, hq]
  · intro k hk i j
    rw [hp k hk, (splitChunk_cols x hk hs).2, hq]

/-- Rows of two parts of a matrix. -/
theorem npSplitAt_rows (k : Nat) (x : T K) {r d : Nat} (hs : x.shape = [r, d]) :
    (npSplitAt 0 k x).1.shape = [k, d] ∧ (npSplitAt 0 k x).2.shape = [r - k, d] ∧
    (∀ i j, (npSplitAt 0 k x).1.get [i, j] = x.get [i, j]) ∧ ∀ i j, (npSplitAt 0 k x).2.get [i, j] = x.get [k + i, j] := by
  refine ⟨by simp only [npSplitAt, splitChunk, hs]; rfl, by simp only [npSplitAt, splitChunk, hs]; rfl, fun i j => ?_, fun i j => ?_⟩
  · simp [npSplitAt, splitChunk, setAt, nth]
  · simp [npSplitAt, splitChunk, setAt, nth, Nat.add_comm]

/-- Columns of two parts of a matrix. -/
theorem npSplitAt_cols (k : Nat) (x : T K) {r d : Nat} (hs : x.shape = [r, d]) :
    (npSplitAt 1 k x).1.shape = [r, k] ∧ (npSplitAt 1 k x).2.shape = [r, d - k] ∧
    (∀ i j, (npSplitAt 1 k x).1.get [i, j] = x.get [i, j]) ∧ ∀ i j, (npSplitAt 1 k x).2.get [i, j] = x.get [i, k + j] := by
  refine ⟨by simp only [npSplitAt, splitChunk, hs]; rfl, by simp only [npSplitAt, splitChunk, hs]; rfl, fun i j => ?_, fun i j => ?_⟩
  · simp [npSplitAt, splitChunk, setAt, nth]
  · simp [npSplitAt, splitChunk, setAt, nth, Nat.add_comm]

/-- Elements of two parts of a vector. -/
theorem npSplitAt_vec (k : Nat) (x : T K) {d : Nat} (hs : x.shape = [d]) :
    (npSplitAt 0 k x).1.shape = [k] ∧ (npSplitAt 0 k x).2.shape = [d - k] ∧
    (∀ i, (npSplitAt 0 k x).1.get [i] = x.get [i]) ∧ ∀ i, (npSplitAt 0 k x).2.get [i] = x.get [k + i] := by
  refine ⟨by simp only [npSplitAt, splitChunk, hs]; rfl, by simp only [npSplitAt, splitChunk, hs]; rfl, fun i => ?_, fun i => ?_⟩
  · simp [npSplitAt, splitChunk, setAt, nth]
  · simp [npSplitAt, splitChunk, setAt, nth, Nat.add_comm]

/-! ## Squeeze -/

theorem squeeze_Y (y : T K) {a b c : Nat} (h : y.shape = [a, 1, b, c]) :
    (squeezeAt 4 1 y).shape = [a, b, c] ∧ ∀ t n j, (squeezeAt 4 1 y).get [t, n, j] = y.get [t, 0, n, j] := by
  have e : keptAxes 4 (axSet 4 [((1 : Nat) : Int)]) = [0, 2, 3] := by decide
  refine ⟨?_, fun t n j => ?_⟩
  · unfold squeezeAt Tensor.squeeze
    rw [h]
    show (keptAxes 4 _).map _ = _
    rw [e]; rfl
  · unfold squeezeAt Tensor.squeeze
    rw [h]
    show y.get ((List.range 4).map (fun i => if axSet 4 [((1 : Nat) : Int)] i then 0 else nth [t, n, j] ((keptAxes 4 (axSet 4 [((1 : Nat) : Int)])).idxOf i))) = _
    rw [e]; rfl

theorem squeeze_last (y : T K) {b c : Nat} (h : y.shape = [1, b, c]) :
    (squeezeAt 3 0 y).shape = [b, c] ∧ ∀ n j, (squeezeAt 3 0 y).get [n, j] = y.get [0, n, j] := by
  have e : keptAxes 3 (axSet 3 [((0 : Nat) : Int)]) = [1, 2] := by decide
  refine ⟨?_, fun n j => ?_⟩
  · unfold squeezeAt Tensor.squeeze
    rw [h]
    show (keptAxes 3 _).map _ = _
    rw [e]; rfl
  · unfold squeezeAt Tensor.squeeze
    rw [h]
    show y.get ((List.range 3).map (fun i => if axSet 3 [((0 : Nat) : Int)] i then 0 else nth [n, j] ((keptAxes 3 (axSet 3 [((0 : Nat) : Int)])).idxOf i))) = _
    rw [e]; rfl

/-! ## Indices of ranks 2 and 3 -/

theorem InB_two {a b : Nat} {idx : List Nat} (h : InB [a, b] idx) : ∃ i j, idx = [i, j] ∧ i < a ∧ j < b := by
  obtain ⟨hl, hi⟩ := h
  match idx, hl with
  | [i, j], _ => exact ⟨i, j, rfl, hi 0 (by simp), hi 1 (by simp)⟩

theorem InB_three {a b c : Nat} {idx : List Nat} (h : InB [a, b, c] idx) : ∃ i j k, idx = [i, j, k] ∧ i < a ∧ j < b ∧ k < c := by
  obtain ⟨hl, hi⟩ := h
  match idx, hl with
  | [i, j, k], _ => exact ⟨i, j, k, rfl, hi 0 (by simp), hi 1 (by simp), hi 2 (by simp)⟩

theorem InB_four {a b c d : Nat} {idx : List Nat} (h : InB [a, b, c, d] idx) : ∃ i j k l, idx = [i, j, k, l] ∧ i < a ∧ j < b ∧ k < c ∧ l < d := by
  obtain ⟨hl, hi⟩ := h
  match idx, hl with
  | [i, j, k, l], _ => exact ⟨i, j, k, l, rfl, hi 0 (by simp), hi 1 (by simp), hi 2 (by simp), hi 3 (by simp)⟩

end Verif.Rnn
