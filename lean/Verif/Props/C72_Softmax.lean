import Verif.Props.C72_Kit
/-!
# C72: softmax along the last axis
-/
namespace Verif.Softmax
open Verif.Tensor Verif.Emit Verif.Einsum Verif.Fourier

/-- The axis that the handler chooses, for an operand of rank `r`. -/
theorem axes_last {v r : Nat} {neg : Bool} {a : Option Int} (hr : 0 < r) (ha : if v < 13 then a = some ((r : Int) - 1) else a = none) :
    ∃ ax, softmaxAxes v neg a r = some ax ∧ ∀ k, k < r → (ax k = true ↔ k = r - 1) := by
  unfold softmaxAxes
  by_cases hv : v < 13
  · rw [if_pos hv] at ha
    subst ha
    have hf : AxisFits v neg r ((some ((r : Int) - 1)).getD (if v < 13 then 1 else -1)) := ⟨by simp; omega, by simp, fun _ _ => by simp; omega⟩
    refine ⟨_, if_pos hf, fun k hk => ?_⟩
    rw [if_pos hv, decide_eq_true_eq]
    have : normAxis r ((some ((r : Int) - 1)).getD (if v < 13 then 1 else -1)) = r - 1 := by
      show (if ((r : Int) - 1) < 0 then ((r : Int) - 1) + r else (r : Int) - 1).toNat = r - 1
      rw [if_neg (by omega)]
      omega
    rw [this]
    omega
  · rw [if_neg hv] at ha
    subst ha
    have hf : AxisFits v neg r ((none : Option Int).getD (if v < 13 then 1 else -1)) := by
      rw [if_neg hv]
      exact ⟨by simp; omega, by simp; omega, fun h => absurd h (by omega)⟩
    refine ⟨_, if_pos hf, fun k hk => ?_⟩
    rw [if_neg hv, if_neg hv, decide_eq_true_eq]
    have : normAxis r ((none : Option Int).getD (-1)) = r - 1 := by
      show (if (-1 : Int) < 0 then (-1 : Int) + r else -1).toNat = r - 1
      rw [if_pos (by decide)]
      omega
    rw [this]

theorem attr_ok {v r : Nat} {recorded : Option (List Int)} (h : v < 13 → ∃ s, recorded = some s ∧ s.length = r) :
    ∃ a, softmaxAttr v none recorded = .ok a ∧ (if v < 13 then a = some ((r : Int) - 1) else a = none) := by
  unfold softmaxAttr
  by_cases hv : v < 13
  · obtain ⟨s, rfl, hs⟩ := h hv
    rw [if_pos hv]
    exact ⟨some ((s.length : Int) - 1), rfl, by rw [if_pos hv, hs]⟩
  · rw [if_neg hv]
    exact ⟨none, rfl, by rw [if_neg hv]⟩

/-- The sum over the group is the sum over the line. -/
theorem group_sum {x : T ℝ} (hr : 0 < x.shape.length) {ax : Nat → Bool} (hax : ∀ k, k < x.shape.length → (ax k = true ↔ k = x.shape.length - 1)) {i : List Nat}
    (hi : InB x.shape i) : ((group ax x i).map Real.exp).sum = lineSum x i := by
  rw [group_one (a := x.shape.length - 1) (by omega) hi.1 (fun k hk _ => hi.2 k hk) hax, Multiset.map_coe, Multiset.sum_coe, List.map_map]
  rfl

/-- **C72.** The converted `Softmax` is TensorFlow's, for every operator set and operands of every rank from 1 on; before operator set 13 the rank must be recorded. -/
theorem softmax_sound {v : Nat} (neg : Bool) {recorded : Option (List Int)} (x : T ℝ) (hr : x.shape ≠ []) (hs : v < 13 → ∃ s, recorded = some s ∧ s.length = x.shape.length) :
    ∃ y, softmax v neg none recorded x = .ok (some y) ∧ Same y (tfSoftmax x) := by
  have hr' : 0 < x.shape.length := List.length_pos_iff.2 hr
  obtain ⟨a, ha, hb⟩ := attr_ok hs
  obtain ⟨ax, hx, hax⟩ := axes_last (neg := neg) hr' hb
  refine ⟨groupMap (fun m y => Real.exp y / (m.map Real.exp).sum) ax x, ?_, rfl, fun i hi => ?_⟩
  · unfold softmax onnxSoftmax
    rw [ha]
    dsimp only
    rw [hx]
    rfl
  · show Real.exp (x.get i) / ((group ax x i).map Real.exp).sum = _
    rw [group_sum hr' hax hi]
    rfl

/-- **C72.** The converted `LogSoftmax`, likewise. -/
theorem logSoftmax_sound {v : Nat} (neg : Bool) {recorded : Option (List Int)} (x : T ℝ) (hr : x.shape ≠ []) (hs : v < 13 → ∃ s, recorded = some s ∧ s.length = x.shape.length) :
    ∃ y, logSoftmax v neg none recorded x = .ok (some y) ∧ Same y (tfLogSoftmax x) := by
  have hr' : 0 < x.shape.length := List.length_pos_iff.2 hr
  obtain ⟨a, ha, hb⟩ := attr_ok hs
  obtain ⟨ax, hx, hax⟩ := axes_last (neg := neg) hr' hb
  refine ⟨groupMap (fun m y => y - Real.log (m.map Real.exp).sum) ax x, ?_, rfl, fun i hi => ?_⟩
  · unfold logSoftmax onnxLogSoftmax
    rw [ha]
    dsimp only
    rw [hx]
    rfl
  · show x.get i - Real.log ((group ax x i).map Real.exp).sum = _
    rw [group_sum hr' hax hi]
    rfl

/-- **C72, a limit of the code.** Before operator set 13 an operand without a recorded shape makes the conversion fail. -/
theorem softmax_unranked_violated {v : Nat} (hv : v < 13) (neg : Bool) (x : T ℝ) : ∃ e, softmax v neg none none x = .error e ∧ logSoftmax v neg none none x = .error e := by
  refine ⟨"TypeError: object of type 'NoneType' has no len()", ?_, ?_⟩
  · unfold softmax softmaxAttr
    rw [if_pos hv]
  · unfold logSoftmax softmaxAttr
    rw [if_pos hv]

/-- A sum of exponentials over a line that is not empty is positive, so softmax divides by a number that is not zero, and the results of a line add up to 1. -/
theorem softmax_total (x : T ℝ) (i : List Nat) (hi : InB x.shape i) (hr : x.shape ≠ []) :
    0 < lineSum x i ∧ ((List.range (lastDim x.shape)).map (fun k => (tfSoftmax x).get (setAt i (x.shape.length - 1) k))).sum = 1 := by
  have hr' : 0 < x.shape.length := List.length_pos_iff.2 hr
  have hpos : 0 < lineSum x i := by
    unfold lineSum
    apply List.sum_pos
    · intro y hy
      obtain ⟨k, -, rfl⟩ := List.mem_map.1 hy
      exact Real.exp_pos _
    · have h := hi.2 (x.shape.length - 1) (by omega)
      intro e
      rw [List.map_eq_nil_iff, List.range_eq_nil] at e
      unfold lastDim at e
      omega
  refine ⟨hpos, ?_⟩
  have h1 : ∀ k, (tfSoftmax x).get (setAt i (x.shape.length - 1) k) = Real.exp (x.get (setAt i (x.shape.length - 1) k)) / lineSum x i := by
    intro k
    have : lineSum x (setAt i (x.shape.length - 1) k) = lineSum x i := by
      unfold lineSum setAt
      simp only [List.set_set]
    show Real.exp _ / lineSum x _ = _
    rw [this]
  simp only [h1]
  have h2 : ∀ l : List Nat, (l.map (fun k => Real.exp (x.get (setAt i (x.shape.length - 1) k)) / lineSum x i)).sum = (l.map (fun k => Real.exp (x.get (setAt i (x.shape.length - 1) k)))).sum / lineSum x i := by
    intro l
    induction l with
    | nil => simp
    | cons a l ih => rw [List.map_cons, List.map_cons, List.sum_cons, List.sum_cons, ih, add_div]
  rw [h2]
  exact div_self hpos.ne'

end Verif.Softmax
