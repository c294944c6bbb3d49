import Verif.Model.Atan2
import Verif.Props.C66_Broadcast
/-!
# C68: the arc tangent of two arguments
-/
namespace Verif.Scan
open Verif.Tensor Verif.Emit Real

/-! ## Broadcasting, seen from the last axis -/

/-- A tensor seen from its last axis. -/
structure View {α : Type} (z : T α) (r : Nat) (d : Nat → Nat) (f : (Nat → Nat) → α) : Prop where
  rank : z.shape.length = r
  dims : ∀ k, dimB z.shape k = d k
  elems : ∀ p, at' z p = f p

theorem View.self {α : Type} (z : T α) : View z z.shape.length (dimB z.shape) (at' z) := ⟨rfl, fun _ => rfl, fun _ => rfl⟩

theorem View.map {α β : Type} {z : T α} {r : Nat} {d : Nat → Nat} {f : (Nat → Nat) → α} (h : View z r d f) (g : α → β) :
    View (mapT g z) r d (fun p => g (f p)) := ⟨h.rank, h.dims, fun p => congrArg g (h.elems p)⟩

theorem View.zip {α β γ : Type} {x : T α} {y : T β} {r r' s : Nat} {d d' e : Nat → Nat} {f : (Nat → Nat) → α} {f' : (Nat → Nat) → β}
    (hx : View x r d f) (hy : View y r' d' f') (g : α → β → γ) (hs : s = max r r')
    (hc : ∀ k, (d k = d' k ∨ d k = 1 ∨ d' k = 1) ∧ e k = if d k = 1 then d' k else d k) :
    ∃ z, zipT g x y = some z ∧ View z s e (fun p => g (f p) (f' p)) := by
  obtain ⟨z, hz⟩ := zipT_some g (x := x) (y := y) (fun k => by rw [hx.dims, hy.dims]; exact (hc k).1)
  obtain ⟨hl, hd, -, ha⟩ := zipT_view hz
  exact ⟨z, hz, by rw [hl, hx.rank, hy.rank, hs], fun k => by rw [hd, hx.dims, hy.dims, (hc k).2], fun p => by rw [ha, hx.elems, hy.elems]⟩

theorem View.same {α : Type} {z w : T α} {r : Nat} {d : Nat → Nat} {f : (Nat → Nat) → α} (h : View z r d f) (h' : View w r d f) : Same z w :=
  same_of_view (h.rank.trans h'.rank.symm) (fun k => (h.dims k).trans (h'.dims k).symm) (fun p => (h.elems p).trans (h'.elems p).symm)

theorem one_view : View atanOne 1 (fun _ => 1) (fun _ => 1) := ⟨rfl, fun k => by
  cases k with
  | zero => rfl
  | succ k => exact dimB_of_le (by simp [atanOne]), fun _ => rfl⟩

theorem half_view : View atanHalf 0 (fun _ => 1) (fun _ => -π / 2) := ⟨rfl, fun k => dimB_of_le (by simp [atanHalf]), fun _ => rfl⟩

/-! ## One element -/

/-- What is computed for one pair. -/
noncomputable def atanOf (y x : ℝ) : ℝ :=
  onnxSign x * onnxSign x * arctan (y / (x + (onnxSign x * onnxSign x - 1))) +
    (onnxSign y + onnxSign x * (onnxSign y * onnxSign y - 1)) * (onnxSign x - 1) * (-π / 2)

theorem arg_pos (y x : ℝ) (h : 0 < x) : Complex.arg ⟨x, y⟩ = arctan (y / x) := by
  have h1 := (Complex.abs_arg_lt_pi_div_two_iff (z := ⟨x, y⟩)).2 (Or.inl h)
  rw [abs_lt] at h1
  rw [← Real.arctan_tan (x := Complex.arg ⟨x, y⟩) (by linarith [h1.1]) h1.2, Complex.tan_arg]

theorem atanOf_eq (y x : ℝ) : atanOf y x = tfAtan2 y x := by
  unfold atanOf tfAtan2
  rcases lt_trichotomy x 0 with hx | hx | hx
  · have sx : onnxSign x = -1 := by unfold onnxSign; rw [if_neg (by linarith), if_pos hx]
    have hneg : Complex.arg (-⟨x, y⟩) = arctan (y / x) := by
      have : (-⟨x, y⟩ : ℂ) = ⟨-x, -y⟩ := rfl
      rw [this, arg_pos (-y) (-x) (by linarith), neg_div_neg_eq]
    rw [sx]
    rcases lt_trichotomy y 0 with hy | hy | hy
    · have sy : onnxSign y = -1 := by unfold onnxSign; rw [if_neg (by linarith), if_pos hy]
      rw [sy]
      have := Complex.arg_neg_eq_arg_add_pi_of_im_neg (x := ⟨x, y⟩) hy
      rw [hneg] at this
      have e : x + (-1 * -1 - 1) = x := by ring
      rw [e, this]
      ring
    · subst hy
      have sy : onnxSign 0 = 0 := by unfold onnxSign; simp
      rw [sy]
      have : Complex.arg ⟨x, 0⟩ = π := Complex.arg_eq_pi_iff.2 ⟨hx, rfl⟩
      rw [this]
      simp
      ring
    · have sy : onnxSign y = 1 := by unfold onnxSign; rw [if_pos hy]
      rw [sy]
      have := Complex.arg_neg_eq_arg_sub_pi_of_im_pos (x := ⟨x, y⟩) hy
      rw [hneg] at this
      have e : x + (-1 * -1 - 1) = x := by ring
      rw [e, this]
      ring
  · subst hx
    have sx : onnxSign 0 = 0 := by unfold onnxSign; simp
    rw [sx]
    rcases lt_trichotomy y 0 with hy | hy | hy
    · have sy : onnxSign y = -1 := by unfold onnxSign; rw [if_neg (by linarith), if_pos hy]
      rw [sy, (Complex.arg_eq_neg_pi_div_two_iff (z := ⟨0, y⟩)).2 ⟨rfl, hy⟩]
      ring
    · subst hy
      rw [sx, (Complex.arg_eq_zero_iff (z := ⟨0, 0⟩)).2 ⟨le_refl _, rfl⟩]
      ring
    · have sy : onnxSign y = 1 := by unfold onnxSign; rw [if_pos hy]
      rw [sy, (Complex.arg_eq_pi_div_two_iff (z := ⟨0, y⟩)).2 ⟨rfl, hy⟩]
      ring
  · have sx : onnxSign x = 1 := by unfold onnxSign; rw [if_pos hx]
    rw [sx, arg_pos y x hx]
    have e : x + (1 * 1 - 1) = x := by ring
    rw [e]
    ring

/-! ## Tensors -/

/-- What is computed, seen from the last axis. -/
theorem atan2_view (y x : T ℝ) (h : Compat' y.shape x.shape) :
    ∃ z, atan2 y x = some z ∧ View z (max 1 (max y.shape.length x.shape.length)) (fun k => if dimB y.shape k = 1 then dimB x.shape k else dimB y.shape k)
      (fun p => tfAtan2 (at' y p) (at' x p)) := by
  have vx := View.self x
  have vy := View.self y
  have vsx := vx.map onnxSign
  have vsy := vy.map onnxSign
  obtain ⟨sxm1, h1, v1⟩ := vsx.zip one_view (· - ·) rfl (e := dimB x.shape) (fun k => ⟨by simp, by split <;> simp_all⟩)
  obtain ⟨sy2, h2, v2⟩ := vsy.zip vsy (· * ·) rfl (e := dimB y.shape) (fun k => ⟨by simp, by split <;> simp_all⟩)
  obtain ⟨sy2m1, h3, v3⟩ := v2.zip one_view (· - ·) rfl (e := dimB y.shape) (fun k => ⟨by simp, by split <;> simp_all⟩)
  obtain ⟨sxy, h4, v4⟩ := vsx.zip v3 (· * ·) rfl (e := fun k => if dimB y.shape k = 1 then dimB x.shape k else dimB y.shape k) (fun k => by
    have := h k; constructor <;> (try split_ifs) <;> omega)
  obtain ⟨s, h5, v5⟩ := vsy.zip v4 (· + ·) rfl (e := fun k => if dimB y.shape k = 1 then dimB x.shape k else dimB y.shape k) (fun k => by
    have := h k; constructor <;> (try split_ifs) <;> omega)
  obtain ⟨m1, h6, v6⟩ := v5.zip v1 (· * ·) rfl (e := fun k => if dimB y.shape k = 1 then dimB x.shape k else dimB y.shape k) (fun k => by
    have := h k; constructor <;> (try split_ifs) <;> omega)
  obtain ⟨pip, h7, v7⟩ := v6.zip half_view (· * ·) rfl (e := fun k => if dimB y.shape k = 1 then dimB x.shape k else dimB y.shape k) (fun k => by
    have := h k; constructor <;> (try split_ifs) <;> omega)
  obtain ⟨sx2, g1, w1⟩ := vsx.zip vsx (· * ·) rfl (e := dimB x.shape) (fun k => ⟨by simp, by split <;> simp_all⟩)
  obtain ⟨sx2m1, g2, w2⟩ := w1.zip one_view (· - ·) rfl (e := dimB x.shape) (fun k => ⟨by simp, by split <;> simp_all⟩)
  obtain ⟨d, g3, w3⟩ := vx.zip w2 (· + ·) rfl (e := dimB x.shape) (fun k => ⟨by simp, by split <;> simp_all⟩)
  obtain ⟨q, g4, w4⟩ := vy.zip w3 (· / ·) rfl (e := fun k => if dimB y.shape k = 1 then dimB x.shape k else dimB y.shape k) (fun k => by
    have := h k; constructor <;> (try split_ifs) <;> omega)
  obtain ⟨a, g5, w5⟩ := w1.zip (w4.map Real.arctan) (· * ·) rfl (e := fun k => if dimB y.shape k = 1 then dimB x.shape k else dimB y.shape k) (fun k => by
    have := h k; constructor <;> (try split_ifs) <;> omega)
  obtain ⟨z, g6, w6⟩ := w5.zip v7 (· + ·) rfl (e := fun k => if dimB y.shape k = 1 then dimB x.shape k else dimB y.shape k) (fun k => by
    constructor <;> (try split_ifs) <;> omega)
  refine ⟨z, ?_, ?_⟩
  · have hp : atanPi (mapT onnxSign x) (mapT onnxSign y) = some pip := by
      unfold atanPi
      simp only [h1, h2, h3, h4, h5, h6, h7, Option.bind_some]
    have ha : atanPart (mapT onnxSign x) y x = some a := by
      unfold atanPart
      simp only [g1, g2, g3, g4, g5, Option.bind_some]
    unfold atan2
    rw [hp, ha]
    exact g6
  · refine ⟨?_, w6.dims, fun p => ?_⟩
    · rw [w6.rank]
      omega
    · rw [w6.elems, ← atanOf_eq]
      rfl

/-- **C68**: the converted `tf.math.atan2` is the angle, for every two tensors of real numbers that broadcast, one of which is not a scalar. -/
theorem atan2_partial (y x : T ℝ) (hr : 1 ≤ max y.shape.length x.shape.length) {v : T ℝ} (h : zipT tfAtan2 y x = some v) : ∃ z, atan2 y x = some z ∧ Same z v := by
  obtain ⟨hl, hd, hc, ha⟩ := zipT_view h
  obtain ⟨z, hz, vz⟩ := atan2_view y x hc
  refine ⟨z, hz, same_of_view ?_ (fun k => by rw [vz.dims, hd]) (fun p => by rw [vz.elems, ha])⟩
  rw [vz.rank, hl]
  omega

/-- **C68 (violated)**: of two scalars the result has one axis. -/
theorem atan2_scalar_violated (a b : ℝ) : ∃ z v, atan2 ⟨[], fun _ => a⟩ ⟨[], fun _ => b⟩ = some z ∧ zipT tfAtan2 ⟨[], fun _ => a⟩ ⟨[], fun _ => b⟩ = some v ∧
    z.shape = [1] ∧ v.shape = [] := by
  have hc : Compat' ([] : List Nat) [] := fun k => Or.inl rfl
  obtain ⟨z, hz, vz⟩ := atan2_view ⟨[], fun _ => a⟩ ⟨[], fun _ => b⟩ hc
  obtain ⟨v, hv⟩ := zipT_some tfAtan2 (x := ⟨[], fun _ => a⟩) (y := ⟨[], fun _ => b⟩) hc
  obtain ⟨vl, -⟩ := zipT_view hv
  refine ⟨z, v, hz, hv, ?_, List.length_eq_zero_iff.1 vl⟩
  exact shape_ext (t := [1]) vz.rank (fun k => by
    rw [vz.dims]
    show (if (1 : Nat) = 1 then _ else _) = _
    cases k with
    | zero => rfl
    | succ k => rfl)

/-- The hypotheses hold: of `[1, 0, -1]` and `[[0], [-1]]`, the angle of the last elements is `-3π/4`. -/
theorem atan2_example : ∃ z, atan2 ⟨[3], fun i => 1 - nth i 0⟩ ⟨[2, 1], fun i => -nth i 0⟩ = some z ∧ z.shape = [2, 3] ∧ z.get [1, 2] = -(3 * π / 4) := by
  obtain ⟨v, hv⟩ := zipT_some tfAtan2 (x := ⟨[3], fun i => 1 - nth i 0⟩) (y := ⟨[2, 1], fun i => -nth i 0⟩) (by
    intro k
    match k with
    | 0 => right; right; rfl
    | 1 => right; left; rfl
    | k + 2 => right; left; exact dimB_of_le (by simp))
  obtain ⟨z, hz, hs⟩ := atan2_partial _ _ (by simp) hv
  have hvv := hv
  unfold zipT at hvv
  rw [if_pos (by decide)] at hvv
  cases hvv
  refine ⟨z, hz, hs.1, ?_⟩
  rw [hs.2 _ (by rw [hs.1]; constructor <;> decide)]
  show tfAtan2 (1 - ((2 : Nat) : ℝ)) (-((1 : Nat) : ℝ)) = _
  rw [← atanOf_eq]
  have e1 : (1 - ((2 : Nat) : ℝ)) = -1 := by norm_num
  have e2 : (-((1 : Nat) : ℝ)) = -1 := by norm_num
  rw [e1, e2]
  have s : onnxSign (-1) = -1 := by unfold onnxSign; rw [if_neg (by linarith), if_pos (by linarith)]
  unfold atanOf
  rw [s]
  have e3 : (-1 : ℝ) / (-1 + (-1 * -1 - 1)) = 1 := by norm_num
  rw [e3, Real.arctan_one]
  ring

end Verif.Scan
