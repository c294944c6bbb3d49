import Verif.Model.Fourier
import Verif.Props.EmitVec
import Verif.Props.C62_Dot
import Verif.Props.C68_Cumprod
import Mathlib.Tactic.Ring
/-!
# C71: tensors of rank 2, 3 and 4, given by a function
-/
namespace Verif.Fourier
open Verif.Tensor Verif.Emit Verif.Einsum

variable {α : Type}

structure Is1 (t : T α) (a : Nat) (f : Nat → α) : Prop where
  shape : t.shape = [a]
  get : ∀ i, i < a → t.get [i] = f i

structure Is2 (t : T α) (a b : Nat) (f : Nat → Nat → α) : Prop where
  shape : t.shape = [a, b]
  get : ∀ i j, i < a → j < b → t.get [i, j] = f i j

structure Is3 (t : T α) (a b c : Nat) (f : Nat → Nat → Nat → α) : Prop where
  shape : t.shape = [a, b, c]
  get : ∀ i j k, i < a → j < b → k < c → t.get [i, j, k] = f i j k

structure Is4 (t : T α) (a b c d : Nat) (f : Nat → Nat → Nat → Nat → α) : Prop where
  shape : t.shape = [a, b, c, d]
  get : ∀ i j k l, i < a → j < b → k < c → l < d → t.get [i, j, k, l] = f i j k l

theorem Is2.congr {t : T α} {a b : Nat} {f g : Nat → Nat → α} (h : Is2 t a b f) (e : ∀ i j, i < a → j < b → f i j = g i j) : Is2 t a b g :=
  ⟨h.shape, fun i j hi hj => (h.get i j hi hj).trans (e i j hi hj)⟩

theorem Is3.congr {t : T α} {a b c : Nat} {f g : Nat → Nat → Nat → α} (h : Is3 t a b c f)
    (e : ∀ i j k, i < a → j < b → k < c → f i j k = g i j k) : Is3 t a b c g :=
  ⟨h.shape, fun i j k hi hj hk => (h.get i j k hi hj hk).trans (e i j k hi hj hk)⟩

theorem Is4.congr {t : T α} {a b c d : Nat} {f g : Nat → Nat → Nat → Nat → α} (h : Is4 t a b c d f)
    (e : ∀ i j k l, i < a → j < b → k < c → l < d → f i j k l = g i j k l) : Is4 t a b c d g :=
  ⟨h.shape, fun i j k l hi hj hk hl => (h.get i j k l hi hj hk hl).trans (e i j k l hi hj hk hl)⟩

/-! ## `Transpose` -/

theorem transpose10 {t : T ℝ} {a b : Nat} {f : Nat → Nat → ℝ} (h : Is2 t a b f) : ∃ z, transposeT [1, 0] t = some z ∧ Is2 z b a (fun i j => f j i) := by
  refine ⟨_, if_pos ⟨by decide, by rw [h.shape]; rfl⟩, by simp [transpose, h.shape, nth], fun i j hi hj => ?_⟩
  exact h.get j i hj hi

theorem transpose021 {t : T ℝ} {a b c : Nat} {f : Nat → Nat → Nat → ℝ} (h : Is3 t a b c f) :
    ∃ z, transposeT [0, 2, 1] t = some z ∧ Is3 z a c b (fun i j k => f i k j) := by
  refine ⟨_, if_pos ⟨by decide, by rw [h.shape]; rfl⟩, by simp [transpose, h.shape, nth], fun i j k hi hj hk => ?_⟩
  exact h.get i k j hi hk hj

theorem transpose1032 {t : T ℝ} {a b c d : Nat} {f : Nat → Nat → Nat → Nat → ℝ} (h : Is4 t a b c d f) :
    ∃ z, transposeT [1, 0, 3, 2] t = some z ∧ Is4 z b a d c (fun i j k l => f j i l k) := by
  refine ⟨_, if_pos ⟨by decide, by rw [h.shape]; rfl⟩, by simp [transpose, h.shape, nth], fun i j k l hi hj hk hl => ?_⟩
  exact h.get j i l k hj hi hl hk

theorem transpose1023 {t : T ℝ} {a b c d : Nat} {f : Nat → Nat → Nat → Nat → ℝ} (h : Is4 t a b c d f) :
    ∃ z, transposeT [1, 0, 2, 3] t = some z ∧ Is4 z b a c d (fun i j k l => f j i k l) := by
  refine ⟨_, if_pos ⟨by decide, by rw [h.shape]; rfl⟩, by simp [transpose, h.shape, nth], fun i j k l hi hj hk hl => ?_⟩
  exact h.get j i k l hj hi hk hl

/-! ## `Slice` -/

theorem count0 {e d : Nat} (h : e ≤ d) : SliceSpec.count ⟨0, e, 1⟩ d = e := by
  rw [(slice_count (by omega) (by omega)).2]
  unfold clampPos
  rw [if_neg (by omega)]
  omega

theorem count0_clamp (e d : Nat) : SliceSpec.count ⟨0, e, 1⟩ d = min e d := by
  rw [(slice_count (by omega) (by omega)).2]
  unfold clampPos
  rw [if_neg (by omega)]
  omega

theorem first0 (e : Int) (d : Nat) : SliceSpec.first ⟨0, e, 1⟩ d = 0 := (slice_count (by omega) (by omega)).1

theorem back0 (e : Int) (d i : Nat) : (SliceSpec.first ⟨0, e, 1⟩ d + (i : Int) * 1).toNat = i := by rw [first0]; omega

/-- The parameters of slices whose axes are numbers. -/
macro "slice_tac" hs:term : tactic => `(tactic|
  simp [sliceOn, slice_eq, $hs:term, List.range_succ, slicePar, Tensor.normAxis, nth, first0])

theorem slice2_last {t : T ℝ} {a b : Nat} {f : Nat → Nat → ℝ} (h : Is2 t a b f) {e : Nat} (he : e ≤ b) :
    ∃ z, sliceT [0] [(e : Int)] [-1] t = some z ∧ Is2 z a e f := by
  refine ⟨_, if_pos ⟨rfl, rfl, by simp only [h.shape, List.length_cons, List.length_nil]; decide⟩, ?_, fun i j hi hj => ?_⟩
  · slice_tac h.shape
    exact count0 he
  · have : (sliceOn [0] [(e : Int)] [-1] 0 t).get [i, j] = t.get [i, j] := by slice_tac h.shape
    rw [this]
    exact h.get i j hi (by omega)

theorem slice3_1 {t : T ℝ} {a b c : Nat} {f : Nat → Nat → Nat → ℝ} (h : Is3 t a b c f) {e : Nat} (he : e ≤ b) {ax : Int} (hax : ax = 1 ∨ ax = -2) :
    ∃ z, sliceT [0] [(e : Int)] [ax] t = some z ∧ Is3 z a e c f := by
  refine ⟨_, if_pos ⟨rfl, rfl, by simp only [h.shape, List.length_cons, List.length_nil]; rcases hax with rfl | rfl <;> decide⟩, ?_, fun i j k hi hj hk => ?_⟩
  · rcases hax with rfl | rfl <;>
    · slice_tac h.shape
      exact count0 he
  · have : (sliceOn [0] [(e : Int)] [ax] 0 t).get [i, j, k] = t.get [i, j, k] := by
      rcases hax with rfl | rfl <;> slice_tac h.shape
    rw [this]
    exact h.get i j k hi (by omega) hk

theorem slice3_2 {t : T ℝ} {a b c : Nat} {f : Nat → Nat → Nat → ℝ} (h : Is3 t a b c f) {e : Nat} (he : e ≤ c) :
    ∃ z, sliceT [0] [(e : Int)] [2] t = some z ∧ Is3 z a b e f := by
  refine ⟨_, if_pos ⟨rfl, rfl, by simp only [h.shape, List.length_cons, List.length_nil]; decide⟩, ?_, fun i j k hi hj hk => ?_⟩
  · slice_tac h.shape
    exact count0 he
  · have : (sliceOn [0] [(e : Int)] [2] 0 t).get [i, j, k] = t.get [i, j, k] := by slice_tac h.shape
    rw [this]
    exact h.get i j k hi hj (by omega)

theorem slice3_12 {t : T ℝ} {a b c : Nat} {f : Nat → Nat → Nat → ℝ} (h : Is3 t a b c f) {d e : Nat} (hd : d ≤ b) (he : e ≤ c) :
    ∃ z, sliceT [0, 0] [(d : Int), (e : Int)] [1, 2] t = some z ∧ Is3 z a d e f := by
  refine ⟨_, if_pos ⟨rfl, rfl, by simp only [h.shape, List.length_cons, List.length_nil]; decide⟩, ?_, fun i j k hi hj hk => ?_⟩
  · slice_tac h.shape
    exact ⟨count0 hd, count0 he⟩
  · have : (sliceOn [0, 0] [(d : Int), (e : Int)] [1, 2] 0 t).get [i, j, k] = t.get [i, j, k] := by slice_tac h.shape
    rw [this]
    exact h.get i j k hi (by omega) (by omega)

/-- The same, without the assumption that the axes are long enough. -/
theorem slice3_12c {t : T ℝ} {a b c : Nat} {f : Nat → Nat → Nat → ℝ} (h : Is3 t a b c f) (d e : Nat) :
    ∃ z, sliceT [0, 0] [(d : Int), (e : Int)] [1, 2] t = some z ∧ Is3 z a (min d b) (min e c) f := by
  refine ⟨_, if_pos ⟨rfl, rfl, by simp only [h.shape, List.length_cons, List.length_nil]; decide⟩, ?_, fun i j k hi hj hk => ?_⟩
  · slice_tac h.shape
    exact ⟨count0_clamp d b, count0_clamp e c⟩
  · have : (sliceOn [0, 0] [(d : Int), (e : Int)] [1, 2] 0 t).get [i, j, k] = t.get [i, j, k] := by slice_tac h.shape
    rw [this]
    exact h.get i j k hi (by omega) (by omega)

theorem slice3_1c {t : T ℝ} {a b c : Nat} {f : Nat → Nat → Nat → ℝ} (h : Is3 t a b c f) (e : Nat) :
    ∃ z, sliceT [0] [(e : Int)] [1] t = some z ∧ Is3 z a (min e b) c f := by
  refine ⟨_, if_pos ⟨rfl, rfl, by simp only [h.shape, List.length_cons, List.length_nil]; decide⟩, ?_, fun i j k hi hj hk => ?_⟩
  · slice_tac h.shape
    exact count0_clamp e b
  · have : (sliceOn [0] [(e : Int)] [1] 0 t).get [i, j, k] = t.get [i, j, k] := by slice_tac h.shape
    rw [this]
    exact h.get i j k hi (by omega) hk

theorem slice4_23 {t : T ℝ} {a b c d : Nat} {f : Nat → Nat → Nat → Nat → ℝ} (h : Is4 t a b c d f) {m e : Nat} (hm : m ≤ c) (he : e ≤ d) :
    ∃ z, sliceT [0, 0] [(m : Int), (e : Int)] [2, 3] t = some z ∧ Is4 z a b m e f := by
  refine ⟨_, if_pos ⟨rfl, rfl, by simp only [h.shape, List.length_cons, List.length_nil]; decide⟩, ?_, fun i j k l hi hj hk hl => ?_⟩
  · slice_tac h.shape
    exact ⟨count0 hm, count0 he⟩
  · have : (sliceOn [0, 0] [(m : Int), (e : Int)] [2, 3] 0 t).get [i, j, k, l] = t.get [i, j, k, l] := by slice_tac h.shape
    rw [this]
    exact h.get i j k l hi hj (by omega) (by omega)

theorem slice4_1 {t : T ℝ} {a b c d : Nat} {f : Nat → Nat → Nat → Nat → ℝ} (h : Is4 t a b c d f) (e : Nat) :
    ∃ z, sliceT [0] [(e : Int)] [1] t = some z ∧ Is4 z a (min e b) c d f := by
  refine ⟨_, if_pos ⟨rfl, rfl, by simp only [h.shape, List.length_cons, List.length_nil]; decide⟩, ?_, fun i j k l hi hj hk hl => ?_⟩
  · slice_tac h.shape
    exact count0_clamp e b
  · have : (sliceOn [0] [(e : Int)] [1] 0 t).get [i, j, k, l] = t.get [i, j, k, l] := by slice_tac h.shape
    rw [this]
    exact h.get i j k l hi (by omega) hk hl

/-- The first, and the second, of two. -/
theorem slice4_0 {t : T ℝ} {b c d : Nat} {f : Nat → Nat → Nat → Nat → ℝ} (h : Is4 t 2 b c d f) {s : Nat} (hs : s < 2) :
    ∃ z, sliceT [(s : Int)] [(s : Int) + 1] [0] t = some z ∧ Is4 z 1 b c d (fun _ j k l => f s j k l) := by
  have hc := slice_count (s := (s : Int)) (e := (s : Int) + 1) (d := ((2 : Nat) : Int)) (by omega) (by omega)
  have h1 : SliceSpec.count ⟨(s : Int), (s : Int) + 1, 1⟩ ((2 : Nat) : Int) = 1 := by
    rw [hc.2]
    unfold clampPos
    rw [if_neg (by omega)]
    omega
  refine ⟨_, if_pos ⟨rfl, rfl, by simp only [h.shape, List.length_cons, List.length_nil]; decide⟩, ?_, fun i j k l hi hj hk hl => ?_⟩
  · simp only [sliceOn, slice_eq, h.shape]
    simp [List.range_succ, slicePar, Tensor.normAxis, nth]
    exact h1
  · have : (sliceOn [(s : Int)] [(s : Int) + 1] [0] 0 t).get [i, j, k, l] = t.get [s, j, k, l] := by
      simp only [sliceOn, slice_eq, h.shape]
      simp [List.range_succ, slicePar, Tensor.normAxis, nth]
      have e : (SliceSpec.first ⟨(s : Int), (s : Int) + 1, 1⟩ 2 + (i : Int)).toNat = s := by
        have := hc.1
        have h2 : SliceSpec.first ⟨(s : Int), (s : Int) + 1, 1⟩ 2 = s := this
        rw [h2]
        omega
      rw [e]
    rw [this]
    exact h.get s j k l hs hj hk hl

/-! ## `Unsqueeze` -/

theorem unsqueeze3_1 {t : T ℝ} {a b c : Nat} {f : Nat → Nat → Nat → ℝ} (h : Is3 t a b c f) :
    ∃ z, unsqueezeT [1] t = some z ∧ Is4 z a 1 b c (fun i _ k l => f i k l) := by
  refine ⟨_, if_pos ⟨by decide, by simp only [h.shape, List.length_cons, List.length_nil]; decide⟩, ?_, fun i j k l hi hj hk hl => ?_⟩
  · rw [h.shape]
    simp [unsqueeze, h.shape, List.range_succ, keptAxes, nth]
  · rw [h.shape]
    have : (unsqueeze ([a, b, c].length + [1].length) (fun i => [1].contains i) t).get [i, j, k, l] = t.get [i, k, l] := by
      simp [unsqueeze, List.range_succ, keptAxes, nth]
    rw [this]
    exact h.get i k l hi hk hl

/-! ## Element-wise operators -/

/-- A vector and a scalar. -/
theorem zip_10 {β γ δ : Type} (F : β → γ → δ) {x : T β} {y : T γ} {a : Nat} (hx : x.shape = [a]) (hy : y.shape = []) :
    ∃ z, zipT F x y = some z ∧ z.shape = [a] ∧ ∀ c, c < a → z.get [c] = F (x.get [c]) (y.get []) := by
  have hfit : Fits (expandRank (max x.shape.length y.shape.length) x).shape (expandRank (max x.shape.length y.shape.length) y).shape := by
    intro i hi
    have : i = 0 := by simp [expandRank, hx, hy] at hi; omega
    subst this
    simp [expandRank, hx, hy, nth]
  refine ⟨_, if_pos hfit, by simp [hx, hy, expandRank, nth]; omega, fun c hc => ?_⟩
  simp [expandRank, hx, hy, bidx, nth]
  have e : (if a = 1 then 0 else c) = c := by split <;> omega
  rw [e]

/-- A row and a column. -/
theorem zip_22 {β γ δ : Type} (F : β → γ → δ) {x : T β} {y : T γ} {a B : Nat} (hx : x.shape = [1, a]) (hy : y.shape = [B, 1]) :
    ∃ z, zipT F x y = some z ∧ z.shape = [B, a] ∧ ∀ b c, b < B → c < a → z.get [b, c] = F (x.get [0, c]) (y.get [b, 0]) := by
  have hfit : Fits (expandRank (max x.shape.length y.shape.length) x).shape (expandRank (max x.shape.length y.shape.length) y).shape := by
    intro i hi
    have : i = 0 ∨ i = 1 := by simp [expandRank, hx, hy] at hi; omega
    rcases this with rfl | rfl <;> simp [expandRank, hx, hy, nth]
  refine ⟨_, if_pos hfit, ?_, fun b c hb hc => ?_⟩
  · simp [hx, hy, expandRank, nth, List.range_succ]
    omega
  · simp [expandRank, hx, hy, bidx, nth, List.range_succ]
    have e1 : (if a = 1 then 0 else c) = c := by split <;> omega
    have e2 : (if B = 1 then 0 else b) = b := by split <;> omega
    rw [e1, e2]

/-- A column and a vector. -/
theorem zip_21 {β γ δ : Type} (F : β → γ → δ) {x : T β} {y : T γ} {a B : Nat} (hx : x.shape = [B, 1]) (hy : y.shape = [a]) :
    ∃ z, zipT F x y = some z ∧ z.shape = [B, a] ∧ ∀ b c, b < B → c < a → z.get [b, c] = F (x.get [b, 0]) (y.get [c]) := by
  have hfit : Fits (expandRank (max x.shape.length y.shape.length) x).shape (expandRank (max x.shape.length y.shape.length) y).shape := by
    intro i hi
    have : i = 0 ∨ i = 1 := by simp [expandRank, hx, hy] at hi; omega
    rcases this with rfl | rfl <;> simp [expandRank, hx, hy, nth]
  refine ⟨_, if_pos hfit, ?_, fun b c hb hc => ?_⟩
  · simp [hx, hy, expandRank, nth, List.range_succ]
    omega
  · simp [expandRank, hx, hy, bidx, nth, List.range_succ]
    have e1 : (if a = 1 then 0 else c) = c := by split <;> omega
    have e2 : (if B = 1 then 0 else b) = b := by split <;> omega
    rw [e1, e2]

/-- A tensor and one number. -/
theorem zip_one {β γ δ : Type} (F : β → γ → δ) {x : T β} {y : T γ} {s : List Nat} (hx : x.shape = s) (hy : y.shape = [] ∨ y.shape = [1] ∧ s ≠ []) {v : γ} (hv : ∀ i, y.get i = v) :
    ∃ z, zipT F x y = some z ∧ z.shape = s ∧ ∀ i, InB s i → z.get i = F (x.get i) v := by
  have hle : y.shape.length ≤ x.shape.length := by
    rcases hy with h | ⟨h, h'⟩
    · simp [h]
    · rw [h, hx]
      cases s with
      | nil => exact absurd rfl h'
      | cons => simp
  have hmax : max x.shape.length y.shape.length = x.shape.length := Nat.max_eq_left hle
  have hex : expandRank (max x.shape.length y.shape.length) x = x := by
    rw [hmax]
    simp [expandRank]
  have hey : ∀ i, i < x.shape.length → nth (expandRank (max x.shape.length y.shape.length) y).shape i = 1 := by
    rw [hmax]
    intro i hi
    have hrep : (expandRank x.shape.length y).shape = List.replicate x.shape.length 1 := by
      rcases hy with h | ⟨h, h'⟩
      · simp [expandRank, h]
      · simp only [expandRank, h, List.length_singleton]
        have : x.shape.length = x.shape.length - 1 + 1 := by
          rw [h, List.length_singleton] at hle
          omega
        conv_rhs => rw [this, List.replicate_succ']
    rw [hrep]
    simp [nth, hi]
  have hfit : Fits (expandRank (max x.shape.length y.shape.length) x).shape (expandRank (max x.shape.length y.shape.length) y).shape := by
    intro i hi
    rw [hex] at hi
    exact Or.inr (Or.inr (hey i hi))
  refine ⟨_, if_pos hfit, ?_, fun i hi => ?_⟩
  · simp only [hex]
    apply ext_nth
    · rw [List.length_map, List.length_range, hmax, hx]
    intro j hj
    have hj' : j < x.shape.length := by simpa [hmax] using hj
    rw [nth_map_range, if_pos (by rw [hmax]; exact hj'), hey j hj', hx]
    split
    · omega
    · rfl
  · simp only [hex]
    have h1 : bidx x.shape i = i := by
      apply ext_nth
      · simp [bidx, hx, hi.1]
      intro j hj
      have hj' : j < x.shape.length := by simpa [bidx] using hj
      unfold bidx
      rw [nth_map_range, if_pos hj']
      have := hi.2 j (hx ▸ hj')
      rw [← hx] at this
      split
      · omega
      · rfl
    rw [h1]
    congr 1
    exact hv _

/-! ## `MatMul` -/

/-- A matrix for the real and one for the imaginary parts, times a matrix. -/
theorem matmul32 {x y : T ℝ} {a m k n : Nat} {f : Nat → Nat → Nat → ℝ} {g : Nat → Nat → ℝ} (hx : Is3 x a m k f) (hy : Is2 y k n g) :
    ∃ z, matmul x y = some z ∧ Is3 z a m n (fun c i j => ∑ r ∈ Finset.range k, f c i r * g r j) := by
  obtain ⟨z, hz, hs, hg⟩ := zip_10 (fun (f g : Nat → Nat → ℝ) i j => ∑ r ∈ Finset.range k, f i r * g r j)
    (x := ⟨[a], fun b i j => x.get (b ++ [i, j])⟩) (y := ⟨[], fun b i j => y.get (b ++ [i, j])⟩) (a := a) rfl rfl
  refine ⟨⟨[a] ++ [m, n], fun idx => z.get (idx.take 1) (nth idx 1) (nth idx 2)⟩, ?_, rfl, fun c i j hc hi hj => ?_⟩
  · unfold matmul
    simp only [hx.shape, hy.shape]
    rw [if_pos (by simp [nth])]
    have hz' : zipT (fun (f g : Nat → Nat → ℝ) i j => ∑ r ∈ Finset.range (nth [a, m, k] ([a, m, k].length - 1)), f i r * g r j)
      ⟨[a, m, k].take ([a, m, k].length - 2), fun b i j => x.get (b ++ [i, j])⟩ ⟨[k, n].take ([k, n].length - 2), fun b i j => y.get (b ++ [i, j])⟩ = some z := hz
    rw [hz']
    simp only [Option.map_some, hs]
    rfl
  · show z.get [c] i j = _
    rw [hg c hc]
    apply Finset.sum_congr rfl
    intro r hr
    have hr' := Finset.mem_range.1 hr
    show x.get [c, i, r] * y.get [r, j] = _
    rw [hx.get c i r hc hi hr', hy.get r j hr' hj]

/-- Batches. -/
theorem matmul44 {x y : T ℝ} {a B m k n : Nat} {f g : Nat → Nat → Nat → Nat → ℝ} (hx : Is4 x 1 a m k f) (hy : Is4 y B 1 k n g) :
    ∃ z, matmul x y = some z ∧ Is4 z B a m n (fun b c i j => ∑ r ∈ Finset.range k, f 0 c i r * g b 0 r j) := by
  obtain ⟨z, hz, hs, hg⟩ := zip_22 (fun (f g : Nat → Nat → ℝ) i j => ∑ r ∈ Finset.range k, f i r * g r j)
    (x := ⟨[1, a], fun b i j => x.get (b ++ [i, j])⟩) (y := ⟨[B, 1], fun b i j => y.get (b ++ [i, j])⟩) (a := a) (B := B) rfl rfl
  refine ⟨⟨[B, a] ++ [m, n], fun idx => z.get (idx.take 2) (nth idx 2) (nth idx 3)⟩, ?_, rfl, fun b c i j hb hc hi hj => ?_⟩
  · unfold matmul
    simp only [hx.shape, hy.shape]
    rw [if_pos (by simp [nth])]
    have hz' : zipT (fun (f g : Nat → Nat → ℝ) i j => ∑ r ∈ Finset.range (nth [1, a, m, k] ([1, a, m, k].length - 1)), f i r * g r j)
      ⟨[1, a, m, k].take ([1, a, m, k].length - 2), fun b i j => x.get (b ++ [i, j])⟩
      ⟨[B, 1, k, n].take ([B, 1, k, n].length - 2), fun b i j => y.get (b ++ [i, j])⟩ = some z := hz
    rw [hz']
    simp only [Option.map_some, hs]
    rfl
  · show z.get [b, c] i j = _
    rw [hg b c hb hc]
    apply Finset.sum_congr rfl
    intro r hr
    have hr' := Finset.mem_range.1 hr
    show x.get [0, c, i, r] * y.get [b, 0, r, j] = _
    rw [hx.get 0 c i r (by omega) hc hi hr', hy.get b 0 r j hb (by omega) hr' hj]

/-- Operands that do not fit. -/
theorem matmul_none {x y : T ℝ} {a B m k k' n : Nat} {f g : Nat → Nat → Nat → Nat → ℝ} (hx : Is4 x 1 a m k f) (hy : Is4 y B 1 k' n g) (hk : k ≠ k') : matmul x y = none := by
  unfold matmul
  simp only [hx.shape, hy.shape]
  rw [if_neg]
  intro h
  exact hk h.2.2

end Verif.Fourier
