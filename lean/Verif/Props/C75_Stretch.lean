import Verif.Props.C75_Lrn
import Verif.Props.C66_Broadcast
/-!
# C75: operands whose axes of length 1 are stretched
-/
namespace Verif.Channels
open Verif.Tensor Verif.Conv Verif.Einsum Verif.Emit

/-- Where an operand of the same rank is read. -/
def readAt (s : List Nat) (i : List Nat) : List Nat := (List.range s.length).map (fun k => if nth s k = 1 then 0 else nth i k)

theorem zip_stretch {β γ δ : Type} (F : β → γ → δ) {x : T β} {y : T γ} (hl : y.shape.length = x.shape.length)
    (hd : ∀ k, k < x.shape.length → nth y.shape k = 1 ∨ nth y.shape k = nth x.shape k) :
    ∃ z, zipT F x y = some z ∧ z.shape = x.shape ∧ ∀ i, InB x.shape i → z.get i = F (x.get i) (y.get (readAt y.shape i)) := by
  have hB : ∀ k, dimB y.shape k = 1 ∨ dimB y.shape k = dimB x.shape k := by
    intro k
    by_cases h : k < x.shape.length
    · rw [dimB_of_lt h, dimB_of_lt (hl ▸ h), hl]
      exact hd _ (by omega)
    · exact Or.inl (dimB_of_le (by omega))
  obtain ⟨z, hz⟩ := zipT_some F (x := x) (y := y) (fun k => by
    rcases hB k with h | h
    · exact Or.inr (Or.inr h)
    · exact Or.inl h.symm)
  obtain ⟨hlz, hdz, -, hat⟩ := zipT_view hz
  have hs : z.shape = x.shape := by
    apply shape_ext
    · rw [hlz, hl]; simp
    · intro k
      rw [hdz]
      split
      · rename_i h1
        rcases hB k with h | h
        · rw [h, h1]
        · exact h
      · rfl
  refine ⟨z, hz, hs, fun i hi => ?_⟩
  have key : ∀ {β : Type} (w : T β), w.shape = x.shape → w.get i = at' w (fun k => nth i (x.shape.length - 1 - k)) := by
    intro β w hw
    unfold at'
    congr 1
    apply ext_nth (by simp [hw, hi.1])
    intro j hj
    have hj' : j < x.shape.length := hi.1 ▸ hj
    have hlt := hi.2 j hj'
    rw [nth_map_range, hw, if_pos hj']
    split
    · omega
    · congr 1
      omega
  rw [key z hs, key x rfl, hat]
  congr 1
  unfold at' readAt
  congr 1
  apply List.map_congr_left
  intro k hk
  have hk := List.mem_range.1 hk
  split
  · rfl
  · show nth i (x.shape.length - 1 - (y.shape.length - 1 - k)) = nth i k
    congr 1
    omega

/-- A tensor and a scalar. -/
theorem zip_scalar {β γ δ : Type} (F : β → γ → δ) {x : T β} {y : T γ} (hy : y.shape = []) :
    ∃ z, zipT F x y = some z ∧ z.shape = x.shape ∧ ∀ i, InB x.shape i → z.get i = F (x.get i) (y.get []) := by
  have hB : ∀ k, dimB y.shape k = 1 := fun k => dimB_of_le (by rw [hy]; exact Nat.zero_le _)
  obtain ⟨z, hz⟩ := zipT_some F (x := x) (y := y) (fun k => Or.inr (Or.inr (hB k)))
  obtain ⟨hlz, hdz, -, hat⟩ := zipT_view hz
  have hs : z.shape = x.shape := by
    apply shape_ext
    · rw [hlz, hy]; simp
    · intro k
      rw [hdz, hB]
      split
      · rename_i h1
        rw [h1]
      · rfl
  refine ⟨z, hz, hs, fun i hi => ?_⟩
  have key : ∀ {β : Type} (w : T β), w.shape = x.shape → w.get i = at' w (fun k => nth i (x.shape.length - 1 - k)) := by
    intro β w hw
    unfold at'
    congr 1
    apply ext_nth (by simp [hw, hi.1])
    intro j hj
    have hj' : j < x.shape.length := hi.1 ▸ hj
    have hlt := hi.2 j hj'
    rw [nth_map_range, hw, if_pos hj']
    split
    · omega
    · congr 1
      omega
  rw [key z hs, key x rfl, hat]
  congr 1
  unfold at'
  rw [hy]
  rfl

theorem group_congr {α : Type} {x : T α} {ax : Nat → Bool} {i j : List Nat} (h : ∀ k, k < x.shape.length → ax k = true ∨ nth i k = nth j k) : group ax x i = group ax x j := by
  unfold group
  have e : ∀ p, ((List.range x.shape.length).all fun k => ax k || decide (nth p k = nth i k)) = ((List.range x.shape.length).all fun k => ax k || decide (nth p k = nth j k)) := ?_
  · simp only [e]
  intro p
  apply Bool.eq_iff_iff.2
  rw [List.all_eq_true, List.all_eq_true]
  apply forall_congr'
  intro k
  apply imp_congr_right
  intro hk
  rcases h k (List.mem_range.1 hk) with h | h
  · simp [h]
  · rw [h]

/-- The result of a reduction that keeps its axes fits the operand, and is read where the reduction is that of the element. -/
theorem reduceKeep_fits {α β : Type} (f : Multiset α → β) (ax : Nat → Bool) (x : T α) : (reduceKeep f ax x).shape.length = x.shape.length ∧
    (∀ k, k < x.shape.length → nth (reduceKeep f ax x).shape k = 1 ∨ nth (reduceKeep f ax x).shape k = nth x.shape k) ∧
    ∀ i, InB x.shape i → (reduceKeep f ax x).get (readAt (reduceKeep f ax x).shape i) = f (group ax x i) := by
  have hn : ∀ k, k < x.shape.length → nth (reduceKeep f ax x).shape k = if ax k then 1 else nth x.shape k := by
    intro k hk
    show nth ((List.range x.shape.length).map _) k = _
    rw [nth_map_range, if_pos hk]
  have hl : (reduceKeep f ax x).shape.length = x.shape.length := by
    show ((List.range x.shape.length).map _).length = _
    simp
  refine ⟨hl, fun k hk => ?_, fun i hi => ?_⟩
  · rw [hn k hk]
    split
    · exact Or.inl rfl
    · exact Or.inr rfl
  · show f (group ax x _) = _
    congr 1
    apply group_congr
    intro k hk
    by_cases h : ax k = true
    · exact Or.inl h
    · right
      unfold readAt
      rw [hl, nth_map_range, if_pos hk]
      split
      · rename_i h1
        rw [hn k hk, if_neg h] at h1
        have := hi.2 k hk
        omega
      · rfl

/-- **C75.** The converted `AdjustContrastv2` is TensorFlow's, for images of all ranks from 3 on, where image and factor have the same type. -/
theorem contrast_sound {ty : String} {r : Option Nat} {x factor : T ℝ} (hr : 3 ≤ x.shape.length) (hrec : r = some x.shape.length) (hf : factor.shape = []) :
    ∃ z, adjustContrast ty ty r x factor = .ok (some z) ∧ Same z (tfContrast (factor.get []) x) := by
  subst hrec
  obtain ⟨l1, d1, g1⟩ := reduceKeep_fits mean (fun i => (contrastAxes x.shape.length).contains i) x
  generalize hμ : reduceKeep mean (fun i => (contrastAxes x.shape.length).contains i) x = μ at l1 d1 g1
  obtain ⟨d, hd, hds, hdg⟩ := zip_stretch (fun a b : ℝ => a - b) (x := x) (y := μ) l1 d1
  obtain ⟨s, hs, hss, hsg⟩ := zip_scalar (fun a b : ℝ => a * b) (x := d) (y := factor) hf
  obtain ⟨z, hz, hzs, hzg⟩ := zip_stretch (fun a b : ℝ => a + b) (x := s) (y := μ) (by rw [l1, hss, hds]) (by rw [hss, hds]; exact d1)
  refine ⟨z, ?_, ?_, ?_⟩
  · unfold adjustContrast
    rw [if_neg (fun h => h rfl)]
    dsimp only
    rw [hμ, hd, Option.bind_some, hs, Option.bind_some, hz]
  · rw [hzs, hss, hds]
    rfl
  · intro i hi
    rw [hzs, hss, hds] at hi
    rw [hzg i (by rw [hss, hds]; exact hi), hsg i (by rw [hds]; exact hi), hdg i hi, g1 i hi, mean_two hr hi.1 (fun k hk _ _ => hi.2 k hk)]
    rfl

end Verif.Channels
