import Verif.Spec.OnnxEval
/-!
# Tensors seen from the last axis

Broadcasting lines axes up at the back. `dimB s k` is the length of axis `k` counted from the back, 1 for axes in front of the first one; `at' x p` is the element of
`x` that a broadcast operator reads when it computes an element whose coordinate on axis `k`, counted from the back, is `p k`.
-/
namespace Verif.Tensor
open Verif.Emit

/-- Length of axis `k` from the back. -/
def dimB (s : List Nat) (k : Nat) : Nat := s.reverse.getD k 1

/-- The element a broadcast operator reads. -/
def at' {α : Type} (x : T α) (p : Nat → Nat) : α :=
  x.get ((List.range x.shape.length).map (fun i => if nth x.shape i = 1 then 0 else p (x.shape.length - 1 - i)))

/-- Shapes that broadcast. -/
def Compat' (s t : List Nat) : Prop := ∀ k, dimB s k = dimB t k ∨ dimB s k = 1 ∨ dimB t k = 1

theorem dimB_of_lt {s : List Nat} {k : Nat} (h : k < s.length) : dimB s k = nth s (s.length - 1 - k) := by
  have h1 : s.length - 1 - k < s.length := by omega
  simp [dimB, nth, List.getD, List.getElem?_reverse h, List.getElem?_eq_getElem h1]

theorem dimB_of_le {s : List Nat} {k : Nat} (h : s.length ≤ k) : dimB s k = 1 := by
  simp [dimB, List.getD, h]

theorem nth_eq_dimB {s : List Nat} {i : Nat} (h : i < s.length) : nth s i = dimB s (s.length - 1 - i) := by
  rw [dimB_of_lt (by omega)]
  congr 1
  omega

theorem shape_ext {s t : List Nat} (hl : s.length = t.length) (h : ∀ k, dimB s k = dimB t k) : s = t := by
  apply ext_nth hl
  intro i hi
  rw [nth_eq_dimB hi, nth_eq_dimB (hl ▸ hi), h, hl]

/-- Tensors of the same shape that broadcast operators read alike are the same. -/
theorem same_of_at {α : Type} {x y : T α} (hs : x.shape = y.shape) (h : ∀ p, at' x p = at' y p) : Same x y := by
  refine ⟨hs, fun i hi => ?_⟩
  have key : ∀ z : T α, z.shape = x.shape → z.get i = at' z (fun k => nth i (x.shape.length - 1 - k)) := by
    intro z hz
    unfold at'
    congr 1
    apply ext_nth (by simp [hz, hi.1])
    intro j hj
    have hj' : j < x.shape.length := hi.1 ▸ hj
    have hlt := hi.2 j hj'
    rw [nth_map_range, hz, if_pos hj']
    split
    · omega
    · congr 1
      omega
  rw [key x rfl, key y hs.symm, h]

/-- The shape of an operand with axes of length 1 in front. -/
theorem expandRank_dim {α : Type} (n : Nat) (x : T α) (hn : x.shape.length ≤ n) {i : Nat} (hi : i < n) :
    nth (expandRank n x).shape i = dimB x.shape (n - 1 - i) := by
  unfold expandRank
  simp only
  by_cases h : i < n - x.shape.length
  · have h1 : i < (List.replicate (n - x.shape.length) 1 ++ x.shape).length := by simp; omega
    rw [nth_eq _ _ h1, List.getElem_append_left (by simpa using h), List.getElem_replicate, dimB_of_le (by omega)]
  · have h1 : i < (List.replicate (n - x.shape.length) 1 ++ x.shape).length := by simp; omega
    rw [nth_eq _ _ h1, List.getElem_append_right (by simpa using h), dimB_of_lt (by omega), nth_eq _ _ (by omega)]
    congr 1
    simp only [List.length_replicate]
    omega

theorem expandRank_len {α : Type} (n : Nat) (x : T α) (hn : x.shape.length ≤ n) : (expandRank n x).shape.length = n := by
  simp [expandRank]
  omega

/-- What a broadcast operator reads of an operand. -/
theorem expandRank_read {α : Type} (n : Nat) (x : T α) (hn : x.shape.length ≤ n) (q : Nat → Nat) (idx : List Nat)
    (h : ∀ k, k < n → dimB x.shape k ≠ 1 → nth idx (n - 1 - k) = q k) :
    (expandRank n x).get (bidx (expandRank n x).shape idx) = at' x q := by
  have hlen := expandRank_len n x hn
  show x.get ((bidx (expandRank n x).shape idx).drop (n - x.shape.length)) = _
  unfold at'
  congr 1
  apply ext_nth
  · simp [bidx, hlen]
    omega
  intro j hj
  have hj' : j < x.shape.length := by simp [bidx, hlen] at hj; omega
  have e1 : nth ((bidx (expandRank n x).shape idx).drop (n - x.shape.length)) j = nth (bidx (expandRank n x).shape idx) (n - x.shape.length + j) := by
    simp [nth, List.getD]
  rw [e1, nth_map_range, if_pos hj']
  unfold bidx
  rw [nth_map_range, hlen, if_pos (by omega), expandRank_dim n x hn (by omega), nth_eq_dimB hj']
  have e2 : n - 1 - (n - x.shape.length + j) = x.shape.length - 1 - j := by omega
  rw [e2]
  split
  · rfl
  · rename_i hne
    rw [← h _ (by omega) hne]
    congr 1
    omega

/-- Result of a broadcast operator, seen from the last axis. -/
theorem zipT_view {β γ δ : Type} {f : β → γ → δ} {x : T β} {y : T γ} {z : T δ} (h : zipT f x y = some z) :
    z.shape.length = max x.shape.length y.shape.length ∧ (∀ k, dimB z.shape k = if dimB x.shape k = 1 then dimB y.shape k else dimB x.shape k) ∧
      Compat' x.shape y.shape ∧ ∀ p, at' z p = f (at' x p) (at' y p) := by
  unfold zipT at h
  simp only at h
  split at h
  · rename_i hf
    simp only [Option.some.injEq] at h
    have hx : x.shape.length ≤ max x.shape.length y.shape.length := le_max_left _ _
    have hy : y.shape.length ≤ max x.shape.length y.shape.length := le_max_right _ _
    generalize max x.shape.length y.shape.length = n at *
    have hc : Compat' x.shape y.shape := by
      intro k
      by_cases hk : k < n
      · have := hf (n - 1 - k) (by rw [expandRank_len n x hx]; omega)
        rw [expandRank_dim n x hx (by omega), expandRank_dim n y hy (by omega)] at this
        have e : n - 1 - (n - 1 - k) = k := by omega
        rw [e] at this
        exact this
      · exact Or.inr (Or.inl (dimB_of_le (by omega)))
    have hl : z.shape.length = n := by rw [← h]; simp
    have hd : ∀ k, dimB z.shape k = if dimB x.shape k = 1 then dimB y.shape k else dimB x.shape k := by
      intro k
      by_cases hk : k < n
      · rw [dimB_of_lt (by omega), hl, ← h]
        simp only
        rw [nth_map_range, if_pos (by omega), expandRank_dim n x hx (by omega), expandRank_dim n y hy (by omega)]
        have e : n - 1 - (n - 1 - k) = k := by omega
        rw [e]
      · rw [dimB_of_le (by omega), dimB_of_le (s := x.shape) (by omega), dimB_of_le (s := y.shape) (by omega)]
        simp
    refine ⟨hl, hd, hc, fun p => ?_⟩
    have hz : at' z p = f ((expandRank n x).get (bidx (expandRank n x).shape ((List.range z.shape.length).map (fun i => if nth z.shape i = 1 then 0 else p (z.shape.length - 1 - i)))))
        ((expandRank n y).get (bidx (expandRank n y).shape ((List.range z.shape.length).map (fun i => if nth z.shape i = 1 then 0 else p (z.shape.length - 1 - i))))) := by
      unfold at'
      rw [← h]
    rw [hz]
    have hnum : ∀ k, k < n → dimB z.shape k ≠ 1 →
        nth ((List.range z.shape.length).map (fun i => if nth z.shape i = 1 then 0 else p (z.shape.length - 1 - i))) (n - 1 - k) = p k := by
      intro k hk hne
      have e : n - 1 - (n - 1 - k) = k := by omega
      rw [nth_map_range, hl, if_pos (by omega), nth_eq_dimB (by omega), hl, e, if_neg hne]
    rw [expandRank_read n x hx p _ (fun k hk hne => hnum k hk (by rw [hd, if_neg hne]; exact hne)),
      expandRank_read n y hy p _ (fun k hk hne => hnum k hk (by
        rw [hd]
        split
        · exact hne
        · rename_i hxe
          exact hxe))]
  · cases h

/-- Shapes that broadcast have a result. -/
theorem zipT_some {β γ δ : Type} (f : β → γ → δ) {x : T β} {y : T γ} (h : Compat' x.shape y.shape) : ∃ z, zipT f x y = some z := by
  unfold zipT
  simp only
  have hx : x.shape.length ≤ max x.shape.length y.shape.length := le_max_left _ _
  have hy : y.shape.length ≤ max x.shape.length y.shape.length := le_max_right _ _
  generalize max x.shape.length y.shape.length = n at *
  rw [if_pos]
  · exact ⟨_, rfl⟩
  · intro i hi
    rw [expandRank_len n x hx] at hi
    rw [expandRank_dim n x hx hi, expandRank_dim n y hy hi]
    exact h _

/-- Two results with the same dimensions that are read alike. -/
theorem same_of_view {α : Type} {x y : T α} (hl : x.shape.length = y.shape.length) (hd : ∀ k, dimB x.shape k = dimB y.shape k)
    (h : ∀ p, at' x p = at' y p) : Same x y := same_of_at (shape_ext hl hd) h

end Verif.Tensor
