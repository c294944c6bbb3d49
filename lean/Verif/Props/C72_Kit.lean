import Verif.Model.Softmax
import Verif.Props.C19_Push
import Verif.Props.C71_Kit
/-!
# C72: groups along one axis, and matrices
-/
namespace Verif.Softmax
open Verif.Tensor Verif.Emit Verif.Einsum Verif.Fourier

variable {α : Type}

theorem nth_setAt (i : List Nat) (a k j : Nat) (hj : j < i.length) : nth (setAt i a k) j = if j = a then k else nth i j := by
  unfold nth setAt
  rw [List.getD_eq_getElem?_getD, List.getElem?_set, List.getD_eq_getElem?_getD]
  by_cases h : a = j
  · subst h
    simp [hj]
  · rw [if_neg h, if_neg (fun e => h e.symm)]

/-- The elements that a sum over one axis takes. -/
theorem group_one {x : T α} {a : Nat} (ha : a < x.shape.length) {i : List Nat} (hl : i.length = x.shape.length)
    (hi : ∀ k, k < x.shape.length → k ≠ a → nth i k < nth x.shape k) {ax : Nat → Bool} (hax : ∀ k, k < x.shape.length → (ax k = true ↔ k = a)) :
    group ax x i = (((List.range (nth x.shape a)).map (fun k => x.get (setAt i a k)) : List α) : Multiset α) := by
  unfold group
  rw [Multiset.map_coe, Multiset.coe_eq_coe]
  have hm : (List.range (nth x.shape a)).map (fun k => x.get (setAt i a k)) = ((List.range (nth x.shape a)).map (setAt i a)).map x.get := by
    rw [List.map_map]
    rfl
  rw [hm]
  apply List.Perm.map
  rw [List.perm_ext_iff_of_nodup ((TransposeOpt.nodup_allIdx _).filter _)]
  · intro p
    rw [List.mem_filter, TransposeOpt.mem_allIdx, List.mem_map]
    constructor
    · rintro ⟨⟨h1, h2⟩, h3⟩
      rw [List.all_eq_true] at h3
      refine ⟨nth p a, List.mem_range.2 (h2 a ha), ?_⟩
      apply ext_nth
      · rw [h1, ← hl]
        simp [setAt]
      intro k hk
      have hk' : k < x.shape.length := by simpa [setAt, hl] using hk
      rw [nth_setAt _ _ _ _ (hl ▸ hk')]
      split
      · rename_i e
        rw [e]
      · rename_i e
        have h4 := h3 k (List.mem_range.2 hk')
        rw [Bool.or_eq_true, decide_eq_true_eq] at h4
        rcases h4 with h | h
        · exact absurd ((hax k hk').1 h) e
        · exact h.symm
    · rintro ⟨k, hk, rfl⟩
      have hk := List.mem_range.1 hk
      refine ⟨⟨by simp [setAt, hl], fun j hj => ?_⟩, ?_⟩
      · rw [nth_setAt _ _ _ _ (hl ▸ hj)]
        split
        · rename_i e
          rw [e]
          exact hk
        · rename_i e
          exact hi j hj e
      · rw [List.all_eq_true]
        intro j hj
        have hj := List.mem_range.1 hj
        rw [Bool.or_eq_true, decide_eq_true_eq, nth_setAt _ _ _ _ (hl ▸ hj)]
        by_cases e : j = a
        · exact Or.inl ((hax j hj).2 e)
        · exact Or.inr (if_neg e)
  · refine List.Nodup.map_on ?_ List.nodup_range
    intro k _ m _ e
    have : nth (setAt i a k) a = nth (setAt i a m) a := by rw [e]
    rw [nth_setAt _ _ _ _ (hl ▸ ha), nth_setAt _ _ _ _ (hl ▸ ha), if_pos rfl, if_pos rfl] at this
    exact this

theorem setAt_pair (i j k : Nat) : setAt [i, j] 1 k = [i, k] := rfl

/-- A row of a matrix. -/
theorem group_row {x : T α} {n c : Nat} {f : Nat → Nat → α} (h : Is2 x n c f) {i j : Nat} (hi : i < n) {ax : Nat → Bool} (h0 : ax 0 = false) (h1 : ax 1 = true) :
    group ax x [i, j] = (((List.range c).map (f i) : List α) : Multiset α) := by
  have e := group_one (x := x) (a := 1) (i := [i, j]) (ax := ax) (by rw [h.shape]; simp) (by rw [h.shape]; rfl) (by
    rw [h.shape]
    intro k hk hne
    simp at hk
    have : k = 0 := by omega
    subst this
    exact hi) (by
    rw [h.shape]
    intro k hk
    simp at hk
    have : k = 0 ∨ k = 1 := by omega
    rcases this with rfl | rfl
    · simp [h0]
    · simp [h1])
  rw [e, h.shape]
  congr 1
  apply List.map_congr_left
  intro k hk
  rw [setAt_pair]
  exact h.get i k hi (List.mem_range.1 hk)

theorem normAxis_cases (a : Int) (h : a = 1 ∨ a = -1) : normAxis 2 a = 1 := by
  rcases h with rfl | rfl <;> rfl

/-- A reduction of the rows that keeps the axis. -/
theorem reduce_keep {v : Nat} {neg : Bool} {F : Multiset ℝ → ℝ} {x : T ℝ} {n c : Nat} {f : Nat → Nat → ℝ} (h : Is2 x n c f) {a : Int} (ha : a = 1 ∨ a = -1)
    (hv : a = 1 ∨ 11 ≤ v ∨ neg = true) : ∃ z, reduceOne v neg F true a x = some z ∧ Is2 z n 1 (fun i _ => F (((List.range c).map (f i) : List ℝ) : Multiset ℝ)) := by
  have hf : AxisFits v neg x.shape.length a := by
    rw [h.shape]
    refine ⟨by simp; omega, by simp; omega, fun h1 h2 => ?_⟩
    rcases hv with h3 | h3 | h3
    · omega
    · omega
    · rw [h3] at h2
      cases h2
  refine ⟨_, if_pos hf, ?_, fun i j hi hj => ?_⟩
  · simp only [if_true]
    rw [h.shape]
    show (reduceKeep F (fun i => decide (i = normAxis 2 a)) x).shape = _
    rw [normAxis_cases a ha]
    simp [reduceKeep, h.shape, List.range_succ, nth]
  · simp only [if_true]
    rw [h.shape]
    show F (group (fun i => decide (i = normAxis 2 a)) x [i, j]) = _
    rw [normAxis_cases a ha, group_row h hi (by decide) (by decide)]

/-- A reduction of the rows that drops the axis. -/
theorem reduce_drop {v : Nat} {neg : Bool} {F : Multiset ℝ → ℝ} {x : T ℝ} {n c : Nat} {f : Nat → Nat → ℝ} (h : Is2 x n c f)
    (hv : 11 ≤ v ∨ neg = true) : ∃ z, reduceOne v neg F false (-1) x = some z ∧ Is1 z n (fun i => F (((List.range c).map (f i) : List ℝ) : Multiset ℝ)) := by
  have hf : AxisFits v neg x.shape.length (-1) := by
    rw [h.shape]
    refine ⟨by simp, by simp, fun h1 h2 => ?_⟩
    rcases hv with h3 | h3
    · omega
    · rw [h3] at h2
      cases h2
  refine ⟨_, if_pos hf, ?_, fun i hi => ?_⟩
  · rw [if_neg (by decide), h.shape]
    show (reduceDrop F (fun i => decide (i = normAxis 2 (-1))) x).shape = _
    rw [normAxis_cases _ (Or.inr rfl)]
    simp [reduceDrop, squeeze, keptAxes, reduceKeep, h.shape, List.range_succ, nth]
  · rw [if_neg (by decide), h.shape]
    show (reduceDrop F (fun i => decide (i = normAxis 2 (-1))) x).get [i] = _
    rw [normAxis_cases _ (Or.inr rfl)]
    have : (reduceDrop F (fun i => decide (i = 1)) x).get [i] = F (group (fun i => decide (i = 1)) x [i, 0]) := by
      simp [reduceDrop, squeeze, keptAxes, reduceKeep, h.shape, List.range_succ, nth]
    rw [this, group_row h hi (by decide) (by decide)]

/-- `LogSoftmax` with the default axis. -/
theorem logsoftmax2 {v : Nat} {neg : Bool} {x : T ℝ} {n c : Nat} {f : Nat → Nat → ℝ} (h : Is2 x n c f) :
    ∃ z, onnxLogSoftmax v neg none x = some z ∧ Is2 z n c (fun i j => f i j - Real.log ((List.range c).map (fun k => Real.exp (f i k))).sum) := by
  have key : ∀ ax : Nat → Bool, ax 0 = false → ax 1 = true →
      Is2 (groupMap (fun m y => y - Real.log (m.map Real.exp).sum) ax x) n c (fun i j => f i j - Real.log ((List.range c).map (fun k => Real.exp (f i k))).sum) := by
    intro ax h0 h1
    refine ⟨h.shape, fun i j hi hj => ?_⟩
    show x.get [i, j] - Real.log ((group ax x [i, j]).map Real.exp).sum = _
    rw [group_row h hi h0 h1, h.get i j hi hj, Multiset.map_coe, Multiset.sum_coe, List.map_map]
    rfl
  unfold onnxLogSoftmax softmaxAxes
  rw [h.shape]
  by_cases hv : v < 13
  · have hf : AxisFits v neg [n, c].length ((none : Option Int).getD (if v < 13 then 1 else -1)) := by
      rw [if_pos hv]
      exact ⟨by simp, by simp, fun _ _ => by simp⟩
    refine ⟨_, congrArg (Option.map _) (if_pos hf), key _ ?_ ?_⟩ <;> simp [hv, normAxis]
  · have hf : AxisFits v neg [n, c].length ((none : Option Int).getD (if v < 13 then 1 else -1)) := by
      rw [if_neg hv]
      exact ⟨by simp, by simp, fun h1 => absurd h1 (by omega)⟩
    refine ⟨_, congrArg (Option.map _) (if_pos hf), key _ ?_ ?_⟩ <;> simp [hv, normAxis]

/-- Two matrices that broadcast. -/
theorem zip2 {β γ δ : Type} (F : β → γ → δ) {x : T β} {y : T γ} {a b a' b' : Nat} {f : Nat → Nat → β} {g : Nat → Nat → γ} (hx : Is2 x a b f) (hy : Is2 y a' b' g)
    (ha : a = a' ∨ a = 1 ∨ a' = 1) (hb : b = b' ∨ b = 1 ∨ b' = 1) :
    ∃ z, zipT F x y = some z ∧ Is2 z (common a a') (common b b') (fun i j => F (f (src a i) (src b j)) (g (src a' i) (src b' j))) := by
  have hfit : Fits (expandRank (max x.shape.length y.shape.length) x).shape (expandRank (max x.shape.length y.shape.length) y).shape := by
    intro i hi
    have : i = 0 ∨ i = 1 := by simp [expandRank, hx.shape, hy.shape] at hi; omega
    rcases this with rfl | rfl
    · simpa [expandRank, hx.shape, hy.shape, nth] using ha
    · simpa [expandRank, hx.shape, hy.shape, nth] using hb
  refine ⟨_, if_pos hfit, ?_, fun i j hi hj => ?_⟩
  · simp [hx.shape, hy.shape, expandRank, nth, List.range_succ, common]
  · simp [expandRank, hx.shape, hy.shape, bidx, nth, List.range_succ]
    unfold common at hi hj
    have e1 : x.get [if a = 1 then 0 else i, if b = 1 then 0 else j] = f (src a i) (src b j) := by
      apply hx.get
      · split <;> rename_i h <;> simp only [h, if_true, if_false] at hi <;> omega
      · split <;> rename_i h <;> simp only [h, if_true, if_false] at hj <;> omega
    have e2 : y.get [if a' = 1 then 0 else i, if b' = 1 then 0 else j] = g (src a' i) (src b' j) := by
      apply hy.get
      · split
        · omega
        · split at hi <;> omega
      · split
        · omega
        · split at hj <;> omega
    rw [e1, e2]

/-- A number and a matrix. -/
theorem neg2 {y : T ℝ} {a b : Nat} {g : Nat → Nat → ℝ} (hy : Is2 y a b g) : ∃ z, zipT (· * ·) minusOne y = some z ∧ Is2 z a b (fun i j => -1 * g i j) := by
  have hfit : Fits (expandRank (max minusOne.shape.length y.shape.length) minusOne).shape (expandRank (max minusOne.shape.length y.shape.length) y).shape := by
    intro i hi
    have : i = 0 ∨ i = 1 := by simp [expandRank, minusOne, hy.shape] at hi; omega
    rcases this with rfl | rfl <;> simp [expandRank, minusOne, hy.shape, nth, List.replicate]
  refine ⟨_, if_pos hfit, ?_, fun i j hi hj => ?_⟩
  · simp [minusOne, hy.shape, expandRank, nth, List.range_succ, List.replicate]
  · simp [expandRank, minusOne, hy.shape, bidx, nth, List.range_succ]
    have e1 : (if a = 1 then 0 else i) = i := by split <;> omega
    have e2 : (if b = 1 then 0 else j) = j := by split <;> omega
    rw [e1, e2, hy.get i j hi hj]

/-- `Squeeze` of a column. -/
theorem squeeze_col {y : T ℝ} {a : Nat} {g : Nat → Nat → ℝ} (hy : Is2 y a 1 g) : ∃ z, squeezeT [1] y = some z ∧ Is1 z a (fun i => g i 0) := by
  have hc : [1].Nodup ∧ ∀ a ∈ [1], a < y.shape.length ∧ nth y.shape a = 1 := ⟨by decide, by simp [hy.shape, nth]⟩
  refine ⟨_, if_pos hc, ?_, fun i hi => ?_⟩
  · simp [squeeze, keptAxes, hy.shape, List.range_succ, nth]
  · have : (squeeze (fun i => [1].contains i) y).get [i] = y.get [i, 0] := by simp [squeeze, keptAxes, hy.shape, List.range_succ, nth]
    rw [this]
    exact hy.get i 0 hi (by omega)

/-- Two vectors of the same length. -/
theorem zip1 {β γ δ : Type} (F : β → γ → δ) {x : T β} {y : T γ} {a : Nat} {f : Nat → β} {g : Nat → γ} (hx : Is1 x a f) (hy : Is1 y a g) :
    ∃ z, zipT F x y = some z ∧ Is1 z a (fun i => F (f i) (g i)) := by
  have hfit : Fits (expandRank (max x.shape.length y.shape.length) x).shape (expandRank (max x.shape.length y.shape.length) y).shape := by
    intro i hi
    have : i = 0 := by simp [expandRank, hx.shape, hy.shape] at hi; omega
    subst this
    simp [expandRank, hx.shape, hy.shape, nth]
  refine ⟨_, if_pos hfit, by simp [hx.shape, hy.shape, expandRank, nth], fun i hi => ?_⟩
  simp [expandRank, hx.shape, hy.shape, bidx, nth]
  have e : (if a = 1 then 0 else i) = i := by split <;> omega
  rw [e, hx.get i hi, hy.get i hi]

theorem map2 {β γ : Type} {x : T β} {a b : Nat} {f : Nat → Nat → β} (h : Is2 x a b f) (F : β → γ) : Is2 (Scan.mapT F x) a b (fun i j => F (f i j)) :=
  ⟨h.shape, fun i j hi hj => congrArg F (h.get i j hi hj)⟩

theorem map1 {β γ : Type} {x : T β} {a : Nat} {f : Nat → β} (h : Is1 x a f) (F : β → γ) : Is1 (Scan.mapT F x) a (fun i => F (f i)) :=
  ⟨h.shape, fun i hi => congrArg F (h.get i hi)⟩

end Verif.Softmax
