import Verif.Model.ScanOps
import Verif.Props.C66_Broadcast
import Mathlib.Algebra.BigOperators.Intervals
/-!
# C68: cumulative products
-/
namespace Verif.Scan
open Verif.Tensor Verif.Emit

/-! ## Tensors seen along one axis -/

variable {α : Type}

theorem setAt_length (i : List Nat) (a k : Nat) : (setAt i a k).length = i.length := by simp [setAt]

theorem nth_setAt (i : List Nat) (a k j : Nat) (ha : a < i.length) : nth (setAt i a k) j = if j = a then k else nth i j := by
  unfold nth setAt
  rw [List.getD_eq_getElem?_getD, List.getD_eq_getElem?_getD, List.getElem?_set]
  by_cases h : j = a
  · subst h
    simp [ha]
  · simp [h, Ne.symm h]

theorem setAt_setAt (i : List Nat) (a k l : Nat) : setAt (setAt i a k) a l = setAt i a l := by simp [setAt]

theorem setAt_self (i : List Nat) (a : Nat) : setAt i a (nth i a) = i := by
  unfold setAt nth
  apply List.ext_getElem? 
  intro j
  rw [List.getElem?_set]
  by_cases h : a = j
  · subst h
    simp only [if_true]
    by_cases hl : a < i.length
    · simp [hl]
    · simp [hl]
  · simp [h]

/-- `z` has axis `a` of length `d`, is like `x` otherwise, and the line of `z` through an index is made by `g` of the line of `x`. -/
def Lines (x : T α) (a : Nat) (z : T α) (d : Nat) (g : (Nat → α) → Nat → α) : Prop :=
  z.shape = setAt x.shape a d ∧ ∀ i, InB z.shape i → z.get i = g (fun k => x.get (setAt i a k)) (nth i a)

theorem lines_self (x : T α) (a : Nat) : Lines x a x (nth x.shape a) (fun v j => v j) := by
  refine ⟨(setAt_self _ _).symm, fun i _ => ?_⟩
  show x.get i = x.get (setAt i a (nth i a))
  rw [setAt_self]

/-- An operator that leaves all axes but one alone. -/
theorem lines_axisOp {P : Type} (R : AxisRule P) (fill : α) (par : Nat → P) {x z : T α} {a d : Nat} {g : (Nat → α) → Nat → α} (ha : a < x.shape.length)
    (h : Lines x a z d g) (hid : ∀ i, i < z.shape.length → i ≠ a → R.outDim (par i) (nth z.shape i) = nth z.shape i ∧ ∀ o, o < nth z.shape i → R.src (par i) (nth z.shape i) o = some o)
    (hsrc : ∀ o, o < R.outDim (par a) d → ∀ k, R.src (par a) d o = some k → k < d) :
    Lines x a (axisOp R fill par z) (R.outDim (par a) d) (fun v j => match R.src (par a) d j with | some k => g v k | none => fill) := by
  have hzl : z.shape.length = x.shape.length := by rw [h.1, setAt_length]
  have hd : nth z.shape a = d := by rw [h.1, nth_setAt _ _ _ _ ha, if_pos rfl]
  have hshape : (axisOp R fill par z).shape = setAt x.shape a (R.outDim (par a) d) := by
    apply ext_nth (by simp [axisOp, setAt_length, hzl])
    intro i hi
    have hi' : i < z.shape.length := by simpa [axisOp] using hi
    show nth ((List.range z.shape.length).map _) i = _
    rw [nth_map_range, if_pos hi', nth_setAt _ _ _ _ ha]
    by_cases e : i = a
    · subst e
      rw [if_pos rfl, hd]
    · rw [if_neg e, (hid i hi' e).1, h.1, nth_setAt _ _ _ _ ha, if_neg e]
  refine ⟨hshape, fun i hi => ?_⟩
  rw [hshape] at hi
  have hil : i.length = x.shape.length := by rw [hi.1, setAt_length]
  have hother : ∀ j, j < z.shape.length → j ≠ a → R.src (par j) (nth z.shape j) (nth i j) = some (nth i j) := by
    intro j hj e
    apply (hid j hj e).2
    have := hi.2 j (by rw [setAt_length, ← hzl]; exact hj)
    rw [nth_setAt _ _ _ _ ha, if_neg e] at this
    rw [h.1, nth_setAt _ _ _ _ ha, if_neg e]
    exact this
  have hia : nth i a < R.outDim (par a) d := by
    have := hi.2 a (by rw [setAt_length]; exact ha)
    rwa [nth_setAt _ _ _ _ ha, if_pos rfl] at this
  show (if ∀ j, j < z.shape.length → (R.src (par j) (nth z.shape j) (nth i j)).isSome then _ else fill) = _
  cases hs : R.src (par a) d (nth i a) with
  | none =>
    have hn : ¬ ∀ j, j < z.shape.length → (R.src (par j) (nth z.shape j) (nth i j)).isSome := by
      intro hall
      have := hall a (hzl ▸ ha)
      rw [hd, hs] at this
      cases this
    rw [if_neg hn]
    simp only [hs]
  | some k =>
    have hy : ∀ j, j < z.shape.length → (R.src (par j) (nth z.shape j) (nth i j)).isSome := by
      intro j hj
      by_cases e : j = a
      · subst e
        rw [hd, hs]
        rfl
      · rw [hother j hj e]
        rfl
    rw [if_pos hy]
    · have hidx : (List.range z.shape.length).map (fun j => (R.src (par j) (nth z.shape j) (nth i j)).getD 0) = setAt i a k := by
        apply ext_nth (by simp [setAt_length, hil, hzl])
        intro j hj
        have hj' : j < z.shape.length := by simpa using hj
        rw [nth_map_range, if_pos hj', nth_setAt _ _ _ _ (hil ▸ ha)]
        by_cases e : j = a
        · subst e
          rw [if_pos rfl, hd, hs]
          rfl
        · rw [if_neg e, hother j hj' e]
          rfl
      rw [hidx, h.2]
      · simp only [setAt_setAt, nth_setAt _ _ _ _ (show a < i.length from hil ▸ ha), if_pos, hs]
      · refine ⟨by rw [setAt_length, hil, hzl], fun j hj => ?_⟩
        rw [nth_setAt _ _ _ _ (hil ▸ ha), h.1, nth_setAt _ _ _ _ ha]
        by_cases e : j = a
        · rw [if_pos e, if_pos e]
          exact hsrc _ hia _ hs
        · rw [if_neg e, if_neg e]
          have := hi.2 j (by rw [setAt_length, ← hzl]; exact hj)
          rwa [nth_setAt _ _ _ _ ha, if_neg e] at this

/-- `Slice` along one axis. -/
theorem lines_slice (fill : α) {x z : T α} {a d : Nat} {g : (Nat → α) → Nat → α} (ha : a < x.shape.length) (h : Lines x a z d g) (s e : Int)
    (first count : Nat) (hf : clampPos d 0 d s = first) (he : clampPos d 0 d e = first + count) :
    Lines x a (sliceOn [s] [e] [(a : Int)] fill z) count (fun v j => g v (first + j)) := by
  have hzl : z.shape.length = x.shape.length := by rw [h.1, setAt_length]
  have hd : nth z.shape a = d := by rw [h.1, nth_setAt _ _ _ _ ha, if_pos rfl]
  have hpar : ∀ i, ((([(a : Int)].zip [(⟨s, e, 1⟩ : SliceSpec)]).find? (fun p => normAxis z.shape.length p.1 = i)).map (·.2)) =
      if i = a then some ⟨s, e, 1⟩ else none := by
    intro i
    have : normAxis z.shape.length (a : Int) = a := by
      unfold normAxis
      rw [if_neg (by omega)]
      simp
    by_cases hia : i = a
    · subst hia
      simp [this]
    · simp [this, hia, Ne.symm hia]
  have hle : first + count ≤ d := by
    have : clampPos (d : Int) 0 d e ≤ d := by unfold clampPos; omega
    omega
  have hcount : (⟨s, e, 1⟩ : SliceSpec).count d = count := by
    simp only [SliceSpec.count, SliceSpec.first, SliceSpec.last, Int.zero_lt_one, if_true, hf, he]
    omega
  have key := lines_axisOp sliceRule fill (fun i => (([(a : Int)].zip [(⟨s, e, 1⟩ : SliceSpec)]).find? (fun p => normAxis z.shape.length p.1 = i)).map (·.2)) ha h
    (by
      intro i _ hi
      simp only [hpar, if_neg hi]
      exact ⟨rfl, fun _ _ => rfl⟩)
    (by
      intro o ho k hk
      simp only [hpar, if_true] at ho hk
      simp only [sliceRule, hcount] at ho
      simp only [sliceRule, SliceSpec.first, Int.zero_lt_one, if_true, hf, Option.some.injEq] at hk
      omega)
  simp only [hpar, if_true] at key
  have e1 : sliceRule.outDim (some ⟨s, e, 1⟩) d = count := hcount
  rw [e1] at key
  have e0 : (fun i => (([(a : Int)].zip [(⟨s, e, 1⟩ : SliceSpec)]).find? (fun p => normAxis z.shape.length p.1 = i)).map (·.2)) =
      fun i => if i = a then some ⟨s, e, 1⟩ else none := funext hpar
  have e2 : sliceOn [s] [e] [(a : Int)] fill z = axisOp sliceRule fill (fun i => if i = a then some ⟨s, e, 1⟩ else none) z := by
    rw [← e0]
    rfl
  rw [e2]
  refine ⟨key.1, fun i hi => (key.2 i hi).trans ?_⟩
  simp only [sliceRule, SliceSpec.first, Int.zero_lt_one, if_true, hf]
  congr 1
  omega

theorem padsAt_getD (a r : Nat) (ha : a < r) (p q : Int) (i : Nat) (hi : i < r) :
    (padsAt a r p q).getD i 0 = (if i = a then p else 0) ∧ (padsAt a r p q).getD (i + r) 0 = (if i = a then q else 0) := by
  have hlen : (List.replicate a (0 : Int) ++ [p] ++ List.replicate (r - a - 1) 0).length = r := by simp; omega
  have one : ∀ (p : Int) (i : Nat), i < r → (List.replicate a (0 : Int) ++ [p] ++ List.replicate (r - a - 1) 0).getD i 0 = if i = a then p else 0 := by
    intro p i hi
    rw [List.getD_eq_getElem?_getD]
    by_cases h1 : i < a
    · rw [List.append_assoc, List.getElem?_append_left (by simpa using h1), if_neg (by omega)]
      simp [h1]
    · by_cases h2 : i = a
      · subst h2
        simp
      · rw [List.getElem?_append_right (by simp; omega), if_neg h2, List.getElem?_replicate]
        split <;> rfl
  constructor
  · unfold padsAt
    rw [List.getD_eq_getElem?_getD, List.getElem?_append_left (by rw [hlen]; exact hi), ← List.getD_eq_getElem?_getD, one p i hi]
  · unfold padsAt
    rw [List.getD_eq_getElem?_getD, List.getElem?_append_right (by rw [hlen]; omega), hlen, Nat.add_sub_cancel, ← List.getD_eq_getElem?_getD, one q i hi]

/-- `Pad` along one axis. -/
theorem lines_pad (fill : α) {x z : T α} {a d : Nat} {g : (Nat → α) → Nat → α} (ha : a < x.shape.length) (h : Lines x a z d g) (r p q : Nat)
    (hr : r = x.shape.length) :
    Lines x a (pad .constant fill (padsAt a r p q) z) (d + p + q) (fun v j => if p ≤ j ∧ j < p + d then g v (j - p) else fill) := by
  subst hr
  have hzl : z.shape.length = x.shape.length := by rw [h.1, setAt_length]
  have hpar : ∀ i, i < x.shape.length → ((padsAt a x.shape.length p q).getD i 0, (padsAt a x.shape.length p q).getD (i + z.shape.length) 0) =
      if i = a then ((p : Int), (q : Int)) else (0, 0) := by
    intro i hi
    have := padsAt_getD a x.shape.length ha p q i hi
    rw [hzl, this.1, this.2]
    split <;> rfl
  have key := lines_axisOp (padRule .constant) fill (fun i => ((padsAt a x.shape.length p q).getD i 0, (padsAt a x.shape.length p q).getD (i + z.shape.length) 0)) ha h
    (by
      intro i hi e
      simp only [hpar i (hzl ▸ hi), if_neg e]
      refine ⟨by simp [padRule], fun o ho => ?_⟩
      simp only [padRule, PadMode.src]
      rw [if_pos (by omega)]
      simp)
    (by
      intro o ho k hk
      simp only [hpar a ha, if_true, padRule, PadMode.src] at hk
      split at hk
      · injection hk with hk
        omega
      · cases hk)
  simp only [hpar a ha, if_true] at key
  have e1 : (padRule .constant).outDim ((p : Int), (q : Int)) d = d + p + q := by simp only [padRule]; omega
  rw [e1] at key
  refine ⟨key.1, fun i hi => (key.2 i hi).trans ?_⟩
  simp only [padRule, PadMode.src]
  by_cases hc : p ≤ nth i a ∧ nth i a < p + d
  · rw [if_pos hc, if_pos (by omega)]
    simp only
    congr 1
    omega
  · rw [if_neg hc, if_neg (by omega)]

/-- Element-wise operators of tensors of the same shape. -/
theorem zipT_same {β γ δ : Type} (f : β → γ → δ) (x : T β) (y : T γ) (h : x.shape = y.shape) :
    ∃ z, zipT f x y = some z ∧ z.shape = x.shape ∧ ∀ i, InB x.shape i → z.get i = f (x.get i) (y.get i) := by
  obtain ⟨z, hz⟩ := zipT_some f (x := x) (y := y) (by rw [← h]; exact fun k => Or.inl rfl)
  obtain ⟨hl, hd, -, hat⟩ := zipT_view hz
  have hs : z.shape = x.shape := by
    apply shape_ext
    · rw [hl, ← h]; simp
    · intro k
      rw [hd, ← h]
      split <;> rfl
  refine ⟨z, hz, hs, fun i hi => ?_⟩
  have key : ∀ {β : Type} (w : T β), w.shape = x.shape → w.get i = at' w (fun k => nth i (x.shape.length - 1 - k)) := by
    intro β w hw
    unfold at'
    congr 1
    apply ext_nth (by simp [hw, hi.1])
    intro j hj
    have hj' : j < x.shape.length := hi.1 ▸ hj
    have hlt := hi.2 j hj'
    rw [nth_map_range, hw, if_pos hj']
    split
    · omega
    · congr 1
      omega
  rw [key z hs, key x rfl, key y h.symm, hat]

theorem lines_zip (f : α → α → α) {x z w : T α} {a d : Nat} {g k : (Nat → α) → Nat → α} (h : Lines x a z d g) (h' : Lines x a w d k) :
    ∃ y, zipT f z w = some y ∧ Lines x a y d (fun v j => f (g v j) (k v j)) := by
  obtain ⟨y, hy, hs, hg⟩ := zipT_same f z w (h.1.trans h'.1.symm)
  refine ⟨y, hy, hs.trans h.1, fun i hi => ?_⟩
  rw [hs] at hi
  rw [hg i hi, h.2 i hi, h'.2 i (by rw [h'.1, ← h.1]; exact hi)]

/-! ## The loop -/

variable [CommMonoid α]

/-- One factor: the line moved by `k`. -/
def shifted (reverse : Bool) (d : Nat) (v : Nat → α) (j k : Nat) : α :=
  if reverse then (if j + k < d then v (j + k) else 1) else (if k ≤ j then v (j - k) else 1)

theorem lines_body (reverse : Bool) {x y acc : T α} {a d len k : Nat} {g m : (Nat → α) → Nat → α} (ha : a < x.shape.length) (hy : Lines x a y d g)
    (hacc : Lines x a acc d m) (hk : k + 1 ≤ d) (hlen : d ≤ len) :
    ∃ z, cumprodBody reverse a len y k acc = some z ∧ Lines x a z d (fun v j => m v j * (if j < d then shifted reverse d (g v) j (k + 1) else 1)) := by
  have hyl : y.shape.length = x.shape.length := by rw [hy.1, setAt_length]
  have fin : ∀ w : T α, Lines x a w d (fun v j => if j < d then shifted reverse d (g v) j (k + 1) else 1) →
      ∃ z, zipT (· * ·) acc w = some z ∧ Lines x a z d (fun v j => m v j * (if j < d then shifted reverse d (g v) j (k + 1) else 1)) :=
    fun w hw => lines_zip (· * ·) hacc hw
  have adj : ∀ {w : T α} {g1 g2 : (Nat → α) → Nat → α}, Lines x a w d g1 → (∀ v j, j < d → g1 v j = g2 v j) → Lines x a w d g2 := by
    intro w g1 g2 hw he
    refine ⟨hw.1, fun i hi => (hw.2 i hi).trans (he _ _ ?_)⟩
    have := hi.2 a (by rw [hw.1, setAt_length]; exact ha)
    rwa [hw.1, nth_setAt _ _ _ _ ha, if_pos rfl] at this
  unfold cumprodBody
  cases reverse with
  | false =>
    simp only [Bool.false_eq_true, if_false]
    have h1 := lines_slice (1 : α) ha hy 0 (-((k : Int) + 1)) 0 (d - (k + 1)) (by unfold clampPos; omega) (by unfold clampPos; omega)
    have h2 := lines_pad (1 : α) ha h1 y.shape.length (k + 1) 0 hyl
    rw [show d - (k + 1) + (k + 1) + 0 = d by omega] at h2
    have e : ((k + 1 : Nat) : Int) = (k : Int) + 1 := by omega
    rw [e] at h2
    apply fin
    apply adj h2
    intro v j hj
    rw [if_pos hj]
    simp only [shifted, Bool.false_eq_true, if_false]
    by_cases hc : k + 1 ≤ j
    · rw [if_pos ⟨hc, by omega⟩, if_pos hc]
      simp
    · rw [if_neg (by omega), if_neg hc]
  | true =>
    simp only [if_true]
    have h1 := lines_slice (1 : α) ha hy ((k : Int) + 1) ((len : Int) + 1) (k + 1) (d - (k + 1)) (by unfold clampPos; omega) (by unfold clampPos; omega)
    have h2 := lines_pad (1 : α) ha h1 y.shape.length 0 (k + 1) hyl
    rw [show d - (k + 1) + 0 + (k + 1) = d by omega] at h2
    have e : ((k + 1 : Nat) : Int) = (k : Int) + 1 := by omega
    rw [e] at h2
    apply fin
    apply adj h2
    intro v j hj
    rw [if_pos hj]
    simp only [shifted, if_true]
    by_cases hc : j + (k + 1) < d
    · rw [if_pos ⟨by omega, by omega⟩, if_pos hc]
      congr 1
      omega
    · rw [if_neg (by omega), if_neg hc]

theorem lines_loop (reverse : Bool) {x y : T α} {a d len : Nat} {g : (Nat → α) → Nat → α} (ha : a < x.shape.length) (hy : Lines x a y d g) (hlen : d ≤ len) :
    ∀ n, n = 0 ∨ n + 1 ≤ d → ∃ z, loopN (cumprodBody reverse a len y) y n = some z ∧
      Lines x a z d (fun v j => if j < d then ∏ k ∈ Finset.range (n + 1), shifted reverse d (g v) j k else 1) := by
  have adj : ∀ {w : T α} {g1 g2 : (Nat → α) → Nat → α}, Lines x a w d g1 → (∀ v j, j < d → g1 v j = g2 v j) → Lines x a w d g2 := by
    intro w g1 g2 hw he
    refine ⟨hw.1, fun i hi => (hw.2 i hi).trans (he _ _ ?_)⟩
    have := hi.2 a (by rw [hw.1, setAt_length]; exact ha)
    rwa [hw.1, nth_setAt _ _ _ _ ha, if_pos rfl] at this
  intro n
  induction n with
  | zero =>
    intro _
    refine ⟨y, rfl, adj hy (fun v j hj => ?_)⟩
    rw [if_pos hj, Finset.prod_range_one]
    cases reverse <;> simp [shifted, hj]
  | succ n ih =>
    intro hn
    have hn : n + 1 + 1 ≤ d := by omega
    obtain ⟨z, hz, hl⟩ := ih (Or.inr (by omega))
    obtain ⟨w, hw, hl'⟩ := lines_body reverse ha hy hl (k := n) (by omega) hlen
    refine ⟨w, ?_, adj hl' (fun v j hj => ?_)⟩
    · show (loopN _ y n).bind _ = _
      rw [hz]
      exact hw
    · rw [if_pos hj, if_pos hj, if_pos hj, ← Finset.prod_range_succ]

/-! ## The claim -/

theorem scanned_prod (exclusive reverse : Bool) (d j : Nat) (v : Nat → α) :
    ((scanned exclusive reverse d j).map v).prod = ∏ k ∈ (Finset.range d).filter (fun k => scans exclusive reverse j k = true), v k := by
  unfold scanned
  rw [← List.prod_toFinset v (List.Nodup.filter _ List.nodup_range)]
  congr 1
  ext k
  simp

theorem shifted_prod (reverse : Bool) (d j : Nat) (hj : j < d) (v : Nat → α) :
    ∏ k ∈ Finset.range d, shifted reverse d v j k = ((scanned false reverse d j).map v).prod := by
  rw [scanned_prod]
  cases reverse with
  | false =>
    simp only [shifted, Bool.false_eq_true, if_false]
    rw [← Finset.prod_filter]
    apply Finset.prod_nbij' (fun k => j - k) (fun k => j - k) <;> intro k hk <;> simp [scans] at hk ⊢ <;> omega
  | true =>
    simp only [shifted, if_true]
    rw [← Finset.prod_filter]
    apply Finset.prod_nbij' (fun k => j + k) (fun k => k - j) <;> intro k hk <;> simp [scans] at hk ⊢ <;> omega

theorem shifted_exclusive (reverse : Bool) (d j : Nat) (hj : j < d) (v : Nat → α) :
    (if reverse then (if j < d - 1 then ((scanned false true (d - 1) j).map (fun k => v (1 + k))).prod else 1)
      else (if 1 ≤ j then ((scanned false false (d - 1) (j - 1)).map v).prod else 1)) = ((scanned true reverse d j).map v).prod := by
  rw [scanned_prod true]
  cases reverse with
  | false =>
    simp only [Bool.false_eq_true, if_false]
    split
    · rw [scanned_prod]
      apply Finset.prod_nbij' (fun k => k) (fun k => k) <;> intro k hk <;> simp [scans] at hk ⊢ <;> omega
    · rw [Finset.prod_eq_one]
      intro k hk
      simp [scans] at hk
      omega
  | true =>
    simp only [if_true]
    split
    · rw [scanned_prod]
      apply Finset.prod_nbij' (fun k => 1 + k) (fun k => k - 1) <;> intro k hk <;> simp [scans] at hk ⊢ <;> omega
    · rw [Finset.prod_eq_one]
      intro k hk
      simp [scans] at hk
      omega

/-- **C68**: the emitted loop computes the cumulative product: inclusive or exclusive, forwards or backwards, along every axis given from the front, whether it is a
constant or computed, for tensors of every shape; exclusive ones need an axis that is not empty (`cumprod_empty_violated`). -/
theorem cumprod_ok_partial (exclusive reverse axisConst : Bool) (a : Nat) (x : T α) (ha : a < x.shape.length) (hne : exclusive = true → 1 ≤ nth x.shape a) :
    ∃ y, cumprod exclusive reverse axisConst (a : Int) x = .ok (some y) ∧ Same y (tfCumprod exclusive reverse a x) := by
  have hself := lines_self x a
  have fin : ∀ {y : T α} {g : (Nat → α) → Nat → α}, Lines x a y (nth x.shape a) g →
      (∀ v j, j < nth x.shape a → g v j = ((scanned exclusive reverse (nth x.shape a) j).map v).prod) → Same y (tfCumprod exclusive reverse a x) := by
    intro y g hy hg
    have hs : y.shape = x.shape := by rw [hy.1, setAt_self]
    refine ⟨hs, fun i hi => ?_⟩
    rw [hy.2 i hi, hg]
    · rfl
    · rw [hs] at hi
      exact hi.2 a ha
  unfold cumprod
  rw [if_pos (by omega), Int.toNat_natCast]
  unfold cumprodAt
  cases exclusive with
  | false =>
    simp only [Bool.false_eq_true, if_false]
    obtain ⟨z, hz, hl⟩ := lines_loop reverse ha hself (le_refl _) ((nth x.shape a : Int) - 1).toNat (by omega)
    rw [hz]
    refine ⟨z, rfl, fin hl (fun v j hj => ?_)⟩
    rw [if_pos hj, show ((nth x.shape a : Int) - 1).toNat + 1 = nth x.shape a by omega]
    exact shifted_prod reverse _ j hj v
  | true =>
    have hne := hne rfl
    simp only [if_true]
    cases reverse with
    | false =>
      simp only [Bool.false_eq_true, if_false]
      have h1 := lines_slice (1 : α) ha hself 0 (-1) 0 (nth x.shape a - 1) (by unfold clampPos; omega) (by unfold clampPos; omega)
      obtain ⟨z, hz, hl⟩ := lines_loop false ha h1 (len := nth x.shape a) (by omega) ((nth x.shape a : Int) - 1 - 1).toNat (by omega)
      rw [hz]
      have h2 := lines_pad (1 : α) ha hl x.shape.length 1 0 rfl
      rw [show nth x.shape a - 1 + 1 + 0 = nth x.shape a by omega] at h2
      refine ⟨_, rfl, fin h2 (fun v j hj => ?_)⟩
      rw [← shifted_exclusive false _ j hj v]
      simp only [Bool.false_eq_true, if_false]
      by_cases hc : 1 ≤ j
      · rw [if_pos ⟨hc, by omega⟩, if_pos (by omega), if_pos hc, show ((nth x.shape a : Int) - 1 - 1).toNat + 1 = nth x.shape a - 1 by omega,
          shifted_prod false _ _ (by omega)]
        simp
      · rw [if_neg (by omega), if_neg hc]
    | true =>
      simp only [if_true]
      have h1 := lines_slice (1 : α) ha hself 1 ((nth x.shape a : Int) + 1) 1 (nth x.shape a - 1) (by unfold clampPos; omega) (by unfold clampPos; omega)
      obtain ⟨z, hz, hl⟩ := lines_loop true ha h1 (len := nth x.shape a) (by omega) ((nth x.shape a : Int) - 1 - 1).toNat (by omega)
      rw [hz]
      have h2 := lines_pad (1 : α) ha hl x.shape.length 0 1 rfl
      rw [show nth x.shape a - 1 + 0 + 1 = nth x.shape a by omega] at h2
      refine ⟨_, rfl, fin h2 (fun v j hj => ?_)⟩
      rw [← shifted_exclusive true _ j hj v]
      simp only [if_true]
      by_cases hc : j < nth x.shape a - 1
      · rw [if_pos ⟨by omega, by omega⟩, if_pos (by omega), if_pos hc, show ((nth x.shape a : Int) - 1 - 1).toNat + 1 = nth x.shape a - 1 by omega,
          shifted_prod true _ _ (by omega)]
        rfl
      · rw [if_neg (by omega), if_neg hc]

/-- **Defect**: a constant axis counted from the back is not converted, a computed one makes the model fail; TensorFlow allows both. -/
theorem cumprod_negative_axis_violated (exclusive reverse : Bool) (a : Int) (ha : a < 0) (x : T α) :
    (∃ e, cumprod exclusive reverse true a x = .error e) ∧ cumprod exclusive reverse false a x = .ok none := by
  unfold cumprod
  have hn : ¬ (0 ≤ a ∧ a < x.shape.length) := by omega
  simp only [if_neg hn]
  exact ⟨⟨_, rfl⟩, rfl⟩

/-- **Defect**: an exclusive product along an empty axis has one element. -/
theorem cumprod_empty_violated : ∃ y, cumprod true false true 0 (⟨[0], fun _ => 2⟩ : T Int) = .ok (some y) ∧ y.shape = [1] ∧
    (tfCumprod true false 0 (⟨[0], fun _ => 2⟩ : T Int)).shape = [0] := ⟨_, rfl, rfl, rfl⟩

/-- `[1, 2, 3, 4]`. -/
def fourNumbers : T Int := ⟨[4], fun i => nth i 0 + 1⟩

theorem cumprod_example : ∃ y z, cumprod false false true 0 fourNumbers = .ok (some y) ∧ (allIdx [4]).map y.get = [1, 2, 6, 24] ∧
    cumprod true true false 0 fourNumbers = .ok (some z) ∧ (allIdx [4]).map z.get = [24, 12, 4, 1] := by
  refine ⟨_, _, rfl, ?_, rfl, ?_⟩ <;> decide +kernel

end Verif.Scan
