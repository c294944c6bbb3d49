import Verif.Model.ScanOps
import Verif.Props.C66_Broadcast
import Mathlib.Tactic.Linarith
/-!
# C68: bands of matrices and ranges
-/
namespace Verif.Scan
open Verif.Tensor Verif.Emit

/-- Tensors of the same shape that broadcast operators read alike inside of the shape are the same. -/
theorem same_of_at_lt {α : Type} {x y : T α} (hs : x.shape = y.shape) (h : ∀ p, (∀ k, p k < dimB x.shape k) → at' x p = at' y p) : Same x y := by
  refine ⟨hs, fun i hi => ?_⟩
  have key : ∀ z : T α, z.shape = x.shape → z.get i = at' z (fun k => if k < x.shape.length then nth i (x.shape.length - 1 - k) else 0) := by
    intro z hz
    unfold at'
    congr 1
    apply ext_nth (by simp [hz, hi.1])
    intro j hj
    have hj' : j < x.shape.length := hi.1 ▸ hj
    have hlt := hi.2 j hj'
    rw [nth_map_range, hz, if_pos hj']
    split
    · omega
    · show _ = if _ then _ else _
      rw [if_pos (by omega)]
      congr 1
      omega
  rw [key x rfl, key y hs.symm]
  apply h
  intro k
  split
  · rename_i hk
    rw [dimB_of_lt hk]
    exact hi.2 _ (by omega)
  · rename_i hk
    rw [dimB_of_le (by omega)]
    omega

/-! ## Bands -/

/-- A mask that is right where the matrix has elements. -/
theorem mask_ok {α : Type} [Mul α] (cast : Bool → α) (zero : α) (lower upper : Int) (x : T α) (hr : 2 ≤ x.shape.length)
    (h1 : ∀ i, cast true * x.get i = x.get i) (h0 : ∀ i, cast false * x.get i = zero) (m : T Bool)
    (hm : m.shape = [nth x.shape (x.shape.length - 2), nth x.shape (x.shape.length - 1)])
    (hg : ∀ i j, i < nth x.shape (x.shape.length - 2) → j < nth x.shape (x.shape.length - 1) → m.get [i, j] = decide (InBand lower upper i j)) :
    ∃ y, applyMask cast m x = some y ∧ Same y (tfBandPart zero lower upper x) := by
  have d0 : dimB x.shape 0 = nth x.shape (x.shape.length - 1) := by rw [dimB_of_lt (by omega)]; rfl
  have d1 : dimB x.shape 1 = nth x.shape (x.shape.length - 2) := by rw [dimB_of_lt (by omega)]; rfl
  have m0 : dimB m.shape 0 = dimB x.shape 0 := by rw [hm, d0]; rfl
  have m1 : dimB m.shape 1 = dimB x.shape 1 := by rw [hm, d1]; rfl
  have m2 : ∀ k, 2 ≤ k → dimB m.shape k = 1 := fun k hk => dimB_of_le (by rw [hm]; simpa using hk)
  have hc : Compat' (mapT cast m).shape x.shape := by
    intro k
    show dimB m.shape k = _ ∨ _
    rcases k with _ | _ | k
    · exact Or.inl m0
    · exact Or.inl m1
    · exact Or.inr (Or.inl (m2 _ (by omega)))
  obtain ⟨y, hy⟩ := zipT_some (· * ·) hc
  obtain ⟨hl, hd, -, hat⟩ := zipT_view hy
  refine ⟨y, hy, ?_⟩
  have hs : y.shape = x.shape := by
    apply shape_ext
    · rw [hl]
      show max m.shape.length _ = _
      rw [hm]
      simp
      omega
    · intro k
      rw [hd]
      show (if dimB m.shape k = 1 then _ else dimB m.shape k) = _
      rcases k with _ | _ | k
      · split <;> first | rfl | exact m0
      · split <;> first | rfl | exact m1
      · rw [if_pos (m2 _ (by omega))]
  apply same_of_at_lt (by rw [hs]; rfl)
  intro p hp
  rw [hs] at hp
  rw [hat]
  have hp0 := hp 0
  have hp1 := hp 1
  have hmat : at' (mapT cast m) p = cast (decide (InBand lower upper (p 1) (p 0))) := by
    have : at' (mapT cast m) p = cast (m.get [if nth x.shape (x.shape.length - 2) = 1 then 0 else p 1, if nth x.shape (x.shape.length - 1) = 1 then 0 else p 0]) := by
      unfold at' mapT
      simp only [hm]
      rfl
    rw [this]
    have e1 : (if nth x.shape (x.shape.length - 2) = 1 then 0 else p 1) = p 1 := by
      split
      · omega
      · rfl
    have e0 : (if nth x.shape (x.shape.length - 1) = 1 then 0 else p 0) = p 0 := by
      split
      · omega
      · rfl
    rw [e1, e0, hg _ _ (by omega) (by omega)]
  rw [hmat]
  have hx : at' (tfBandPart zero lower upper x) p = if InBand lower upper (p 1) (p 0) then at' x p else zero := by
    unfold at' tfBandPart
    simp only
    have e : ∀ k, k < 2 → nth ((List.range x.shape.length).map (fun i => if nth x.shape i = 1 then 0 else p (x.shape.length - 1 - i))) (x.shape.length - 1 - k) = p k := by
      intro k hk
      have hpk := hp k
      rw [dimB_of_lt (by omega)] at hpk
      rw [nth_map_range, if_pos (by omega)]
      split
      · omega
      · congr 1
        omega
    have e1 := e 1 (by omega)
    have e0 := e 0 (by omega)
    rw [show x.shape.length - 1 - 1 = x.shape.length - 2 by omega] at e1
    rw [show x.shape.length - 1 - 0 = x.shape.length - 1 by omega] at e0
    rw [e1, e0]
  rw [hx]
  split
  · rename_i hb
    rw [decide_eq_true hb]
    exact h1 _
  · rename_i hb
    rw [decide_eq_false hb]
    exact h0 _

theorem cumsumExcl_ones (n k : Nat) (hk : k < n) : (Vec.cumsumExcl (List.replicate n 1)).getD k 0 = (k : Int) := by
  unfold Vec.cumsumExcl
  rw [List.getD_eq_getElem?_getD, List.getElem?_map, List.length_replicate, List.getElem?_range hk]
  simp [List.take_replicate]
  omega

/-- Column minus row. -/
theorem bandDiff_ok (rows cols : Nat) (hc : 0 < cols) :
    ∃ d, bandDiff rows cols = some d ∧ d.shape = [rows, cols] ∧ ∀ i j, i < rows → j < cols → d.get [i, j] = (j : Int) - i := by
  have hr : reshapeDims [rows * cols] [(rows : Int), (cols : Int)] = some [rows, cols] := by
    unfold reshapeDims
    have hcz : (cols : Int) ≠ 0 := by omega
    have e : [(rows : Int), (cols : Int)].mapIdx (fun i z => if z = 0 then (nth [rows * cols] i : Int) else z) = [(rows : Int), (cols : Int)] := by
      simp only [List.mapIdx_cons, List.mapIdx_nil, if_neg hcz]
      by_cases h : rows = 0
      · subst h
        simp [nth]
      · rw [if_neg (by omega)]
    simp only [e]
    have hm1 : ∀ n : Nat, (n : Int) ≠ -1 := by intro n; omega
    rw [if_pos]
    · simp [hm1]
    · refine ⟨?_, ?_, ?_, ?_, ?_⟩
      · intro z hz
        simp at hz
        omega
      · intro i hi h0
        rcases i with _ | _ | i
        · simp
        · simp at h0
          omega
        · simp at hi
          omega
      · simp [List.count_cons, hm1]
      · intro h
        simp at h
      · simp [hm1, Tensor.size]
  refine ⟨_, by unfold bandDiff; rw [hr]; rfl, rfl, fun i j hi hj => ?_⟩
  have hlin : lin [rows, cols] [i, j] = i * cols + j := by simp [lin, Tensor.size]
  have hlt : i * cols + j < rows * cols := by
    have h4 : i + 1 ≤ rows := hi
    have := Nat.mul_le_mul_right cols h4
    rw [Nat.add_mul] at this
    omega
  show Int.fmod ((Vec.cumsumExcl (List.replicate (rows * cols) 1)).getD (nth (delin [rows * cols] (lin [rows, cols] [i, j])) 0) 0) cols -
    Int.tdiv ((Vec.cumsumExcl (List.replicate (rows * cols) 1)).getD (nth (delin [rows * cols] (lin [rows, cols] [i, j])) 0) 0) cols = _
  have hd : nth (delin [rows * cols] (lin [rows, cols] [i, j])) 0 = i * cols + j := by
    rw [hlin]
    simp [delin, nth, Tensor.size]
  rw [hd, cumsumExcl_ones _ _ hlt]
  have e1 : Int.fmod ((i * cols + j : Nat) : Int) (cols : Int) = (j : Int) := by
    rw [Int.fmod_eq_emod_of_nonneg _ (by omega), ← Int.natCast_mod, Nat.mul_comm, Nat.mul_add_mod, Nat.mod_eq_of_lt hj]
  have e2 : Int.tdiv ((i * cols + j : Nat) : Int) (cols : Int) = (i : Int) := by
    rw [Int.tdiv_eq_ediv_of_nonneg (by omega), ← Int.natCast_ediv, Nat.mul_comm, Nat.mul_add_div hc, Nat.div_eq_of_lt hj]
    simp
  rw [e1, e2]

/-- **C68**: the band of the matrices in the last two axes from opset 11 on, for every pair of bounds, constant or computed; computed ones must not be negative
(`band_computed_violated`), there has to be a column (`band_empty_violated`) and the masked elements have to be numbers (`band_infinity_violated`). -/
theorem band_part_partial {α : Type} [Mul α] (cast : Bool → α) (zero : α) (lowerConst upperConst : Bool) (lower upper : Int) (x : T α) (hr : 2 ≤ x.shape.length)
    (h1 : ∀ i, cast true * x.get i = x.get i) (h0 : ∀ i, cast false * x.get i = zero) (hc : 0 < nth x.shape (x.shape.length - 1))
    (hlow : lowerConst = false → 0 ≤ lower) (hup : upperConst = false → 0 ≤ upper) :
    ∃ y, bandPart11 cast lowerConst upperConst lower upper x = some y ∧ Same y (tfBandPart zero lower upper x) := by
  unfold bandPart11
  simp only
  split
  · rename_i hz
    simp only [Bool.and_eq_true, decide_eq_true_eq] at hz
    unfold Patt.eyeLike
    rw [if_pos (by rfl)]
    simp only [Option.bind_some]
    apply mask_ok cast zero lower upper x hr h1 h0 _ rfl
    intro i j _ _
    show (if i = j then true else false) = _
    rw [hz.1.1.2, hz.2]
    by_cases hij : i = j
    · subst hij
      simp [InBand]
    · have : ¬ InBand 0 0 i j := by unfold InBand; omega
      simp [hij, this]
  · obtain ⟨d, hd, hs, hg⟩ := bandDiff_ok (nth x.shape (x.shape.length - 2)) (nth x.shape (x.shape.length - 1)) hc
    have use : ∀ f : Int → Bool, (∀ i j : Nat, f ((j : Int) - i) = decide (InBand lower upper i j)) →
        ∃ y, (bandDiff (nth x.shape (x.shape.length - 2)) (nth x.shape (x.shape.length - 1))).bind (fun d => applyMask cast (mapT f d) x) = some y ∧
          Same y (tfBandPart zero lower upper x) := by
      intro f hf
      rw [hd]
      apply mask_ok cast zero lower upper x hr h1 h0 _ hs
      intro i j hi hj
      show f (d.get [i, j]) = _
      rw [hg i j hi hj, hf]
    have hup' : (!upperConst || decide (0 ≤ upper)) = decide (0 ≤ upper) := by
      cases upperConst with
      | true => rfl
      | false => simp [hup rfl]
    have hlow' : (!lowerConst || decide (0 ≤ lower)) = decide (0 ≤ lower) := by
      cases lowerConst with
      | true => rfl
      | false => simp [hlow rfl]
    unfold bandCond
    simp only [hup', hlow']
    by_cases ha : 0 ≤ upper <;> by_cases hb : 0 ≤ lower
    · simp only [ha, hb, decide_true, Bool.and_self, if_true]
      apply use
      intro i j
      have : InBand lower upper i j ↔ (¬ ((j : Int) - i > upper)) ∧ ¬ (-lower > (j : Int) - i) := by unfold InBand; omega
      simp only [decide_eq_decide.2 this, Bool.decide_and, decide_not]
    · simp only [ha, hb, decide_true, decide_false, Bool.and_false, if_true, Bool.false_eq_true, if_false]
      apply use
      intro i j
      have : InBand lower upper i j ↔ ¬ ((j : Int) - i > upper) := by unfold InBand; omega
      simp only [decide_eq_decide.2 this, decide_not]
    · simp only [ha, hb, decide_true, decide_false, Bool.false_and, if_true, Bool.false_eq_true, if_false]
      apply use
      intro i j
      have : InBand lower upper i j ↔ ¬ (-lower > (j : Int) - i) := by unfold InBand; omega
      simp only [decide_eq_decide.2 this, decide_not]
    · simp only [ha, hb, decide_false, Bool.and_self, Bool.false_eq_true, if_false]
      refine ⟨x, rfl, rfl, fun i _ => ?_⟩
      show _ = if InBand lower upper _ _ then _ else _
      rw [if_pos]
      unfold InBand
      omega

/-- The cast of truth values to integers. -/
def bit (b : Bool) : Int := if b then 1 else 0

/-- `[[1, 2], [3, 4]]`. -/
def twoByTwo : T Int := ⟨[2, 2], fun i => 2 * nth i 0 + nth i 1 + 1⟩

/-- **Defect**: a bound that is computed and turns out to be negative masks elements instead of keeping everything on its side. -/
theorem band_computed_violated : ∃ y, bandPart11 bit false true (-1) 0 twoByTwo = some y ∧ y.get [1, 0] = 0 ∧ (tfBandPart 0 (-1) 0 twoByTwo).get [1, 0] = 3 := by
  refine ⟨_, rfl, ?_, ?_⟩ <;> decide +kernel

/-- **Defect**: a matrix without columns cannot be reshaped to. -/
theorem band_empty_violated : bandPart11 bit true true 1 1 (⟨[3, 0], fun _ => 7⟩ : T Int) = none := by decide +kernel

theorem band_example : ∃ y, bandPart11 bit true false (-1) 0 twoByTwo = some y ∧ (allIdx [2, 2]).map y.get = [1, 0, 3, 4] := by
  refine ⟨_, rfl, ?_⟩
  decide +kernel

/-- Numbers, an infinity and not-a-number. -/
inductive Ext
  | num (q : Int)
  | inf
  | nan
  deriving DecidableEq

/-- Products of floating-point numbers as far as they matter here: zero times an infinity is not a number. -/
def Ext.mul : Ext → Ext → Ext
  | .num a, .num b => .num (a * b)
  | .nan, _ => .nan
  | _, .nan => .nan
  | .num a, .inf => if a = 0 then .nan else .inf
  | .inf, .num b => if b = 0 then .nan else .inf
  | .inf, .inf => .inf

def Ext.add : Ext → Ext → Ext
  | .num a, .num b => .num (a + b)
  | .nan, _ => .nan
  | _, .nan => .nan
  | _, _ => .inf

instance : Mul Ext := ⟨Ext.mul⟩
instance : Add Ext := ⟨Ext.add⟩

/-- The cast of truth values to them. -/
def extBit (b : Bool) : Ext := .num (if b then 1 else 0)

/-- **Defect**: an infinity outside of the band becomes not-a-number instead of zero. -/
theorem band_infinity_violated : ∃ y, bandPart11 extBit true true 0 0 (⟨[2, 2], fun _ => Ext.inf⟩ : T Ext) = some y ∧ y.get [0, 1] = .nan ∧
    (tfBandPart (.num 0) 0 0 (⟨[2, 2], fun _ => Ext.inf⟩ : T Ext)).get [0, 1] = .num 0 := by
  refine ⟨_, rfl, ?_, ?_⟩ <;> decide +kernel

/-! ### Before opset 11 -/

theorem bandLines (n : Nat) : ∀ (L s : Nat) (line : List Bool), line.length = L → (∀ j, j < L → line.getD j false = decide (s ≤ j)) →
    ∀ k j, k < n → j < L → ((loopScan bandLine n line).getD k []).getD j false = decide (s + k ≤ j) := by
  induction n with
  | zero => intro L s line _ _ k j hk; omega
  | succ n ih =>
    intro L s line hl hg k j hk hj
    cases k with
    | zero => exact hg j hj
    | succ k =>
      show ((loopScan bandLine n (bandLine line).1).getD k []).getD j false = _
      rw [ih L (s + 1) (bandLine line).1 (by simp [bandLine, hl]) _ k j (by omega) hj]
      · congr 1
        apply propext
        omega
      · intro j hj
        have e : (bandLine line).1.getD j false = (false :: line).getD j false := by
          unfold bandLine
          simp only [List.getD_eq_getElem?_getD, List.getElem?_dropLast]
          rw [if_pos (by simp [hl]; omega)]
        rw [e]
        cases j with
        | zero => simp
        | succ j =>
          show line.getD j false = _
          rw [hg j (by omega)]
          congr 1
          apply propext
          omega

/-- **C68**: the lower and the upper triangle of a matrix before opset 11, if there is a column or a row. -/
theorem band_triangle_partial {α : Type} [Mul α] (cast : Bool → α) (zero : α) (lower upper : Int) (x : T α) (hr : x.shape.length = 2)
    (h1 : ∀ i, cast true * x.get i = x.get i) (h0 : ∀ i, cast false * x.get i = zero)
    (hb : lower = -1 ∧ upper = 0 ∧ 0 < nth x.shape 1 ∨ lower = 0 ∧ upper = -1 ∧ 0 < nth x.shape 0) :
    ∃ y, bandPart7 cast lower upper x = .ok (some y) ∧ Same y (tfBandPart zero lower upper x) := by
  have hm : x.shape = [nth x.shape (x.shape.length - 2), nth x.shape (x.shape.length - 1)] := by
    match hx : x.shape, hr with
    | [a, b], _ => rfl
  have e0 : x.shape.length - 2 = 0 := by omega
  have e1 : x.shape.length - 1 = 1 := by omega
  unfold bandPart7
  rw [if_pos hr]
  rcases hb with ⟨rfl, rfl, hp⟩ | ⟨rfl, rfl, hp⟩
  · rw [if_pos ⟨rfl, rfl⟩]
    simp only
    rw [if_neg (by omega)]
    obtain ⟨y, hy, hs⟩ := mask_ok cast zero (-1) 0 x (by omega) h1 h0
      ⟨x.shape, fun i => ((loopScan bandLine (nth x.shape 1) (List.replicate (nth x.shape 0) true)).getD (nth i 1) []).getD (nth i 0) false⟩ hm (by
        intro i j hi hj
        rw [e0] at hi
        rw [e1] at hj
        show ((loopScan bandLine _ _).getD j []).getD i false = _
        rw [bandLines _ (nth x.shape 0) 0 _ (by simp) (by intro k hk; simp [List.getD_eq_getElem?_getD, hk]) j i hj hi]
        congr 1
        apply propext
        unfold InBand
        omega)
    exact ⟨y, by rw [hy], hs⟩
  · rw [if_neg (by omega), if_pos ⟨rfl, rfl⟩]
    simp only
    rw [if_neg (by omega)]
    obtain ⟨y, hy, hs⟩ := mask_ok cast zero 0 (-1) x (by omega) h1 h0
      ⟨x.shape, fun i => ((loopScan bandLine (nth x.shape 0) (List.replicate (nth x.shape 1) true)).getD (nth i 0) []).getD (nth i 1) false⟩ hm (by
        intro i j hi hj
        rw [e0] at hi
        rw [e1] at hj
        show ((loopScan bandLine _ _).getD i []).getD j false = _
        rw [bandLines _ (nth x.shape 1) 0 _ (by simp) (by intro k hk; simp [List.getD_eq_getElem?_getD, hk]) i j hi hj]
        congr 1
        apply propext
        unfold InBand
        omega)
    exact ⟨y, by rw [hy], hs⟩

/-- Other bands are not converted before opset 11. -/
theorem band_old_violated : ∃ e, bandPart7 bit 1 1 twoByTwo = .error e := ⟨_, rfl⟩

/-! ## Ranges -/

theorem loopScan_length {S γ : Type} (body : S → S × γ) (n : Nat) : ∀ s, (loopScan body n s).length = n := by
  induction n with
  | zero => intro s; rfl
  | succ n ih => intro s; simp [loopScan, ih]

theorem loopScan_add {K : Type} [Field K] (delta : K) (n : Nat) : ∀ (start : K) (k : Nat), k < n →
    (loopScan (fun prev => (prev + delta, prev)) n start)[k]? = some (start + k * delta) := by
  induction n with
  | zero => intro start k hk; omega
  | succ n ih =>
    intro start k hk
    cases k with
    | zero => simp [loopScan]
    | succ k =>
      show (loopScan _ n (start + delta))[k]? = _
      rw [ih _ _ (by omega)]
      congr 1
      push_cast
      ring

/-- **C68**: the loop for `Range` before opset 11 gives the range, for every start, limit and step other than zero that the inserted cast does not change. -/
theorem range_partial {K : Type} [Field K] [LinearOrder K] [IsStrictOrderedRing K] [FloorRing K] (toFloat : K → K) (start limit delta : K) (hd : delta ≠ 0)
    (h1 : toFloat (limit - start) = limit - start) (h2 : toFloat delta = delta) : ∃ l, rangeLoop toFloat start limit delta = some l ∧ IsRange start limit delta l := by
  unfold rangeLoop
  rw [h1, h2, if_neg hd]
  refine ⟨_, rfl, ?_, ?_⟩
  · intro k h
    rw [loopScan_length] at h
    have := loopScan_add delta _ start k h
    rw [List.getElem?_eq_some_iff] at this
    exact this.2
  · intro k
    rw [loopScan_length]
    have e : k < ⌈(limit - start) / delta⌉.toNat ↔ ((k : Int) : K) < (limit - start) / delta := by
      rw [← Int.lt_ceil]
      omega
    rw [e, Int.cast_natCast]
    rcases lt_or_gt_of_ne hd with hneg | hpos
    · rw [lt_div_iff_of_neg hneg]
      constructor
      · intro h
        exact Or.inr ⟨hneg, by linarith⟩
      · rintro (⟨h, -⟩ | ⟨-, h⟩)
        · exact absurd h (not_lt.2 hneg.le)
        · linarith
    · rw [lt_div_iff₀ hpos]
      constructor
      · intro h
        exact Or.inl ⟨hpos, by linarith⟩
      · rintro (⟨-, h⟩ | ⟨h, -⟩)
        · linarith
        · exact absurd h (not_lt.2 hpos.le)

/-- **Defect**: a 32-bit float cannot hold 16777217, so a range of that many integers loses its last element. -/
theorem range_cast_violated (toFloat : ℚ → ℚ) (h1 : toFloat 16777217 = 16777216) (h2 : toFloat 1 = 1) :
    ∃ l, rangeLoop toFloat 0 16777217 1 = some l ∧ ¬ IsRange 0 16777217 1 l := by
  unfold rangeLoop
  rw [sub_zero, h1, h2, if_neg one_ne_zero]
  refine ⟨_, rfl, fun h => ?_⟩
  have := (h.2 16777216).2 (Or.inl ⟨one_pos, by norm_num⟩)
  rw [loopScan_length] at this
  norm_num at this

theorem range_example : rangeLoop (fun z => z) (3 : ℚ) 10 2 = some [3, 5, 7, 9] := by decide +kernel

end Verif.Scan
