import Verif.Model.Crop
import Verif.Props.C76_Resize
import Verif.Props.C22_Symbolic
import Verif.Props.EmitVec
/-!
# C77: boxes cut out of images
-/
namespace Verif.Crop
open Verif.Tensor Verif.Resize Verif.Einsum Verif.Emit Verif.Fourier

/-! ## One axis -/

theorem roi_eq {s e : ℚ} {n m i : Nat} : roiCoord s e n m i = cropCoord s e n m i := by
  unfold roiCoord cropCoord
  by_cases h : 1 < m
  · rw [if_pos h, if_pos h]; ring
  · rw [if_neg h, if_neg h]

/-- The whole axis. -/
theorem roi_whole {n i : Nat} (hi : i < n) : roiCoord 0 1 n n i = i := by
  unfold roiCoord
  by_cases h : 1 < n
  · have h1 : (1 : ℚ) < n := by exact_mod_cast h
    have : (n : ℚ) - 1 ≠ 0 := by linarith
    rw [if_pos h]
    field_simp
    ring
  · have e1 : n = 1 := by omega
    have e2 : i = 0 := by omega
    subst e1 e2
    rw [if_neg h]
    norm_num

theorem within_nat {n i : Nat} (hi : i < n) : Within n (i : ℚ) := by
  have : (i : ℚ) + 1 ≤ n := by exact_mod_cast hi
  exact ⟨by positivity, by linarith⟩

theorem taps_nat {linear : Bool} {n i : Nat} (hi : i < n) (f : Nat → ℚ) : tapSum (roiTaps linear n (i : ℚ)) f = f i := by
  cases linear
  · have : ⌈(i : ℚ) - 1 / 2⌉ = (i : Int) := by
      rw [Int.ceil_eq_iff]; push_cast; constructor <;> linarith
    show tapSum [(1, inside n ⌈(i : ℚ) - 1 / 2⌉)] f = f i
    rw [this, inside_nat hi]
    simp [tapSum]
  · show tapSum [(1 - ((i : ℚ) - ⌊(i : ℚ)⌋), inside n ⌊(i : ℚ)⌋), ((i : ℚ) - ⌊(i : ℚ)⌋, inside n (⌊(i : ℚ)⌋ + 1))] f = f i
    rw [Int.floor_natCast, inside_nat hi]
    simp [tapSum]

/-- Between two pixels. -/
theorem taps_linear {n : Nat} {x : ℚ} (hx : Within n x) (f : Nat → ℚ) : tapSum (roiTaps true n x) f = lerp (f ⌊x⌋.toNat) (f ⌈x⌉.toNat) (x - ⌊x⌋) := by
  have h0 : 0 ≤ ⌊x⌋ := Int.floor_nonneg.2 hx.1
  have h1 : ⌈x⌉ ≤ (n : Int) - 1 := by
    rw [Int.ceil_le]; push_cast; exact hx.2
  have h2 : ⌊x⌋ ≤ ⌈x⌉ := Int.floor_le_ceil x
  have e1 : inside n ⌊x⌋ = ⌊x⌋.toNat := inside_of h0 (by omega)
  show tapSum [(1 - (x - ⌊x⌋), inside n ⌊x⌋), (x - ⌊x⌋, inside n (⌊x⌋ + 1))] f = _
  rw [e1]
  simp only [tapSum, List.map_cons, List.map_nil, List.sum_cons, List.sum_nil]
  by_cases hz : x = ⌊x⌋
  · have : x - ⌊x⌋ = 0 := by linarith
    rw [this]; unfold lerp; ring
  · have hc : ⌈x⌉ = ⌊x⌋ + 1 := by
      rw [Int.ceil_eq_iff]
      have := Int.lt_floor_add_one x
      have h : (⌊x⌋ : ℚ) < x := lt_of_le_of_ne (Int.floor_le x) (Ne.symm hz)
      push_cast
      exact ⟨by linarith, by linarith⟩
    rw [hc, inside_of (by omega) (by omega)]
    unfold lerp; ring

/-- Away from the middle between two pixels both roundings agree. -/
theorem round_eq {x : ℚ} (h0 : 0 ≤ x) (hx : Int.fract x ≠ 1 / 2) : roundPreferFloor x = roundAway x := by
  rw [roundAway, if_pos h0, roundPreferFloor, Int.ceil_eq_iff]
  have h1 := Int.floor_le (x + 1 / 2)
  have h2 := Int.lt_floor_add_one (x + 1 / 2)
  refine ⟨?_, by linarith⟩
  rcases lt_or_eq_of_le h1 with h | h
  · linarith
  · exfalso
    apply hx
    have e : x = ((⌊x + 1 / 2⌋ - 1 : Int) : ℚ) + 1 / 2 := by push_cast; linarith
    rw [Int.fract, e]
    have : ⌊((⌊x + 1 / 2⌋ - 1 : Int) : ℚ) + 1 / 2⌋ = ⌊x + 1 / 2⌋ - 1 := floor_int_half _
    rw [this]
    ring

theorem taps_nearest {n : Nat} {x : ℚ} (hx : Within n x) (ht : Int.fract x ≠ 1 / 2) (f : Nat → ℚ) : tapSum (roiTaps false n x) f = f (roundAway x).toNat := by
  show tapSum [(1, inside n (roundPreferFloor x))] f = _
  have h1 : 0 ≤ roundAway x := by
    rw [roundAway, if_pos hx.1]
    exact Int.floor_nonneg.2 (by linarith [hx.1])
  have h2 : roundAway x < n := by
    rw [roundAway, if_pos hx.1, Int.floor_lt]
    push_cast
    linarith [hx.2]
  rw [round_eq hx.1 ht, inside_of h1 h2]
  simp [tapSum]

/-! ## One box -/

theorem rows_one {α : Type} {l : List α} {k : Nat} (h : k < l.length) : rows l k (k + 1) = [l[k]] := by
  unfold rows
  rw [List.drop_take]
  have : k + 1 - k = 1 := by omega
  rw [this, List.drop_eq_getElem_cons h]
  rfl

/-- The image that belongs to a box. -/
theorem slice_image {x : T ℚ} {B h w c b : Nat} (hx : x.shape = [B, h, w, c]) (hb : b < B) :
    ∃ z, sliceT [(b : Int)] [(b : Int) + 1] [0] x = some z ∧ z.shape = [1, h, w, c] ∧ ∀ i j k, z.get [0, i, j, k] = x.get [b, i, j, k] := by
  have hc := slice_count (s := (b : Int)) (e := (b : Int) + 1) (d := ((B : Nat) : Int)) (by omega) (by omega)
  have h1 : SliceSpec.count ⟨(b : Int), (b : Int) + 1, 1⟩ ((B : Nat) : Int) = 1 := by
    rw [hc.2]
    unfold clampPos
    rw [if_neg (by omega)]
    omega
  refine ⟨_, if_pos ⟨rfl, rfl, by simp only [hx, List.length_cons, List.length_nil]; decide⟩, ?_, fun i j k => ?_⟩
  · simp only [sliceOn, slice_eq, hx]
    simp [List.range_succ, slicePar, Tensor.normAxis, nth]
    exact h1
  · simp only [sliceOn, slice_eq, hx]
    simp [List.range_succ, slicePar, Tensor.normAxis, nth]
    rw [hc.1]
    have e : (b : Int).toNat = b := by omega
    rw [e]

/-- No coordinate of box `k` lies in the middle between two pixels. -/
def NoTies (h w ch cw : Nat) (box : List ℚ) : Prop :=
  (∀ p, p < ch → Int.fract (cropCoord (box.getD 0 0) (box.getD 2 0) h ch p) ≠ 1 / 2) ∧ ∀ q, q < cw → Int.fract (cropCoord (box.getD 1 0) (box.getD 3 0) w cw q) ≠ 1 / 2

/-- ONNX's operator on one image with the channels first. -/
theorem resizeRoi_eq {nearest : Bool} {extra : ℚ} {t : T ℚ} {h w c ch cw : Nat} {y1 x1 y2 x2 : ℚ} (ht : t.shape = [1, c, h, w])
    (hties : nearest = true → NoTies h w ch cw [y1, x1, y2, x2]) :
    ∃ r, resizeRoi (!nearest) extra (roiOf [y1, x1, y2, x2]) (targetSize t [(ch : Int), (cw : Int)]) t = some r ∧ r.shape = [1, c, ch, cw] ∧
      ∀ k p q, k < c → p < ch → q < cw → r.get [0, k, p, q] =
        if Within h (cropCoord y1 y2 h ch p) ∧ Within w (cropCoord x1 x2 w cw q) then
          (if nearest then nearestAt (fun y z => t.get [0, k, y, z]) (cropCoord y1 y2 h ch p) (cropCoord x1 x2 w cw q)
            else bilinearAt (fun y z => t.get [0, k, y, z]) (cropCoord y1 y2 h ch p) (cropCoord x1 x2 w cw q)) else extra := by
  have es : targetSize t [(ch : Int), (cw : Int)] = [1, (c : Int), (ch : Int), (cw : Int)] := by
    unfold targetSize; rw [ht]; rfl
  have er : roiOf [y1, x1, y2, x2] = [0, 0, y1, x1, 1, 1, y2, x2] := (rfl)
  have hfit : [1, (c : Int), (ch : Int), (cw : Int)].length = t.shape.length ∧ [0, 0, y1, x1, 1, 1, y2, x2].length = 2 * t.shape.length ∧
      (∀ s ∈ [1, (c : Int), (ch : Int), (cw : Int)], 0 ≤ s) := by
    refine ⟨by rw [ht]; rfl, by rw [ht]; rfl, ?_⟩
    intro s hs
    simp only [List.mem_cons, List.not_mem_nil, or_false] at hs
    omega
  rw [es, er]
  refine ⟨_, if_pos hfit, rfl, ?_⟩
  intro k p q hk hp hq
  have hl : t.shape.length = 4 := by rw [ht]; rfl
  dsimp only
  rw [hl, ht]
  show (if ∀ j ∈ [0, 1, 2, 3], Within (nth [1, c, h, w] j) (roiCoord ([0, 0, y1, x1, 1, 1, y2, x2].getD j 0) ([0, 0, y1, x1, 1, 1, y2, x2].getD (4 + j) 0) (nth [1, c, h, w] j)
      (([1, (c : Int), (ch : Int), (cw : Int)].getD j 0).toNat) (nth [0, k, p, q] j)) then
        tapSum (roiTaps (!nearest) 1 (roiCoord 0 1 1 1 0)) (fun a => tapSum (roiTaps (!nearest) c (roiCoord 0 1 c c k)) (fun b =>
          tapSum (roiTaps (!nearest) h (roiCoord y1 y2 h ch p)) (fun y => tapSum (roiTaps (!nearest) w (roiCoord x1 x2 w cw q)) (fun z => t.get [a, b, y, z])))) else extra) = _
  have e0 : roiCoord 0 1 1 1 0 = ((0 : Nat) : ℚ) := roi_whole (by omega)
  have e1 : roiCoord 0 1 c c k = (k : ℚ) := roi_whole hk
  have hcond : (∀ j ∈ [0, 1, 2, 3], Within (nth [1, c, h, w] j) (roiCoord ([0, 0, y1, x1, 1, 1, y2, x2].getD j 0) ([0, 0, y1, x1, 1, 1, y2, x2].getD (4 + j) 0) (nth [1, c, h, w] j)
      (([1, (c : Int), (ch : Int), (cw : Int)].getD j 0).toNat) (nth [0, k, p, q] j))) ↔ (Within h (cropCoord y1 y2 h ch p) ∧ Within w (cropCoord x1 x2 w cw q)) := by
    simp only [List.mem_cons, List.not_mem_nil, or_false, forall_eq_or_imp, forall_eq]
    show (Within 1 (roiCoord 0 1 1 1 0) ∧ Within c (roiCoord 0 1 c c k) ∧ Within h (roiCoord y1 y2 h ch p) ∧ Within w (roiCoord x1 x2 w cw q)) ↔ _
    rw [e0, e1, roi_eq, roi_eq]
    exact ⟨fun g => ⟨g.2.2.1, g.2.2.2⟩, fun g => ⟨within_nat (by omega), within_nat hk, g.1, g.2⟩⟩
  by_cases hw : Within h (cropCoord y1 y2 h ch p) ∧ Within w (cropCoord x1 x2 w cw q)
  · rw [if_pos (hcond.2 hw), if_pos hw, e0, e1, taps_nat (by omega), taps_nat hk, roi_eq, roi_eq]
    cases nearest
    · rw [if_neg (by decide), Bool.not_false]
      rw [taps_linear hw.1]
      simp only [taps_linear hw.2]
      rfl
    · have hn := hties rfl;
      rw [if_pos rfl, Bool.not_true]
      rw [taps_nearest hw.1 (hn.1 p hp), taps_nearest hw.2 (hn.2 q hq)]
      rfl
  · rw [if_neg (fun g => hw (hcond.1 g)), if_neg hw]

/-- One iteration. -/
theorem body_eq {nearest : Bool} {extra : ℚ} {x : T ℚ} {B h w c ch cw : Nat} {boxes : List (List ℚ)} {ind : List Int} {k : Nat}
    (hx : x.shape = [B, h, w, c]) (hk : k < ind.length) (hl : boxes.length = ind.length) (h4 : ∀ b ∈ boxes, b.length = 4) (hi : ∀ b ∈ ind, 0 ≤ b ∧ b < B)
    (hties : nearest = true → ∀ b ∈ boxes, NoTies h w ch cw b) :
    ∃ z, cropBody nearest extra [(ch : Int), (cw : Int)] x boxes ind k = some z ∧ z.shape = [ch, cw, c] ∧
      ∀ p q r, p < ch → q < cw → r < c → z.get [p, q, r] = (tfCrop nearest extra ch cw x boxes ind).get [k, p, q, r] := by
  have hkb : k < boxes.length := by omega
  obtain ⟨b, hb⟩ : ∃ b : Nat, ind[k] = (b : Int) := ⟨ind[k].toNat, by have := hi ind[k] (List.getElem_mem hk); omega⟩
  have hbB : b < B := by have := hi ind[k] (List.getElem_mem hk); omega
  match hbox : boxes[k], h4 boxes[k] (List.getElem_mem hkb) with
  | [y1, x1, y2, x2], _ =>
    have hr1 : rows ind k (k + 1) = [(b : Int)] := by rw [rows_one hk, hb]
    have hr2 : rows boxes k (k + 1) = [[y1, x1, y2, x2]] := by rw [rows_one hkb, hbox]
    obtain ⟨u, u1, u2, u3⟩ := slice_image hx hbB
    have t1 : transposeT [0, 3, 1, 2] u = some (transpose [0, 3, 1, 2] u) := if_pos ⟨by decide, by rw [u2]; rfl⟩
    have ts : (transpose [0, 3, 1, 2] u).shape = [1, c, h, w] := by
      show [nth u.shape 0, nth u.shape 3, nth u.shape 1, nth u.shape 2] = _
      rw [u2]; rfl
    obtain ⟨r, r1, r2, r3⟩ := resizeRoi_eq (nearest := nearest) (extra := extra) (ch := ch) (cw := cw) (y1 := y1) (x1 := x1) (y2 := y2) (x2 := x2) ts
      (fun g => by have := hties g boxes[k] (List.getElem_mem hkb); rwa [hbox] at this)
    have t2 : transposeT [0, 2, 3, 1] r = some (transpose [0, 2, 3, 1] r) := if_pos ⟨by decide, by rw [r2]; rfl⟩
    have es : (transpose [0, 2, 3, 1] r).shape = [1, ch, cw, c] := by
      show [nth r.shape 0, nth r.shape 2, nth r.shape 3, nth r.shape 1] = _
      rw [r2]; rfl
    have t3 : squeezeT [0] (transpose [0, 2, 3, 1] r) = some (squeeze (fun i => [0].contains i) (transpose [0, 2, 3, 1] r)) := by
      refine if_pos ⟨by decide, ?_⟩
      intro a ha
      simp only [List.mem_cons, List.not_mem_nil, or_false] at ha
      subst ha
      rw [es]
      exact ⟨by simp, rfl⟩
    refine ⟨squeeze (fun i => [0].contains i) (transpose [0, 2, 3, 1] r), ?_, ?_, ?_⟩
    · unfold cropBody
      rw [hr1, hr2]
      dsimp only [List.flatten_cons, List.flatten_nil, List.append_nil]
      rw [u1, Option.bind_some, t1, Option.bind_some]
      show (if [y1, x1, y2, x2].length = 4 then _ else none) = _
      rw [if_pos (show [y1, x1, y2, x2].length = 4 from rfl)]
      show (resizeRoi (!nearest) extra (roiOf [y1, x1, y2, x2]) (targetSize (transpose [0, 3, 1, 2] u) [(ch : Int), (cw : Int)]) (transpose [0, 3, 1, 2] u)).bind _ = _
      rw [r1, Option.bind_some, t2, Option.bind_some, t3]
    · simp only [squeeze, es]
      rfl
    · intro p q v hp hq hv
      have e1 : (squeeze (fun i => [0].contains i) (transpose [0, 2, 3, 1] r)).get [p, q, v] = r.get [0, v, p, q] := by
        simp only [squeeze, es]
        rfl
      rw [e1, r3 v p q hv hp hq]
      have e2 : ind.getD k 0 = (b : Int) := by rw [List.getD_eq_getElem?_getD, List.getElem?_eq_getElem hk, Option.getD_some, hb]
      have e3 : boxes.getD k [] = [y1, x1, y2, x2] := by rw [List.getD_eq_getElem?_getD, List.getElem?_eq_getElem hkb, Option.getD_some, hbox]
      have e4 : ∀ y z, (transpose [0, 3, 1, 2] u).get [0, v, y, z] = x.get [b, y, z, v] := fun y z => u3 y z v
      show _ = (if Within (nth x.shape 1) (cropCoord ((boxes.getD k []).getD 0 0) ((boxes.getD k []).getD 2 0) (nth x.shape 1) ch p) ∧
          Within (nth x.shape 2) (cropCoord ((boxes.getD k []).getD 1 0) ((boxes.getD k []).getD 3 0) (nth x.shape 2) cw q) then
            (if nearest then nearestAt (fun y z => x.get [(ind.getD k 0).toNat, y, z, v]) (cropCoord ((boxes.getD k []).getD 0 0) ((boxes.getD k []).getD 2 0) (nth x.shape 1) ch p)
                (cropCoord ((boxes.getD k []).getD 1 0) ((boxes.getD k []).getD 3 0) (nth x.shape 2) cw q)
              else bilinearAt (fun y z => x.get [(ind.getD k 0).toNat, y, z, v]) (cropCoord ((boxes.getD k []).getD 0 0) ((boxes.getD k []).getD 2 0) (nth x.shape 1) ch p)
                (cropCoord ((boxes.getD k []).getD 1 0) ((boxes.getD k []).getD 3 0) (nth x.shape 2) cw q)) else extra)
      rw [e2, e3, hx]
      simp only [e4]
      rfl

/-! ## The loop -/

theorem mapM_range {f : Nat → Option (T ℚ)} {P : Nat → T ℚ → Prop} (n : Nat) (h : ∀ k, k < n → ∃ z, f k = some z ∧ P k z) :
    ∃ zs, (List.range n).mapM f = some zs ∧ zs.length = n ∧ ∀ k (hk : k < zs.length), P k zs[k] := by
  induction n with
  | zero => exact ⟨[], rfl, rfl, fun k hk => absurd hk (Nat.not_lt_zero k)⟩
  | succ n ih =>
    obtain ⟨zs, h1, h2, h3⟩ := ih (fun k hk => h k (by omega))
    obtain ⟨z, q1, q2⟩ := h n (by omega)
    refine ⟨zs ++ [z], ?_, by simp [h2], ?_⟩
    · rw [List.range_succ, List.mapM_append, h1]
      simp [q1]
    · intro k hk
      by_cases hlt : k < zs.length
      · rw [List.getElem_append_left hlt]; exact h3 k hlt
      · have : k = n := by simp [h2] at hk; omega
        subst this
        rw [List.getElem_append_right (by omega)]
        simpa [h2] using q2

/-- **C77.** The loop that `CropAndResize` becomes from operator set 11 on gives TensorFlow's crops, for every image, every list of boxes (also an empty one) and every size of the crops;
with `method = nearest` where no coordinate lies in the middle between two pixels. -/
theorem crop_sound_partial {nearest : Bool} {extra : ℚ} {empty : List Nat} {x : T ℚ} {B h w c ch cw : Nat} {boxes : List (List ℚ)} {ind : List Int}
    (hx : x.shape = [B, h, w, c]) (hpos : 0 < c ∧ 0 < ch ∧ 0 < cw) (hl : boxes.length = ind.length) (h4 : ∀ b ∈ boxes, b.length = 4) (hi : ∀ b ∈ ind, 0 ≤ b ∧ b < B)
    (hties : nearest = true → ∀ b ∈ boxes, NoTies h w ch cw b) :
    ∃ z, crop nearest extra empty [(ch : Int), (cw : Int)] x boxes ind = some z ∧ Same z (tfCrop nearest extra ch cw x boxes ind) := by
  obtain ⟨zs, m1, m2, m3⟩ := mapM_range (f := cropBody nearest extra [(ch : Int), (cw : Int)] x boxes ind)
    (P := fun k z => z.shape = [ch, cw, c] ∧ ∀ p q r, p < ch → q < cw → r < c → z.get [p, q, r] = (tfCrop nearest extra ch cw x boxes ind).get [k, p, q, r]) ind.length
    (fun k hk => by
      obtain ⟨z, z1, z2, z3⟩ := body_eq (nearest := nearest) (extra := extra) (ch := ch) (cw := cw) hx hk hl h4 hi hties
      exact ⟨z, z1, z2, z3⟩)
  have et : [-1] ++ [(ch : Int), (cw : Int)] ++ sliceVec (x.shape.map Int.ofNat) 3 4 = (([] : List Nat).map Int.ofNat ++ (-1) :: [ch, cw, c].map Int.ofNat) := by
    rw [hx]; rfl
  have hd : ∀ d ∈ ([] : List Nat) ++ [ch, cw, c], 0 < d := by
    intro d hd
    simp only [List.nil_append, List.mem_cons, List.not_mem_nil, or_false] at hd
    omega
  have hts : (tfCrop nearest extra ch cw x boxes ind).shape = [ind.length, ch, cw, c] := by
    show [ind.length, ch, cw, nth x.shape 3] = _
    rw [hx]; rfl
  match hzs : zs, m2 with
  | [], m2 =>
    have hs : size (0 :: empty) = size (([] : List Nat) ++ 0 :: [ch, cw, c]) := by simp [size]
    refine ⟨Tensor.reshape [0, ch, cw, c] ⟨0 :: empty, fun _ => 0⟩, ?_, ?_, ?_⟩
    · rw [crop, m1]
      show (reshapeDims (0 :: empty) ([-1] ++ [(ch : Int), (cw : Int)] ++ sliceVec (x.shape.map Int.ofNat) 3 4)).map _ = _
      rw [et, reshapeDims_open hd hs]
      rfl
    · rw [hts, ← m2]; rfl
    · intro i hi
      have := hi.2 0 (by show 0 < 4; omega)
      exact absurd this (Nat.not_lt_zero _)
  | t :: ts, m2 =>
    have ht : t.shape = [ch, cw, c] := (m3 0 (by simp)).1
    have hall : ∀ u ∈ ts, u.shape = t.shape := by
      intro u hu
      obtain ⟨j, hj, rfl⟩ := List.getElem_of_mem hu
      have := (m3 (j + 1) (by simp; omega)).1
      rw [ht]
      simpa using this
    have hso : scanOutput empty (t :: ts) = some ⟨(ts.length + 1) :: t.shape, fun i => ((t :: ts).getD (nth i 0) t).get (i.drop 1)⟩ := if_pos hall
    have hs : size ((ts.length + 1) :: t.shape) = size (([] : List Nat) ++ (ts.length + 1) :: [ch, cw, c]) := by rw [ht]; rfl
    have hself := Verif.Symbolic.reshape_self (⟨(ts.length + 1) :: t.shape, fun i => ((t :: ts).getD (nth i 0) t).get (i.drop 1)⟩ : T ℚ)
    refine ⟨Tensor.reshape [ts.length + 1, ch, cw, c] ⟨(ts.length + 1) :: t.shape, fun i => ((t :: ts).getD (nth i 0) t).get (i.drop 1)⟩, ?_, ?_⟩
    · rw [crop, m1]
      show ((scanOutput empty (t :: ts)).bind _) = _
      rw [hso]
      show (reshapeDims ((ts.length + 1) :: t.shape) ([-1] ++ [(ch : Int), (cw : Int)] ++ sliceVec (x.shape.map Int.ofNat) 3 4)).map _ = _
      rw [et, reshapeDims_open hd hs]
      rfl
    · have hself' : Same (Tensor.reshape [ts.length + 1, ch, cw, c] ⟨(ts.length + 1) :: t.shape, fun i => ((t :: ts).getD (nth i 0) t).get (i.drop 1)⟩)
          (⟨(ts.length + 1) :: t.shape, fun i => ((t :: ts).getD (nth i 0) t).get (i.drop 1)⟩ : T ℚ) := by
        have e : (⟨(ts.length + 1) :: t.shape, fun i => ((t :: ts).getD (nth i 0) t).get (i.drop 1)⟩ : T ℚ).shape = [ts.length + 1, ch, cw, c] := by
          show (ts.length + 1) :: t.shape = _
          rw [ht]
        rw [e] at hself
        exact hself
      refine hself'.trans ⟨?_, ?_⟩
      · rw [hts]
        show (ts.length + 1) :: t.shape = _
        rw [ht, ← m2]
        rfl
      · intro i hi
        have hi' : InB [ts.length + 1, ch, cw, c] i := by rw [← ht]; exact hi
        match i, hi'.1 with
        | [k, p, q, r], _ =>
          have hk : k < ts.length + 1 := hi'.2 0 (by simp)
          have hp : p < ch := hi'.2 1 (by simp)
          have hq : q < cw := hi'.2 2 (by simp)
          have hr : r < c := hi'.2 3 (by simp)
          have hk' : k < (t :: ts).length := hk
          have := (m3 k hk').2 p q r hp hq hr
          show ((t :: ts).getD k t).get [p, q, r] = _
          rw [List.getD_eq_getElem?_getD, List.getElem?_eq_getElem hk', Option.getD_some]
          exact this

end Verif.Crop
