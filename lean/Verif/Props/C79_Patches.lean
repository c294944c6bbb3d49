import Verif.Model.Patches
import Verif.Props.C57_Conv
import Verif.Props.C62_Dot
import Verif.Props.C75_Blocks
import Verif.Props.EmitVec
import Mathlib.Algebra.Ring.Defs
import Mathlib.Algebra.BigOperators.Group.List.Lemmas
/-!
# C79: patches of images
-/
namespace Verif.Patches
open Verif.Tensor Verif.Emit Verif.Conv Verif.Einsum

variable {R : Type}

/-! ## Sums with one term -/

theorem sum_one {ι : Type} [DecidableEq ι] [AddMonoid R] {l : List ι} {a : ι} {f : ι → R} (hn : l.Nodup) (ha : a ∈ l) (h : ∀ b ∈ l, b ≠ a → f b = 0) : (l.map f).sum = f a := by
  rw [List.sum_map_eq_nsmul_single a f (fun b hb hm => h b hm hb), List.count_eq_one_of_mem hn ha, one_nsmul]

theorem sum_zero {ι : Type} [AddMonoid R] {l : List ι} {f : ι → R} (h : ∀ b ∈ l, f b = 0) : (l.map f).sum = 0 := by
  induction l with
  | nil => rfl
  | cons a l ih => rw [List.map_cons, List.sum_cons, h a (by simp), ih (fun b hb => h b (by simp [hb])), add_zero]

/-- A window times a kernel that is one at one place and zero elsewhere: the element at that place. -/
theorem sum_unit [Semiring R] {K : List Nat} {k₀ : List Nat} (hk : InB K k₀) (f : List Nat → Nat → R × R) (h1 : (f k₀ 0).2 = 1)
    (h0 : ∀ k, InB K k → k ≠ k₀ → (f k 0).2 = 0) : sumOfProducts K 1 f = (f k₀ 0).1 := by
  unfold sumOfProducts
  have e : ∀ k, ((List.range 1).map (fun c => (f k c).1 * (f k c).2)).sum = (f k 0).1 * (f k 0).2 := fun k => by simp
  simp only [e]
  rw [sum_one (TransposeOpt.nodup_allIdx K) ((TransposeOpt.mem_allIdx K k₀).2 hk)]
  · rw [h1, mul_one]
  · intro k hk' hne
    rw [h0 k ((TransposeOpt.mem_allIdx K k).1 hk') hne, mul_zero]

/-! ## The rearrangements -/

theorem reshapeTo_full {s : List Nat} {r : List Nat} {x : T R} (hx : x.shape = s) (hpos : ∀ d ∈ r, 0 < d) (hs : size r = size s) :
    reshapeTo (r.map Int.ofNat) x = some (Tensor.reshape r x) := by
  unfold reshapeTo
  rw [hx, reshapeDims_full hpos hs]
  rfl

theorem reshapeTo_open {s : List Nat} {n : Nat} {r : List Nat} {x : T R} (hx : x.shape = s) (hpos : ∀ d ∈ r, 0 < d) (hs : size (n :: r) = size s) :
    reshapeTo (-1 :: r.map Int.ofNat) x = some (Tensor.reshape (n :: r) x) := by
  unfold reshapeTo
  have := reshapeDims_open (s := s) (pre := []) (post := r) (n := n) (by simpa using hpos) hs.symm
  simp only [List.map_nil, List.nil_append] at this
  rw [hx, this]
  rfl

/-- Either form of the target. -/
theorem reshapeTo_known {s : List Nat} {n : Nat} {b : Int} {r : List Nat} {x : T R} (hx : x.shape = s) (hb : b = n ∨ b = -1) (hpos : ∀ d ∈ n :: r, 0 < d) (hs : size (n :: r) = size s) :
    reshapeTo (b :: r.map Int.ofNat) x = some (Tensor.reshape (n :: r) x) := by
  rcases hb with rfl | rfl
  · exact reshapeTo_full hx hpos hs
  · exact reshapeTo_open hx (fun d hd => hpos d (by simp [hd])) hs

/-- The images apart. -/
theorem single_ok {N H W C : Nat} {b : Int} {x : T R} (hx : x.shape = [N, H, W, C]) (hN : 0 < N) (hH : 0 < H) (hW : 0 < W) (hC : 0 < C) (hb : b = N ∨ (b = -1 ∧ C = 1)) :
    ∃ y, single [b, H, W, C] x = some y ∧ y.shape = [N * C, H, W, 1] ∧
      ∀ a h w, a < N * C → h < H → w < W → y.get [a, h, w, 0] = x.get [a / C, h, w, a % C] := by
  have ht : transposeT [0, 3, 1, 2] x = some (transpose [0, 3, 1, 2] x) := by
    unfold transposeT
    rw [hx]
    exact if_pos ⟨by decide, rfl⟩
  have hs : (transpose [0, 3, 1, 2] x).shape = [N, C, H, W] := by
    show [0, 3, 1, 2].map (nth x.shape) = _
    rw [hx]
    rfl
  have hbC : b * C = (N * C : Nat) ∨ b * (C : Int) = -1 := by
    rcases hb with rfl | ⟨rfl, rfl⟩
    · left; push_cast; rfl
    · right; rfl
  have hr := reshapeTo_known (n := N * C) (r := [H, W, 1]) hs hbC (by
    intro d hd
    simp only [List.mem_cons, List.not_mem_nil, or_false] at hd
    rcases hd with rfl | rfl | rfl | rfl
    · exact Nat.mul_pos hN hC
    · exact hH
    · exact hW
    · exact Nat.one_pos) (by simp [size, Nat.mul_assoc])
  refine ⟨Tensor.reshape [N * C, H, W, 1] (transpose [0, 3, 1, 2] x), ?_, rfl, ?_⟩
  · unfold single
    rw [ht]
    exact hr
  · intro a h w ha hh hw
    have e := reshape_get (x := transpose [0, 3, 1, 2] x) (r := [N * C, H, W, 1]) (i := [a, h, w, 0]) (j := [a / C, a % C, h, w])
      (by rw [hs]; exact Channels.inB4 (Nat.div_lt_of_lt_mul (by rwa [Nat.mul_comm] at ha)) (Nat.mod_lt _ hC) hh hw) (by
        rw [hs]
        simp only [lin, size, List.foldr_cons, List.foldr_nil]
        have := Nat.div_add_mod a C
        have e2 : a * (H * W) = (C * (a / C) + a % C) * (H * W) := by rw [this]
        simp only [Nat.mul_one, Nat.add_zero]
        rw [e2, Nat.add_mul]
        rw [Nat.mul_comm C (a / C), Nat.mul_assoc]
        omega)
    rw [e]
    rfl

/-- The convolved images as channels. -/
theorem arrange_ok {N C P Q k : Nat} {b b' : Int} {z : T R} (hz : z.shape = [N * C, P, Q, k]) (hN : 0 < N) (hC : 0 < C) (hP : 0 < P) (hQ : 0 < Q) (hk : 0 < k)
    (H W : Int) (hb : b = N ∨ b = -1) (hb' : b' = N ∨ b' = -1) (kk : Int) (hkk : kk = k) (kc : Nat) (hkc : kc = k * C) :
    ∃ y, arrange [b, H, W, C] [b', P, Q, kc] kk z = some y ∧ y.shape = [N, P, Q, kc] ∧
      ∀ n p q j, n < N → p < P → q < Q → j < kc → y.get [n, p, q, j] = z.get [n * C + j % C, p, q, j / C] := by
  subst hkk hkc
  have h1 := reshapeTo_known (n := N) (r := [C, P, Q, k]) hz hb (by
    intro d hd
    simp only [List.mem_cons, List.not_mem_nil, or_false] at hd
    rcases hd with rfl | rfl | rfl | rfl | rfl <;> assumption) (by simp [size, Nat.mul_assoc])
  have ht : transposeT [0, 2, 3, 4, 1] (Tensor.reshape [N, C, P, Q, k] z) = some (transpose [0, 2, 3, 4, 1] (Tensor.reshape [N, C, P, Q, k] z)) := if_pos ⟨by decide, rfl⟩
  have h2 := reshapeTo_known (x := transpose [0, 2, 3, 4, 1] (Tensor.reshape [N, C, P, Q, k] z)) (s := [N, P, Q, k, C]) (n := N) (r := [P, Q, k * C]) rfl hb' (by
    intro d hd
    simp only [List.mem_cons, List.not_mem_nil, or_false] at hd
    rcases hd with rfl | rfl | rfl | rfl
    · exact hN
    · exact hP
    · exact hQ
    · exact Nat.mul_pos hk hC) (by simp [size])
  refine ⟨Tensor.reshape [N, P, Q, k * C] (transpose [0, 2, 3, 4, 1] (Tensor.reshape [N, C, P, Q, k] z)), ?_, rfl, ?_⟩
  · unfold arrange
    show (reshapeTo (b :: [C, P, Q, k].map Int.ofNat) z).bind _ = _
    rw [h1]
    dsimp only [Option.bind_some]
    rw [ht]
    exact h2
  · intro n p q j hn hp hq hj
    have hjk : j / C < k := Nat.div_lt_of_lt_mul (by rwa [Nat.mul_comm] at hj)
    have hjC : j % C < C := Nat.mod_lt _ hC
    have hdm := Nat.div_add_mod j C
    have e1 := reshape_get (x := transpose [0, 2, 3, 4, 1] (Tensor.reshape [N, C, P, Q, k] z)) (r := [N, P, Q, k * C]) (i := [n, p, q, j]) (j := [n, p, q, j / C, j % C])
      (inB_cons.2 ⟨hn, inB_cons.2 ⟨hp, inB_cons.2 ⟨hq, inB_cons.2 ⟨hjk, inB_cons.2 ⟨hjC, by simp [InB]⟩⟩⟩⟩⟩) (by
        show lin [N, P, Q, k * C] _ = lin [N, P, Q, k, C] _
        simp only [lin, size, List.foldr_cons, List.foldr_nil, Nat.mul_one, Nat.add_zero]
        rw [Nat.mul_comm C] at hdm
        omega)
    rw [e1]
    show (Tensor.reshape [N, C, P, Q, k] z).get [n, j % C, p, q, j / C] = _
    refine reshape_get (j := [n * C + j % C, p, q, j / C]) ?_ ?_
    · rw [hz]
      refine Channels.inB4 ?_ hp hq hjk
      calc n * C + j % C < n * C + C := by omega
        _ = (n + 1) * C := by rw [Nat.add_mul, Nat.one_mul]
        _ ≤ N * C := Nat.mul_le_mul_right _ hn
    · rw [hz]
      simp only [lin, size, List.foldr_cons, List.foldr_nil, Nat.mul_one, Nat.add_zero]
      rw [Nat.add_mul, Nat.mul_assoc]
      omega

/-- The kernel: one at the place of its number. -/
theorem kernel_ok [Zero R] [One R] {kh kw : Nat} (hh : 0 < kh) (hw : 0 < kw) :
    ∃ w : T R, kernel (kh : Int) (kw : Int) = some w ∧ w.shape = [kh, kw, 1, kh * kw] ∧
      ∀ i j q, i < kh → j < kw → q < kh * kw → w.get [i, j, 0, q] = if i * kw + j = q then 1 else 0 := by
  have e : ((kh : Int) * kw).toNat = kh * kw := by rw [← Nat.cast_mul]; rfl
  have h := reshapeTo_full (R := R) (x := eye (kh * kw)) (s := [kh * kw, kh * kw]) (r := [kh, kw, 1, kh * kw]) rfl (by
    intro d hd
    simp only [List.mem_cons, List.not_mem_nil, or_false] at hd
    rcases hd with rfl | rfl | rfl | rfl
    · exact hh
    · exact hw
    · exact Nat.one_pos
    · exact Nat.mul_pos hh hw) (by simp [size, Nat.mul_assoc])
  refine ⟨Tensor.reshape [kh, kw, 1, kh * kw] (eye (kh * kw)), ?_, rfl, ?_⟩
  · unfold kernel
    rw [e]
    exact h
  · intro i j q hi hj hq
    have hij : i * kw + j < kh * kw := by
      calc i * kw + j < i * kw + kw := by omega
        _ = (i + 1) * kw := by rw [Nat.add_mul, Nat.one_mul]
        _ ≤ kh * kw := Nat.mul_le_mul_right _ hi
    exact reshape_get (x := eye (kh * kw)) (r := [kh, kw, 1, kh * kw]) (i := [i, j, 0, q]) (j := [i * kw + j, q])
      (inB_cons.2 ⟨hij, inB_cons.2 ⟨hq, by simp [InB]⟩⟩) (by
        show lin [kh, kw, 1, kh * kw] _ = lin [kh * kw, kh * kw] _
        simp only [lin, size, List.foldr_cons, List.foldr_nil, Nat.mul_one, Nat.add_zero, Nat.one_mul, Nat.zero_mul]
        rw [Nat.add_mul, Nat.mul_assoc, Nat.zero_add, Nat.add_assoc])

/-! ## The handler -/

/-- An `ExtractImagePatches` that TensorFlow accepts, and what the converter knows of it. -/
structure Extracts [Zero R] (n : PatchNode) (p : TfPad) (sizes strides rates : List Nat) (x : T R) : Prop where
  padding : n.padding = "SAME" ∧ p = .same ∨ n.padding = "VALID" ∧ p = .valid
  sizeAttr : n.sizes = sizes.map Int.ofNat
  sizeLen : sizes.length = 4
  sizePos : ∀ d ∈ sizes, 1 ≤ d
  strideAttr : n.strides = strides.map Int.ofNat
  strideLen : strides.length = 4
  stridePos : ∀ d ∈ strides, 1 ≤ d
  rateAttr : n.rates = rates.map Int.ofNat
  rateLen : rates.length = 4
  ratePos : ∀ d ∈ rates, 1 ≤ d
  image : x.shape.length = 4
  imagePos : ∀ d ∈ x.shape, 1 ≤ d
  /-- the result is not empty -/
  notEmpty : ∀ d ∈ (tfPatches p sizes strides rates x).shape, 1 ≤ d
  /-- the shapes are known; the number of images only if there is more than one channel -/
  inShape : ∃ b, n.inShape = some (b :: (x.shape.drop 1).map Int.ofNat) ∧ (b = nth x.shape 0 ∨ (b = -1 ∧ nth x.shape 3 = 1))
  outShape : ∃ b, n.outShape = some (b :: ((tfPatches p sizes strides rates x).shape.drop 1).map Int.ofNat) ∧ (b = nth x.shape 0 ∨ b = -1)

theorem list4 {l : List Nat} (h : l.length = 4) : ∃ a b c d, l = [a, b, c, d] := by
  match l, h with
  | [a, b, c, d], _ => exact ⟨a, b, c, d, rfl⟩

/-- The convolution of one-channel images. -/
theorem tfConv_single [Semiring R] {p : TfPad} (hp : p = .same ∨ p = .valid) {B H W kh kw N C : Nat} {strides rates : List Nat} {s0 s3 : Nat} (hk : 0 < kh) (hk' : 0 < kw) {x y w : T R}
    (hx : x.shape = [N, H, W, C]) (hy : y.shape = [B, H, W, 1]) (hw : w.shape = [kh, kw, 1, kh * kw])
    (hw1 : ∀ i j q, i < kh → j < kw → q < kh * kw → w.get [i, j, 0, q] = if i * kw + j = q then 1 else 0) :
    (tfConv sumOfProducts 0 true p strides rates y w).shape =
        [B, nth (tfPatches p [s0, kh, kw, s3] strides rates x).shape 1, nth (tfPatches p [s0, kh, kw, s3] strides rates x).shape 2, kh * kw] ∧
      ∀ a u v q, q < kh * kw → (tfConv sumOfProducts 0 true p strides rates y w).get [a, u, v, q] =
        (let g := tfGeom p true x.shape [kh, kw] (spatialPart true 2 strides) (spatialPart true 2 rates)
         let P := g.pos (spOf true [a, u, v, q]) (nth [q / kw, q % kw])
         if ∀ i, i < 2 → nth g.before i ≤ P i ∧ P i - nth g.before i < spOf true x.shape i then y.get [a, P 0 - nth g.before 0, P 1 - nth g.before 1, 0] else 0) := by
  have hg : tfGeom p true y.shape [kh, kw] (spatialPart true 2 strides) (spatialPart true 2 rates) =
      tfGeom p true x.shape [kh, kw] (spatialPart true 2 strides) (spatialPart true 2 rates) := by
    rw [hx, hy]
    rcases hp with rfl | rfl <;> rfl
  have htf : tfConv sumOfProducts 0 true p strides rates y w =
      windowed true (tfGeom p true x.shape [kh, kw] (spatialPart true 2 strides) (spatialPart true 2 rates)) (kh * kw)
        (convAt sumOfProducts 0 [kh, kw] 1 (kh * kw) (fun k c q => w.get (k ++ [c, q]))) y := by
    rw [← hg]
    unfold tfConv
    simp only [hw, hy]
    show windowed true _ _ (convAt sumOfProducts 0 [kh, kw] 1 (kh * kw / (1 / 1)) _) y = _
    simp only [Nat.div_one]
    rfl
  rw [htf]
  constructor
  · obtain ⟨xs, xg⟩ := x
    obtain ⟨ys, yg⟩ := y
    dsimp only at hx hy
    subst hx hy
    rfl
  · intro a u v q hq
    have hqw : q / kw < kh := Nat.div_lt_of_lt_mul (by rwa [Nat.mul_comm] at hq)
    have hqm : q % kw < kw := Nat.mod_lt _ hk'
    have hin : InB [kh, kw] [q / kw, q % kw] := inB_cons.2 ⟨hqw, inB_cons.2 ⟨hqm, by simp [InB]⟩⟩
    generalize hM : (tfGeom p true x.shape [kh, kw] (spatialPart true 2 strides) (spatialPart true 2 rates)) = M
    have hMk : M.kernel = [kh, kw] := by rw [← hM]; rfl
    unfold windowed convAt
    dsimp only
    rw [hMk]
    have hc : chOf true [kh, kw].length [a, u, v, q] = q := rfl
    rw [hc]
    rw [sum_unit hin]
    · rw [if_pos ⟨hin, Nat.one_pos⟩]
      dsimp only
      rw [Nat.div_eq_of_lt hq]
      by_cases hi : ∀ i, i < 2 → nth M.before i ≤
          M.pos (spOf true [a, u, v, q]) (nth [q / kw, q % kw]) i ∧
          M.pos (spOf true [a, u, v, q]) (nth [q / kw, q % kw]) i -
          nth M.before i < spOf true x.shape i
      · have hi2 : ∀ i, i < 2 → spOf true x.shape i = spOf true y.shape i := by
          intro i hi
          rw [hx, hy]
          match i, hi with
          | 0, _ => rfl
          | 1, _ => rfl
        rw [if_pos hi, if_pos ⟨hin, by rw [hy]; exact Nat.one_pos, fun i h => by have := hi i h; rw [hi2 i h] at this; exact this⟩]
        rfl
      · have hi2 : ∀ i, i < 2 → spOf true x.shape i = spOf true y.shape i := by
          intro i hi
          rw [hx, hy]
          match i, hi with
          | 0, _ => rfl
          | 1, _ => rfl
        rw [if_neg hi, if_neg (fun h => hi (fun i h' => by rw [hi2 i h']; exact h.2.2 i h'))]
        rfl
    · rw [if_pos ⟨hin, Nat.one_pos⟩]
      show w.get [q / kw, q % kw, 0, q] = 1
      rw [hw1 _ _ _ hqw hqm hq, if_pos (by rw [Nat.mul_comm]; exact Nat.div_add_mod q kw)]
    · intro k hkin hne
      rw [if_pos ⟨hkin, Nat.one_pos⟩]
      obtain ⟨i, j, rfl⟩ : ∃ i j, k = [i, j] := by
        match k, hkin.1 with
        | [i, j], _ => exact ⟨i, j, rfl⟩
      have h1 : i < kh := hkin.2 0 (by simp)
      have h2 : j < kw := hkin.2 1 (by simp)
      show w.get [i, j, 0, q] = 0
      rw [hw1 _ _ _ h1 h2 hq, if_neg]
      intro he
      apply hne
      rw [← he, Nat.mul_comm i, Nat.mul_add_div (by omega), Nat.div_eq_of_lt h2, Nat.mul_add_mod, Nat.mod_eq_of_lt h2, Nat.add_zero]

/-- The element of an image at element `(i, j)` of the window at `(u, v)`. -/
def pick [Zero R] (g : Geom) (H W u v i j : Nat) (f : Nat → Nat → R) : R :=
  if (nth g.before 0 ≤ u * nth g.strides 0 + i * nth g.dilations 0 ∧ u * nth g.strides 0 + i * nth g.dilations 0 - nth g.before 0 < H) ∧
      (nth g.before 1 ≤ v * nth g.strides 1 + j * nth g.dilations 1 ∧ v * nth g.strides 1 + j * nth g.dilations 1 - nth g.before 1 < W) then
    f (u * nth g.strides 0 + i * nth g.dilations 0 - nth g.before 0) (v * nth g.strides 1 + j * nth g.dilations 1 - nth g.before 1) else 0

theorem below_two {A : Nat → Prop} : (∀ i, i < 2 → A i) ↔ A 0 ∧ A 1 :=
  ⟨fun h => ⟨h 0 (by decide), h 1 (by decide)⟩, fun h i hi => by
    match i, hi with
    | 0, _ => exact h.1
    | 1, _ => exact h.2⟩

theorem tfConv_pick [Semiring R] {p : TfPad} (hp : p = .same ∨ p = .valid) {B H W kh kw N C : Nat} {strides rates : List Nat} (s0 s3 : Nat) (hk : 0 < kh) (hk' : 0 < kw) {x y w : T R}
    (hx : x.shape = [N, H, W, C]) (hy : y.shape = [B, H, W, 1]) (hw : w.shape = [kh, kw, 1, kh * kw])
    (hw1 : ∀ i j q, i < kh → j < kw → q < kh * kw → w.get [i, j, 0, q] = if i * kw + j = q then 1 else 0) (a u v q : Nat) (hq : q < kh * kw) :
    (tfConv sumOfProducts 0 true p strides rates y w).get [a, u, v, q] =
      pick (tfGeom p true x.shape [kh, kw] (spatialPart true 2 strides) (spatialPart true 2 rates)) H W u v (q / kw) (q % kw) (fun h c => y.get [a, h, c, 0]) := by
  rw [(tfConv_single hp (s0 := s0) (s3 := s3) hk hk' hx hy hw hw1).2 a u v q hq]
  rw [hx]
  unfold pick
  dsimp only
  refine if_congr ?_ rfl rfl
  rw [below_two]
  rfl

theorem tfPatches_pick [Zero R] {p : TfPad} {H W kh kw N C s0 s3 : Nat} {strides rates : List Nat} {x : T R} (hC : 0 < C) (hk' : 0 < kw)
    (hx : x.shape = [N, H, W, C]) (n u v j : Nat) (hj : j < kh * kw * C) :
    (tfPatches p [s0, kh, kw, s3] strides rates x).get [n, u, v, j] =
      pick (tfGeom p true x.shape [kh, kw] (spatialPart true 2 strides) (spatialPart true 2 rates)) H W u v (j / C / kw) (j / C % kw) (fun h c => x.get [n, h, c, j % C]) := by
  have hjk : j / C < kh * kw := Nat.div_lt_of_lt_mul (by rwa [Nat.mul_comm] at hj)
  have hqw : j / C / kw < kh := Nat.div_lt_of_lt_mul (by rwa [Nat.mul_comm] at hjk)
  have hqm : j / C % kw < kw := Nat.mod_lt _ hk'
  have hin : InB [kh, kw] [j / C / kw, j / C % kw] := inB_cons.2 ⟨hqw, inB_cons.2 ⟨hqm, by simp [InB]⟩⟩
  have hsz : spatialPart true 2 [s0, kh, kw, s3] = [kh, kw] := rfl
  unfold tfPatches
  rw [hsz]
  generalize hM : (tfGeom p true x.shape [kh, kw] (spatialPart true 2 strides) (spatialPart true 2 rates)) = M
  have hMk : M.kernel = [kh, kw] := by rw [← hM]; rfl
  unfold windowed
  dsimp only
  rw [hMk, hx]
  have hc : chOf true [kh, kw].length [n, u, v, j] = j := rfl
  rw [hc]
  unfold pick
  by_cases h : (nth M.before 0 ≤ u * nth M.strides 0 + j / C / kw * nth M.dilations 0 ∧ u * nth M.strides 0 + j / C / kw * nth M.dilations 0 - nth M.before 0 < H) ∧
      (nth M.before 1 ≤ v * nth M.strides 1 + j / C % kw * nth M.dilations 1 ∧ v * nth M.strides 1 + j / C % kw * nth M.dilations 1 - nth M.before 1 < W)
  · rw [if_pos h, if_pos ⟨hin, Nat.mod_lt _ hC, below_two.2 h⟩]
    rfl
  · rw [if_neg h, if_neg (fun h' => h (below_two.1 h'.2.2))]
    rfl

/-- **C79**: `ExtractImagePatches` that TensorFlow accepts, of any images whose shape is known (of one-channel images the number may be unknown), with a result that is not empty, is converted, and
the transposes, reshapes and the convolution compute the same patches, exactly. -/
theorem patches_convert [Semiring R] (n : PatchNode) (p : TfPad) (sizes strides rates : List Nat) (x : T R) (h : Extracts n p sizes strides rates x) :
    ∃ y, extractPatches n x = .ok (some y) ∧ Same y (tfPatches p sizes strides rates x) := by
  obtain ⟨N, H, W, C, hx⟩ := list4 h.image
  obtain ⟨s0, kh, kw, s3, rfl⟩ := list4 h.sizeLen
  have hp : p = .same ∨ p = .valid := h.padding.imp (·.2) (·.2)
  have hkh : 1 ≤ kh := h.sizePos kh (by simp)
  have hkw : 1 ≤ kw := h.sizePos kw (by simp)
  have hpos := h.imagePos
  rw [hx] at hpos
  have hN : 1 ≤ N := hpos N (by simp)
  have hH : 1 ≤ H := hpos H (by simp)
  have hW : 1 ≤ W := hpos W (by simp)
  have hC : 1 ≤ C := hpos C (by simp)
  obtain ⟨P, hP⟩ : ∃ P, nth (tfPatches p [s0, kh, kw, s3] strides rates x).shape 1 = P := ⟨_, rfl⟩
  obtain ⟨Q, hQ⟩ : ∃ Q, nth (tfPatches p [s0, kh, kw, s3] strides rates x).shape 2 = Q := ⟨_, rfl⟩
  have hshape : (tfPatches p [s0, kh, kw, s3] strides rates x).shape = [N, P, Q, kh * kw * C] := by
    rw [← hP, ← hQ]
    have e : (tfPatches p [s0, kh, kw, s3] strides rates x).shape = [nth x.shape 0, nth (tfPatches p [s0, kh, kw, s3] strides rates x).shape 1,
      nth (tfPatches p [s0, kh, kw, s3] strides rates x).shape 2, kh * kw * nth x.shape 3] := rfl
    rw [e, hx]
    rfl
  have hne := h.notEmpty
  rw [hshape] at hne
  have hP1 : 1 ≤ P := hne P (by simp)
  have hQ1 : 1 ≤ Q := hne Q (by simp)
  have hk1 : 1 ≤ kh * kw := Nat.mul_pos hkh hkw
  obtain ⟨b, hb, hbN⟩ := h.inShape
  obtain ⟨b', hb', hbN'⟩ := h.outShape
  rw [hx] at hb hbN hbN'
  rw [hshape] at hb'
  change n.inShape = some [b, (H : Int), (W : Int), (C : Int)] at hb
  change n.outShape = some [b', (P : Int), (Q : Int), ((kh * kw * C : Nat) : Int)] at hb'
  change b = (N : Int) ∨ (b = -1 ∧ C = 1) at hbN
  change b' = (N : Int) ∨ b' = -1 at hbN'
  -- the images apart, and the kernel
  obtain ⟨y, hy, hys, hyg⟩ := single_ok hx hN hH hW hC hbN
  obtain ⟨w, hw, hws, hwg⟩ := kernel_ok (R := R) hkh hkw
  -- the convolution
  have hconv : (tfConv sumOfProducts 0 true p strides rates y w).shape = [N * C, P, Q, kh * kw] := by
    rw [(tfConv_single hp (s0 := s0) (s3 := s3) hkh hkw hx hys hws hwg).1, hP, hQ]
  have hbC : b * C = (N * C : Nat) ∨ b * (C : Int) = -1 := by
    rcases hbN with rfl | ⟨rfl, rfl⟩
    · left; push_cast; rfl
    · right; rfl
  have hnl : (convNode n [b, (H : Int), (W : Int), (C : Int)] [b', (P : Int), (Q : Int), ((kh * kw * C : Nat) : Int)] kh kw).last = true := by
    show (!("NC".toList.isPrefixOf "NHWC".toList)) = true
    decide
  have hargs : ConvArgs sumOfProducts 0 (convNode n [b, (H : Int), (W : Int), (C : Int)] [b', (P : Int), (Q : Int), ((kh * kw * C : Nat) : Int)] kh kw) 2 p strides rates y w := by
    have hk4 : ((kh : Int) * kw) = ((kh * kw : Nat) : Int) := by push_cast; rfl
    refine ⟨⟨?_, ?_, ?_, h.strideAttr, h.strideLen, h.stridePos, ?_, h.rateLen, h.ratePos⟩, by rw [hys]; rfl, by rw [hws]; rfl, ?_, ?_, ?_, ?_, ?_,
      ⟨_, rfl, ?_⟩, ⟨_, rfl, ?_⟩, ⟨_, rfl, ?_⟩, fun _ => Or.inl ?_, Or.inl ?_, fun _ => rfl⟩
    · rcases h.padding with ⟨e, rfl⟩ | ⟨e, rfl⟩
      · exact e
      · exact e
    · rcases hp with rfl | rfl <;> rfl
    · intro l hl
      rcases hp with rfl | rfl <;> exact absurd hl (by simp)
    · exact Or.inl (congrArg some h.rateAttr)
    · intro i hi
      rw [hws]
      match i, hi with
      | 0, _ => exact hkh
      | 1, _ => exact hkw
    · rw [hws]; exact Nat.le_refl 1
    · rw [hnl, hys]; exact Nat.le_refl 1
    · rw [hnl, hys, hws]; show 1 % 1 = 0; rfl
    · rw [hnl, hys, hws]; show kh * kw % (1 / 1) = 0; rw [Nat.div_one]; exact Nat.mod_one _
    · rw [hys]
      refine ⟨rfl, fun i hi => ?_⟩
      match i, hi with
      | 0, _ => exact hbC.symm.imp id (fun e => e)
      | 1, _ => exact Or.inr rfl
      | 2, _ => exact Or.inr rfl
      | 3, _ => exact Or.inr rfl
    · rw [hnl, hconv]
      refine ⟨rfl, fun i hi => ?_⟩
      match i, hi with
      | 0, _ => exact hbC.symm.imp id (fun e => e)
      | 1, _ => exact Or.inr rfl
      | 2, _ => exact Or.inr rfl
      | 3, _ => exact Or.inr hk4
    · rw [hws]
      refine ⟨rfl, fun i hi => ?_⟩
      match i, hi with
      | 0, _ => exact Or.inr rfl
      | 1, _ => exact Or.inr rfl
      | 2, _ => exact Or.inr rfl
      | 3, _ => exact Or.inr hk4
    · intro i hi
      match i, hi with
      | 0, _ => show (kh : Int) ≠ -1; omega
      | 1, _ => show (kw : Int) ≠ -1; omega
    · rw [hnl, hys, hws]; rfl
  obtain ⟨z, hz, hzs⟩ := conv_converts _ _ _ _ _ _ _ _ _ hargs
  rw [hnl] at hzs
  have hzsh : z.shape = [N * C, P, Q, kh * kw] := hzs.1.trans hconv
  -- back
  obtain ⟨r, hr, hrs, hrg⟩ := arrange_ok (b := b) (b' := b') hzsh hN hC hP1 hQ1 hk1 H W (hbN.imp id (·.1)) hbN' ((kh : Int) * kw) (by push_cast; rfl) (kh * kw * C) rfl
  refine ⟨r, ?_, ?_⟩
  · have h0 : ¬ (0 : Int) ∈ [b', (P : Int), (Q : Int), ((kh * kw * C : Nat) : Int)] := by
      have : 1 ≤ kh * kw * C := Nat.mul_pos hk1 hC
      simp only [List.mem_cons, List.not_mem_nil, or_false, not_or]
      refine ⟨?_, by omega, by omega, by omega⟩
      rcases hbN' with rfl | rfl <;> omega
    unfold extractPatches
    have hsz : n.sizes = [(s0 : Int), (kh : Int), (kw : Int), (s3 : Int)] := h.sizeAttr
    rw [hb', hsz, hb]
    dsimp only
    rw [if_neg h0]
    unfold emit
    rw [hy, hw]
    have hz' : convertedConv sumOfProducts 0 (convNode n [b, (H : Int), (W : Int), (C : Int)] [b', (P : Int), (Q : Int), ((kh * kw * C : Nat) : Int)] kh kw) 2 y w = .ok (some z) := hz
    dsimp only
    rw [hz']
    show Except.ok ((some z).bind _) = _
    exact congrArg Except.ok hr
  · refine ⟨hrs.trans hshape.symm, fun idx hi => ?_⟩
    rw [hrs] at hi
    obtain ⟨i0, u, v, j, rfl⟩ := list4 (l := idx) (by rw [hi.1]; rfl)
    obtain ⟨h1, h2, h3, h4⟩ := Channels.inB4_iff.1 hi
    have hjk : j / C < kh * kw := Nat.div_lt_of_lt_mul (by rwa [Nat.mul_comm] at h4)
    have hjC : j % C < C := Nat.mod_lt _ hC
    have ha : i0 * C + j % C < N * C := by
      calc i0 * C + j % C < i0 * C + C := by omega
        _ = (i0 + 1) * C := by rw [Nat.add_mul, Nat.one_mul]
        _ ≤ N * C := Nat.mul_le_mul_right _ h1
    rw [hrg i0 u v j h1 h2 h3 h4, hzs.2 _ (by rw [hzsh]; exact Channels.inB4 ha h2 h3 hjk), tfConv_pick hp s0 s3 hkh hkw hx hys hws hwg _ _ _ _ hjk,
      tfPatches_pick hC hkw hx _ _ _ _ h4]
    unfold pick
    refine ite_congr rfl (fun hc => ?_) (fun _ => rfl)
    dsimp only
    rw [hyg _ _ _ ha hc.1.2 hc.2.2]
    have e1 : (i0 * C + j % C) / C = i0 := by rw [Nat.mul_comm, Nat.mul_add_div hC, Nat.div_eq_of_lt hjC, Nat.add_zero]
    have e2 : (i0 * C + j % C) % C = j % C := by rw [Nat.mul_comm, Nat.mul_add_mod, Nat.mod_mod]
    rw [e1, e2]

end Verif.Patches
