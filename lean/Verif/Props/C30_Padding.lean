import Verif.Model.Padding
/-!
# C30 and C34: convolution padding and channel order
-/
namespace Verif.Nn
open Verif.Tensor

/-! ## Specification -/

/-- TensorFlow's `SAME` padding of one axis, as its documentation states it: `(before, after)`, for an effective filter
size `f` and axis length `n`. -/
def tfSame (n f stride : Int) : Int × Int :=
  let total := if n % stride = 0 then max (f - stride) 0 else max (f - n % stride) 0
  (total / 2, total - total / 2)

/-- TensorFlow's `SAME` output length: `ceil(n / stride)`. -/
def ceilDiv (n stride : Int) : Int := (n + stride - 1) / stride

/-- Effective filter size of a dilated kernel. -/
def effective (kernel dilation : Int) : Int := dilation * (kernel - 1) + 1

/-- Output length of an ONNX convolution or pooling along one axis. -/
def onnxOut (n before after f stride : Int) : Int := (n + before + after - f) / stride + 1

/-- Spatial axis `i` of a shape in the given layout. -/
def spatialDim (channelsLast : Bool) (s : List Int) (i : Nat) : Int := s.getD (if channelsLast then i + 1 else i + 2) 0

/-! ## Layout helpers -/

theorem channelsFirst_getD {α : Type} (s : List α) (spatial i : Nat) (a : α) (hs : s.length = spatial + 2) (hi : i < spatial) :
    (makeShapeChannelsFirst s).getD (i + 2) a = s.getD (i + 1) a := by
  unfold makeShapeChannelsFirst
  match s, hs with
  | x :: y :: l, hs =>
    simp only [List.length_cons] at hs
    have h1 : (x :: y :: l).length - 1 = l.length + 1 := by simp
    have hdrop : (x :: y :: l).drop (l.length + 1) = [(x :: y :: l)[l.length + 1]] := by
      rw [List.drop_eq_getElem_cons (by simp)]
      simp
    rw [h1, hdrop]
    simp only [List.take_succ_cons, List.take_zero, List.cons_append, List.nil_append]
    simp only [List.dropLast_cons₂, List.drop_succ_cons, List.drop_zero, List.getD_cons_succ]
    unfold List.getD
    rw [List.getElem?_dropLast]
    simp only [List.length_cons]
    rw [if_pos (by omega)]

theorem channelsFirst_length {α : Type} (s : List α) (h : 2 ≤ s.length) : (makeShapeChannelsFirst s).length = s.length := by
  unfold makeShapeChannelsFirst
  simp only [List.length_append, List.length_take, List.length_drop, List.length_dropLast]
  omega

/-- **C34**: for every number of spatial dimensions the two permutations are permutations and inverse to each other. -/
theorem channel_permutations_inverse (spatial : Nat) :
    let f := channelsFirstPermutation spatial
    let l := channelsLastPermutation spatial
    IsPerm f ∧ IsPerm l ∧ f.length = spatial + 2 ∧ l.length = spatial + 2 ∧
    (∀ i, i < spatial + 2 → nth f (nth l i) = i) ∧ (∀ i, i < spatial + 2 → nth l (nth f i) = i) := by
  have nf : ∀ i, i < spatial + 2 → nth (channelsFirstPermutation spatial) i =
      if i = 0 then 0 else if i = 1 then spatial + 1 else i - 1 := by
    intro i hi
    unfold channelsFirstPermutation nth
    match i with
    | 0 => rfl
    | 1 => simp
    | i + 2 =>
      have : i < spatial := by omega
      simp [List.getD, List.getElem?_range', this]
      omega
  have nl : ∀ i, i < spatial + 2 → nth (channelsLastPermutation spatial) i =
      if i = 0 then 0 else if i = spatial + 1 then 1 else i + 1 := by
    intro i hi
    unfold channelsLastPermutation nth
    match i with
    | 0 => rfl
    | i + 1 =>
      by_cases h : i < spatial
      · rw [List.append_assoc, List.singleton_append, List.getD_cons_succ]
        unfold List.getD
        rw [List.getElem?_append_left (by simpa using h), List.getElem?_range' h]
        have : i ≠ spatial := by omega
        simp [this]; omega
      · have : i = spatial := by omega
        subst this
        rw [List.append_assoc, List.singleton_append, List.getD_cons_succ]
        unfold List.getD
        rw [List.getElem?_append_right (by simp)]
        simp
  have lf : (channelsFirstPermutation spatial).length = spatial + 2 := by simp [channelsFirstPermutation]
  have ll : (channelsLastPermutation spatial).length = spatial + 2 := by simp [channelsLastPermutation]
  have fl : ∀ i, i < spatial + 2 → nth (channelsFirstPermutation spatial) (nth (channelsLastPermutation spatial) i) = i := by
    intro i hi
    rw [nl i hi]
    split
    · rw [nf 0 (by omega)]; simp; omega
    · split
      · rw [nf 1 (by omega)]; simp; omega
      · rw [nf _ (by omega), if_neg (by omega), if_neg (by omega)]; omega
  have lfi : ∀ i, i < spatial + 2 → nth (channelsLastPermutation spatial) (nth (channelsFirstPermutation spatial) i) = i := by
    intro i hi
    rw [nf i hi]
    split
    · rw [nl 0 (by omega)]; simp; omega
    · split
      · rw [nl _ (by omega), if_neg (by omega), if_pos rfl]; omega
      · rw [nl _ (by omega), if_neg (by omega), if_neg (by omega)]; omega
  have perm : ∀ (a b : List Nat), a.length = spatial + 2 →
      (∀ i, i < spatial + 2 → nth a i < spatial + 2) → (∀ i, i < spatial + 2 → nth b (nth a i) = i) → IsPerm a := by
    intro a b ha hlt hinv
    apply isPerm_of_nodup
    · rw [List.nodup_iff_injective_getElem]
      intro i j hij
      have hi : i.1 < spatial + 2 := by rw [← ha]; exact i.2
      have hj : j.1 < spatial + 2 := by rw [← ha]; exact j.2
      have e : nth a i.1 = nth a j.1 := by rw [nth_eq _ _ i.2, nth_eq _ _ j.2]; exact hij
      have := hinv i.1 hi
      rw [e, hinv j.1 hj] at this
      exact Fin.ext this.symm
    · intro x hx
      obtain ⟨i, hi, rfl⟩ := List.mem_iff_getElem.1 hx
      rw [← nth_eq _ _ hi, ha]
      exact hlt i (by omega)
  refine ⟨perm _ _ lf (fun i hi => ?_) lfi, perm _ _ ll (fun i hi => ?_) fl, lf, ll, fl, lfi⟩
  · rw [nf i hi]; split
    · omega
    · split <;> omega
  · rw [nl i hi]; split
    · omega
    · split <;> omega

/-- **C34, shapes**: `make_shape_channels_first` is the shape of the tensor transposed with the channels-first
permutation. -/
theorem channels_first_shape {α : Type} (x : T α) (spatial : Nat) (h : x.shape.length = spatial + 2) :
    makeShapeChannelsFirst x.shape = (transpose (channelsFirstPermutation spatial) x).shape := by
  have hl := channelsFirst_length x.shape (by omega)
  obtain ⟨_, _, lf, _, _, _⟩ := channel_permutations_inverse spatial
  apply ext_nth
  · rw [hl]; simp only [transpose, List.length_map]; rw [lf, h]
  · intro i hi
    rw [hl, h] at hi
    simp only [transpose]
    rw [nth_map _ _ _ (by rw [lf]; exact hi)]
    match i with
    | 0 =>
      match hx : x.shape, h with
      | a :: l, h => rfl
    | 1 =>
      match hx : x.shape, h with
      | a :: b :: l, h =>
        simp only [List.length_cons] at h
        have : spatial = l.length := by omega
        subst this
        unfold makeShapeChannelsFirst nth channelsFirstPermutation
        have h1 : (a :: b :: l).length - 1 = l.length + 1 := by simp
        rw [h1, List.drop_eq_getElem_cons (by simp)]
        simp
    | i + 2 =>
      have hi' : i < spatial := by omega
      have e : nth (channelsFirstPermutation spatial) (i + 2) = i + 1 := by
        unfold channelsFirstPermutation nth
        simp [List.getD, List.getElem?_range', hi']
        omega
      rw [e]
      unfold nth
      exact channelsFirst_getD x.shape spatial i 0 h hi'

/-- **C34 is violated** by `make_shape_channels_last`: of a channels-first shape it keeps the channels where they are and
loses the last spatial dimension, for every number of spatial dimensions (unless the sizes happen to be equal). -/
theorem make_shape_channels_last_violated (n c h w : Nat) :
    makeShapeChannelsLast [n, c, h, w] = [n, c, h, c] ∧
    ((transpose (channelsLastPermutation 2) (⟨[n, c, h, w], fun _ => ()⟩ : T Unit)).shape = [n, h, w, c]) := ⟨rfl, rfl⟩

/-! ## Padding -/

/-- Arithmetic core: the code's total padding is TensorFlow's. -/
theorem padTotal_eq (n k d s : Int) (hs : 1 ≤ s) (hn : 0 ≤ n) :
    padTotal (ceilDiv n s) s d k n =
      if n % s = 0 then max (effective k d - s) 0 else max (effective k d - n % s) 0 := by
  unfold padTotal ceilDiv effective
  have hdm := Int.ediv_mul_add_emod n s
  have hm0 := Int.emod_nonneg n (show s ≠ 0 by omega)
  have hm1 := Int.emod_lt_of_pos n (show 0 < s by omega)
  generalize hq : n / s = q at *
  generalize hr : n % s = r at *
  generalize d * (k - 1) = e
  split
  · rename_i h0
    have hc : (n + s - 1) / s = q := by
      rw [Int.ediv_eq_iff_of_pos (by omega)]
      constructor <;> omega
    rw [hc, Int.sub_mul]
    congr 1; omega
  · rename_i h0
    have hc : (n + s - 1) / s = q + 1 := by
      rw [Int.ediv_eq_iff_of_pos (by omega)]
      simp only [Int.add_mul, Int.one_mul]
      constructor <;> omega
    rw [hc, Int.sub_mul, Int.add_mul]
    congr 1; omega

/-- Arithmetic core: with this padding an ONNX convolution has `ceil(n / stride)` outputs. -/
theorem onnxOut_same (n f s : Int) (hs : 1 ≤ s) (hn : 0 ≤ n) (hf : 1 ≤ f) :
    onnxOut n (tfSame n f s).1 (tfSame n f s).2 f s = ceilDiv n s := by
  unfold onnxOut tfSame ceilDiv
  have hdm := Int.ediv_mul_add_emod n s
  have hm0 := Int.emod_nonneg n (show s ≠ 0 by omega)
  have hm1 := Int.emod_lt_of_pos n (show 0 < s by omega)
  generalize hq : n / s = q at *
  generalize hr : n % s = r at *
  simp only
  split
  · rename_i h0
    have hc : (n + s - 1) / s = q := by
      rw [Int.ediv_eq_iff_of_pos (by omega)]
      constructor <;> omega
    rw [hc]
    have : (n + max (f - s) 0 / 2 + (max (f - s) 0 - max (f - s) 0 / 2) - f) / s = q - 1 := by
      rw [Int.ediv_eq_iff_of_pos (by omega)]
      simp only [Int.sub_mul, Int.one_mul]
      constructor <;> omega
    omega
  · rename_i h0
    have hc : (n + s - 1) / s = q + 1 := by
      rw [Int.ediv_eq_iff_of_pos (by omega)]
      simp only [Int.add_mul, Int.one_mul]
      constructor <;> omega
    rw [hc]
    have : (n + max (f - r) 0 / 2 + (max (f - r) 0 - max (f - r) 0 / 2) - f) / s = q := by
      rw [Int.ediv_eq_iff_of_pos (by omega)]
      constructor <;> omega
    omega

/-- **C30**: for `SAME` padding, any number of spatial axes, either layout and any strides, dilations and kernel sizes:
if the recorded shapes are known and true (the output has TensorFlow's size) the pads written are TensorFlow's, before and
after, on every axis; they are not negative; and an ONNX convolution with them has exactly `ceil(in / stride)` outputs. -/
theorem same_padding (channelsLast : Bool) (inputShape outputShape kernel strides dilations explicit : List Int) (spatial : Nat)
    (hin : inputShape.length = spatial + 2) (hout : outputShape.length = spatial + 2)
    (hknown : ∀ i, i < spatial → 0 ≤ spatialDim channelsLast inputShape i)
    (hstride : ∀ i, i < spatial → 1 ≤ strides.getD i 0) (hkernel : ∀ i, i < spatial → 1 ≤ kernel.getD i 0)
    (hdil : ∀ i, i < spatial → 1 ≤ dilations.getD i 0)
    (htrue : ∀ i, i < spatial → spatialDim channelsLast outputShape i = ceilDiv (spatialDim channelsLast inputShape i) (strides.getD i 0)) :
    ∃ pads, addPadding "SAME" channelsLast inputShape outputShape kernel strides (some dilations) explicit spatial = .ok (.pads pads) ∧
      pads.length = 2 * spatial ∧
      ∀ i, i < spatial →
        let f := effective (kernel.getD i 0) (dilations.getD i 0)
        let n := spatialDim channelsLast inputShape i
        (pads.getD i 0, pads.getD (i + spatial) 0) = tfSame n f (strides.getD i 0) ∧
        0 ≤ pads.getD i 0 ∧ 0 ≤ pads.getD (i + spatial) 0 ∧
        onnxOut n (pads.getD i 0) (pads.getD (i + spatial) 0) f (strides.getD i 0) = ceilDiv n (strides.getD i 0) := by
  have dimEq : ∀ (s : List Int), s.length = spatial + 2 → ∀ i, i < spatial →
      (if channelsLast then makeShapeChannelsFirst s else s).getD (i + 2) 0 = spatialDim channelsLast s i := by
    intro s hs i hi
    unfold spatialDim
    cases channelsLast with
    | true => exact channelsFirst_getD s spatial i 0 hs hi
    | false => rfl
  have houtnn : ∀ i, i < spatial → 0 ≤ spatialDim channelsLast outputShape i := by
    intro i hi
    rw [htrue i hi]
    unfold ceilDiv
    have h1 := hstride i hi
    have h2 := hknown i hi
    exact Int.ediv_nonneg (by omega) (by omega)
  have hunf : addPadding "SAME" channelsLast inputShape outputShape kernel strides (some dilations) explicit spatial =
      samePads channelsLast inputShape outputShape kernel strides dilations spatial := by
    unfold addPadding
    rw [if_neg (by decide), if_pos rfl]
    rfl
  rw [hunf]
  unfold samePads
  rw [if_neg (by simp [hin]), if_neg (by simp [hout])]
  simp only
  rw [if_neg]
  · refine ⟨_, rfl, by simp; omega, ?_⟩
    intro i hi
    have g1 : ∀ (g h : Nat → Int), ((List.range spatial).map g ++ (List.range spatial).map h).getD i 0 = g i := by
      intro g h
      unfold List.getD
      rw [List.getElem?_append_left (by simpa using hi)]
      simp [hi]
    have g2 : ∀ (g h : Nat → Int), ((List.range spatial).map g ++ (List.range spatial).map h).getD (i + spatial) 0 = h i := by
      intro g h
      unfold List.getD
      rw [List.getElem?_append_right (by simp)]
      simp [hi]
    rw [g1, g2, dimEq inputShape hin i hi, dimEq outputShape hout i hi, htrue i hi,
      padTotal_eq _ _ _ _ (hstride i hi) (hknown i hi)]
    refine ⟨rfl, ?_, ?_, ?_⟩
    · split <;> omega
    · split <;> omega
    · refine onnxOut_same _ _ _ (hstride i hi) (hknown i hi) ?_
      unfold effective
      have h1 := hkernel i hi
      have h2 := hdil i hi
      have : 0 ≤ dilations.getD i 0 * (kernel.getD i 0 - 1) := Int.mul_nonneg (by omega) (by omega)
      omega
  · intro h
    rw [List.any_eq_true] at h
    obtain ⟨i, hi, hc⟩ := h
    rw [List.mem_range] at hi
    rw [dimEq inputShape hin i hi, dimEq outputShape hout i hi] at hc
    have h1 := hknown i hi
    have h2 := houtnn i hi
    simp only [Bool.or_eq_true, decide_eq_true_eq] at hc
    omega

/-- Instance: a 2-d NHWC convolution 7x8, kernel 3x3, stride 2, dilation 1. -/
example : addPadding "SAME" true [1, 7, 8, 3] [1, 4, 4, 5] [3, 3] [2, 2] (some [1, 1]) [] 2 = .ok (.pads [1, 0, 1, 1]) := rfl

/-- **C30, unknown sizes**: if some spatial size is unknown the runtime is asked to do the same (`SAME_UPPER`). -/
theorem same_padding_unknown (channelsLast : Bool) (inputShape outputShape kernel strides : List Int) (dilations : Option (List Int))
    (explicit : List Int) (spatial : Nat) (hin : inputShape.length = spatial + 2) (hout : outputShape.length = spatial + 2)
    (h : ∃ i, i < spatial ∧ (spatialDim channelsLast inputShape i = -1 ∨ spatialDim channelsLast outputShape i = -1)) :
    addPadding "SAME" channelsLast inputShape outputShape kernel strides dilations explicit spatial = .ok .autoPadSameUpper := by
  obtain ⟨i, hi, h⟩ := h
  unfold addPadding
  rw [if_neg (by decide), if_pos rfl]
  unfold samePads
  rw [if_neg (by simp [hin]), if_neg (by simp [hout])]
  simp only
  rw [if_pos]
  rw [List.any_eq_true]
  refine ⟨i, List.mem_range.2 hi, ?_⟩
  simp only [Bool.or_eq_true, decide_eq_true_eq]
  unfold spatialDim at h
  cases channelsLast with
  | true =>
    simp only [if_true] at h ⊢
    rw [channelsFirst_getD _ spatial i 0 hin hi, channelsFirst_getD _ spatial i 0 hout hi]
    exact h
  | false => exact h

/-- **C30, explicit padding**: `explicit_paddings` lists `(before, after)` for every axis in the node's layout; the pads
written are those of the spatial axes, all the `before`s first. -/
theorem explicit_padding (channelsLast : Bool) (before after : List Int) (spatial : Nat) (inputShape outputShape kernel strides : List Int)
    (dilations : Option (List Int)) (hl : before.length = after.length) :
    addPadding "EXPLICIT" channelsLast inputShape outputShape kernel strides dilations
      ((before.zip after).flatMap (fun p => [p.1, p.2])) spatial =
      .ok (.pads ((List.range spatial).map (spatialDim channelsLast before) ++ (List.range spatial).map (spatialDim channelsLast after))) := by
  have get : ∀ (b a : List Int) (j : Nat), b.length = a.length →
      (((b.zip a).flatMap (fun p => [p.1, p.2])).getD (j * 2) 0 = b.getD j 0) ∧
      (((b.zip a).flatMap (fun p => [p.1, p.2])).getD (j * 2 + 1) 0 = a.getD j 0) := by
    intro b
    induction b with
    | nil => intro a j h; have : a = [] := List.length_eq_zero_iff.1 (by simpa using h.symm); subst this; simp
    | cons x b ih =>
      intro a j h
      match a, h with
      | y :: a, h =>
        match j with
        | 0 => simp
        | j + 1 =>
          have := ih a j (by simpa using h)
          simp only [List.zip_cons_cons, List.flatMap_cons, List.cons_append, List.nil_append]
          rw [show (j + 1) * 2 = j * 2 + 1 + 1 by omega]
          simp only [List.getD_cons_succ]
          exact this
  unfold addPadding
  rw [if_neg (by decide), if_neg (by decide), if_neg (by decide), if_pos rfl]
  unfold explicitPads spatialDim
  cases channelsLast with
  | true =>
    simp only [if_true]
    congr 2
    congr 1
    · exact List.map_congr_left (fun i _ => by rw [(get before after (1 + i) hl).1, Nat.add_comm])
    · exact List.map_congr_left (fun i _ => by rw [(get before after (1 + i) hl).2, Nat.add_comm])
  | false =>
    simp only [Bool.false_eq_true, if_false]
    congr 2
    congr 1
    · exact List.map_congr_left (fun i _ => by rw [(get before after (2 + i) hl).1, Nat.add_comm])
    · exact List.map_congr_left (fun i _ => by rw [(get before after (2 + i) hl).2, Nat.add_comm])

end Verif.Nn
