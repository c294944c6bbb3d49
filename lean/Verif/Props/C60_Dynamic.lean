import Verif.Props.C60_Transpose
import Verif.Props.C55_GenBack
/-!
# C60: transposed convolutions whose size is not known during the conversion
-/
namespace Verif.Conv
open Verif.Tensor Verif.Nn Verif.Emit

variable {α β : Type}
variable {n : Node} {m : Nat} {p : TfPad} {strides dilations : List Nat} {N : Nat} {L K O : List Nat} {cin cout : Nat} {w y : T α}

/-! ## Known shape, image of unknown size -/

/-- **Constant shape, image of unknown size**: the attribute `output_shape`. The total padding is not negative, and even from version 11 of the operator on. -/
theorem transpose_output_shape (acc : Acc α) (zero : α) (strict : Bool) (opset : Nat) (h : TransArgs n m p strides dilations N L K O cin cout w y)
    (hp : p = .same ∨ p = .valid) (hunknown : ∃ r i, n.inShape = some r ∧ i < m ∧ r.getD (if n.last then i + 1 else i + 2) 0 = -1)
    (htot : ∀ i, i < m → 0 ≤ total n.last strides dilations L K O i ∧ (opset < 11 ∨ 2 ∣ total n.last strides dilations L K O i)) :
    ∃ z, convertedTranspose acc zero strict opset n m ((mk n.last N L cin).map Int.ofNat) w y = .ok (some z) ∧
      Same z (tfConvBackprop acc zero n.last p strides dilations (mk n.last N L cin) w y) := by
  obtain ⟨inDims, hreads, hin, hdims⟩ := reads_ok h
  have hmem : (-1 : Int) ∈ inDims := by
    obtain ⟨r, i, hr, hi, hri⟩ := hunknown
    have e : inDims = spatialOf n.last m r := by
      unfold transposeReads at hreads
      rw [kernel_known h, hr] at hreads
      injection hreads with hreads
      injection hreads with hreads
      exact hreads.symm
    rw [e]
    exact List.mem_map.2 ⟨i, List.mem_range.2 hi, hri⟩
  have hneg : (-1 : Int) ∉ L.map Int.ofNat := by
    intro hl
    obtain ⟨d, _, hd⟩ := List.mem_map.1 hl
    simp at hd
  have hsmall : (List.range m).any (fun i => decide ((L.map Int.ofNat).getD i 0 < inDims.getD i 0)) = false := by
    rw [List.any_eq_false]
    intro i hi
    rw [getD_cast]
    have := out_ge h hp (List.mem_range.1 hi)
    rcases hdims i (List.mem_range.1 hi) with e | e <;> rw [e] <;> simp <;> omega
  let a : TAttrs := ⟨some (K.map Int.ofNat), some (parseDims n.last n.strides m), n.dilations.map (fun d => parseDims n.last d m), none, some (L.map Int.ofNat)⟩
  have hattrs : transposeAttrs n m ((mk n.last N L cin).map Int.ofNat) = .ok a := by
    unfold transposeAttrs
    rw [hreads, sizes_ok n.last h.rankL]
    show (if (-1 : Int) ∈ L.map Int.ofNat then _ else
      if (List.range m).any (fun i => decide ((L.map Int.ofNat).getD i 0 < inDims.getD i 0)) = true then _ else
        if (-1 : Int) ∈ inDims then (outKnown n).map _ else _ : Except String TAttrs) = _
    rw [if_neg hneg, if_neg (by rw [hsmall]; simp), if_pos hmem, outKnown_ok h]
    rfl
  have hf : ∀ i, fullLen n.last strides dilations K O i = total n.last strides dilations L K O i + nth L i := fun i => by unfold fullLen total; omega
  obtain ⟨z, hz, hzs, hS⟩ := run_transpose h acc zero strict opset (a := a) ⟨rfl, rfl, rfl⟩ (out := L)
    (off := fun i => (nth (tfGeom p n.last (mk n.last N L cin) K (spatialPart n.last m strides) (spatialPart n.last m dilations)).before i : Int)) h.rankL
    (fun full hfull => by
      refine ⟨fun q hq => by simp [a] at hq, fun o ho => ?_⟩
      injection ho with ho
      subst ho
      refine ⟨rfl, by simp [h.rankL], fun i hi => ?_⟩
      rw [getD_cast, hfull i hi, hf i]
      have := (htot i hi).1
      omega)
    (fun i hi => by
      show ((if opset < 11 then (fullLen n.last strides dilations K O i - (L.map Int.ofNat).getD i 0) / 2
          else fullLen n.last strides dilations K O i - (L.map Int.ofNat).getD i 0 - (fullLen n.last strides dilations K O i - (L.map Int.ofNat).getD i 0) / 2),
        (L.map Int.ofNat).getD i 0) = _
      rw [getD_cast, (before_eq h hp hi).1, hf i]
      have ht := htot i hi
      generalize total n.last strides dilations L K O i = t at *
      rw [Int.add_sub_cancel]
      refine Prod.ext ?_ rfl
      show (if opset < 11 then t / 2 else t - t / 2) = max t 0 / 2
      split <;> omega)
  refine ⟨fromOnnx n.last m z, ?_, ?_⟩
  · unfold convertedTranspose
    rw [hattrs]
    show Except.ok ((onnxConvTranspose acc zero strict opset a _ _).map _) = _
    rw [hz]
    rfl
  · rw [tfBackprop_eq h]
    exact hS

/-! ## The slice -/

/-- A slice of the axes between the first and the last. -/
theorem slice_middle {x : T β} {n c : Nat} {t : List Nat} {fill : β} (hx : x.shape = n :: t ++ [c]) (start stop : Nat → Int)
    (h0 : ∀ k, k < t.length → 0 ≤ start k ∧ start k ≤ nth t k ∧ 0 ≤ stop k) :
    (slice fill ((List.range t.length).map (fun k => ((k + 1 : Nat) : Int))) ((List.range t.length).map (fun k => ⟨start k, stop k, 1⟩)) x).shape =
      n :: (List.range t.length).map (fun k => (min (stop k) (nth t k) - start k).toNat) ++ [c] ∧
    ∀ i w e, w.length = t.length →
      (slice fill ((List.range t.length).map (fun k => ((k + 1 : Nat) : Int))) ((List.range t.length).map (fun k => ⟨start k, stop k, 1⟩)) x).get (i :: w ++ [e]) =
        x.get (i :: (List.range t.length).map (fun k => nth w k + (start k).toNat) ++ [e]) := by
  have hspec : ((List.range t.length).map (fun k => (⟨start k, stop k, 1⟩ : SliceSpec))).length = t.length := by simp
  have hpar : ∀ r j, slicePar r ((List.range t.length).map (fun k => ((k + 1 : Nat) : Int))) ((List.range t.length).map (fun k => (⟨start k, stop k, 1⟩ : SliceSpec))) j =
      if 1 ≤ j then ((List.range t.length).map (fun k => (⟨start k, stop k, 1⟩ : SliceSpec)))[j - 1]? else none := by
    intro r j
    have := slicePar_range (r := r) ((List.range t.length).map (fun k => (⟨start k, stop k, 1⟩ : SliceSpec))) 1 j
    rwa [hspec] at this
  have hin : ∀ r k, k < t.length → slicePar r ((List.range t.length).map (fun k => ((k + 1 : Nat) : Int)))
      ((List.range t.length).map (fun k => (⟨start k, stop k, 1⟩ : SliceSpec))) (k + 1) = some ⟨start k, stop k, 1⟩ := by
    intro r k hk
    rw [hpar, if_pos (by omega), Nat.add_sub_cancel, List.getElem?_map, List.getElem?_range hk]
    rfl
  have hout : ∀ r k, t.length ≤ k → slicePar r ((List.range t.length).map (fun k => ((k + 1 : Nat) : Int)))
      ((List.range t.length).map (fun k => (⟨start k, stop k, 1⟩ : SliceSpec))) (k + 1) = none := by
    intro r k hk
    rw [hpar, if_pos (by omega), Nat.add_sub_cancel, List.getElem?_eq_none (by simp; omega)]
  have hz : ∀ r, slicePar r ((List.range t.length).map (fun k => ((k + 1 : Nat) : Int)))
      ((List.range t.length).map (fun k => (⟨start k, stop k, 1⟩ : SliceSpec))) 0 = none := fun r => by rw [hpar, if_neg (by omega)]
  have hlen : x.shape.length = t.length + 2 := by rw [hx]; simp
  have hcount := fun k (hk : k < t.length) => slice_count (s := start k) (e := stop k) (d := (nth t k : Int)) (h0 k hk).1 (h0 k hk).2.1
  have hclamp : ∀ k, k < t.length → (clampPos (nth t k) 0 (nth t k) (stop k) - start k).toNat = (min (stop k) (nth t k) - start k).toNat := by
    intro k hk
    have := h0 k hk
    unfold clampPos
    rw [if_neg (by omega)]
    omega
  constructor
  · apply ext_nth
    · simp [slice_eq, hlen]
    · intro j hj
      have hj' : j < x.shape.length := by simpa [slice_eq] using hj
      simp only [slice_eq]
      rw [nth_map_range, if_pos hj']
      cases j with
      | zero =>
        rw [hz]
        simp [hx, nth_cons_zero]
      | succ k =>
        rw [nth_split (m := t.length) (by simp)]
        by_cases hk : k < t.length
        · rw [hin _ k hk, if_pos hk, nth_map_range, if_pos hk, hx, nth_split rfl, if_pos hk]
          simp only
          rw [(hcount k hk).2, hclamp k hk]
        · rw [hout _ k (by omega), if_neg hk, hx]
          simp only
          rw [nth_split rfl, if_neg hk]
  · intro i w e hw
    simp only [slice_eq]
    congr 1
    apply ext_nth
    · simp [hlen]
    · intro j hj
      have hj' : j < x.shape.length := by simpa using hj
      rw [nth_map_range, if_pos hj']
      cases j with
      | zero =>
        rw [hz]
        simp [nth_cons_zero]
      | succ k =>
        rw [nth_split (m := t.length) hw, nth_split (m := t.length) (by simp)]
        by_cases hk : k < t.length
        · have := h0 k hk
          rw [hin _ k hk, if_pos hk, if_pos hk, nth_map_range, if_pos hk, hx, nth_split rfl, if_pos hk]
          simp only
          rw [(hcount k hk).1]
          omega
        · rw [hout _ k (by omega), if_neg hk, if_neg hk]

theorem source_shift (s d n p k a : Nat) : source s d 0 n (p + a) k = source s d (a : Int) n p k := by
  unfold source
  have : ((p + a : Nat) : Int) + 0 - k * d = p + a - k * d := by push_cast; omega
  simp only [this]

/-- Behind the last window there is nothing. -/
theorem source_behind {s d n p k K : Nat} (hs : 1 ≤ s) (hk : k < K) (hn : 1 ≤ n) (h : (s : Int) * ((n : Int) - 1) + (span K d : Nat) ≤ p) : source s d 0 n p k = none := by
  rcases hc : source s d 0 n p k with _ | o
  · rfl
  · exfalso
    obtain ⟨h1, h2⟩ := (source_iff hs).1 hc
    have e1 : o * s ≤ (n - 1) * s := Nat.mul_le_mul_right _ (by omega)
    have e2 : k * d ≤ (K - 1) * d := Nat.mul_le_mul_right _ (by omega)
    have e3 : (span K d : Nat) = (K - 1) * d + 1 := by unfold span; rw [Nat.mul_comm]
    have e4 : (s : Int) * ((n : Int) - 1) = (((n - 1) * s : Nat) : Int) := by
      push_cast
      rw [Int.mul_comm, Int.ofNat_sub hn]
      rfl
    rw [e3, e4] at h
    omega

/-- Adding up products with zero gives zero. -/
def ZeroSum (acc : Acc α) (zero : α) : Prop := ∀ K C g, (∀ k q, (g k q).1 = zero) → acc K C g = zero

/-- **The slice and the padding** of the converted operator cut the right piece out of the image without padding. -/
theorem crop (h : TransArgs n m p strides dilations N L K O cin cout w y) (hp : p = .same ∨ p = .valid) (hlast : n.last = true) (acc : Acc α) (zero : α)
    (work : Bool) (hwork : work = true ∨ ∀ i, i < m → 0 ≤ total n.last strides dilations L K O i) (hacc : ZeroSum acc zero) (z : T α)
    (hz : Same z (gathered n.last K (spatialPart n.last m strides) (spatialPart n.last m dilations) (fun _ => 0)
      ((List.range m).map (fun i => (fullLen n.last strides dilations K O i).toNat)) cin (backAt acc zero K cout (fun k c q => w.get (k ++ [c, q]))) y)) :
    Same (cropTo zero work m ((mk n.last N L cin).map Int.ofNat) z) (tfConvBackprop acc zero n.last p strides dilations (mk n.last N L cin) w y) := by
  rw [tfBackprop_eq h]
  rw [hlast] at hz hwork ⊢
  have hbef := fun i (hi : i < m) => (before_eq h hp hi).1
  rw [hlast] at hbef
  have hys : nth y.shape 0 = N := by rw [h.yShape, nth_mk_zero]
  have hf : ∀ i, fullLen true strides dilations K O i = total true strides dilations L K O i + nth L i := fun i => by unfold fullLen total; omega
  have hfnn : ∀ i, i < m → 1 ≤ fullLen true strides dilations K O i := fun i hi => by
    have hO : 1 ≤ nth O i := nth_pos h.nonempty (by rw [h.rankO]; exact hi)
    have := Int.mul_nonneg (a := (spOf true strides i : Int)) (b := (nth O i : Int) - 1) (by omega) (by omega)
    unfold fullLen span
    omega
  generalize htn : (List.range m).map (fun i => (fullLen true strides dilations K O i).toNat) = t at hz
  have htl : t.length = m := by rw [← htn]; simp
  have htv : ∀ i, i < m → (nth t i : Int) = total true strides dilations L K O i + nth L i := fun i hi => by
    rw [← htn, nth_map_range, if_pos hi, ← hf i]
    have := hfnn i hi
    omega
  have hzs : z.shape = N :: t ++ [cin] := by rw [hz.1, gathered_shape, hys]; rfl
  have hsz : ∀ i, i < m → ((mk true N L cin).map Int.ofNat).getD (i + 1) 0 = (nth L i : Int) := fun i hi => by
    rw [getD_cast]
    exact congrArg Nat.cast (spOf_mk true N L cin (by rw [h.rankL]; exact hi))
  have hdiff : ∀ i, i < m → (nth z.shape (i + 1) : Int) - ((mk true N L cin).map Int.ofNat).getD (i + 1) 0 = total true strides dilations L K O i := fun i hi => by
    rw [hsz i hi, hzs, nth_split htl, if_pos hi, htv i hi]
    omega
  let T := fun i => total true strides dilations L K O i
  -- the slice
  have hspecs : (List.range m).map (fun i => (⟨(if work = true then max ((nth z.shape (i + 1) : Int) - ((mk true N L cin).map Int.ofNat).getD (i + 1) 0) 0
        else (nth z.shape (i + 1) : Int) - ((mk true N L cin).map Int.ofNat).getD (i + 1) 0).tdiv 2,
      (if work = true then max ((nth z.shape (i + 1) : Int) - ((mk true N L cin).map Int.ofNat).getD (i + 1) 0) 0
        else (nth z.shape (i + 1) : Int) - ((mk true N L cin).map Int.ofNat).getD (i + 1) 0).tdiv 2 + ((mk true N L cin).map Int.ofNat).getD (i + 1) 0, 1⟩ : SliceSpec)) =
      (List.range t.length).map (fun i => ⟨max (T i) 0 / 2, max (T i) 0 / 2 + nth L i, 1⟩) := by
    rw [htl]
    refine List.map_congr_left (fun i hi => ?_)
    have hi' := List.mem_range.1 hi
    rw [hdiff i hi', hsz i hi']
    have e : (if work = true then max (total true strides dilations L K O i) 0 else total true strides dilations L K O i) = max (T i) 0 := by
      rcases hwork with e | e
      · rw [if_pos e]
      · have := e i hi'
        split
        · rfl
        · show total true strides dilations L K O i = max (total true strides dilations L K O i) 0
          omega
    rw [e, Int.tdiv_eq_ediv_of_nonneg (by omega)]
  obtain ⟨hss, hsg⟩ := slice_middle (fill := zero) hzs (fun i => max (T i) 0 / 2) (fun i => max (T i) 0 / 2 + nth L i) (fun k hk => by
    have h1 := htv k (by rw [← htl]; exact hk)
    have : (nth t k : Int) = T k + nth L k := h1
    refine ⟨by omega, by omega, by omega⟩)
  generalize hsl : slice zero ((List.range t.length).map (fun k => ((k + 1 : Nat) : Int)))
    ((List.range t.length).map (fun i => (⟨max (T i) 0 / 2, max (T i) 0 / 2 + nth L i, 1⟩ : SliceSpec))) z = sl at hss hsg
  -- the elements inside
  have hinner : ∀ b o q, b < N → q < cin → o.length = m → (∀ i, i < m → nth o i < nth L i ∧ (nth o i : Int) < T i + nth L i) →
      sl.get (b :: o ++ [q]) = (gathered true K (spatialPart true m strides) (spatialPart true m dilations)
        (fun i => (nth (tfGeom p true (mk true N L cin) K (spatialPart true m strides) (spatialPart true m dilations)).before i : Int)) L cin
        (backAt acc zero K cout (fun k c q => w.get (k ++ [c, q]))) y).get (mk true b o q) := by
    intro b o q hb hq ho hlt
    rw [hsg b o q (by rw [ho, htl]), htl]
    have hib : InB (mk true N t cin) (mk true b ((List.range m).map (fun k => nth o k + (max (T k) 0 / 2).toNat)) q) := by
      refine (inB_mk (by simp [htl])).2 ⟨hb, ⟨by simp [htl], fun i hi => ?_⟩, hq⟩
      have hi' : i < m := by rw [← htl]; exact hi
      have h1 : (nth t i : Int) = T i + nth L i := htv i hi'
      have h2 := hlt i hi'
      rw [nth_map_range, if_pos hi']
      omega
    have hget := hz.2 _ (by rw [hzs]; exact hib)
    refine hget.trans ?_
    unfold gathered
    have hch : chOf true K.length (mk true b ((List.range m).map (fun k => nth o k + (max (T k) 0 / 2).toNat)) q) = chOf true K.length (mk true b o q) := by
      have e1 : ∀ sp : List Nat, sp.length = m → chOf true K.length (mk true b sp q) = q := fun sp hsp => by
        rw [h.rankK, ← hsp]; exact chOf_mk true b sp q
      rw [e1 _ (by simp), e1 _ ho]
    dsimp only
    rw [hch]
    congr 1
    funext k c
    have hsrc : ∀ i, i < K.length → source (nth (spatialPart true m strides) i) (nth (spatialPart true m dilations) i) 0 (spOf true y.shape i)
          (spOf true (mk true b ((List.range m).map (fun k => nth o k + (max (T k) 0 / 2).toNat)) q) i) (nth k i) =
        source (nth (spatialPart true m strides) i) (nth (spatialPart true m dilations) i)
          (nth (tfGeom p true (mk true N L cin) K (spatialPart true m strides) (spatialPart true m dilations)).before i : Int) (spOf true y.shape i)
          (spOf true (mk true b o q) i) (nth k i) := fun i hi => by
      have hi' : i < m := by rw [← h.rankK]; exact hi
      rw [spOf_mk _ _ _ _ (by simpa using hi'), spOf_mk _ _ _ _ (by rw [ho]; exact hi'), nth_map_range, if_pos hi', source_shift]
      congr 1
      rw [hbef i hi']
      show ((max (T i) 0 / 2).toNat : Int) = max (T i) 0 / 2
      omega
    have hm : (List.range K.length).map (fun i => (source (nth (spatialPart true m strides) i) (nth (spatialPart true m dilations) i) 0 (spOf true y.shape i)
          (spOf true (mk true b ((List.range m).map (fun k => nth o k + (max (T k) 0 / 2).toNat)) q) i) (nth k i)).getD 0) =
        (List.range K.length).map (fun i => (source (nth (spatialPart true m strides) i) (nth (spatialPart true m dilations) i)
          (nth (tfGeom p true (mk true N L cin) K (spatialPart true m strides) (spatialPart true m dilations)).before i : Int) (spOf true y.shape i)
          (spOf true (mk true b o q) i) (nth k i)).getD 0) :=
      List.map_congr_left (fun i hi => by rw [hsrc i (List.mem_range.1 hi)])
    by_cases hc : InB K k ∧ c < chOf true K.length y.shape ∧ ∀ i, i < K.length → (source (nth (spatialPart true m strides) i) (nth (spatialPart true m dilations) i)
          (nth (tfGeom p true (mk true N L cin) K (spatialPart true m strides) (spatialPart true m dilations)).before i : Int) (spOf true y.shape i)
          (spOf true (mk true b o q) i) (nth k i)).isSome = true
    · rw [if_pos hc, if_pos ⟨hc.1, hc.2.1, fun i hi => by rw [hsrc i hi]; exact hc.2.2 i hi⟩, hm]
      simp only [nth_mk_zero]
    · rw [if_neg hc, if_neg (fun hh => hc ⟨hh.1, hh.2.1, fun i hi => by rw [← hsrc i hi]; exact hh.2.2 i hi⟩)]
  have hcrop : cropTo zero work m ((mk true N L cin).map Int.ofNat) z =
      if work = true then Tensor.pad .constant zero (List.replicate (m + 2) 0 ++ [0] ++ (List.range m).map (fun i => max (-(T i)) 0) ++ [0]) sl else sl := by
    unfold cropTo
    dsimp only
    rw [hspecs]
    rw [← htl, hsl, htl]
    have : (List.range m).map (fun i => max (-((nth z.shape (i + 1) : Int) - ((mk true N L cin).map Int.ofNat).getD (i + 1) 0)) 0) = (List.range m).map (fun i => max (-(T i)) 0) :=
      List.map_congr_left (fun i hi => by rw [hdiff i (List.mem_range.1 hi)])
    rw [this]
  rw [hcrop]
  have hgs : (gathered true K (spatialPart true m strides) (spatialPart true m dilations)
        (fun i => (nth (tfGeom p true (mk true N L cin) K (spatialPart true m strides) (spatialPart true m dilations)).before i : Int)) L cin
        (backAt acc zero K cout (fun k c q => w.get (k ++ [c, q]))) y).shape = N :: L ++ [cin] := by rw [gathered_shape, hys]; rfl
  have hsame : (∀ i, i < m → 0 ≤ T i) → Same sl (gathered true K (spatialPart true m strides) (spatialPart true m dilations)
        (fun i => (nth (tfGeom p true (mk true N L cin) K (spatialPart true m strides) (spatialPart true m dilations)).before i : Int)) L cin
        (backAt acc zero K cout (fun k c q => w.get (k ++ [c, q]))) y) := by
    intro hT
    have hshape : sl.shape = N :: L ++ [cin] := by
      rw [hss]
      congr 2
      apply ext_nth (by simp [htl, h.rankL])
      intro i hi
      have hi' : i < t.length := by simpa using hi
      have h1 : (nth t i : Int) = T i + nth L i := htv i (by omega)
      have h2 := hT i (by omega)
      rw [nth_map_range, if_pos hi']
      omega
    refine ⟨by rw [hshape, hgs], fun idx hi => ?_⟩
    rw [hshape] at hi
    obtain ⟨b, o, q, ho, rfl⟩ := exists_mk true (m := m) (idx := idx) (by rw [hi.1]; simp [h.rankL])
    obtain ⟨hb, hoB, hq⟩ := (inB_mk (last := true) (by rw [ho, h.rankL])).1 (show InB (mk true N L cin) _ from hi)
    exact hinner b o q hb hq ho (fun i hi => by
      have h1 := hoB.2 i (by rw [h.rankL]; exact hi)
      have h2 := hT i hi
      exact ⟨h1, by omega⟩)
  by_cases hw : work = true
  · rw [if_pos hw]
    obtain ⟨z', hz', hsh, hg⟩ := pad_inner (fill := zero) (p := (List.range m).map (fun i => (0, (max (-(T i)) 0).toNat))) hss (by simp [htl])
    have hpl : (((((0, 0) :: (List.range m).map (fun i => ((0 : Nat), (max (-(T i)) 0).toNat)) ++ List.replicate [cin].length (0, 0)).map Prod.fst ++
        ((0, 0) :: (List.range m).map (fun i => ((0 : Nat), (max (-(T i)) 0).toNat)) ++ List.replicate [cin].length (0, 0)).map Prod.snd).map Int.ofNat) : List Int) =
        List.replicate (m + 2) 0 ++ [0] ++ (List.range m).map (fun i => max (-(T i)) 0) ++ [0] := by
      have e1 : ∀ l : List Nat, (((0, 0) :: l.map (fun i => ((0 : Nat), (max (-(T i)) 0).toNat)) ++ List.replicate [cin].length (0, 0)).map Prod.fst).map Int.ofNat =
          List.replicate (l.length + 2) (0 : Int) := fun l => by
        rw [List.eq_replicate_iff]
        refine ⟨by simp, fun b hb => ?_⟩
        simp at hb
        omega
      rw [List.map_append, e1, List.length_range, List.append_assoc, List.append_assoc]
      congr 1
      simp only [List.map_append, List.map_cons, List.map_map, List.length_cons, List.length_nil, List.replicate, List.cons_append, List.map_nil, List.nil_append]
      congr 2
      refine List.map_congr_left (fun i _ => ?_)
      show Int.ofNat (max (-(T i)) 0).toNat = _
      exact Int.toNat_of_nonneg (by omega)
    rw [hpl] at hz'
    rw [hz']
    have hp0 : ∀ k, k < m → ((List.range m).map (fun i => ((0 : Nat), (max (-(T i)) 0).toNat))).getD k (0, 0) = (0, (max (-(T k)) 0).toNat) := fun k hk => by
      rw [List.getD_eq_getElem?_getD, List.getElem?_map, List.getElem?_range hk]
      rfl
    have hwl : ∀ k, k < m → nth ((List.range t.length).map (fun k => (min (max (T k) 0 / 2 + nth L k) (nth t k) - max (T k) 0 / 2).toNat)) k =
        nth L k - (max (-(T k)) 0).toNat ∧ (max (-(T k)) 0).toNat ≤ nth L k := fun k hk => by
      have h1 : (nth t k : Int) = T k + nth L k := htv k hk
      rw [nth_map_range, if_pos (by omega)]
      omega
    have hshape : z'.shape = N :: L ++ [cin] := by
      rw [hsh]
      congr 2
      apply ext_nth (by simp [htl, h.rankL])
      intro i hi
      have hi' : i < m := by simpa [htl] using hi
      rw [nth_map_range, if_pos (by simpa using hi), hp0 i hi']
      have := hwl i hi'
      rw [this.1]
      omega
    refine ⟨by rw [hshape, hgs], fun idx hi => ?_⟩
    rw [hshape] at hi
    obtain ⟨b, o, q, ho, rfl⟩ := exists_mk true (m := m) (idx := idx) (by rw [hi.1]; simp [h.rankL])
    obtain ⟨hb, hoB, hq⟩ := (inB_mk (last := true) (by rw [ho, h.rankL])).1 (show InB (mk true N L cin) _ from hi)
    have hgz := hg b o [q] hb (by simp [htl, ho]) (inB_one.2 hq)
    refine Eq.trans hgz ?_
    simp only [List.length_map, List.length_range, htl]
    by_cases hins : ∀ i, i < m → (nth o i : Int) < T i + nth L i
    · rw [if_pos]
      · have e : (List.range m).map (fun k => nth o k - (((List.range m).map (fun i => ((0 : Nat), (max (-(T i)) 0).toNat))).getD k (0, 0)).1) = o := by
          apply ext_nth (by simp [ho])
          intro i hi
          have hi' : i < m := by simpa using hi
          rw [nth_map_range, if_pos hi', hp0 i hi']
          rfl
        rw [e]
        exact hinner b o q hb hq ho (fun i hi => ⟨hoB.2 i (by rw [h.rankL]; exact hi), hins i hi⟩)
      · intro k hk
        have h1 := hoB.2 k (by rw [h.rankL]; exact hk)
        have h2 := hins k hk
        have h3 := hwl k hk
        rw [htl] at h3
        rw [hp0 k hk, h3.1]
        constructor
        · exact Nat.zero_le _
        · show nth o k - 0 < _
          omega
    · have hins' : ∃ i, i < m ∧ T i + nth L i ≤ (nth o i : Int) := by
        apply Classical.byContradiction
        intro hcon
        exact hins (fun i hi => by
          apply Classical.byContradiction
          intro hh
          exact hcon ⟨i, hi, by omega⟩)
      obtain ⟨i, hi, hge⟩ := hins'
      have hoi := hoB.2 i (by rw [h.rankL]; exact hi)
      rw [if_neg]
      · unfold gathered backAt
        refine (hacc _ _ _ (fun k c => ?_)).symm
        dsimp only
        by_cases hkc : InB K k ∧ c < cout
        · rw [if_pos hkc]
          have hKi : i < K.length := by rw [h.rankK]; exact hi
          rw [if_neg]
          · rfl
          · intro hh
            have hsome := hh.2.2 i hKi
            rw [hbef i hi, show max (total true strides dilations L K O i) 0 / 2 = 0 by
                have : total true strides dilations L K O i < 0 := by show T i < 0; omega
                omega,
              spOf_mk _ _ _ _ (by rw [ho]; exact hi), h.yShape, hlast, spOf_mk _ _ _ _ (by rw [h.rankO]; exact hi),
              nth_spatialPart _ _ hi, nth_spatialPart _ _ hi, source_behind (K := nth K i)] at hsome
            · simp at hsome
            · rw [← nth_spatialPart _ _ hi, ← hlast]
              exact nth_pos (spatialPart_pos _ h.attrs.stridesLen h.attrs.stridesPos) (by rw [spatialPart_length]; exact hi)
            · exact hkc.1.2 i hKi
            · exact nth_pos h.nonempty (by rw [h.rankO]; exact hi)
            · have := hf i
              unfold fullLen at this
              rw [this]
              exact hge
        · rw [if_neg hkc]
      · intro hh
        have h2 := (hh i hi).2
        have h3 := hwl i hi
        rw [htl] at h3
        rw [hp0 i hi, h3.1] at h2
        have : nth o i - 0 < nth L i - (max (-(T i)) 0).toNat := h2
        omega
  · rw [if_neg hw]
    exact hsame (hwork.resolve_left hw)

/-- **Computed shape**, channels last, `SAME` and `VALID`. If some stride is not 1, the opset is at least 12 or the total padding is not negative. -/
theorem dynamic_converts (acc : Acc α) (zero : α) (strict : Bool) (opset : Nat) (h : TransArgs n m p strides dilations N L K O cin cout w y)
    (hp : p = .same ∨ p = .valid) (hlast : n.last = true) (hopset : 10 ≤ opset) (hacc : ZeroSum acc zero)
    (htot : (12 ≤ opset ∧ ∃ i, i < m ∧ 1 < spOf n.last strides i) ∨ ∀ i, i < m → 0 ≤ total n.last strides dilations L K O i) :
    ∃ z, convertedDynamic acc zero strict opset n m ((mk n.last N L cin).map Int.ofNat) w y = .ok (some z) ∧
      Same z (tfConvBackprop acc zero n.last p strides dilations (mk n.last N L cin) w y) := by
  obtain ⟨inDims, hreads, hin, hdims⟩ := reads_ok h
  let a : TAttrs := ⟨some (K.map Int.ofNat), some (parseDims n.last n.strides m), n.dilations.map (fun d => parseDims n.last d m), none, none⟩
  have hattrs : dynamicAttrs n opset m = .ok a := by
    unfold dynamicAttrs
    rw [hreads]
    show (if opset < 10 then _ else (outKnown n).map _ : Except String TAttrs) = _
    rw [if_neg (by omega), outKnown_ok h]
    rfl
  have hfnn : ∀ i, i < m → 0 ≤ fullLen n.last strides dilations K O i := fun i hi => by
    have hO : 1 ≤ nth O i := nth_pos h.nonempty (by rw [h.rankO]; exact hi)
    have := Int.mul_nonneg (a := (spOf n.last strides i : Int)) (b := (nth O i : Int) - 1) (by omega) (by omega)
    unfold fullLen span
    omega
  obtain ⟨z, hz, hzs, hS⟩ := run_transpose h acc zero strict opset (a := a) ⟨rfl, rfl, rfl⟩
    (out := (List.range m).map (fun i => (fullLen n.last strides dilations K O i).toNat)) (off := fun _ => 0) (by simp)
    (fun full hfull => ⟨fun q hq => by simp [a] at hq, fun o ho => by simp [a] at ho⟩)
    (fun i hi => by
      show ((0 : Int), fullLen n.last strides dilations K O i - 0 - 0) = _
      rw [nth_map_range, if_pos hi]
      have := hfnn i hi
      refine Prod.ext rfl ?_
      show fullLen n.last strides dilations K O i - 0 - 0 = ((fullLen n.last strides dilations K O i).toNat : Int)
      omega)
  refine ⟨_, ?_, crop h hp hlast acc zero (workaround opset (parseDims n.last n.strides m)) ?_ hacc _ hS⟩
  · unfold convertedDynamic
    rw [hattrs]
    show Except.ok ((onnxConvTranspose acc zero strict opset a _ _).map _) = _
    rw [hz]
    rfl
  · refine htot.imp (fun ⟨h12, i, hi, hs⟩ => ?_) id
    unfold workaround
    rw [h.attrs.strideAttr, parseDims_cast _ h.attrs.stridesLen, Bool.and_eq_true]
    refine ⟨List.any_eq_true.2 ⟨(spOf n.last strides i : Int), List.mem_map.2 ⟨spOf n.last strides i, List.mem_map.2 ⟨i, List.mem_range.2 hi, rfl⟩, rfl⟩, ?_⟩, by simpa using h12⟩
    simp
    omega

end Verif.Conv
