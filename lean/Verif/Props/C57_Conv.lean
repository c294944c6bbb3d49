import Verif.Props.C57_Geom
/-!
# C57: a converted convolution computes what TensorFlow's does
-/
namespace Verif.Conv
open Verif.Tensor Verif.Nn Verif.Emit

variable {α : Type}

/-! ## The kernel -/

theorem kernelPerm_isPerm (m : Nat) : IsPerm (kernelPerm m) := by
  apply isPerm_of_nodup
  · unfold kernelPerm
    simp only [List.cons_append, List.nil_append, List.nodup_cons, List.mem_cons, List.mem_range]
    exact ⟨by omega, by omega, List.nodup_range⟩
  · intro x hx
    unfold kernelPerm at hx ⊢
    simp only [List.cons_append, List.nil_append, List.mem_cons, List.mem_range, List.length_cons, List.length_range] at hx ⊢
    omega

theorem kernelPerm_map {m : Nat} {k : List Nat} (c q : Nat) (h : k.length = m) : (kernelPerm m).map (nth (k ++ [c, q])) = q :: c :: k := by
  subst h
  show nth (k ++ [c, q]) (k.length + 1) :: nth (k ++ [c, q]) k.length :: (List.range k.length).map (nth (k ++ [c, q])) = _
  congr 2
  · rw [nth_append_right (by omega)]
    simp [nth]
  · rw [nth_append_right (by omega)]
    simp [nth]
  · apply ext_nth (by simp)
    intro i hi
    simp only [List.length_map, List.length_range] at hi
    rw [nth_map_range, if_pos hi, nth_append_left hi]

theorem kernel_get {m : Nat} (w : T α) {k : List Nat} (c q : Nat) (h : k.length = m) :
    (transpose (kernelPerm m) w).get (q :: c :: k) = w.get (k ++ [c, q]) := by
  show w.get (permIdx _ _) = _
  rw [← kernelPerm_map c q h, permIdx_of_nth (kernelPerm_isPerm m) (by simp [kernelPerm, h])]

/-- A shape of length `m + 2` is that of a kernel. -/
theorem exists_kernel {m : Nat} {s : List Nat} (h : s.length = m + 2) : ∃ k c q, k.length = m ∧ s = k ++ [c, q] := by
  refine ⟨s.take m, nth s m, nth s (m + 1), by simp; omega, ?_⟩
  apply ext_nth (by simp; omega)
  intro i hi
  by_cases h1 : i < m
  · rw [nth_append_left (by simp; omega)]
    unfold nth
    rw [List.getD_eq_getElem?_getD, List.getD_eq_getElem?_getD, List.getElem?_take_of_lt h1]
  · rw [nth_append_right (by simp; omega)]
    have : (s.take m).length = m := by simp; omega
    rw [this]
    obtain rfl | rfl : i = m ∨ i = m + 1 := by omega
    · simp [nth]
    · simp [nth]

/-! ## The theorem -/

/-- A convolution TensorFlow accepts, and what the converter knows of it. -/
structure ConvArgs (acc : Acc α) (zero : α) (n : Node) (m : Nat) (p : TfPad) (strides dilations : List Nat) (x w : T α) : Prop where
  attrs : Describes n m p strides dilations
  xRank : x.shape.length = m + 2
  wRank : w.shape.length = m + 2
  kernelPos : ∀ i, i < m → 1 ≤ nth w.shape i
  cinPos : 1 ≤ nth w.shape m
  channelsPos : 1 ≤ chOf n.last m x.shape
  channels : chOf n.last m x.shape % nth w.shape m = 0
  groups : nth w.shape (m + 1) % (chOf n.last m x.shape / nth w.shape m) = 0
  /-- the recorded shapes have the right rank, and every dimension is unknown or right -/
  inShape : ∃ r, n.inShape = some r ∧ Rec r x.shape
  outShape : ∃ r, n.outShape = some r ∧ Rec r (tfConv acc zero n.last p strides dilations x w).shape
  kernelShape : ∃ r, n.kernelShape = some r ∧ Rec r w.shape
  /-- `SAME`: the size of the kernel is known, or the size of the image is not -/
  kernelKnown : p = .same → (∀ i, i < m → (n.kernelShape.getD []).getD i 0 ≠ -1) ∨
    ∃ i, i < m ∧ (spatialDim n.last (n.inShape.getD []) i = -1 ∨ spatialDim n.last (n.outShape.getD []) i = -1)
  /-- more than one group: a 2-d convolution, and the numbers of channels are known -/
  groupsKnown : chOf n.last m x.shape = nth w.shape m ∨ (m = 2 ∧ (n.dataFormat = "NHWC" ∨ n.dataFormat = "NCHW") ∧
    (n.inShape.getD []).getD (if n.last then m + 1 else 1) 0 ≠ -1 ∧ (n.kernelShape.getD []).getD m 0 ≠ -1)
  /-- the formats of 2-d data -/
  format : n.dataFormat = "NHWC" ∨ n.dataFormat = "NCHW" → m = 2

theorem group_ok {n : Node} {m cin c : Nat} {inR kR : List Int} (hin : n.inShape = some inR) (hk : n.kernelShape = some kR) (hinl : inR.length = m + 2)
    (hkl : kR.length = m + 2) (hc : inR.getD (if n.last then m + 1 else 1) 0 = -1 ∨ inR.getD (if n.last then m + 1 else 1) 0 = (c : Int))
    (hci : kR.getD m 0 = -1 ∨ kR.getD m 0 = (cin : Int)) (hpos : 1 ≤ cin)
    (hg : c = cin ∨ ((n.dataFormat = "NHWC" ∨ n.dataFormat = "NCHW") ∧ inR.getD (if n.last then m + 1 else 1) 0 ≠ -1 ∧ kR.getD m 0 ≠ -1)) :
    groupOf n = .ok ((c / cin : Nat) : Int) := by
  have key : (if n.dataFormat = "NHWC" ∨ n.dataFormat = "NCHW" then
      (let dim := inR.getD (if n.last then m + 1 else 1) 0
       if dim ≠ -1 then (let ci := kR.getD m 0; if ci = 0 then .error "ZeroDivisionError" else if ci ≠ -1 then .ok (dim / ci) else .ok 1) else .ok 1)
      else (.ok 1 : Except String Int)) = .ok ((c / cin : Nat) : Int) := by
    dsimp only
    generalize inR.getD (if n.last then m + 1 else 1) 0 = dim at hc hg ⊢
    rcases hg with rfl | ⟨hf, h1, h2⟩
    · have e1 : ((c / c : Nat) : Int) = 1 := by rw [Nat.div_self (by omega)]; rfl
      rw [e1]
      split
      · split
        · rename_i h1
          rw [hc.resolve_left h1]
          split
          · rename_i h2
            rcases hci with h | h <;> omega
          · split
            · rename_i h2 h3
              rw [hci.resolve_left h3, Int.ediv_self (by omega)]
            · rfl
        · rfl
      · rfl
    · rw [if_pos hf, if_pos h1, hci.resolve_left h2, hc.resolve_left h1, if_neg (by omega), if_pos (by omega)]
      simp
  rw [← key]
  unfold groupOf
  split
  · rename_i hf
    rw [hin, hk]
    dsimp only
    have e1 : kR.getD (kR.length - 2) 0 = kR.getD m 0 := by rw [hkl]; rfl
    have e2 : (if n.dataFormat = "NHWC" then inR.getD (inR.length - 1) 0 else inR.getD 1 0) = inR.getD (if n.last then m + 1 else 1) 0 := by
      rcases hf with h | h
      · have : n.last = true := by unfold Node.last; rw [h]; decide
        rw [if_pos h, this, hinl]; rfl
      · have : n.last = false := by unfold Node.last; rw [h]; decide
        rw [if_neg (by rw [h]; decide), this]; rfl
    rw [show (some kR).getD [] = kR from rfl, e1, e2]
  · rfl

theorem convAt_congr (acc : Acc α) (zero : α) (K : List Nat) (cin per : Nat) {w w' : List Nat → Nat → Nat → α}
    (h : ∀ k c q, k.length = K.length → w k c q = w' k c q) : convAt acc zero K cin per w = convAt acc zero K cin per w' := by
  funext q r
  unfold convAt
  congr 1
  funext k c
  split
  · rename_i hk
    rw [h k c q hk.1.1]
  · rfl

theorem tfGeom_kernel (p : TfPad) (last : Bool) (shape k s d : List Nat) : (tfGeom p last shape k s d).kernel = k := rfl

/-- **C57**: a convolution that TensorFlow accepts, with any number of spatial axes, channels first or last, any strides, dilations and padding, is converted,
and the `Conv` between its transposes computes the same tensor. -/
theorem conv_converts (acc : Acc α) (zero : α) (n : Node) (m : Nat) (p : TfPad) (strides dilations : List Nat) (x w : T α)
    (h : ConvArgs acc zero n m p strides dilations x w) :
    ∃ y, convertedConv acc zero n m x w = .ok (some y) ∧ Same y (tfConv acc zero n.last p strides dilations x w) := by
  obtain ⟨inR, hin, hinR⟩ := h.inShape
  obtain ⟨outR, hout, houtR⟩ := h.outShape
  obtain ⟨kR, hkR, hkRec⟩ := h.kernelShape
  obtain ⟨K, cin, cout, hK, hw⟩ := exists_kernel h.wRank
  obtain ⟨b, sp, C, hsp, hx⟩ := exists_mk n.last h.xRank
  have hC : chOf n.last m x.shape = C := by rw [hx, ← hsp]; exact chOf_mk _ _ _ _
  have hcin : nth w.shape m = cin := by rw [hw, nth_append_right (by omega), hK]; simp [nth]
  have hcout : nth w.shape (m + 1) = cout := by rw [hw, nth_append_right (by omega), hK]; simp [nth]
  have htake : w.shape.take m = K := by rw [hw, ← hK]; simp
  have hKn : ∀ i, i < m → nth w.shape i = nth K i := fun i hi => by rw [hw, nth_append_left (by omega)]
  have hKpos : ∀ d ∈ K, 1 ≤ d := by
    intro d hd
    obtain ⟨i, hi, rfl⟩ := List.mem_iff_getElem.1 hd
    rw [← nth_eq, ← hKn i (by omega)]
    exact h.kernelPos i (by omega)
  have hm2 : w.shape.length - 2 = m := by rw [h.wRank]; rfl
  have htf : tfConv acc zero n.last p strides dilations x w =
      windowed n.last (tfGeom p n.last x.shape K (spatialPart n.last m strides) (spatialPart n.last m dilations)) cout
        (convAt acc zero K cin (cout / (C / cin)) (fun k c q => w.get (k ++ [c, q]))) x := by
    unfold tfConv
    simp only [hm2, htake, hcin, hcout, hC]
  have hgeomlen : (tfGeom p n.last x.shape K (spatialPart n.last m strides) (spatialPart n.last m dilations)).kernel.length = m := hK
  -- recorded output
  have houtR' : outR.length = m + 2 ∧ ∀ i, i < m → spatialDim n.last outR i = -1 ∨ spatialDim n.last outR i =
      ((tfGeom p n.last x.shape K (spatialPart n.last m strides) (spatialPart n.last m dilations)).outDim i (spOf n.last x.shape i) : Int) := by
    rw [htf] at houtR
    have hl : (windowed n.last (tfGeom p n.last x.shape K (spatialPart n.last m strides) (spatialPart n.last m dilations)) cout
        (convAt acc zero K cin (cout / (C / cin)) (fun k c q => w.get (k ++ [c, q]))) x).shape.length = m + 2 := by
      rw [windowed_shape, mk_length, List.length_map, List.length_range, hgeomlen]
    refine ⟨by rw [houtR.1, hl], fun i hi => ?_⟩
    have := houtR.spatial n.last hl hi
    rwa [windowed_shape, spOf_mk _ _ _ _ (by rw [List.length_map, List.length_range, hgeomlen]; exact hi), nth_map_range,
      if_pos (by rw [hgeomlen]; exact hi)] at this
  -- the kernel
  have hkl : kR.length = m + 2 := by rw [hkRec.1, h.wRank]
  have hkK : ∀ i, i < m → (kR.take m).getD i 0 = kR.getD i 0 := fun i hi => by
    rw [List.getD_eq_getElem?_getD, List.getElem?_take_of_lt hi, ← List.getD_eq_getElem?_getD]
  have hkrec : ∀ i, i < m → (kR.take m).getD i 0 = -1 ∨ (kR.take m).getD i 0 = (nth K i : Int) := fun i hi => by
    rw [hkK i hi, ← hKn i hi]
    exact hkRec.2 i (by rw [h.wRank]; omega)
  have hkc : convKernelShape n.kernelShape m = .ok (kR.take m, if (kR.take m).all (fun d => 0 < d) then some (kR.take m) else none) := by
    unfold convKernelShape
    rw [hkR]
    exact if_neg (by simp [hkl])
  -- the padding
  obtain ⟨P, hP, hgeom⟩ := padding_ok h.attrs h.xRank hK hKpos hin hinR hout houtR' (kernel := kR.take m)
    (fun hp => by
      have := h.kernelKnown hp
      rw [hkR, hin, hout] at this
      exact this.imp (fun h1 i hi => (hkrec i hi).resolve_left (by rw [hkK i hi]; exact h1 i hi)) id)
    (fun i => nth (toOnnx n.last m x).shape (i + 2)) (fun i hi => by
      have e := toOnnx_shape n.last x hsp hx
      have e1 := spOf_mk false b sp C (hsp ▸ hi)
      have e2 := spOf_mk n.last b sp C (hsp ▸ hi)
      rw [hx, e2, ← e1, ← e]
      rfl)
  -- the groups
  have hgr := h.groupsKnown
  rw [hC, hcin, hkR, hin] at hgr
  have hcr := hkRec.2 m (by rw [h.wRank]; omega)
  have hir := hinR.2 (if n.last then m + 1 else 1) (by rw [h.xRank]; split <;> omega)
  have hg := group_ok (n := n) (m := m) (cin := cin) (c := C) hin hkR (by rw [hinR.1, h.xRank]) hkl (by rw [← hC]; exact hir) (by rw [← hcin]; exact hcr)
    (by rw [← hcin]; exact h.cinPos) (hgr.imp id (fun h => h.2))
  have hok : outKnown n = .ok () := by unfold outKnown; rw [hout]; simp
  -- the attributes
  let base : Attrs := ⟨false, if (kR.take m).all (fun d => 0 < d) then some (kR.take m) else none, some (parseDims n.last n.strides m),
    n.dilations.map (fun d => parseDims n.last d m), none, ((C / cin : Nat) : Int)⟩
  have hattrs : convAttrs n m = .ok (base.withPadding P) := by
    unfold convAttrs
    rw [hkc]
    show (padding n (kR.take m) _ _ m).bind _ = _
    rw [hP]
    show (groupOf n).bind _ = _
    rw [hg]
    show (outKnown n).bind _ = _
    rw [hok]
    rfl
  have hbase : Base base n m := ⟨rfl, rfl, rfl, rfl⟩
  have hgroup : ∀ P, (base.withPadding P).group = ((C / cin : Nat) : Int) := by intro P; cases P <;> rfl
  have hks : ∀ P, (base.withPadding P).kernelShape = if (kR.take m).all (fun d => 0 < d) then some (kR.take m) else none := by intro P; cases P <;> rfl
  -- the operator
  have hWs : (transpose (kernelPerm m) w).shape = cout :: cin :: K := by
    show (kernelPerm m).map (nth w.shape) = _
    rw [hw, kernelPerm_map _ _ hK]
  have hXs := toOnnx_shape n.last x hsp hx
  have hcinPos : 1 ≤ cin := hcin ▸ h.cinPos
  have hCpos : 1 ≤ C := hC ▸ h.channelsPos
  have hmod : C % cin = 0 := by have := h.channels; rwa [hC, hcin] at this
  have hmul : cin * (C / cin) = C := Nat.mul_div_cancel' (Nat.dvd_of_mod_eq_zero hmod)
  have hdivpos : 1 ≤ C / cin := by
    rcases Nat.eq_zero_or_pos (C / cin) with h0 | h0
    · rw [h0] at hmul; omega
    · exact h0
  have hkshape : ∀ l, (base.withPadding P).kernelShape = some l → l = K.map Int.ofNat := by
    intro l hl
    rw [hks] at hl
    split at hl
    · rename_i hall
      injection hl with hl
      subst hl
      refine map_ofNat_of (by simp; omega) (fun i hi => ?_)
      refine (hkrec i (by omega)).resolve_left (fun h1 => ?_)
      rw [List.all_eq_true] at hall
      have hi' : i < (kR.take m).length := by simp; omega
      have := hall _ (List.getElem_mem hi')
      rw [List.getD_eq_getElem?_getD, List.getElem?_eq_getElem hi'] at h1
      simp only [Option.getD_some] at h1
      rw [h1] at this
      exact absurd this (by decide)
    · exact absurd hl (by simp)
  have hgeo := hgeom base hbase
  have hrun : onnxConv acc zero (base.withPadding P) (toOnnx n.last m x) (transpose (kernelPerm m) w) =
      some (windowed false (tfGeom p n.last x.shape K (spatialPart n.last m strides) (spatialPart n.last m dilations)) cout
        (convAt acc zero K cin (cout / (C / cin)) (fun k c q => (transpose (kernelPerm m) w).get (q :: c :: k))) (toOnnx n.last m x)) := by
    unfold onnxConv
    rw [hWs]
    simp only [List.drop_succ_cons, List.drop_zero, nth_cons_succ, nth_cons_zero, List.length_cons]
    rw [if_pos, hgeo, hgroup]
    · rfl
    · refine ⟨by omega, by rw [hXs, mk_length]; omega, hkshape, ?_, ?_, ?_⟩
      · rw [hgroup]; omega
      · rw [hgroup, hXs]
        show (C : Int) = _
        rw [← Int.natCast_mul, hmul]
      · rw [hgroup]
        have := h.groups
        rw [hC, hcin, hcout] at this
        exact_mod_cast this
  refine ⟨fromOnnx n.last m (windowed false (tfGeom p n.last x.shape K (spatialPart n.last m strides) (spatialPart n.last m dilations)) cout
        (convAt acc zero K cin (cout / (C / cin)) (fun k c q => (transpose (kernelPerm m) w).get (q :: c :: k))) (toOnnx n.last m x)), ?_, ?_⟩
  · unfold convertedConv
    rw [hattrs]
    show Except.ok ((onnxConv acc zero (base.withPadding P) _ _).map _) = _
    rw [hrun]
    rfl
  · rw [htf, convAt_congr acc zero K cin (cout / (C / cin)) (w := fun k c q => (transpose (kernelPerm m) w).get (q :: c :: k))
      (w' := fun k c q => w.get (k ++ [c, q])) (fun k c q hk => kernel_get w c q (hk.trans hK))]
    have hl := windowed_layout n.last (tfGeom p n.last x.shape K (spatialPart n.last m strides) (spatialPart n.last m dilations)) cout
      (convAt acc zero K cin (cout / (C / cin)) (fun k c q => w.get (k ++ [c, q]))) x (by rw [h.xRank, hgeomlen])
    rwa [hgeomlen] at hl

end Verif.Conv
