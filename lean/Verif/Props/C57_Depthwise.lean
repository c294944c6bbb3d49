import Verif.Props.C57_Conv
import Verif.Props.EmitVec
/-!
# C57: depthwise convolution
-/
namespace Verif.Conv
open Verif.Tensor Verif.Nn Verif.Emit

variable {α : Type}

/-- A depthwise convolution TensorFlow accepts, and what the converter knows of it. -/
structure DepthwiseArgs (acc : Acc α) (zero : α) (n : Node) (p : TfPad) (strides dilations : List Nat) (kh kw cin mult : Nat) (x w : T α) : Prop where
  attrs : Describes n 2 p strides dilations
  xRank : x.shape.length = 4
  wShape : w.shape = [kh, kw, cin, mult]
  pos : 1 ≤ kh ∧ 1 ≤ kw ∧ 1 ≤ cin ∧ 1 ≤ mult
  channels : chOf n.last 2 x.shape = cin
  /-- the recorded shapes have the right rank, and every dimension is unknown or right -/
  inShape : ∃ r, n.inShape = some r ∧ Rec r x.shape
  outShape : ∃ r, n.outShape = some r ∧ Rec r (tfDepthwise acc zero n.last p strides dilations x w).shape
  /-- the shape of the kernel is known -/
  kernelShape : n.kernelShape = some [(kh : Int), kw, cin, mult]

theorem reshaped_get {kh kw cin mult : Nat} {w : T α} (hw : w.shape = [kh, kw, cin, mult]) {k : List Nat} {c q : Nat} (hk : InB [kh, kw] k) (hc : c < 1)
    (hq : q < cin * mult) (hm : 1 ≤ mult) :
    (Tensor.reshape [kh, kw, 1, cin * mult] w).get (k ++ [c, q]) = w.get (k ++ [q / mult, q % mult]) := by
  have hc0 : c = 0 := by omega
  subst hc0
  have hkl : k.length = 2 := hk.1
  refine reshape_get (x := w) ?_ ?_
  · rw [hw, show [kh, kw, cin, mult] = [kh, kw] ++ [cin, mult] from rfl, inB_append hk.1]
    refine ⟨hk, ?_⟩
    rw [inB_cons, inB_one]
    exact ⟨Nat.div_lt_of_lt_mul (by rwa [Nat.mul_comm] at hq), Nat.mod_lt _ hm⟩
  · rw [hw, show [kh, kw, 1, cin * mult] = [kh, kw] ++ [1, cin * mult] from rfl, show [kh, kw, cin, mult] = [kh, kw] ++ [cin, mult] from rfl,
      lin_append hkl, lin_append hkl]
    simp only [lin, size, List.foldr_cons, List.foldr_nil, Nat.mul_one, Nat.one_mul, Nat.zero_mul, Nat.zero_add, Nat.add_zero]
    have := Nat.div_add_mod q mult
    rw [Nat.mul_comm] at this
    omega

/-- **C57, depthwise**: a depthwise convolution is converted to a grouped `Conv`, which computes the same tensor. -/
theorem depthwise_converts (acc : Acc α) (zero : α) (n : Node) (p : TfPad) (strides dilations : List Nat) (kh kw cin mult : Nat) (x w : T α)
    (h : DepthwiseArgs acc zero n p strides dilations kh kw cin mult x w) :
    ∃ y, convertedDepthwise acc zero n none x w = .ok (some y) ∧ Same y (tfDepthwise acc zero n.last p strides dilations x w) := by
  obtain ⟨inR, hin, hinR⟩ := h.inShape
  obtain ⟨outR, hout, houtR⟩ := h.outShape
  obtain ⟨hkh, hkw, hcin, hmult⟩ := h.pos
  obtain ⟨b, sp, C, hsp, hx⟩ := exists_mk (m := 2) n.last h.xRank
  have hC : chOf n.last 2 x.shape = C := by rw [hx, ← hsp]; exact chOf_mk _ _ _ _
  have hCc : C = cin := hC.symm.trans h.channels
  have htf : tfDepthwise acc zero n.last p strides dilations x w =
      windowed n.last (tfGeom p n.last x.shape [kh, kw] (spatialPart n.last 2 strides) (spatialPart n.last 2 dilations)) (cin * mult)
        (fun q r => acc [kh, kw] 1 (fun k' c => if InB [kh, kw] k' ∧ c < 1 then ((r k' (q / mult)).getD zero, w.get (k' ++ [q / mult, q % mult]))
          else (zero, zero))) x := by
    unfold tfDepthwise
    rw [h.wShape]
    rfl
  have hgeomlen : (tfGeom p n.last x.shape [kh, kw] (spatialPart n.last 2 strides) (spatialPart n.last 2 dilations)).kernel.length = 2 := rfl
  have houtR' : outR.length = 2 + 2 ∧ ∀ i, i < 2 → spatialDim n.last outR i = -1 ∨ spatialDim n.last outR i =
      ((tfGeom p n.last x.shape [kh, kw] (spatialPart n.last 2 strides) (spatialPart n.last 2 dilations)).outDim i (spOf n.last x.shape i) : Int) := by
    rw [htf] at houtR
    have hl := windowed_shape n.last (tfGeom p n.last x.shape [kh, kw] (spatialPart n.last 2 strides) (spatialPart n.last 2 dilations)) (cin * mult)
        (fun q r => acc [kh, kw] 1 (fun k' c => if InB [kh, kw] k' ∧ c < 1 then ((r k' (q / mult)).getD zero, w.get (k' ++ [q / mult, q % mult]))
          else (zero, zero))) x
    rw [hl] at houtR
    refine ⟨by rw [houtR.1, mk_length]; rfl, fun i hi => ?_⟩
    have := houtR.spatial (m := 2) n.last (by rw [mk_length]; rfl) hi
    rwa [spOf_mk _ _ _ _ (by rw [List.length_map, List.length_range, hgeomlen]; exact hi), nth_map_range,
      if_pos (by rw [hgeomlen]; exact hi)] at this
  obtain ⟨P, hP, hgeom⟩ := padding_ok h.attrs (K := [kh, kw]) h.xRank rfl (by simp [hkh, hkw]) hin hinR hout houtR'
    (kernel := [(kh : Int), kw, cin, mult]) (fun _ => Or.inl (fun i hi => by
      obtain rfl | rfl : i = 0 ∨ i = 1 := by omega
      · rfl
      · rfl))
    (fun i => nth (toOnnx n.last 2 x).shape (i + 2)) (fun i hi => by
      have e := toOnnx_shape n.last x hsp hx
      have e1 := spOf_mk false b sp C (i := i) (by omega)
      have e2 := spOf_mk n.last b sp C (i := i) (by omega)
      rw [hx, e2, ← e1, ← e]
      rfl)
  have hok : outKnown n = .ok () := by unfold outKnown; rw [hout]; simp
  let base : Attrs := ⟨false, if 0 < (kh : Int) ∧ 0 < (kw : Int) then some [(kh : Int), kw] else none, some (parseDims n.last n.strides 2),
    n.dilations.map (fun d => parseDims n.last d 2), none, (cin : Int)⟩
  have hinl : inR.length = 4 := by rw [hinR.1, h.xRank]
  have hattrs : depthwiseAttrs n none = .ok (base.withPadding P, [(kh : Int), kw, 1, (cin : Int) * mult]) := by
    unfold depthwiseAttrs
    rw [hin, h.kernelShape]
    dsimp only
    rw [if_neg (by simp [hinl]), if_neg (by simp), if_neg (by omega)]
    show (padding n [(kh : Int), kw, cin, mult] _ _ 2).bind _ = _
    rw [hP]
    show (outKnown n).bind _ = _
    rw [hok]
    rfl
  have hbase : Base base n 2 := ⟨rfl, rfl, rfl, rfl⟩
  have hgroup : ∀ P, (base.withPadding P).group = (cin : Int) := by intro P; cases P <;> rfl
  have hks : ∀ P, (base.withPadding P).kernelShape = some [(kh : Int), kw] := by
    have : base.kernelShape = some [(kh : Int), kw] := if_pos (by omega)
    intro P; cases P <;> exact this
  have hshape : ([(kh : Int), kw, 1, (cin : Int) * mult].map Int.toNat) = [kh, kw, 1, cin * mult] := by
    simp only [List.map_cons, List.map_nil, Int.toNat_natCast, ← Int.natCast_mul]
    rfl
  have hsize : Tensor.size [kh, kw, 1, cin * mult] = Tensor.size w.shape := by
    rw [h.wShape]
    simp [Tensor.size]
  have hXs := toOnnx_shape n.last x hsp hx
  have hWs : (transpose (kernelPerm 2) (Tensor.reshape [kh, kw, 1, cin * mult] w)).shape = [cin * mult, 1, kh, kw] := rfl
  have hrun : onnxConv acc zero (base.withPadding P) (toOnnx n.last 2 x) (transpose (kernelPerm 2) (Tensor.reshape [kh, kw, 1, cin * mult] w)) =
      some (windowed false (tfGeom p n.last x.shape [kh, kw] (spatialPart n.last 2 strides) (spatialPart n.last 2 dilations)) (cin * mult)
        (convAt acc zero [kh, kw] 1 (cin * mult / cin)
          (fun k c q => (transpose (kernelPerm 2) (Tensor.reshape [kh, kw, 1, cin * mult] w)).get (q :: c :: k))) (toOnnx n.last 2 x)) := by
    unfold onnxConv
    rw [hWs]
    simp only [List.drop_succ_cons, List.drop_zero, nth_cons_succ, nth_cons_zero, List.length_cons]
    rw [if_pos, hgeom base hbase, hgroup]
    · rfl
    · refine ⟨by simp, by rw [hXs, mk_length, hsp]; rfl, ?_, ?_, ?_, ?_⟩
      · intro l hl
        rw [hks] at hl
        injection hl with hl
        subst hl
        rfl
      · rw [hgroup]; omega
      · rw [hgroup, hXs]
        show (C : Int) = _
        rw [hCc]; simp
      · rw [hgroup]
        simp
  refine ⟨fromOnnx n.last 2 (windowed false (tfGeom p n.last x.shape [kh, kw] (spatialPart n.last 2 strides) (spatialPart n.last 2 dilations)) (cin * mult)
        (convAt acc zero [kh, kw] 1 (cin * mult / cin)
          (fun k c q => (transpose (kernelPerm 2) (Tensor.reshape [kh, kw, 1, cin * mult] w)).get (q :: c :: k))) (toOnnx n.last 2 x)), ?_, ?_⟩
  · unfold convertedDepthwise
    rw [hattrs]
    show Except.ok (if _ then _ else _) = _
    rw [hshape, if_pos, hrun]
    · rfl
    · refine ⟨?_, hsize⟩
      intro d hd
      simp only [List.mem_cons, List.not_mem_nil, or_false] at hd
      rcases hd with rfl | rfl | rfl | rfl
      · omega
      · omega
      · omega
      · exact Int.mul_pos (by omega) (by omega)
  · have hl := windowed_layout n.last (tfGeom p n.last x.shape [kh, kw] (spatialPart n.last 2 strides) (spatialPart n.last 2 dilations)) (cin * mult)
      (convAt acc zero [kh, kw] 1 (cin * mult / cin)
          (fun k c q => (transpose (kernelPerm 2) (Tensor.reshape [kh, kw, 1, cin * mult] w)).get (q :: c :: k))) x h.xRank
    refine hl.trans ?_
    rw [htf]
    refine windowed_congr _ _ _ x (fun q r hq => ?_)
    unfold convAt
    congr 1
    funext k c
    split
    · rename_i hk
      dsimp only
      rw [kernel_get (m := 2) _ _ _ hk.1.1, reshaped_get h.wShape hk.1 hk.2 hq hmult, Nat.mul_div_cancel_left _ (by omega)]
      have : c = 0 := by omega
      rw [this]
      simp
    · rfl

end Verif.Conv
