import Verif.Props.C57_Conv
/-!
# C58: pooling
-/
namespace Verif.Conv
open Verif.Tensor Verif.Nn Verif.Emit

variable {α : Type}

/-- A pool TensorFlow accepts, and what the converter knows of it. -/
structure PoolArgs (pool : Pool α) (n : Node) (m : Nat) (p : TfPad) (ksize strides : List Nat) (x : T α) : Prop where
  attrs : Describes n m p strides (List.replicate (m + 2) 1)
  xRank : x.shape.length = m + 2
  ksizeLen : ksize.length = m + 2
  ksizePos : ∀ d ∈ ksize, 1 ≤ d
  /-- the recorded shapes have the right rank, and every dimension is unknown or right -/
  inShape : ∃ r, n.inShape = some r ∧ Rec r x.shape
  outShape : ∃ r, n.outShape = some r ∧ Rec r (tfPool pool n.last m p ksize strides x).shape

/-- **C58**: a pool that TensorFlow accepts, with any number of spatial axes, channels first or last, any kernel, strides and padding, is converted, and the
ONNX pool between its transposes computes the same tensor. -/
theorem pool_converts (pool : Pool α) (n : Node) (m : Nat) (p : TfPad) (ksize strides : List Nat) (x : T α) (h : PoolArgs pool n m p ksize strides x) :
    ∃ y, convertedPool pool n (ksize.map Int.ofNat) m x = .ok (some y) ∧ Same y (tfPool pool n.last m p ksize strides x) := by
  obtain ⟨inR, hin, hinR⟩ := h.inShape
  obtain ⟨outR, hout, houtR⟩ := h.outShape
  obtain ⟨b, sp, C, hsp, hx⟩ := exists_mk n.last h.xRank
  have hC : chOf n.last m x.shape = C := by rw [hx, ← hsp]; exact chOf_mk _ _ _ _
  obtain ⟨K, hKdef⟩ : ∃ K, spatialPart n.last m ksize = K := ⟨_, rfl⟩
  have hK : K.length = m := by rw [← hKdef]; exact spatialPart_length ..
  have hKpos : ∀ d ∈ K, 1 ≤ d := by rw [← hKdef]; exact spatialPart_pos _ h.ksizeLen h.ksizePos
  have hones := spatialPart_ones n.last m
  have htf : tfPool pool n.last m p ksize strides x =
      windowed n.last (tfGeom p n.last x.shape K (spatialPart n.last m strides) (spatialPart n.last m (List.replicate (m + 2) 1))) C
        (fun q r => pool K (fun k' => r k' q)) x := by
    unfold tfPool
    simp only [hKdef, hC, hones]
  obtain ⟨g, hg⟩ : ∃ g, tfGeom p n.last x.shape K (spatialPart n.last m strides) (spatialPart n.last m (List.replicate (m + 2) 1)) = g := ⟨_, rfl⟩
  have hgk : g.kernel.length = m := by rw [← hg]; exact hK
  have houtR' : outR.length = m + 2 ∧ ∀ i, i < m → spatialDim n.last outR i = -1 ∨ spatialDim n.last outR i =
      ((tfGeom p n.last x.shape K (spatialPart n.last m strides) (spatialPart n.last m (List.replicate (m + 2) 1))).outDim i
        (spOf n.last x.shape i) : Int) := by
    rw [htf, windowed_shape, hg] at houtR
    rw [hg]
    refine ⟨by rw [houtR.1, mk_length, List.length_map, List.length_range, hgk], fun i hi => ?_⟩
    have := houtR.spatial (m := m) n.last (by rw [mk_length, List.length_map, List.length_range, hgk]) hi
    rwa [spOf_mk _ _ _ _ (by rw [List.length_map, List.length_range, hgk]; exact hi), nth_map_range, if_pos (by rw [hgk]; exact hi)] at this
  obtain ⟨P, hP, hgeom⟩ := padding_ok h.attrs h.xRank hK hKpos hin hinR hout houtR' (kernel := K.map Int.ofNat)
    (fun _ => Or.inl (fun i _ => getD_cast K i))
    (fun i => nth (toOnnx n.last m x).shape (i + 2)) (fun i hi => by
      have e := toOnnx_shape n.last x hsp hx
      have e1 := spOf_mk false b sp C (hsp ▸ hi)
      have e2 := spOf_mk n.last b sp C (hsp ▸ hi)
      rw [hx, e2, ← e1, ← e]
      rfl)
  rw [hg] at hgeom
  have hok : outKnown n = .ok () := by unfold outKnown; rw [hout]; simp
  let base : Attrs := ⟨false, some (K.map Int.ofNat), some (parseDims n.last n.strides m), n.dilations.map (fun d => parseDims n.last d m), none, 1⟩
  have hattrs : poolAttrs n (ksize.map Int.ofNat) m = .ok (base.withPadding P) := by
    unfold poolAttrs
    dsimp only
    rw [parseDims_cast _ h.ksizeLen, hKdef]
    show (padding n (K.map Int.ofNat) _ _ m).bind _ = _
    rw [hP]
    show (outKnown n).bind _ = _
    rw [hok]
    rfl
  have hbase : Base base n m := ⟨rfl, rfl, rfl, rfl⟩
  have hks : ∀ P, (base.withPadding P).kernelShape = some (K.map Int.ofNat) := by intro P; cases P <;> rfl
  have hXs := toOnnx_shape n.last x hsp hx
  have hKK : (K.map Int.ofNat).map Int.toNat = K := by
    rw [List.map_map]; exact (List.map_congr_left (fun a _ => rfl)).trans (List.map_id K)
  have hrun : onnxPool pool (base.withPadding P) (toOnnx n.last m x) =
      some (windowed false g C (fun q r => pool K (fun k' => r k' q)) (toOnnx n.last m x)) := by
    unfold onnxPool
    rw [hks]
    dsimp only
    rw [if_pos, hKK, hgeom base hbase, hXs]
    · rfl
    · refine ⟨by rw [hXs, mk_length, List.length_map]; omega, fun z hz => ?_⟩
      obtain ⟨d, hd, rfl⟩ := List.mem_map.1 hz
      have := hKpos d hd
      show (1 : Int) ≤ (d : Int)
      omega
  refine ⟨fromOnnx n.last m (windowed false g C (fun q r => pool K (fun k' => r k' q)) (toOnnx n.last m x)), ?_, ?_⟩
  · unfold convertedPool
    rw [hattrs]
    show Except.ok ((onnxPool pool (base.withPadding P) _).map _) = _
    rw [hrun]
    rfl
  · rw [htf, hg]
    have hl := windowed_layout n.last g C (fun q r => pool K (fun k' => r k' q)) x (by rw [h.xRank, hgk])
    rwa [hgk] at hl

end Verif.Conv
