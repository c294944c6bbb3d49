import Verif.Props.C59_Window
import Verif.Props.C57_Depthwise
import Verif.Model.ConvDilations
/-!
# C59: the rewriter of dilated convolutions
-/
namespace Verif.Conv
open Verif.Tensor Verif.Nn Verif.Emit Verif.TransposeOpt

variable {α : Type}

/-- `m + 2` ones: no strides, or no dilations. -/
abbrev ones (m : Nat) : List Nat := List.replicate (m + 2) 1

/-- The padding that is left of the paddings of space-to-batch after the crops of batch-to-space. -/
def uncropped (p c : List (Nat × Nat)) : List (Nat × Nat) := List.zipWith (fun p c => (p.1, p.2 - c.2)) p c

/-- `explicit_paddings` of the dilated convolution. -/
def dilatedPad (p c : List (Nat × Nat)) : TfPad := .explicit ((0, 0) :: (uncropped p c ++ [(0, 0)]))

/-- `dilations` of the dilated convolution. -/
def dilationsOf (last : Bool) (block : List Nat) : List Nat := 1 :: (block ++ if last then [1] else [])

theorem spatialPart_dilations (last : Bool) (b : List Nat) : spatialPart last b.length (dilationsOf last (blockOf last b)) = b := by
  apply ext_nth (by simp [spatialPart])
  intro i hi
  have hi' : i < b.length := by simpa [spatialPart] using hi
  unfold spatialPart
  rw [nth_map_range, if_pos hi']
  cases last
  · show nth (b ++ []) i = _
    rw [List.append_nil]
  · exact nth_append_left hi'

theorem uncropped_getD {p c : List (Nat × Nat)} {i : Nat} (h : p.length = c.length) :
    (uncropped p c).getD i (0, 0) = ((p.getD i (0, 0)).1, (p.getD i (0, 0)).2 - (c.getD i (0, 0)).2) := by
  unfold uncropped
  simp only [List.getD_eq_getElem?_getD, List.getElem?_zipWith]
  by_cases hi : i < p.length
  · rw [List.getElem?_eq_getElem hi, List.getElem?_eq_getElem (by omega : i < c.length)]; rfl
  · rw [List.getElem?_eq_none (by omega), List.getElem?_eq_none (by omega : c.length ≤ i)]; rfl

theorem dilatedPad_getD (last : Bool) {p c : List (Nat × Nat)} {i : Nat} (h : p.length = c.length) (hi : i < p.length) :
    ((0, 0) :: (uncropped (pairsOf last p) (pairsOf last c) ++ [(0, 0)])).getD (if last then i + 1 else i + 2) (0, 0) =
      ((p.getD i (0, 0)).1, (p.getD i (0, 0)).2 - (c.getD i (0, 0)).2) := by
  have hl : i < (uncropped p c).length := by simp [uncropped]; omega
  rw [← uncropped_getD h]
  cases last
  · show (uncropped p c ++ [(0, 0)]).getD i (0, 0) = _
    rw [List.getD_eq_getElem?_getD, List.getElem?_append_left hl, ← List.getD_eq_getElem?_getD]
  · show (uncropped p c ++ [(0, 0)]).getD i (0, 0) = _
    rw [List.getD_eq_getElem?_getD, List.getElem?_append_left hl, ← List.getD_eq_getElem?_getD]

theorem tfGeom_plain (last : Bool) (s K : List Nat) : tfGeom .valid last s K (spatialPart last K.length (ones K.length)) (spatialPart last K.length (ones K.length)) = plain K := by
  unfold tfGeom plain TfPad.at
  rw [spatialPart_ones]
  simp

theorem tfGeom_dilated (last : Bool) (s : List Nat) {K b : List Nat} {p c : List (Nat × Nat)} (hb : b.length = K.length) (hp : p.length = K.length)
    (hc : c.length = K.length) :
    tfGeom (dilatedPad (pairsOf last p) (pairsOf last c)) last s K (spatialPart last K.length (ones K.length))
      (spatialPart last K.length (dilationsOf last (blockOf last b))) = dilated K b (padBefore K.length p) (padAfter K.length p c) := by
  unfold tfGeom dilated TfPad.at dilatedPad padBefore padAfter
  rw [spatialPart_ones, ← hb, spatialPart_dilations]
  dsimp only
  congr 1
  · exact List.map_congr_left (fun i hi => by rw [dilatedPad_getD last (hp.trans hc.symm) (by have := List.mem_range.1 hi; omega)])
  · exact List.map_congr_left (fun i hi => by rw [dilatedPad_getD last (hp.trans hc.symm) (by have := List.mem_range.1 hi; omega)])

theorem tfGeom_valid_dilated (last : Bool) (s : List Nat) {K b : List Nat} {p c : List (Nat × Nat)} (hb : b.length = K.length)
    (h0 : ∀ i, i < K.length → (p.getD i (0, 0)).1 = 0) (h1 : ∀ i, i < K.length → (p.getD i (0, 0)).2 = (c.getD i (0, 0)).2) :
    tfGeom .valid last s K (spatialPart last K.length (ones K.length))
      (spatialPart last K.length (dilationsOf last (blockOf last b))) = dilated K b (padBefore K.length p) (padAfter K.length p c) := by
  unfold tfGeom dilated TfPad.at padBefore padAfter
  rw [spatialPart_ones, ← hb, spatialPart_dilations]
  dsimp only
  congr 1
  · exact List.map_congr_left (fun i hi => by rw [h0 i (by rw [← hb]; exact List.mem_range.1 hi)])
  · exact List.map_congr_left (fun i hi => by rw [h1 i (by rw [← hb]; exact List.mem_range.1 hi), Nat.sub_self])

/-- The convolution written as windows. -/
theorem tfConv_eq (acc : Acc α) (zero : α) (last : Bool) (p : TfPad) (strides dilations : List Nat) (x w : T α) {K : List Nat} {cin cout : Nat}
    (hw : w.shape = K ++ [cin, cout]) :
    tfConv acc zero last p strides dilations x w =
      windowed last (tfGeom p last x.shape K (spatialPart last K.length strides) (spatialPart last K.length dilations)) cout
        (convAt acc zero K cin (cout / (chOf last K.length x.shape / cin)) (fun k c q => w.get (k ++ [c, q]))) x := by
  have hm : w.shape.length - 2 = K.length := by rw [hw]; simp
  have ht : w.shape.take K.length = K := by rw [hw]; simp
  have h1 : nth w.shape K.length = cin := by rw [hw, nth_append_right (Nat.le_refl _)]; simp [nth]
  have h2 : nth w.shape (K.length + 1) = cout := by rw [hw, nth_append_right (by omega)]; simp [nth]
  unfold tfConv
  rw [hm]
  dsimp only
  rw [ht, h1, h2]

theorem tfDepthwise_eq (acc : Acc α) (zero : α) (last : Bool) (p : TfPad) (strides dilations : List Nat) (x w : T α) {K : List Nat} {cin mult : Nat}
    (hw : w.shape = K ++ [cin, mult]) :
    tfDepthwise acc zero last p strides dilations x w =
      windowed last (tfGeom p last x.shape K (spatialPart last K.length strides) (spatialPart last K.length dilations)) (cin * mult)
        (fun q r => acc K 1 (fun k' c => if InB K k' ∧ c < 1 then ((r k' (q / mult)).getD zero, w.get (k' ++ [q / mult, q % mult])) else (zero, zero))) x := by
  have hm : w.shape.length - 2 = K.length := by rw [hw]; simp
  have ht : w.shape.take K.length = K := by rw [hw]; simp
  have h1 : nth w.shape K.length = cin := by rw [hw, nth_append_right (Nat.le_refl _)]; simp [nth]
  have h2 : nth w.shape (K.length + 1) = mult := by rw [hw, nth_append_right (by omega)]; simp [nth]
  unfold tfDepthwise
  rw [hm]
  dsimp only
  rw [ht, h1, h2]

theorem s2b_channels (last : Bool) (zero : α) (b : List Nat) (p : List (Nat × Nat)) (x : T α) {n cin : Nat} {D : List Nat} (hx : x.shape = mk last n D cin)
    (hb : b.length = D.length) : chOf last D.length (tfSpaceToBatch zero (blockOf last b) (pairsOf last p) x).shape = chOf last D.length x.shape := by
  rw [s2b_shape last zero b p x hx hb, hx, chOf_mk]
  have hl : D.length = ((List.range b.length).map (fun k => (nth D k + (p.getD k (0, 0)).1 + (p.getD k (0, 0)).2) / nth b k)).length := by simp [hb]
  rw [hl]
  exact chOf_mk last _ _ cin

/-- What TensorFlow computes: space-to-batch, a plain operator, batch-to-space. -/
def viaBatch (last : Bool) (zero : α) (b : List Nat) (p c : List (Nat × Nat)) (f : T α → T α) (x : T α) : T α :=
  tfBatchToSpace (blockOf last b) (pairsOf last c) (f (tfSpaceToBatch zero (blockOf last b) (pairsOf last p) x))

/-- A geometry that moves its windows as the dilated ones do. -/
theorem conv_viaBatch (acc : Acc α) (zero : α) (last : Bool) (pad : TfPad) (b : List Nat) (p c : List (Nat × Nat)) (x w : T α) {n C cin cout : Nat} {D K : List Nat}
    (hx : x.shape = mk last n D C) (hw : w.shape = K ++ [cin, cout]) (hK : K.length = D.length) (hKpos : ∀ d ∈ K, 1 ≤ d) (h : BlocksFit D b p c)
    (hg : tfGeom pad last x.shape K (spatialPart last K.length (ones K.length)) (spatialPart last K.length (dilationsOf last (blockOf last b))) =
      dilated K b (padBefore K.length p) (padAfter K.length p c)) :
    Same (viaBatch last zero b p c (fun x => tfConv acc zero last .valid (ones K.length) (ones K.length) x w) x)
      (tfConv acc zero last pad (ones K.length) (dilationsOf last (blockOf last b)) x w) := by
  unfold viaBatch
  dsimp only
  rw [tfConv_eq _ _ _ _ _ _ _ _ hw, tfConv_eq _ _ _ _ _ _ _ _ hw, hg, tfGeom_plain, hK, s2b_channels last zero b p x hx h.len]
  exact dilated_windows last zero K b p c cout C n D _ x hx hK hKpos h (convAt_zeroPads acc zero K cin _ _)

theorem depthwise_viaBatch (acc : Acc α) (zero : α) (last : Bool) (pad : TfPad) (b : List Nat) (p c : List (Nat × Nat)) (x w : T α) {n C cin mult : Nat} {D K : List Nat}
    (hx : x.shape = mk last n D C) (hw : w.shape = K ++ [cin, mult]) (hK : K.length = D.length) (hKpos : ∀ d ∈ K, 1 ≤ d) (h : BlocksFit D b p c)
    (hg : tfGeom pad last x.shape K (spatialPart last K.length (ones K.length)) (spatialPart last K.length (dilationsOf last (blockOf last b))) =
      dilated K b (padBefore K.length p) (padAfter K.length p c)) :
    Same (viaBatch last zero b p c (fun x => tfDepthwise acc zero last .valid (ones K.length) (ones K.length) x w) x)
      (tfDepthwise acc zero last pad (ones K.length) (dilationsOf last (blockOf last b)) x w) := by
  unfold viaBatch
  dsimp only
  rw [tfDepthwise_eq _ _ _ _ _ _ _ _ hw, tfDepthwise_eq _ _ _ _ _ _ _ _ hw, hg, tfGeom_plain, hK]
  exact dilated_windows last zero K b p c _ C n D _ x hx hK hKpos h (depthwise_zeroPads acc zero K mult w)

/-! ## The rewriter -/

/-- Pairs as the code reads them. -/
def castPairs (l : List (Nat × Nat)) : List (Int × Int) := l.map (fun q => ((q.1 : Int), (q.2 : Int)))

theorem zip_cast (p c : List (Nat × Nat)) (hcrop : ∀ i, i < p.length → (c.getD i (0, 0)).2 ≤ (p.getD i (0, 0)).2) :
    ((castPairs p).map (·.1)).zip (((castPairs p).zip (castPairs c)).map (fun q => q.1.2 - q.2.2)) = castPairs (uncropped p c) := by
  induction p generalizing c with
  | nil => rfl
  | cons a p ih =>
    cases c with
    | nil => simp [castPairs, uncropped]
    | cons d c =>
      have h0 := hcrop 0 (by simp)
      have := ih c (fun i hi => hcrop (i + 1) (by simpa using hi))
      simp only [castPairs, uncropped, List.map_cons, List.zip_cons_cons, List.zipWith_cons_cons] at this ⊢
      rw [this]
      congr 2
      simp at h0
      omega

theorem flat_cast (l : List (Nat × Nat)) : (castPairs l).flatMap (fun q => [q.1, q.2]) = l.flatMap (fun p => [(p.1 : Int), (p.2 : Int)]) := by
  unfold castPairs
  rw [List.flatMap_map]

theorem explicitOf_eq {m : DMatch} {p c : List (Nat × Nat)} {l : List Int} (h1 : m.conv1d = false)
    (hcrop : ∀ i, i < p.length → (c.getD i (0, 0)).2 ≤ (p.getD i (0, 0)).2) (h : explicitOf m (castPairs p) (castPairs c) = some l) :
    l = (dilatedPad p c).attr.2 ∧ ∀ q ∈ c, q.1 = 0 := by
  unfold explicitOf at h
  rw [h1] at h
  split at h
  · simp at h
  · rename_i hc
    dsimp only at h
    split at h
    · simp only [Bool.false_eq_true, if_false, Option.some.injEq] at h
      refine ⟨?_, fun q hq => ?_⟩
      · rw [← h, zip_cast p c hcrop, flat_cast]
        unfold dilatedPad TfPad.attr
        simp
      · simp only [castPairs, List.any_map, List.any_eq_true, not_exists] at hc
        have := hc q
        simp only [hq, Function.comp, true_and] at this
        simpa using this
    · simp at h

/-- A match of the pattern that is not one-dimensional: `b`, `p`, `c` are the blocks, paddings and crops of the spatial axes, and `K` the size of the kernel. -/
structure Matched (m : DMatch) (n : Node) (D K b : List Nat) (p c : List (Nat × Nat)) : Prop where
  dim : m.conv1d = false
  format : n.dataFormat = "NHWC" ∨ n.dataFormat = "NDHWC" ∨ n.dataFormat = "NCHW" ∨ n.dataFormat = "NCDHW"
  /-- the constant operand of space-to-batch -/
  blocks : m.block1 = (blockOf n.last b).map Int.ofNat
  /-- the operands of paddings and crops, if they are constants -/
  paddings : ∀ l, m.paddings = some l → l = castPairs (pairsOf n.last p)
  crops : ∀ l, m.crops = some l → l = castPairs (pairsOf n.last c)
  rank : K.length = D.length
  kernelPos : ∀ d ∈ K, 1 ≤ d
  /-- TensorFlow accepts the operands -/
  blockLen : b.length = D.length
  padLen : p.length = D.length
  cropLen : c.length = D.length
  blockPos : ∀ d ∈ b, 1 ≤ d
  divides : ∀ i, i < D.length → (nth D i + (p.getD i (0, 0)).1 + (p.getD i (0, 0)).2) % nth b i = 0
  /-- no more is cropped than was added -/
  cropped : ∀ i, i < D.length → (c.getD i (0, 0)).2 ≤ (p.getD i (0, 0)).2
  /-- if paddings or crops are computed: nothing is added in front, and what is added at the end is cropped again -/
  computed : m.paddings = none ∨ m.crops = none → (∀ i, i < D.length → p.getD i (0, 0) = (0, (c.getD i (0, 0)).2)) ∧ ∀ i, i < D.length → (c.getD i (0, 0)).1 = 0
  /-- the convolution has no strides, and no explicit paddings besides `VALID` -/
  strides : n.strides = (ones D.length).map Int.ofNat
  explicit : n.explicit = []

theorem channelsFirst_last {n : Node} (h : n.dataFormat = "NHWC" ∨ n.dataFormat = "NDHWC" ∨ n.dataFormat = "NCHW" ∨ n.dataFormat = "NCDHW") :
    (n.dataFormat = "NCHW" ∨ n.dataFormat = "NCDHW") ↔ n.last = false := by
  unfold Node.last
  rcases h with h | h | h | h <;> rw [h] <;> decide

theorem pairs_crop {last : Bool} {p c : List (Nat × Nat)} {D : List Nat} (hp : p.length = D.length)
    (h : ∀ i, i < D.length → (c.getD i (0, 0)).2 ≤ (p.getD i (0, 0)).2) :
    ∀ i, i < (pairsOf last p).length → ((pairsOf last c).getD i (0, 0)).2 ≤ ((pairsOf last p).getD i (0, 0)).2 := by
  cases last
  · intro i hi
    cases i with
    | zero => exact Nat.le_refl _
    | succ i => exact h i (by have : i + 1 < p.length + 1 := hi; omega)
  · intro i hi
    exact h i (by have : i < p.length := hi; omega)

theorem mode_valid_of (e : PadExpr) : (∀ s, e.mode = some s → s = "VALID") := by
  suffices h : (∀ e : PadExpr, ∀ s, e.mode = some s → s = "VALID") from h e
  intro e
  refine PadExpr.rec (motive_1 := fun e => ∀ s, e.mode = some s → s = "VALID") (motive_2 := fun l => ∀ s, PadExpr.firstMode l = some s → s = "VALID")
    ?_ ?_ ?_ ?_ e
  · intro b s h; simp [PadExpr.mode] at h
  · intro t inputs ih s h
    unfold PadExpr.mode at h
    split at h
    · exact ih s h
    · split at h
      · simpa using h.symm
      · split at h
        · split at h
          · unfold PadExpr.addMode at h
            dsimp only at h
            split at h
            · simpa using h.symm
            · simp at h
          · simp at h
        · simp at h
  · intro s h; simp [PadExpr.firstMode] at h
  · intro e l ih1 ih2 s h
    unfold PadExpr.firstMode at h
    split at h
    · exact ih2 s h
    · exact ih1 s h

/-- What the rewriter leaves: the padding, and a node that describes the dilated convolution. -/
theorem rewritten_describes {m : DMatch} {n n' : Node} {D K b : List Nat} {p c : List (Nat × Nat)} {inS outS : Option (List Int)} (h : Matched m n D K b p c)
    (hr : rewriteDilations m n inS outS = some n') :
    ∃ pad, Describes n' D.length pad (ones D.length) (dilationsOf n'.last (blockOf n'.last b)) ∧ n'.last = n.last ∧ n'.dataFormat = n.dataFormat ∧
      n'.inShape = inS ∧ n'.outShape = outS ∧ n'.kernelShape = n.kernelShape ∧ BlocksFit D b p c ∧
      ∀ s, tfGeom pad n.last s K (spatialPart n.last K.length (ones K.length)) (spatialPart n.last K.length (dilationsOf n.last (blockOf n.last b))) =
        dilated K b (padBefore K.length p) (padAfter K.length p c) := by
  unfold rewriteDilations at hr
  rw [h.dim] at hr
  rw [if_neg (by simp)] at hr
  split at hr
  · simp at hr
  split at hr
  · simp at hr
  rename_i hblocks hvalid
  simp only [Option.map_eq_some_iff] at hr
  obtain ⟨⟨pd, ex⟩, hpad, hn⟩ := hr
  have hlast : n'.last = n.last := by rw [← hn]; rfl
  have hdil : n'.dilations = some ((dilationsOf n.last (blockOf n.last b)).map Int.ofNat) := by
    rw [← hn]
    simp only [Bool.false_eq_true, if_false]
    congr 1
    by_cases hf : n.dataFormat = "NCHW" ∨ n.dataFormat = "NCDHW"
    · rw [if_pos hf, (channelsFirst_last h.format).1 hf, h.blocks, (channelsFirst_last h.format).1 hf]
      simp [dilationsOf]
    · have ht : n.last = true := by
        cases hl : n.last
        · exact absurd ((channelsFirst_last h.format).2 hl) hf
        · rfl
      rw [if_neg hf, h.blocks, ht]
      simp [dilationsOf]
  have hdl : (dilationsOf n.last (blockOf n.last b)).length = D.length + 2 := by
    cases n.last <;> simp [dilationsOf, blockOf, h.blockLen]
  have hdp : ∀ d ∈ dilationsOf n.last (blockOf n.last b), 1 ≤ d := by
    intro d hd
    have hB : ∀ d ∈ blockOf n.last b, 1 ≤ d := by
      cases n.last
      · intro d hd
        rcases List.mem_cons.1 hd with hd | hd
        · omega
        · exact h.blockPos d hd
      · exact h.blockPos
    unfold dilationsOf at hd
    rcases List.mem_cons.1 hd with hd | hd
    · omega
    · rcases List.mem_append.1 hd with hd | hd
      · exact hB d hd
      · split at hd
        · simp at hd; omega
        · simp at hd
  have hstr : n'.strides = (ones D.length).map Int.ofNat := by rw [← hn]; exact h.strides
  unfold padOf at hpad
  split at hpad
  · -- constant paddings and crops
    rename_i lp lc hp hc
    simp only [Option.map_eq_some_iff, Prod.mk.injEq] at hpad
    obtain ⟨l, hl, hpd, hex⟩ := hpad
    rw [h.paddings _ hp, h.crops _ hc] at hl
    obtain ⟨e1, e2⟩ := explicitOf_eq h.dim (pairs_crop h.padLen h.cropped) hl
    refine ⟨dilatedPad (pairsOf n.last p) (pairsOf n.last c), ?_, hlast, by rw [← hn], by rw [← hn], by rw [← hn], by rw [← hn], ?_, fun s => ?_⟩
    · refine ⟨by rw [← hn, ← hpd]; rfl, by rw [← hn, ← hex, e1]; rfl, fun l' hl' => ?_, hstr, by simp, by simp, ?_, ?_, ?_⟩
      · injection hl' with hl'
        subst hl'
        cases n.last <;> simp [uncropped, pairsOf, h.padLen, h.cropLen]
      · rw [hlast]; exact Or.inl hdil
      · rw [hlast]; exact hdl
      · rw [hlast]; exact hdp
    · refine ⟨h.blockLen, h.blockPos, h.divides, fun i hi => ?_, h.cropped⟩
      have : c.getD i (0, 0) ∈ c := by
        rw [List.getD_eq_getElem?_getD, List.getElem?_eq_getElem (by rw [h.cropLen]; exact hi)]
        exact List.getElem_mem _
      exact e2 _ (by cases n.last <;> simp [pairsOf] at * <;> tauto)
    · exact tfGeom_dilated n.last s (by rw [h.blockLen, h.rank]) (by rw [h.padLen, h.rank]) (by rw [h.cropLen, h.rank])
  · -- computed
    rename_i hnone
    simp only [Option.map_eq_some_iff, Prod.mk.injEq] at hpad
    obtain ⟨s, hs, hpd, hex⟩ := hpad
    have hv := mode_valid_of _ _ hs
    have hcomp : m.paddings = none ∨ m.crops = none := by
      cases hp : m.paddings with
      | none => exact Or.inl rfl
      | some a =>
        cases hc : m.crops with
        | none => exact Or.inr rfl
        | some b => exact absurd hc (hnone a b hp)
    obtain ⟨hp0, hc0⟩ := h.computed hcomp
    refine ⟨.valid, ?_, hlast, by rw [← hn], by rw [← hn], by rw [← hn], by rw [← hn], ?_, fun s => ?_⟩
    · refine ⟨by rw [← hn, ← hpd, hv]; rfl, by rw [← hn, ← hex]; exact h.explicit, fun l' hl' => by simp at hl', hstr, by simp, by simp, ?_, ?_, ?_⟩
      · rw [hlast]; exact Or.inl hdil
      · rw [hlast]; exact hdl
      · rw [hlast]; exact hdp
    · exact ⟨h.blockLen, h.blockPos, h.divides, hc0, h.cropped⟩
    · exact tfGeom_valid_dilated n.last s (by rw [h.blockLen, h.rank]) (fun i hi => by rw [hp0 i (by rw [← h.rank]; exact hi)])
        (fun i hi => by rw [hp0 i (by rw [← h.rank]; exact hi)])

/-- **The dilated convolution**: if the rewriter changes a convolution, TensorFlow's operators compute what a dilated convolution computes, and the new node is
converted to an ONNX model that computes it. `hargs` is what C57 assumes about a node besides its attributes. -/
theorem dilations_conv (acc : Acc α) (zero : α) {m : DMatch} {n n' : Node} {D K b : List Nat} {p c : List (Nat × Nat)} {inS outS : Option (List Int)}
    (h : Matched m n D K b p c) (hr : rewriteDilations m n inS outS = some n') (x w : T α) {N C cin cout : Nat} (hx : x.shape = mk n.last N D C)
    (hw : w.shape = K ++ [cin, cout]) (hargs : ∀ pad d, Describes n' D.length pad (ones D.length) d →
      (tfConv acc zero n.last pad (ones D.length) d x w).shape =
        (viaBatch n.last zero b p c (fun x => tfConv acc zero n.last .valid (ones D.length) (ones D.length) x w) x).shape →
      ConvArgs acc zero n' D.length pad (ones D.length) d x w) :
    ∃ y, convertedConv acc zero n' D.length x w = .ok (some y) ∧
      Same y (viaBatch n.last zero b p c (fun x => tfConv acc zero n.last .valid (ones D.length) (ones D.length) x w) x) := by
  obtain ⟨pad, hd, hlast, -, -, -, -, hfit, hg⟩ := rewritten_describes h hr
  have hs := conv_viaBatch acc zero n.last pad b p c x w hx hw h.rank h.kernelPos hfit (hg _)
  rw [h.rank] at hs
  rw [hlast] at hd
  obtain ⟨y, hy, hyS⟩ := conv_converts acc zero n' D.length pad _ _ x w (hargs _ _ hd hs.1.symm)
  rw [hlast] at hyS
  exact ⟨y, hy, hyS.trans hs.symm⟩

/-- The same for depthwise convolutions. -/
theorem dilations_depthwise (acc : Acc α) (zero : α) {m : DMatch} {n n' : Node} {kh kw : Nat} {D b : List Nat} {p c : List (Nat × Nat)}
    {inS outS : Option (List Int)}
    (h : Matched m n D [kh, kw] b p c) (hr : rewriteDilations m n inS outS = some n') (x w : T α) {N cin mult : Nat} (hx : x.shape = mk n.last N D cin)
    (hw : w.shape = [kh, kw, cin, mult]) (hargs : ∀ pad d, Describes n' 2 pad (ones 2) d →
      (tfDepthwise acc zero n.last pad (ones 2) d x w).shape =
        (viaBatch n.last zero b p c (fun x => tfDepthwise acc zero n.last .valid (ones 2) (ones 2) x w) x).shape →
      DepthwiseArgs acc zero n' pad (ones 2) d kh kw cin mult x w) :
    ∃ y, convertedDepthwise acc zero n' none x w = .ok (some y) ∧
      Same y (viaBatch n.last zero b p c (fun x => tfDepthwise acc zero n.last .valid (ones 2) (ones 2) x w) x) := by
  obtain ⟨pad, hd, hlast, -, -, -, -, hfit, hg⟩ := rewritten_describes h hr
  have hD : D.length = 2 := h.rank.symm
  have hs := depthwise_viaBatch acc zero n.last pad b p c x w hx (K := [kh, kw]) hw h.rank h.kernelPos hfit (hg _)
  rw [hD, hlast] at hd
  obtain ⟨y, hy, hyS⟩ := depthwise_converts acc zero n' pad _ _ kh kw cin mult x w (hargs _ _ hd hs.1.symm)
  rw [hlast] at hyS
  exact ⟨y, hy, hyS.trans hs.symm⟩

/-! ## One dimension -/

/-- `tf.expand_dims(x, 1)` of `[n, d, c]`. -/
abbrev expand1 (x : T α) : T α := Tensor.unsqueeze 4 (· == 1) x

/-- `tf.squeeze(y, [1])` of `[n, 1, d, c]`. -/
abbrev squeeze1 (y : T α) : T α := Tensor.squeeze (· == 1) y

theorem Same.windowed {β : Type} (last : Bool) (g : Geom) (cout : Nat) (F : Nat → (List Nat → Nat → Option α) → β) {x x' : T α} (h : Same x x')
    (hl : x.shape.length = g.kernel.length + 2) : Same (windowed last g cout F x) (windowed last g cout F x') := by
  refine ⟨by rw [windowed_shape, windowed_shape, h.1], fun idx hi => ?_⟩
  obtain ⟨N, sp, C, hsp, hs⟩ := exists_mk last hl
  rw [windowed_shape, hs, nth_mk_zero] at hi
  obtain ⟨a, o, q, ho, rfl⟩ := exists_mk last (m := g.kernel.length) (idx := idx) (by rw [hi.1, mk_length]; simp)
  have hb := (inB_mk (by simpa using ho)).1 hi
  unfold Conv.windowed
  dsimp only
  congr 1
  funext k c
  rw [← h.1]
  split
  · rename_i hc
    congr 1
    apply h.2
    rw [hs] at hc ⊢
    rw [← hsp, chOf_mk] at hc
    refine (inB_mk (by simp [hsp])).2 ⟨by rw [nth_mk_zero]; exact hb.1, ⟨by simp [hsp], fun i hi' => ?_⟩, hc.2.1⟩
    rw [hsp] at hi'
    have := (hc.2.2 i (by rw [hsp]; exact hi')).2
    rw [spOf_mk _ _ _ _ (by rw [hsp]; exact hi')] at this
    rw [nth_map_range, if_pos hi']
    exact this
  · rfl

theorem Same.b2s (last : Bool) (b : List Nat) (c : List (Nat × Nat)) {z z' : T α} {n cout : Nat} {D : List Nat} (h : Same z z') (hz : z.shape = mk last (size b * n) D cout)
    (hb : b.length = D.length) (hpos : ∀ d ∈ b, 1 ≤ d) (hc : ∀ i, i < b.length → (c.getD i (0, 0)).1 = 0) :
    Same (tfBatchToSpace (blockOf last b) (pairsOf last c) z) (tfBatchToSpace (blockOf last b) (pairsOf last c) z') := by
  have hs : 0 < size b := size_pos hpos
  have hz' := h.1.symm.trans hz
  have s1 := b2s_shape last b c z hz hb hs
  refine ⟨s1.trans (b2s_shape last b c z' hz' hb hs).symm, fun idx hi => ?_⟩
  rw [s1] at hi
  obtain ⟨a, y, q, hy, rfl⟩ := exists_mk last (m := D.length) (idx := idx) (by rw [hi.1, mk_length]; simp [hb])
  have hbd := (inB_mk (by simpa [hb] using hy)).1 hi
  rw [b2s_get last b c z hz hb hs hy hc, b2s_get last b c z' hz' hb hs hy hc]
  apply h.2
  rw [hz]
  refine (inB_mk (by simp [hb])).2 ⟨?_, ⟨by simp [hb], fun i hi' => ?_⟩, hbd.2.2⟩
  · have := lin_lt (inB_mods hpos (nth y))
    have ha := hbd.1
    calc _ < lin b ((List.range b.length).map (fun k => nth y k % nth b k)) * n + n := by omega
      _ = (lin b ((List.range b.length).map (fun k => nth y k % nth b k)) + 1) * n := by rw [Nat.add_mul, Nat.one_mul]
      _ ≤ _ := Nat.mul_le_mul_right _ this
  · have := hbd.2.1.2 i (by simpa [hb] using hi')
    rw [nth_map_range, if_pos (by omega)] at this ⊢
    exact Nat.div_lt_of_lt_mul (by rw [Nat.mul_comm]; omega)

theorem expand_s2b (zero : α) (b : Nat) (p : Nat × Nat) (x : T α) {n d C : Nat} (hx : x.shape = [n, d, C]) :
    Same (expand1 (tfSpaceToBatch zero [b] [p] x)) (tfSpaceToBatch zero [1, b] [(0, 0), p] (expand1 x)) := by
  have hl : (expand1 (tfSpaceToBatch zero [b] [p] x)).shape = [b * n, 1, (d + p.1 + p.2) / b, C] := by
    show [size [b] * nth x.shape 0, 1, (nth x.shape 1 + p.1 + p.2) / b, nth (x.shape.drop 2) 0] = _
    rw [hx]
    simp [size, nth]
  refine ⟨?_, fun idx hi => ?_⟩
  · rw [hl]
    show _ = [size [1, b] * nth x.shape 0, (1 + 0 + 0) / 1, (nth x.shape 1 + p.1 + p.2) / b, nth x.shape 2]
    rw [hx]
    simp [size, nth]
  · rw [hl] at hi
    obtain ⟨i0, i1, i2, i3, rfl⟩ : ∃ a b c d, idx = [a, b, c, d] := by
      match idx, hi.1 with
      | [a, b, c, d], _ => exact ⟨a, b, c, d, rfl⟩
    have h0 : i0 < b * n := hi.2 0 (by simp)
    have h1 : i1 < 1 := hi.2 1 (by simp)
    have hi1 : i1 = 0 := by omega
    subst hi1
    have hk : i0 / n < b := Nat.div_lt_of_lt_mul (by rwa [Nat.mul_comm] at h0)
    have d1 : delin [b] (i0 / n) = [i0 / n] := by simp [delin, size]
    have d2 : delin [1, b] (i0 / n) = [0, i0 / n] := by
      simp only [delin, size, List.foldr, Nat.mul_one, Nat.div_one, Nat.mod_eq_of_lt hk, Nat.div_eq_of_lt hk]
    have hx0 : nth x.shape 0 = n := by rw [hx]; rfl
    have hx1 : nth x.shape 1 = d := by rw [hx]; rfl
    have he0 : nth (expand1 x).shape 0 = n := hx0
    show (tfSpaceToBatch zero [b] [p] x).get [i0, i2, i3] = _
    unfold tfSpaceToBatch
    simp only [show nth [i0, i2, i3] 0 = i0 from rfl, show nth [i0, 0, i2, i3] 0 = i0 from rfl, hx0, he0, d1, d2]
    have hiff : (∀ k, k < [b].length → ([p].getD k (0, 0)).1 ≤ nth [i0, i2, i3] (k + 1) * nth [b] k + nth [i0 / n] k ∧
        nth [i0, i2, i3] (k + 1) * nth [b] k + nth [i0 / n] k - ([p].getD k (0, 0)).1 < nth x.shape (k + 1)) ↔
        (∀ k, k < [1, b].length → ([(0, 0), p].getD k (0, 0)).1 ≤ nth [i0, 0, i2, i3] (k + 1) * nth [1, b] k + nth [0, i0 / n] k ∧
        nth [i0, 0, i2, i3] (k + 1) * nth [1, b] k + nth [0, i0 / n] k - ([(0, 0), p].getD k (0, 0)).1 < nth (expand1 x).shape (k + 1)) := by
      constructor
      · intro h k hk
        match k, hk with
        | 0, _ => exact ⟨Nat.zero_le _, Nat.one_pos⟩
        | 1, _ => exact h 0 (by simp)
      · intro h k hk
        match k, hk with
        | 0, _ => exact h 1 (by simp)
    by_cases hc : (∀ k, k < [b].length → ([p].getD k (0, 0)).1 ≤ nth [i0, i2, i3] (k + 1) * nth [b] k + nth [i0 / n] k ∧
        nth [i0, i2, i3] (k + 1) * nth [b] k + nth [i0 / n] k - ([p].getD k (0, 0)).1 < nth x.shape (k + 1))
    · rw [if_pos hc, if_pos (hiff.1 hc)]
      rfl
    · rw [if_neg hc, if_neg (fun h => hc (hiff.2 h))]

theorem squeeze_b2s (b : Nat) (c : Nat × Nat) (y : T α) {n d C : Nat} (hy : y.shape = [b * n, 1, d, C]) (hb : 1 ≤ b) :
    Same (tfBatchToSpace [b] [c] (squeeze1 y)) (squeeze1 (tfBatchToSpace [1, b] [(0, 0), c] y)) := by
  have hr : (tfBatchToSpace [1, b] [(0, 0), c] y).shape = [n, 1, d * b - c.1 - c.2, C] := by
    show [nth y.shape 0 / size [1, b], nth y.shape 1 * 1 - 0 - 0, nth y.shape 2 * b - c.1 - c.2] ++ y.shape.drop 3 = _
    rw [hy]
    have : b * n / b = n := Nat.mul_div_cancel_left _ hb
    simp [size, nth, this]
  have hsq : (squeeze1 y).shape = [b * n, d, C] := by
    unfold squeeze1 Tensor.squeeze
    dsimp only
    rw [hy]
    rfl
  have hl : (tfBatchToSpace [b] [c] (squeeze1 y)).shape = [n, d * b - c.1 - c.2, C] := by
    show [nth (squeeze1 y).shape 0 / size [b], nth (squeeze1 y).shape 1 * b - c.1 - c.2] ++ (squeeze1 y).shape.drop 2 = _
    rw [hsq]
    have : b * n / b = n := Nat.mul_div_cancel_left _ hb
    simp [size, nth, this]
  refine ⟨?_, fun idx hi => ?_⟩
  · rw [hl]
    unfold squeeze1 Tensor.squeeze
    dsimp only
    rw [hr]
    rfl
  · rw [hl] at hi
    obtain ⟨i0, i1, i2, rfl⟩ : ∃ a b c, idx = [a, b, c] := by
      match idx, hi.1 with
      | [a, b, c], _ => exact ⟨a, b, c, rfl⟩
    have e1 : (squeeze1 (tfBatchToSpace [1, b] [(0, 0), c] y)).get [i0, i1, i2] = (tfBatchToSpace [1, b] [(0, 0), c] y).get [i0, 0, i1, i2] := by
      unfold squeeze1 Tensor.squeeze
      dsimp only
      rw [hr]
      rfl
    have e2 : ∀ i0 i1 i2, (squeeze1 y).get [i0, i1, i2] = y.get [i0, 0, i1, i2] := fun i0 i1 i2 => by
      unfold squeeze1 Tensor.squeeze
      dsimp only
      rw [hy]
      rfl
    rw [e1]
    show (squeeze1 y).get [((i1 + c.1) % b * 1 + 0) * (nth (squeeze1 y).shape 0 / size [b]) + i0, (i1 + c.1) / b, i2] =
      y.get [((0 + 0) % 1 * (b * 1) + ((i1 + c.1) % b * 1 + 0)) * (nth y.shape 0 / size [1, b]) + i0, (0 + 0) / 1, (i1 + c.1) / b, i2]
    rw [e2, hsq, hy]
    simp [size, nth]

/-- **One dimension**: `Conv2D` between `ExpandDims` and `Squeeze`. -/
theorem conv1d_viaBatch (acc : Acc α) (zero : α) (pad : TfPad) (b : Nat) (p c : Nat × Nat) (x w : T α) {n d C kw cin cout : Nat} (hx : x.shape = [n, d, C])
    (hw : w.shape = [1, kw, cin, cout]) (hk : 1 ≤ kw) (hb : 1 ≤ b) (hdiv : (d + p.1 + p.2) % b = 0) (hc0 : c.1 = 0) (hc1 : c.2 ≤ p.2)
    (hg : tfGeom pad true (expand1 x).shape [1, kw] (spatialPart true 2 (ones 2)) (spatialPart true 2 [1, 1, b, 1]) =
      dilated [1, kw] [1, b] (padBefore 2 [(0, 0), p]) (padAfter 2 [(0, 0), p] [(0, 0), c])) :
    Same (tfBatchToSpace [b] [c] (squeeze1 (tfConv acc zero true .valid (ones 2) (ones 2) (expand1 (tfSpaceToBatch zero [b] [p] x)) w)))
      (squeeze1 (tfConv acc zero true pad (ones 2) [1, 1, b, 1] (expand1 x) w)) := by
  have hex : (expand1 x).shape = mk true n [1, d] C := by
    show [nth x.shape 0, 1, nth x.shape 1, nth x.shape 2] = _
    rw [hx]; rfl
  have hfit : BlocksFit [1, d] [1, b] [(0, 0), p] [(0, 0), c] := by
    refine ⟨rfl, by simp [hb], fun i hi => ?_, fun i hi => ?_, fun i hi => ?_⟩
    · match i, hi with
      | 0, _ => exact Nat.mod_one _
      | 1, _ => exact hdiv
    · match i, hi with
      | 0, _ => rfl
      | 1, _ => exact hc0
    · match i, hi with
      | 0, _ => exact Nat.le_refl _
      | 1, _ => exact hc1
  have hs2b := expand_s2b zero b p x hx
  have hmain := conv_viaBatch acc zero true pad [1, b] [(0, 0), p] [(0, 0), c] (expand1 x) w (K := [1, kw]) hex hw rfl
    (by simp [hk]) hfit hg
  unfold viaBatch at hmain
  -- the convolution of the expanded image
  have hsS : (tfSpaceToBatch zero [1, b] [(0, 0), p] (expand1 x)).shape = mk true (b * n) [1, (d + p.1 + p.2) / b] C := by
    have := s2b_shape true zero [1, b] [(0, 0), p] (expand1 x) hex rfl
    refine this.trans ?_
    simp [size, List.range_succ, nth]
  have hconv : Same (tfConv acc zero true .valid (ones 2) (ones 2) (expand1 (tfSpaceToBatch zero [b] [p] x)) w)
      (tfConv acc zero true .valid (ones 2) (ones 2) (tfSpaceToBatch zero [1, b] [(0, 0), p] (expand1 x)) w) := by
    rw [tfConv_eq acc zero true .valid _ _ _ w (K := [1, kw]) hw, tfConv_eq acc zero true .valid _ _ _ w (K := [1, kw]) hw, hs2b.1]
    exact Same.windowed _ _ _ _ hs2b (by rw [hs2b.1, hsS]; rfl)
  have hyS : (tfConv acc zero true .valid (ones 2) (ones 2) (expand1 (tfSpaceToBatch zero [b] [p] x)) w).shape =
      [b * n, 1, (d + p.1 + p.2) / b + 1 - kw, cout] := by
    rw [hconv.1, tfConv_eq acc zero true .valid _ _ _ w (K := [1, kw]) hw, windowed_shape, hsS]
    show mk true (b * n) [(1 + 0 + 0 + 1 - span 1 1) / 1, ((d + p.1 + p.2) / b + 0 + 0 + 1 - span kw 1) / 1] cout = _
    simp only [span, mk, Nat.div_one, if_true, Nat.add_zero, Nat.one_mul]
    have : (d + p.1 + p.2) / b + 1 - (kw - 1 + 1) = (d + p.1 + p.2) / b + 1 - kw := by omega
    rw [this]
    rfl
  have h1 := squeeze_b2s b c _ hyS hb
  refine h1.trans ?_
  have h2 : Same (tfBatchToSpace [1, b] [(0, 0), c] (tfConv acc zero true .valid (ones 2) (ones 2) (expand1 (tfSpaceToBatch zero [b] [p] x)) w))
      (tfConv acc zero true pad (ones 2) [1, 1, b, 1] (expand1 x) w) := by
    exact (Same.b2s true [1, b] [(0, 0), c] (n := n) (cout := cout) (D := [1, (d + p.1 + p.2) / b + 1 - kw]) hconv
      (hyS.trans (by simp [size, mk])) rfl (by simp [hb]) (fun i hi => hfit.start i hi)).trans hmain
  refine squeeze_congr h2 (fun i hi hax => ?_)
  have hr : (tfBatchToSpace [1, b] [(0, 0), c] (tfConv acc zero true .valid (ones 2) (ones 2) (expand1 (tfSpaceToBatch zero [b] [p] x)) w)).shape =
      [n, 1, ((d + p.1 + p.2) / b + 1 - kw) * b - c.1 - c.2, cout] := by
    show [nth _ 0 / size [1, b], nth _ 1 * 1 - 0 - 0, nth _ 2 * b - c.1 - c.2] ++ List.drop 3 _ = _
    rw [hyS]
    have : b * n / b = n := Nat.mul_div_cancel_left _ hb
    simp [size, nth, this]
  rw [hr]
  have : i = 1 := by simpa using hax
  subst this
  rfl

/-- A one-dimensional match seen as a two-dimensional one. -/
def twoDim (m : DMatch) : DMatch :=
  { m with conv1d := false, block1 := 1 :: m.block1, block2 := 1 :: m.block2, paddings := m.paddings.map ((0, 0) :: ·), crops := m.crops.map ((0, 0) :: ·) }

theorem explicitOf_twoDim {m : DMatch} (h1 : m.conv1d = true) (p c : List (Int × Int)) :
    explicitOf m p c = explicitOf (twoDim m) ((0, 0) :: p) ((0, 0) :: c) := by
  unfold explicitOf twoDim
  have e1 : (((0, 0) : Int × Int) :: c).any (fun q => decide (q.1 ≠ 0)) = c.any (fun q => decide (q.1 ≠ 0)) := rfl
  have e2 : (((0, 0) : Int × Int) :: p).zip (((((0, 0) : Int × Int) :: p).zip (((0, 0) : Int × Int) :: c)).map (fun q => q.1.2 - q.2.2) |>.zip (1 :: m.block1)) =
      ((0, 0), (0, 1)) :: p.zip (((p.zip c).map (fun q => q.1.2 - q.2.2)).zip m.block1) := rfl
  have e3 : (((0, 0), (0, 1)) :: p.zip (((p.zip c).map (fun q => q.1.2 - q.2.2)).zip m.block1)).all (fun q : (Int × Int) × (Int × Int) => decide (0 ≤ q.1.2 - q.2.1 ∧ q.1.2 - q.2.1 < q.2.2)) =
      (p.zip (((p.zip c).map (fun q => q.1.2 - q.2.2)).zip m.block1)).all (fun q => decide (0 ≤ q.1.2 - q.2.1 ∧ q.1.2 - q.2.1 < q.2.2)) := rfl
  dsimp only
  rw [e1, e2, e3, h1]
  rfl

theorem rewrite_twoDim {m : DMatch} {n n' : Node} {inS outS : Option (List Int)} (h1 : m.conv1d = true) (hr : rewriteDilations m n inS outS = some n') :
    rewriteDilations (twoDim m) n inS outS = some n' ∧ (m.expandAxis = 1 ∨ m.expandAxis = -3) ∧ (m.squeezeDims = [1] ∨ m.squeezeDims = [-3]) := by
  unfold rewriteDilations at hr ⊢
  split at hr
  · simp at hr
  rename_i hax
  rw [not_and] at hax
  have hax := hax h1
  rw [not_or, not_not, not_not] at hax
  refine ⟨?_, hax⟩
  split at hr
  · simp at hr
  rename_i hbl
  split at hr
  · simp at hr
  rename_i hv
  rw [if_neg (by simp [twoDim]), if_neg (by rw [not_not] at hbl; simp [twoDim, hbl]), if_neg hv]
  have hp : padOf (twoDim m) = padOf m := by
    unfold padOf
    cases hpp : m.paddings with
    | none => simp [twoDim, hpp]
    | some p =>
      cases hcc : m.crops with
      | none => simp [twoDim, hpp, hcc]
      | some c =>
        simp only [twoDim, hpp, hcc, Option.map_some]
        have := explicitOf_twoDim h1 p c
        rw [this]
        rfl
  rw [hp, ← hr]
  simp [twoDim]

/-- A match of the one-dimensional pattern: `d` the length of the input, `b`, `p`, `c` the block, padding and crop. -/
structure Matched1 (m : DMatch) (n : Node) (d kw b : Nat) (p c : Nat × Nat) : Prop where
  dim : m.conv1d = true
  format : n.dataFormat = "NHWC"
  blocks : m.block1 = [(b : Int)]
  paddings : ∀ l, m.paddings = some l → l = castPairs [p]
  crops : ∀ l, m.crops = some l → l = castPairs [c]
  kernelPos : 1 ≤ kw
  /-- TensorFlow accepts the operands -/
  blockPos : 1 ≤ b
  divides : (d + p.1 + p.2) % b = 0
  /-- no more is cropped than was added -/
  cropped : c.2 ≤ p.2
  computed : m.paddings = none ∨ m.crops = none → p = (0, c.2) ∧ c.1 = 0
  strides : n.strides = (ones 2).map Int.ofNat
  explicit : n.explicit = []

theorem Matched1.two {m : DMatch} {n : Node} {d kw b : Nat} {p c : Nat × Nat} (h : Matched1 m n d kw b p c) :
    Matched (twoDim m) n [1, d] [1, kw] [1, b] [(0, 0), p] [(0, 0), c] := by
  have hl : n.last = true := by unfold Node.last; rw [h.format]; decide
  refine ⟨rfl, Or.inl h.format, by rw [hl]; simp [twoDim, h.blocks, blockOf], fun l hp => ?_, fun l hc => ?_, rfl, by simp [h.kernelPos], rfl, rfl, rfl,
    by simp [h.blockPos], fun i hi => ?_, fun i hi => ?_, fun hn => ?_, h.strides, h.explicit⟩
  · rw [hl]
    simp only [twoDim, Option.map_eq_some_iff] at hp
    obtain ⟨a, ha, rfl⟩ := hp
    rw [h.paddings a ha]
    rfl
  · rw [hl]
    simp only [twoDim, Option.map_eq_some_iff] at hc
    obtain ⟨a, ha, rfl⟩ := hc
    rw [h.crops a ha]
    rfl
  · match i, hi with
    | 0, _ => exact Nat.mod_one _
    | 1, _ => exact h.divides
  · match i, hi with
    | 0, _ => exact Nat.le_refl _
    | 1, _ => exact h.cropped
  · have hn' : m.paddings = none ∨ m.crops = none := by simpa [twoDim] using hn
    obtain ⟨e1, e2⟩ := h.computed hn'
    refine ⟨fun i hi => ?_, fun i hi => ?_⟩
    · match i, hi with
      | 0, _ => rfl
      | 1, _ => exact e1
    · match i, hi with
      | 0, _ => rfl
      | 1, _ => exact e2

/-- **The dilated convolution, one dimension**. After the rewriting the graph is `ExpandDims`, the dilated `Conv2D`, `Squeeze`. -/
theorem dilations_conv1d (acc : Acc α) (zero : α) {m : DMatch} {n n' : Node} {d kw b : Nat} {p c : Nat × Nat} {inS outS : Option (List Int)}
    (h : Matched1 m n d kw b p c) (hr : rewriteDilations m n inS outS = some n') (x w : T α) {N C cin cout : Nat} (hx : x.shape = [N, d, C])
    (hw : w.shape = [1, kw, cin, cout])
    (hargs : ∀ pad d, Describes n' 2 pad (ones 2) d → ConvArgs acc zero n' 2 pad (ones 2) d (expand1 x) w) :
    ∃ y, convertedConv acc zero n' 2 (expand1 x) w = .ok (some y) ∧
      Same (squeeze1 y) (tfBatchToSpace [b] [c] (squeeze1 (tfConv acc zero true .valid (ones 2) (ones 2) (expand1 (tfSpaceToBatch zero [b] [p] x)) w))) := by
  have hl : n.last = true := by unfold Node.last; rw [h.format]; decide
  obtain ⟨pad, hd, hlast, -, -, -, -, hfit, hg⟩ := rewritten_describes h.two (rewrite_twoDim h.dim hr).1
  rw [hlast, hl] at hd
  have hs := conv1d_viaBatch acc zero pad b p c x w hx hw h.kernelPos h.blockPos h.divides (hfit.start 1 (by simp)) h.cropped (by have := hg (expand1 x).shape; rw [hl] at this; exact this)
  obtain ⟨y, hy, hyS⟩ := conv_converts acc zero n' 2 pad _ _ _ w (hargs _ _ hd)
  rw [hlast, hl] at hyS
  refine ⟨y, hy, Same.trans (squeeze_congr hyS (fun i hi hax => ?_)) hs.symm⟩
  have : i = 1 := by simpa using hax
  subst this
  rw [hyS.1]
  have hex : (expand1 x).shape = mk true N [1, d] C := by
    show [nth x.shape 0, 1, nth x.shape 1, nth x.shape 2] = _
    rw [hx]; rfl
  have hg' := hg (expand1 x).shape
  rw [hl] at hg'
  rw [tfConv_eq acc zero true pad _ _ _ w (K := [1, kw]) hw]
  show spOf true (windowed true (tfGeom pad true (expand1 x).shape [1, kw] _ (spatialPart true 2 (dilationsOf true (blockOf true [1, b])))) cout _ _).shape 0 = 1
  rw [windowed_shape]
  have hgk : tfGeom pad true (expand1 x).shape [1, kw] (spatialPart true [1, kw].length (ones 2)) (spatialPart true 2 (dilationsOf true (blockOf true [1, b]))) = _ := hg'
  rw [hgk, spOf_mk _ _ _ _ (by simp [dilated]), nth_map_range, if_pos (by simp [dilated]), dilated_out _ _ _ _ _ _ (by simp), hex, spOf_mk _ _ _ _ (by simp)]
  simp [nth, padBefore, padAfter, List.range_succ]

end Verif.Conv
