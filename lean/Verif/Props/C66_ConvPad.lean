import Verif.Props.C57_Conv
import Verif.Model.PatternRewriters
import Verif.Props.C57_Examples
/-!
# C66: padding before a convolution, bias after it
-/
namespace Verif.Patt
open Verif.Tensor Verif.Emit Verif.Conv Verif.Nn

variable {α : Type}

/-- Where the channel axis and spatial axis `i` are. -/
def chPos (last : Bool) (m : Nat) : Nat := if last then m + 1 else 1
def spPos (last : Bool) (i : Nat) : Nat := if last then i + 1 else i + 2

theorem all_axes (last : Bool) (m : Nat) (P : Nat → Prop) : (∀ i, i < m + 2 → P i) ↔ P 0 ∧ P (chPos last m) ∧ ∀ i, i < m → P (spPos last i) := by
  unfold chPos spPos
  constructor
  · intro h
    refine ⟨h 0 (by omega), h _ (by split <;> omega), fun i hi => h _ (by split <;> omega)⟩
  · rintro ⟨h0, h1, h2⟩ i hi
    cases last
    · simp only [Bool.false_eq_true, if_false] at h1 h2
      match i, hi with
      | 0, _ => exact h0
      | 1, _ => exact h1
      | i + 2, hi => exact h2 i (by omega)
    · simp only [if_true] at h1 h2
      match i, hi with
      | 0, _ => exact h0
      | i + 1, hi =>
        by_cases hm : i = m
        · subst hm; exact h1
        · exact h2 i (by omega)

/-- A list of `m + 2` components from the batch, spatial and channel ones. -/
theorem map_range_mk (last : Bool) (m : Nat) (f : Nat → Nat) :
    (List.range (m + 2)).map f = mk last (f 0) ((List.range m).map (fun i => f (spPos last i))) (f (chPos last m)) := by
  apply ext_nth (by rw [mk_length]; simp)
  intro i hi
  simp only [List.length_map, List.length_range] at hi
  have hl : ((List.range m).map (fun i => f (spPos last i))).length = m := by simp
  have := (all_axes last m (fun i => nth ((List.range (m + 2)).map f) i = nth (mk last (f 0) ((List.range m).map (fun i => f (spPos last i))) (f (chPos last m))) i)).2
  refine this ⟨by rw [nth_map_range, if_pos (by omega), nth_mk_zero], ?_, fun j hj => ?_⟩ i hi
  · rw [nth_map_range, if_pos (by unfold chPos; split <;> omega)]
    have e := chOf_mk last (f 0) ((List.range m).map (fun i => f (spPos last i))) (f (chPos last m))
    rw [hl] at e
    exact e.symm
  · rw [nth_map_range, if_pos (by unfold spPos; split <;> omega)]
    have e := spOf_mk last (f 0) ((List.range m).map (fun i => f (spPos last i))) (f (chPos last m)) (i := j) (by rw [hl]; exact hj)
    rw [nth_map_range, if_pos hj] at e
    exact e.symm

/-- **Padding and convolution**: a convolution without padding of a padded image is the convolution with that padding, if neither the batch nor the channel axis is
padded. Any number of spatial axes. -/
theorem pad_conv (acc : Acc α) (zero : α) (last : Bool) (m : Nat) (strides dilations : List Nat) (l : List (Nat × Nat)) (x w xp : T α)
    (hx : x.shape.length = m + 2) (hw : w.shape.length = m + 2) (hp : tfPad zero l x = some xp) (hb : l.getD 0 (0, 0) = (0, 0))
    (hc : l.getD (chPos last m) (0, 0) = (0, 0)) :
    Same (tfConv acc zero last (.explicit l) strides dilations x w) (tfConv acc zero last .valid strides dilations xp w) := by
  unfold tfPad at hp
  split at hp
  case isFalse => cases hp
  rename_i hll
  simp only [Option.some.injEq] at hp
  have hxs : xp.shape = (List.range (m + 2)).map (fun i => (l.getD i (0, 0)).1 + nth x.shape i + (l.getD i (0, 0)).2) := by rw [← hp, hx]
  have hxg : ∀ idx, xp.get idx = if ∀ i, i < m + 2 → (l.getD i (0, 0)).1 ≤ nth idx i ∧ nth idx i - (l.getD i (0, 0)).1 < nth x.shape i then
      x.get ((List.range (m + 2)).map (fun i => nth idx i - (l.getD i (0, 0)).1)) else zero := fun idx => by rw [← hp]; simp only [hx]
  clear hp
  have dim0 : nth xp.shape 0 = nth x.shape 0 := by rw [hxs, nth_map_range, if_pos (by omega), hb]; simp
  have dimC : chOf last m xp.shape = chOf last m x.shape := by
    show nth xp.shape (chPos last m) = nth x.shape (chPos last m)
    rw [hxs, nth_map_range, if_pos (by unfold chPos; split <;> omega), hc]; simp
  have dimS : ∀ i, i < m → spOf last xp.shape i = (l.getD (spPos last i) (0, 0)).1 + spOf last x.shape i + (l.getD (spPos last i) (0, 0)).2 := by
    intro i hi
    show nth xp.shape (spPos last i) = _ + nth x.shape (spPos last i) + _
    rw [hxs, nth_map_range, if_pos (by unfold spPos; split <;> omega)]
  obtain ⟨K, cin, cout, hK, hws⟩ := exists_kernel hw
  have hm2 : w.shape.length - 2 = m := by omega
  have htake : w.shape.take m = K := by rw [hws, ← hK]; simp
  unfold tfConv
  simp only [hm2, htake, dimC]
  generalize hg1 : tfGeom (.explicit l) last x.shape K (spatialPart last m strides) (spatialPart last m dilations) = g1
  generalize hg2 : tfGeom .valid last xp.shape K (spatialPart last m strides) (spatialPart last m dilations) = g2
  have k1 : g1.kernel = K := by rw [← hg1]; rfl
  have k2 : g2.kernel = K := by rw [← hg2]; rfl
  have b1 : ∀ i, i < m → nth g1.before i = (l.getD (spPos last i) (0, 0)).1 := by
    intro i hi
    rw [← hg1]
    unfold tfGeom
    simp only
    rw [nth_map_range, hK, if_pos hi]
    rfl
  have a1 : ∀ i, i < m → nth g1.after i = (l.getD (spPos last i) (0, 0)).2 := by
    intro i hi
    rw [← hg1]
    unfold tfGeom
    simp only
    rw [nth_map_range, hK, if_pos hi]
    rfl
  have b2 : ∀ i, nth g2.before i = 0 := by
    intro i
    rw [← hg2]
    unfold tfGeom
    simp only
    rw [nth_map_range]
    split <;> rfl
  have a2 : ∀ i, nth g2.after i = 0 := by
    intro i
    rw [← hg2]
    unfold tfGeom
    simp only
    rw [nth_map_range]
    split <;> rfl
  have s12 : g1.strides = g2.strides := by rw [← hg1, ← hg2]; rfl
  have d12 : g1.dilations = g2.dilations := by rw [← hg1, ← hg2]; rfl
  have hout : ∀ i, i < m → g1.outDim i (spOf last x.shape i) = g2.outDim i (spOf last xp.shape i) := by
    intro i hi
    unfold Geom.outDim
    rw [b1 i hi, a1 i hi, b2, a2, s12, d12, k1, k2, dimS i hi]
    congr 1
    omega
  have hlen : g1.kernel.length = m := by rw [k1, hK]
  have hlen2 : g2.kernel.length = m := by rw [k2, hK]
  generalize hF : (fun (k : List Nat) (c q : Nat) => w.get (k ++ [c, q])) = W
  generalize nth w.shape (m + 1) = co
  generalize nth w.shape m = ci
  generalize co / (chOf last m x.shape / ci) = per
  have hshape : (windowed last g1 co (convAt acc zero K ci per W) x).shape = (windowed last g2 co (convAt acc zero K ci per W) xp).shape := by
    rw [windowed_shape, windowed_shape, dim0, hlen, hlen2]
    congr 1
    exact List.map_congr_left (fun i hi => hout i (List.mem_range.1 hi))
  refine ⟨hshape, fun idx hi => ?_⟩
  rw [windowed_shape] at hi
  obtain ⟨b, o, q, ho, rfl⟩ := exists_mk last (m := m) (idx := idx) (by rw [hi.1, mk_length, List.length_map, List.length_range, hlen])
  have hb' := ((inB_mk (by simp [hlen, ho])).1 hi).1
  unfold windowed
  simp only [hlen, hlen2]
  unfold convAt
  congr 1
  funext k c
  split
  case isFalse => rfl
  congr 1
  generalize chOf last m (mk last b o q) / per * ci + c = c'
  have hpos : ∀ i, g1.pos (spOf last (mk last b o q)) (nth k) i = g2.pos (spOf last (mk last b o q)) (nth k) i := by
    intro i
    unfold Geom.pos
    rw [s12, d12]
  simp only [hpos, nth_mk_zero, b2, Nat.sub_zero, Nat.zero_le, true_and, k1, k2, dimC]
  generalize g2.pos (spOf last (mk last b o q)) (nth k) = P
  by_cases hk : InB K k ∧ c' < chOf last m x.shape
  swap
  · rw [if_neg (fun h => hk ⟨h.1, h.2.1⟩), if_neg (fun h => hk ⟨h.1, h.2.1⟩)]
  -- what the padded image has there
  have hread : xp.get (mk last b ((List.range m).map P) c') =
      if ∀ i, i < m → (l.getD (spPos last i) (0, 0)).1 ≤ P i ∧ P i - (l.getD (spPos last i) (0, 0)).1 < spOf last x.shape i then
        x.get (mk last b ((List.range m).map (fun i => P i - (l.getD (spPos last i) (0, 0)).1)) c') else zero := by
    have n0 : nth (mk last b ((List.range m).map P) c') 0 = b := nth_mk_zero ..
    have nc : nth (mk last b ((List.range m).map P) c') (chPos last m) = c' := by
      have := chOf_mk last b ((List.range m).map P) c'
      rw [List.length_map, List.length_range] at this
      exact this
    have ns : ∀ i, i < m → nth (mk last b ((List.range m).map P) c') (spPos last i) = P i := by
      intro i hi'
      have := spOf_mk last b ((List.range m).map P) c' (i := i) (by simpa using hi')
      rw [nth_map_range, if_pos hi'] at this
      exact this
    rw [hxg, map_range_mk last m, n0, nc, hb, hc]
    have hcond0 : ((0 : Nat) ≤ b ∧ b - 0 < nth x.shape 0) ∧ ((0 : Nat) ≤ c' ∧ c' - 0 < nth x.shape (chPos last m)) ∧
        (∀ i, i < m → (l.getD (spPos last i) (0, 0)).1 ≤ nth (mk last b ((List.range m).map P) c') (spPos last i) ∧
          nth (mk last b ((List.range m).map P) c') (spPos last i) - (l.getD (spPos last i) (0, 0)).1 < nth x.shape (spPos last i)) ↔
        (∀ i, i < m → (l.getD (spPos last i) (0, 0)).1 ≤ P i ∧ P i - (l.getD (spPos last i) (0, 0)).1 < spOf last x.shape i) := by
      constructor
      · rintro ⟨-, -, h⟩ i hi'
        have := h i hi'
        rw [ns i hi'] at this
        exact this
      · intro h
        refine ⟨⟨Nat.zero_le _, hb'⟩, ⟨Nat.zero_le _, hk.2⟩, fun i hi' => ?_⟩
        rw [ns i hi']
        exact h i hi'
    have hcond := (all_axes last m (fun i => (l.getD i (0, 0)).1 ≤ nth (mk last b ((List.range m).map P) c') i ∧
      nth (mk last b ((List.range m).map P) c') i - (l.getD i (0, 0)).1 < nth x.shape i)).trans (by
        rw [n0, nc, hb, hc])
    have hcond := hcond.trans hcond0
    have hlist : ((List.range m).map (fun i => nth (mk last b ((List.range m).map P) c') (spPos last i) - (l.getD (spPos last i) (0, 0)).1)) =
        (List.range m).map (fun i => P i - (l.getD (spPos last i) (0, 0)).1) :=
      List.map_congr_left (fun i hi' => by rw [ns i (List.mem_range.1 hi')])
    by_cases h : ∀ i, i < m → (l.getD (spPos last i) (0, 0)).1 ≤ P i ∧ P i - (l.getD (spPos last i) (0, 0)).1 < spOf last x.shape i
    · rw [if_pos (hcond.2 h), if_pos h, hlist]
      simp
    · rw [if_neg (fun h' => h (hcond.1 h')), if_neg h]
  have hc1 : (∀ i, i < m → nth g1.before i ≤ P i ∧ P i - nth g1.before i < spOf last x.shape i) ↔
      (∀ i, i < m → (l.getD (spPos last i) (0, 0)).1 ≤ P i ∧ P i - (l.getD (spPos last i) (0, 0)).1 < spOf last x.shape i) :=
    forall_congr' fun i => forall_congr' fun hi' => by rw [b1 i hi']
  have hl1 : (List.range m).map (fun i => P i - nth g1.before i) = (List.range m).map (fun i => P i - (l.getD (spPos last i) (0, 0)).1) :=
    List.map_congr_left (fun i hi' => by rw [b1 i (List.mem_range.1 hi')])
  by_cases h : ∀ i, i < m → (l.getD (spPos last i) (0, 0)).1 ≤ P i ∧ P i - (l.getD (spPos last i) (0, 0)).1 < spOf last x.shape i
  · rw [if_pos ⟨hk.1, hk.2, hc1.2 h⟩, if_pos ⟨hk.1, hk.2, fun i hi' => by rw [dimS i hi']; have := h i hi'; omega⟩, hread, if_pos h, hl1]
  · rw [if_neg (fun h' => h (hc1.1 h'.2.2))]
    split
    · rw [hread, if_neg h]
      rfl
    · rfl

/-! ## `conv2d_with_pad_rewriter.py` -/

/-- The node as if the padding had been written there. -/
def asExplicit (n : Node) (l : List (Nat × Nat)) : Node := { n with padding := "EXPLICIT", explicit := (TfPad.explicit l).attr.2 }

/-- What the rewriter leaves is what the handler makes of explicit padding. -/
theorem padConv_eq (acc : Acc α) (zero : α) (n : Node) (hn : n.padding = "VALID") (l : List (Nat × Nat)) (mode : Option String) (inputs : Nat) (p : List Int)
    (hf : n.dataFormat = "NHWC" ∨ n.dataFormat = "NCHW")
    (hp : padOf n mode inputs (l.map (fun q => ((q.1 : Int), (q.2 : Int)))) = some p) (x w : T α) :
    padConv acc zero n mode inputs (l.map (fun q => ((q.1 : Int), (q.2 : Int)))) x w = some (convertedConv acc zero (asExplicit n l) 2 x w) := by
  have hpads : explicitPads n.last (TfPad.explicit l).attr.2 2 = p := by
    have h0 := explicit_padding n.last (l.map (fun q => (q.1 : Int))) (l.map (fun q => (q.2 : Int))) 2 [] [] [] [] none (by simp)
    rw [← interleave_cast] at h0
    have h1 : explicitPads n.last (TfPad.explicit l).attr.2 2 = (List.range 2).map (spatialDim n.last (l.map (fun q => (q.1 : Int)))) ++
        (List.range 2).map (spatialDim n.last (l.map (fun q => (q.2 : Int)))) := by
      have : addPadding "EXPLICIT" n.last [] [] [] [] none (TfPad.explicit l).attr.2 2 = .ok (.pads (explicitPads n.last (TfPad.explicit l).attr.2 2)) := rfl
      rw [show (TfPad.explicit l).attr.2 = l.flatMap (fun p => [(p.1 : Int), (p.2 : Int)]) from rfl] at this ⊢
      rw [h0] at this
      injection this with this
      injection this with this
      exact this.symm
    rw [h1]
    unfold padOf at hp
    have hq : ∀ j, (l.map (fun q => ((q.1 : Int), (q.2 : Int)))).getD j (0, 0) =
        ((l.map (fun q => (q.1 : Int))).getD j 0, (l.map (fun q => (q.2 : Int))).getD j 0) := by
      intro j
      simp only [List.getD_eq_getElem?_getD, List.getElem?_map]
      cases l[j]? <;> rfl
    simp only at hp
    split at hp
    case isFalse => cases hp
    rcases hf with hf | hf
    · have hlast : n.last = true := by unfold Node.last; rw [hf]; decide
      rw [if_pos hf] at hp
      simp only at hp
      split at hp
      case isFalse => cases hp
      rw [hlast]
      cases hp
      rw [hq 1, hq 2]
      rfl
    · have hlast : n.last = false := by unfold Node.last; rw [hf]; decide
      rw [if_neg (show ¬ n.dataFormat = "NHWC" by rw [hf]; decide)] at hp
      simp only at hp
      split at hp
      case isFalse => cases hp
      rw [hlast]
      cases hp
      rw [hq 2, hq 3]
      rfl
  have hpad1 : ∀ k s d, padding n k s d 2 = .ok .nothing := by
    intro k s d
    unfold padding
    rw [if_neg (by rw [hn]; simp)]
    unfold addPadding
    rw [hn]
    rfl
  have hpad2 : ∀ k s d, padding (asExplicit n l) k s d 2 = .ok (.pads p) := by
    intro k s d
    unfold padding
    rw [if_neg (by simp [asExplicit])]
    rw [← hpads]
    rfl
  unfold padConv
  rw [hp]
  show some _ = some _
  congr 1
  unfold convertedConv convAttrs
  simp only [hpad1, hpad2]
  show (do let a ← (do let __discr ← convKernelShape n.kernelShape 2; _); _) = _
  rw [show (asExplicit n l).kernelShape = n.kernelShape from rfl, show groupOf (asExplicit n l) = groupOf n from rfl,
    show outKnown (asExplicit n l) = outKnown n from rfl, show (asExplicit n l).last = n.last from rfl,
    show (asExplicit n l).strides = n.strides from rfl, show (asExplicit n l).dilations = n.dilations from rfl]
  cases convKernelShape n.kernelShape 2 with
  | error e => rfl
  | ok ks =>
    cases groupOf n with
    | error e => rfl
    | ok g =>
      cases outKnown n with
      | error e => rfl
      | ok u => rfl

/-- A `Pad` with zeros before a convolution without padding. -/
theorem pad_merged_valid (acc : Acc α) (zero : α) (n' : Node) (r : List Int) (l : List (Nat × Nat)) (strides dilations : List Nat) (x xp w : T α)
    (hp : tfPad zero l x = some xp) (h : ConvArgs acc zero n' 2 .valid strides dilations xp w) (hf : n'.dataFormat = "NHWC" ∨ n'.dataFormat = "NCHW")
    (hr : Rec r x.shape) (hch : r.getD (chPos n'.last 2) 0 = -1 → chOf n'.last 2 x.shape = nth w.shape 2)
    (mode : Option String) (inputs : Nat) (p : List Int)
    (hok : padOf { n' with inShape := some r } mode inputs (l.map (fun q => ((q.1 : Int), (q.2 : Int)))) = some p) :
    ∃ y, padConv acc zero { n' with inShape := some r } mode inputs (l.map (fun q => ((q.1 : Int), (q.2 : Int)))) x w = some (.ok (some y)) ∧
      Same y (tfConv acc zero n'.last .valid strides dilations xp w) := by
  have hl : l.length = x.shape.length := by
    unfold tfPad at hp
    split at hp
    · assumption
    · cases hp
  have hxl : x.shape.length = 4 := by
    have h1 := h.xRank
    unfold tfPad at hp
    rw [if_pos hl] at hp
    cases hp
    simpa using h1
  have hq : ∀ j, (l.map (fun q => ((q.1 : Int), (q.2 : Int)))).getD j (0, 0) = (((l.getD j (0, 0)).1 : Int), ((l.getD j (0, 0)).2 : Int)) := by
    intro j
    simp only [List.getD_eq_getElem?_getD, List.getElem?_map]
    cases l[j]? <;> rfl
  have hz : ∀ j, (l.map (fun q => ((q.1 : Int), (q.2 : Int)))).getD j (0, 0) = (0, 0) → l.getD j (0, 0) = (0, 0) := by
    intro j hj
    rw [hq] at hj
    injection hj with h1 h2
    apply Prod.ext
    · exact_mod_cast h1
    · exact_mod_cast h2
  have hbc : l.getD 0 (0, 0) = (0, 0) ∧ l.getD (chPos n'.last 2) (0, 0) = (0, 0) := by
    unfold padOf at hok
    simp only at hok
    split at hok
    case isFalse => cases hok
    rcases hf with hf | hf
    · have hlast : n'.last = true := by unfold Node.last; rw [hf]; decide
      rw [if_pos hf] at hok
      simp only at hok
      split at hok
      · rename_i hh
        rw [hlast]
        exact ⟨hz _ hh.1, hz _ hh.2⟩
      · cases hok
    · have hlast : n'.last = false := by unfold Node.last; rw [hf]; decide
      rw [if_neg (show ¬ n'.dataFormat = "NHWC" by rw [hf]; decide)] at hok
      simp only at hok
      split at hok
      · rename_i hh
        rw [hlast]
        exact ⟨hz _ hh.1, hz _ hh.2⟩
      · cases hok
  have hsame := pad_conv acc zero n'.last 2 strides dilations l x w xp hxl h.wRank hp hbc.1 hbc.2
  have hC : chOf n'.last 2 xp.shape = chOf n'.last 2 x.shape := by
    unfold tfPad at hp
    rw [if_pos hl] at hp
    cases hp
    show nth _ (chPos n'.last 2) = nth _ (chPos n'.last 2)
    simp only
    rw [nth_map_range, hxl, if_pos (by unfold chPos; split <;> omega), hbc.2]
    simp
  have hargs : ConvArgs acc zero (asExplicit { n' with inShape := some r } l) 2 (.explicit l) strides dilations x w := by
    refine ⟨⟨rfl, rfl, fun l' hl' => by injection hl' with hl'; subst hl'; omega, h.attrs.strideAttr, h.attrs.stridesLen, h.attrs.stridesPos,
      h.attrs.dilAttr, h.attrs.dilationsLen, h.attrs.dilationsPos⟩, hxl, h.wRank, h.kernelPos, h.cinPos, ?_, ?_, ?_, ⟨r, rfl, hr⟩, ?_, h.kernelShape,
      fun hh => (by cases hh), ?_, fun _ => rfl⟩
    · exact hC ▸ h.channelsPos
    · exact hC ▸ h.channels
    · exact hC ▸ h.groups
    · obtain ⟨ro, h1, h2⟩ := h.outShape
      exact ⟨ro, h1, hsame.1 ▸ h2⟩
    · by_cases hrc : r.getD (chPos n'.last 2) 0 = -1
      · exact Or.inl (hch hrc)
      · rcases h.groupsKnown with hg | hg
        · exact Or.inl (hC ▸ hg)
        · exact Or.inr ⟨rfl, hf, hrc, hg.2.2.2⟩
  obtain ⟨y, hy, hys⟩ := conv_converts acc zero _ 2 (.explicit l) strides dilations x w hargs
  refine ⟨y, ?_, hys.trans hsame⟩
  have hvalid : n'.padding = "VALID" := h.attrs.pad
  rw [padConv_eq acc zero { n' with inShape := some r } hvalid l mode inputs p hf hok x w, hy]

/-- The value of TensorFlow's `Pad` (no mode), `PadV2` (a third operand `fill`) or `MirrorPad` (another mode): `mirrored` stands for whatever the other modes give. -/
def tfPadOp (zero : α) (mode : Option String) (fill : Option α) (mirrored : Option (T α)) (l : List (Nat × Nat)) (x : T α) : Option (T α) :=
  if mode = none ∨ mode = some "constant" then tfPad (fill.getD zero) l x else mirrored

/-- **C66**: a padding operator that is merged into the `Conv2D` behind it: the converted `Conv` computes the convolution of what that operator gives, whatever its mode,
its third operand and the padding of the convolution, unless that is explicit (`pad_explicit_violated`). `n'` is the convolution as it is found; the merged one reads
the operand of the `Pad`, of which the shape `r` is recorded. -/
theorem pad_merged_partial (acc : Acc α) (zero : α) (n' : Node) (r : List Int) (l : List (Nat × Nat)) (strides dilations : List Nat) (x xp w : T α)
    (mode : Option String) (fill : Option α) (mirrored : Option (T α)) (q : TfPad) (hq : ∀ e, q ≠ .explicit e)
    (hp : tfPadOp zero mode fill mirrored l x = some xp) (h : ConvArgs acc zero n' 2 q strides dilations xp w) (hf : n'.dataFormat = "NHWC" ∨ n'.dataFormat = "NCHW")
    (hr : Rec r x.shape) (hch : r.getD (chPos n'.last 2) 0 = -1 → chOf n'.last 2 x.shape = nth w.shape 2)
    (p : List Int) (hok : padOf { n' with inShape := some r } mode (if fill.isSome then 3 else 2) (l.map (fun q => ((q.1 : Int), (q.2 : Int)))) = some p) :
    ∃ y, padConv acc zero { n' with inShape := some r } mode (if fill.isSome then 3 else 2) (l.map (fun q => ((q.1 : Int), (q.2 : Int)))) x w = some (.ok (some y)) ∧
      Same y (tfConv acc zero n'.last q strides dilations xp w) := by
  have hc : (mode = none ∨ mode = some "constant") ∧ (if fill.isSome then 3 else 2) < 3 ∧ n'.padding ≠ "SAME" := by
    by_contra hc
    unfold padOf at hok
    simp only at hok
    rw [if_neg hc] at hok
    cases hok
  have hfill : fill = none := by
    cases fill with
    | none => rfl
    | some z => exact absurd hc.2.1 (by simp)
  subst hfill
  unfold tfPadOp at hp
  rw [if_pos hc.1] at hp
  cases q with
  | valid => exact pad_merged_valid acc zero n' r l strides dilations x xp w hp h hf hr hch mode 2 p hok
  | same => exact absurd h.attrs.pad hc.2.2
  | explicit e => exact absurd rfl (hq e)

end Verif.Patt
