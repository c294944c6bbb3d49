import Verif.Props.C57_Kit
/-!
# C57, C58: the attributes describe TensorFlow's windows
-/
namespace Verif.Conv
open Verif.Tensor Verif.Nn Verif.Emit

/-! ## What is assumed about a node -/

/-- A recorded shape is right: every dimension is recorded as unknown (-1) or as it is. -/
def Rec (r : List Int) (s : List Nat) : Prop := r.length = s.length ∧ ∀ i, i < s.length → r.getD i 0 = -1 ∨ r.getD i 0 = nth s i

instance (r : List Int) (s : List Nat) : Decidable (Rec r s) := inferInstanceAs (Decidable (_ ∧ _))

/-- The attributes `padding` and `explicit_paddings` of a TensorFlow node. -/
def TfPad.attr : TfPad → String × List Int
  | .same => ("SAME", [])
  | .valid => ("VALID", [])
  | .explicit l => ("EXPLICIT", l.flatMap (fun p => [(p.1 : Int), (p.2 : Int)]))

/-- The node has these attributes; `m` spatial axes. -/
structure Describes (n : Node) (m : Nat) (p : TfPad) (strides dilations : List Nat) : Prop where
  pad : n.padding = p.attr.1
  explicit : n.explicit = p.attr.2
  padLen : ∀ l, p = .explicit l → m + 2 ≤ l.length
  strideAttr : n.strides = strides.map Int.ofNat
  stridesLen : strides.length = m + 2
  stridesPos : ∀ d ∈ strides, 1 ≤ d
  dilAttr : n.dilations = some (dilations.map Int.ofNat) ∨ (n.dilations = none ∧ dilations = List.replicate (m + 2) 1)
  dilationsLen : dilations.length = m + 2
  dilationsPos : ∀ d ∈ dilations, 1 ≤ d

/-! ## Arithmetic -/

theorem tfSame_cast (n f s : Nat) : tfSame n f s = (((tfSamePad n f s).1 : Int), ((tfSamePad n f s).2 : Int)) := by
  unfold tfSame tfSamePad
  simp only
  have hc : ((n : Int) % (s : Int)) = ((n % s : Nat) : Int) := by simp
  rw [hc]
  by_cases h : n % s = 0
  · rw [if_pos (by exact_mod_cast h), if_pos h]
    have : max ((f : Int) - s) 0 = ((f - s : Nat) : Int) := by omega
    rw [this]
    simp only [Prod.mk.injEq]
    constructor <;> omega
  · rw [if_neg (by exact_mod_cast h), if_neg h]
    have : max ((f : Int) - (n % s : Nat)) 0 = ((f - n % s : Nat) : Int) := by omega
    rw [this]
    simp only [Prod.mk.injEq]
    constructor <;> omega

theorem ceil_mul (n s : Nat) (hs : 1 ≤ s) : (n + s - 1) / s * s = if n % s = 0 then n else n - n % s + s := by
  have h := Nat.div_add_mod n s
  have hlt := Nat.mod_lt n (show s > 0 by omega)
  generalize n / s = q at *
  generalize n % s = r at *
  subst h
  by_cases h0 : r = 0
  · subst h0
    rw [if_pos rfl]
    have : (s * q + 0 + s - 1) / s = q := by
      rw [Nat.div_eq_iff (by omega)]
      constructor
      · rw [Nat.mul_comm]; omega
      · rw [Nat.mul_comm]; omega
    rw [this, Nat.mul_comm]; omega
  · rw [if_neg h0]
    have : (s * q + r + s - 1) / s = q + 1 := by
      rw [Nat.div_eq_iff (by omega)]
      constructor
      · rw [Nat.add_mul, Nat.mul_comm]; omega
      · rw [Nat.add_mul, Nat.mul_comm]; omega
    rw [this, Nat.add_mul, Nat.mul_comm]; omega

/-- `SAME_UPPER` is TensorFlow's `SAME`. -/
theorem sameUpper_eq (n f s : Nat) (hs : 1 ≤ s) : sameUpperPad n f s = tfSamePad n f s := by
  unfold sameUpperPad tfSamePad
  simp only
  rw [ceil_mul n s hs]
  have hlt := Nat.mod_lt n (show s > 0 by omega)
  have hle := Nat.mod_le n s
  have : (if n % s = 0 then n else n - n % s + s) + f - (n + s) = if n % s = 0 then f - s else f - n % s := by
    split <;> omega
  rw [this]

theorem span_cast (k d : Nat) (hk : 1 ≤ k) : effective (k : Int) (d : Int) = ((span k d : Nat) : Int) := by
  unfold effective span
  have : ((k : Int) - 1) = ((k - 1 : Nat) : Int) := by omega
  rw [this]
  push_cast
  rfl

/-- The number of windows of `SAME`. -/
theorem sameOut (n f s : Nat) (hs : 1 ≤ s) (hf : 1 ≤ f) :
    (n + (tfSamePad n f s).1 + (tfSamePad n f s).2 + s - f) / s = (n + s - 1) / s := by
  unfold tfSamePad
  simp only
  have hlt := Nat.mod_lt n (show s > 0 by omega)
  have hle := Nat.mod_le n s
  have hdm := Nat.div_add_mod n s
  generalize hT : (if n % s = 0 then f - s else f - n % s) = t
  have e : n + t / 2 + (t - t / 2) + s - f = n + t + s - f := by omega
  rw [e]
  generalize hq : n / s = q at *
  generalize hr : n % s = r at *
  by_cases h0 : r = 0
  · rw [if_pos h0] at hT
    subst hT h0
    have e1 : (n + s - 1) / s = q := by
      rw [Nat.div_eq_iff (by omega), Nat.mul_comm]
      constructor <;> omega
    have e2 : (n + (f - s) + s - f) / s = q := by
      rw [Nat.div_eq_iff (by omega), Nat.mul_comm]
      constructor <;> omega
    rw [e1, e2]
  · rw [if_neg h0] at hT
    subst hT
    have e1 : (n + s - 1) / s = q + 1 := by
      rw [Nat.div_eq_iff (by omega), Nat.add_mul, Nat.mul_comm]
      constructor <;> omega
    have e2 : (n + (f - r) + s - f) / s = q + 1 := by
      rw [Nat.div_eq_iff (by omega), Nat.add_mul, Nat.mul_comm]
      constructor <;> omega
    rw [e1, e2]

theorem ceilDiv_cast (n s : Nat) (hs : 1 ≤ s) : ceilDiv n s = (((n + s - 1) / s : Nat) : Int) := by
  unfold ceilDiv
  have : ((n : Int) + s - 1) = ((n + s - 1 : Nat) : Int) := by omega
  rw [this]
  push_cast
  rfl

/-! ## Attributes -/

theorem getD_cast (l : List Nat) (i : Nat) : (l.map Int.ofNat).getD i 0 = (nth l i : Int) := by
  unfold nth
  rw [List.getD_eq_getElem?_getD, List.getElem?_map, List.getD_eq_getElem?_getD]
  cases l[i]? <;> rfl

theorem spatialPart_length (last : Bool) (m : Nat) (l : List Nat) : (spatialPart last m l).length = m := by simp [spatialPart]

theorem nth_spatialPart (last : Bool) {m i : Nat} (l : List Nat) (h : i < m) : nth (spatialPart last m l) i = spOf last l i := by
  simp [spatialPart, h]

theorem spatialPart_mk (last : Bool) (n : Nat) (sp : List Nat) (c : Nat) : spatialPart last sp.length (mk last n sp c) = sp := by
  apply ext_nth (by simp [spatialPart])
  intro i hi
  rw [spatialPart_length] at hi
  rw [nth_spatialPart _ _ hi, spOf_mk _ _ _ _ hi]

theorem parseDims_cast (last : Bool) {m : Nat} {l : List Nat} (h : l.length = m + 2) :
    parseDims last (l.map Int.ofNat) m = (spatialPart last m l).map Int.ofNat := by
  obtain ⟨a, sp, c, hsp, rfl⟩ := exists_mk last h
  subst hsp
  rw [spatialPart_mk]
  unfold parseDims
  rw [if_pos (by simp [mk_length])]
  cases last
  · rfl
  · show ((a :: (sp ++ [c])).map Int.ofNat).dropLast.drop 1 = _
    rw [← List.map_dropLast, ← List.map_drop, ← List.cons_append, List.dropLast_concat]
    rfl

theorem spatialPart_ones (last : Bool) (m : Nat) : spatialPart last m (List.replicate (m + 2) 1) = List.replicate m 1 := by
  apply ext_nth (by simp [spatialPart])
  intro i hi
  rw [spatialPart_length] at hi
  rw [nth_spatialPart _ _ hi]
  have e : ∀ j k, j < k → nth (List.replicate k 1) j = 1 := fun j k h => by
    rw [nth_eq _ _ (by simpa using h)]; simp
  unfold spOf
  rw [e i m hi, e _ _ (by split <;> omega)]

theorem spatialPart_pos (last : Bool) {m : Nat} {l : List Nat} (hl : l.length = m + 2) (h : ∀ d ∈ l, 1 ≤ d) : ∀ d ∈ spatialPart last m l, 1 ≤ d := by
  intro d hd
  obtain ⟨i, hi, rfl⟩ := List.mem_map.1 hd
  have hi := List.mem_range.1 hi
  unfold spOf
  rw [nth_eq _ _ (by rw [hl]; split <;> omega)]
  exact h _ (List.getElem_mem _)

theorem natAttr_cast {m lo dflt : Nat} {l : List Nat} (hl : l.length = m) (h : ∀ d ∈ l, lo ≤ d) : natAttr m lo dflt (some (l.map Int.ofNat)) = some l := by
  have e : (l.map Int.ofNat).map Int.toNat = l := by
    rw [List.map_map]; exact (List.map_congr_left (fun a _ => rfl)).trans (List.map_id l)
  unfold natAttr
  dsimp only
  rw [if_pos, e]
  refine ⟨by simpa using hl, fun z hz => ?_⟩
  obtain ⟨d, hd, rfl⟩ := List.mem_map.1 hz
  have := h d hd
  show (lo : Int) ≤ (d : Int)
  omega

/-- The attributes a handler has set before `add_padding`. -/
structure Base (a : Attrs) (n : Node) (m : Nat) : Prop where
  noAuto : a.sameUpper = false
  noPads : a.pads = none
  strides : a.strides = some (parseDims n.last n.strides m)
  dilations : a.dilations = n.dilations.map (fun d => parseDims n.last d m)

variable {n : Node} {m : Nat} {p : TfPad} {strides dilations : List Nat}

theorem Base.strides_ok {a : Attrs} (h : Base a n m) (hd : Describes n m p strides dilations) :
    natAttr m 1 1 a.strides = some (spatialPart n.last m strides) := by
  rw [h.strides, hd.strideAttr, parseDims_cast _ hd.stridesLen]
  exact natAttr_cast (spatialPart_length ..) (spatialPart_pos _ hd.stridesLen hd.stridesPos)

theorem Base.dilations_ok {a : Attrs} (h : Base a n m) (hd : Describes n m p strides dilations) :
    natAttr m 1 1 a.dilations = some (spatialPart n.last m dilations) := by
  rw [h.dilations]
  rcases hd.dilAttr with e | ⟨e, e'⟩
  · rw [e]
    show natAttr m 1 1 (some (parseDims _ _ _)) = _
    rw [parseDims_cast _ hd.dilationsLen]
    exact natAttr_cast (spatialPart_length ..) (spatialPart_pos _ hd.dilationsLen hd.dilationsPos)
  · rw [e, e', spatialPart_ones]
    rfl

/-- The dilations `add_padding` computes with. -/
theorem dilations_getD (hd : Describes n m p strides dilations) :
    (n.dilations.map (fun d => parseDims n.last d m)).getD (List.replicate m 1) = (spatialPart n.last m dilations).map Int.ofNat := by
  rcases hd.dilAttr with e | ⟨e, e'⟩
  · rw [e]
    exact parseDims_cast _ hd.dilationsLen
  · rw [e, e', spatialPart_ones]
    simp

theorem map_ofNat_of {l : List Int} {k : List Nat} (hl : l.length = k.length) (h : ∀ i, i < k.length → l.getD i 0 = (nth k i : Int)) :
    l = k.map Int.ofNat := by
  apply List.ext_getElem (by simpa using hl)
  intro i h1 h2
  have := h i (by simpa using h2)
  rw [List.getD_eq_getElem?_getD, List.getElem?_eq_getElem h1, nth_eq _ _ (by simpa using h2)] at this
  simpa using this

/-- Recorded shape of the spatial axes. -/
theorem Rec.spatial {r : List Int} {s : List Nat} (last : Bool) (h : Rec r s) (hs : s.length = m + 2) {i : Nat} (hi : i < m) :
    spatialDim last r i = -1 ∨ spatialDim last r i = (spOf last s i : Int) := by
  unfold spatialDim spOf
  exact h.2 _ (by rw [hs]; split <;> omega)

/-- Attributes with pads. -/
theorem Base.geom_pads {a : Attrs} (h : Base a n m) (hd : Describes n m p strides dilations) {K b e : List Nat} (hK : K.length = m)
    (hb : b.length = m) (he : e.length = m) (dim : Nat → Nat) :
    (a.withPadding (.pads ((b ++ e).map Int.ofNat))).geom K dim = some ⟨K, spatialPart n.last m strides, spatialPart n.last m dilations, b, e⟩ := by
  unfold Attrs.geom Attrs.withPadding
  simp only [hK, h.strides_ok hd, h.dilations_ok hd, h.noAuto]
  rw [natAttr_cast (by simp; omega) (fun _ _ => Nat.zero_le _)]
  simp [← hb]

theorem Base.geom_nothing {a : Attrs} (h : Base a n m) (hd : Describes n m p strides dilations) {K : List Nat} (hK : K.length = m) (dim : Nat → Nat) :
    (a.withPadding .nothing).geom K dim =
      some ⟨K, spatialPart n.last m strides, spatialPart n.last m dilations, List.replicate m 0, List.replicate m 0⟩ := by
  unfold Attrs.geom Attrs.withPadding
  simp only [hK, h.strides_ok hd, h.dilations_ok hd, h.noAuto, h.noPads]
  simp [natAttr]
  omega

theorem Base.geom_auto {a : Attrs} (h : Base a n m) (hd : Describes n m p strides dilations) {K : List Nat} (hK : K.length = m) (dim : Nat → Nat) :
    (a.withPadding .autoPadSameUpper).geom K dim = some ⟨K, spatialPart n.last m strides, spatialPart n.last m dilations,
      (List.range m).map (fun i => (sameUpperPad (dim i) (span (nth K i) (nth (spatialPart n.last m dilations) i)) (nth (spatialPart n.last m strides) i)).1),
      (List.range m).map (fun i => (sameUpperPad (dim i) (span (nth K i) (nth (spatialPart n.last m dilations) i)) (nth (spatialPart n.last m strides) i)).2)⟩ := by
  unfold Attrs.geom Attrs.withPadding
  simp only [hK, h.strides_ok hd, h.dilations_ok hd, h.noPads]
  simp [natAttr]

theorem nth_pos {l : List Nat} (h : ∀ d ∈ l, 1 ≤ d) {i : Nat} (hi : i < l.length) : 1 ≤ nth l i := by
  rw [nth_eq _ _ hi]; exact h _ (List.getElem_mem _)

theorem interleave_cast (l : List (Nat × Nat)) : l.flatMap (fun p => [(p.1 : Int), (p.2 : Int)]) =
    (((l.map (fun p => (p.1 : Int))).zip (l.map (fun p => (p.2 : Int)))).flatMap (fun p => [p.1, p.2])) := by
  induction l with
  | nil => rfl
  | cons a l ih => simp only [List.flatMap_cons, List.map_cons, List.zip_cons_cons, ih]

theorem getD_pairs (l : List (Nat × Nat)) (j : Nat) : (l.map (fun p => (p.1 : Int))).getD j 0 = ((l.getD j (0, 0)).1 : Int) ∧
    (l.map (fun p => (p.2 : Int))).getD j 0 = ((l.getD j (0, 0)).2 : Int) := by
  simp only [List.getD_eq_getElem?_getD, List.getElem?_map]
  cases l[j]? <;> exact ⟨rfl, rfl⟩

/-- **The pads**: whatever the padding is, `add_padding` succeeds and the ONNX operator moves its windows as the TensorFlow operator does. `kernel` is what
the code thinks the kernel is; it matters only if `SAME` is computed from it. -/
theorem padding_ok (hd : Describes n m p strides dilations) {s K : List Nat} (hs : s.length = m + 2) (hK : K.length = m) (hKpos : ∀ d ∈ K, 1 ≤ d)
    {inR outR kernel : List Int} (hin : n.inShape = some inR) (hinR : Rec inR s) (hout : n.outShape = some outR)
    (houtR : outR.length = m + 2 ∧ ∀ i, i < m → spatialDim n.last outR i = -1 ∨
      spatialDim n.last outR i = ((tfGeom p n.last s K (spatialPart n.last m strides) (spatialPart n.last m dilations)).outDim i (spOf n.last s i) : Int))
    (hk : p = .same → (∀ i, i < m → kernel.getD i 0 = (nth K i : Int)) ∨
      ∃ i, i < m ∧ (spatialDim n.last inR i = -1 ∨ spatialDim n.last outR i = -1))
    (dim : Nat → Nat) (hdim : ∀ i, i < m → dim i = spOf n.last s i) :
    ∃ P, padding n kernel (parseDims n.last n.strides m) (n.dilations.map (fun d => parseDims n.last d m)) m = .ok P ∧
      ∀ a, Base a n m → (a.withPadding P).geom K dim = some (tfGeom p n.last s K (spatialPart n.last m strides) (spatialPart n.last m dilations)) := by
  have hpad : padding n kernel (parseDims n.last n.strides m) (n.dilations.map (fun d => parseDims n.last d m)) m =
      addPadding p.attr.1 n.last inR outR kernel ((spatialPart n.last m strides).map Int.ofNat)
        (some ((spatialPart n.last m dilations).map Int.ofNat)) p.attr.2 m := by
    unfold padding
    rw [if_neg (by simp [hin, hout]), hd.pad, hd.explicit, hin, hout, hd.strideAttr, parseDims_cast _ hd.stridesLen]
    have e := dilations_getD hd
    unfold addPadding
    split
    · rfl
    · split
      · rw [e]; rfl
      · rfl
  rw [hpad]
  have hSpos := spatialPart_pos n.last hd.stridesLen hd.stridesPos
  have hDpos := spatialPart_pos n.last hd.dilationsLen hd.dilationsPos
  have hSl := spatialPart_length n.last m strides
  have hDl := spatialPart_length n.last m dilations
  cases p with
  | valid =>
    refine ⟨.nothing, rfl, fun a ha => ?_⟩
    rw [ha.geom_nothing hd hK]
    unfold tfGeom TfPad.at
    rw [hK]
    simp
  | explicit l =>
    refine ⟨.pads (((List.range m).map (fun i => (l.getD (if n.last then i + 1 else i + 2) (0, 0)).1) ++
        (List.range m).map (fun i => (l.getD (if n.last then i + 1 else i + 2) (0, 0)).2)).map Int.ofNat), ?_, fun a ha => ?_⟩
    · show addPadding "EXPLICIT" _ _ _ _ _ _ (l.flatMap _) _ = _
      rw [interleave_cast, explicit_padding _ _ _ _ _ _ _ _ _ (by simp), List.map_append, List.map_map, List.map_map]
      congr 3
      · exact List.map_congr_left (fun i _ => (getD_pairs l _).1)
      · exact List.map_congr_left (fun i _ => (getD_pairs l _).2)
    · rw [ha.geom_pads hd hK (by simp) (by simp)]
      unfold tfGeom TfPad.at
      rw [hK]
  | same =>
    have hlin : inR.length = m + 2 := by rw [hinR.1, hs]
    by_cases hun : ∃ i, i < m ∧ (spatialDim n.last inR i = -1 ∨ spatialDim n.last outR i = -1)
    · refine ⟨_, same_padding_unknown _ _ _ _ _ _ _ _ hlin houtR.1 hun, fun a ha => ?_⟩
      rw [ha.geom_auto hd hK]
      unfold tfGeom TfPad.at
      rw [hK]
      have e : ∀ i, i < m → sameUpperPad (dim i) (span (nth K i) (nth (spatialPart n.last m dilations) i)) (nth (spatialPart n.last m strides) i) =
          tfSamePad (spOf n.last s i) (span (nth K i) (nth (spatialPart n.last m dilations) i)) (nth (spatialPart n.last m strides) i) :=
        fun i hi => by rw [hdim i hi, sameUpper_eq _ _ _ (nth_pos hSpos (by omega))]
      have e1 := List.map_congr_left (l := List.range m) (fun i hi => congrArg Prod.fst (e i (List.mem_range.1 hi)))
      have e2 := List.map_congr_left (l := List.range m) (fun i hi => congrArg Prod.snd (e i (List.mem_range.1 hi)))
      rw [e1, e2]
    · have hk' := (hk rfl).resolve_right hun
      have hin' : ∀ i, i < m → spatialDim n.last inR i = (spOf n.last s i : Int) := fun i hi =>
        (hinR.spatial n.last hs hi).resolve_left (fun h => hun ⟨i, hi, Or.inl h⟩)
      have hout' := fun i hi => (houtR.2 i hi).resolve_left (fun h => hun ⟨i, hi, Or.inr h⟩)
      have hS : ∀ i, i < m → 1 ≤ nth (spatialPart n.last m strides) i := fun i hi => nth_pos hSpos (by omega)
      have hD : ∀ i, i < m → 1 ≤ nth (spatialPart n.last m dilations) i := fun i hi => nth_pos hDpos (by omega)
      have hKi : ∀ i, i < m → 1 ≤ nth K i := fun i hi => nth_pos hKpos (by omega)
      have houtdim : ∀ i, i < m → (tfGeom .same n.last s K (spatialPart n.last m strides) (spatialPart n.last m dilations)).outDim i (spOf n.last s i) =
          (spOf n.last s i + nth (spatialPart n.last m strides) i - 1) / nth (spatialPart n.last m strides) i := by
        intro i hi
        unfold Geom.outDim tfGeom TfPad.at
        simp only [hK, nth_map_range, if_pos hi]
        exact sameOut _ _ _ (hS i hi) (by unfold span; omega)
      obtain ⟨pads, h1, h2, h3⟩ := same_padding n.last inR outR kernel ((spatialPart n.last m strides).map Int.ofNat)
        ((spatialPart n.last m dilations).map Int.ofNat) [] m hlin houtR.1 (fun i hi => by rw [hin' i hi]; omega)
        (fun i hi => by rw [getD_cast]; have := hS i hi; omega) (fun i hi => by rw [hk' i hi]; have := hKi i hi; omega)
        (fun i hi => by rw [getD_cast]; have := hD i hi; omega)
        (fun i hi => by rw [hout' i hi, hin' i hi, getD_cast, ceilDiv_cast _ _ (hS i hi), houtdim i hi])
      refine ⟨_, h1, fun a ha => ?_⟩
      have hp : pads = (((List.range m).map (fun i => (TfPad.same.at n.last s K (spatialPart n.last m strides) (spatialPart n.last m dilations) i).1) ++
          (List.range m).map (fun i => (TfPad.same.at n.last s K (spatialPart n.last m strides) (spatialPart n.last m dilations) i).2)).map Int.ofNat) := by
        have pair : ∀ i, i < m → (pads.getD i 0, pads.getD (i + m) 0) =
            (((TfPad.same.at n.last s K (spatialPart n.last m strides) (spatialPart n.last m dilations) i).1 : Int),
             ((TfPad.same.at n.last s K (spatialPart n.last m strides) (spatialPart n.last m dilations) i).2 : Int)) := by
          intro i hi
          rw [(h3 i hi).1, hk' i hi, getD_cast, getD_cast, hin' i hi, span_cast _ _ (hKi i hi), tfSame_cast]
          rfl
        refine map_ofNat_of (by simp; omega) (fun i hi => ?_)
        simp only [List.length_append, List.length_map, List.length_range] at hi
        by_cases h : i < m
        · rw [nth_append_left (by simpa using h), nth_map_range, if_pos h]
          exact congrArg Prod.fst (pair i h)
        · rw [nth_append_right (by simp; omega), List.length_map, List.length_range, nth_map_range, if_pos (by omega)]
          have := congrArg Prod.snd (pair (i - m) (by omega))
          rwa [Nat.sub_add_cancel (by omega)] at this
      rw [hp, ha.geom_pads hd hK (by simp) (by simp)]
      unfold tfGeom
      rw [hK]

end Verif.Conv
