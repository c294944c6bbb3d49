import Verif.Props.C57_Conv
import Verif.Model.ConvTranspose
/-!
# C60: transposed convolutions
-/
namespace Verif.Conv
open Verif.Tensor Verif.Nn Verif.Emit

variable {α β : Type}

/-! ## The specification -/

/-- What `source` means: window `o` exists and its element `k` lies at position `p` of the image. -/
theorem source_iff {s d n p k o : Nat} {off : Int} (hs : 1 ≤ s) : source s d off n p k = some o ↔ o < n ∧ (o * s + k * d : Int) = p + off := by
  unfold source
  dsimp only
  generalize ht : (p : Int) + off - k * d = t
  have hs' : (s : Int) ≠ 0 := by omega
  constructor
  · intro h
    split at h
    · rename_i hc
      injection h with h
      obtain ⟨h0, h1, h2⟩ := hc
      have hd : t = s * (t / s) := by have := Int.mul_ediv_add_emod t s; rw [h1] at this; omega
      have hq : 0 ≤ t / s := Int.ediv_nonneg h0 (by omega)
      generalize t / (s : Int) = q at *
      refine ⟨by omega, ?_⟩
      have : (o : Int) = q := by omega
      rw [this, Int.mul_comm]
      omega
    · simp at h
  · rintro ⟨h1, h2⟩
    have hd : t = s * o := by rw [Int.mul_comm]; omega
    have h0 : 0 ≤ t := by rw [hd]; exact Int.mul_nonneg (by omega) (by omega)
    have h3 : t % s = 0 := by rw [hd]; exact Int.mul_emod_right _ _
    have h4 : t / s = o := by rw [hd]; exact Int.mul_ediv_cancel_left _ hs'
    rw [h4, if_pos ⟨h0, h3, by exact_mod_cast h1⟩]
    simp

/-! ## Layout -/

theorem gathered_shape (last : Bool) (K s d : List Nat) (off : Nat → Int) (out : List Nat) (cout : Nat) (F : Nat → (List Nat → Nat → Option α) → β) (x : T α) :
    (gathered last K s d off out cout F x).shape = mk last (nth x.shape 0) out cout := rfl

theorem gathered_congr (last : Bool) (K s d : List Nat) {off off' : Nat → Int} (out : List Nat) (cout : Nat) {F F' : Nat → (List Nat → Nat → Option α) → β} (x : T α)
    (ho : ∀ i, i < K.length → off i = off' i) (hF : F = F') : Same (gathered last K s d off out cout F x) (gathered last K s d off' out cout F' x) := by
  refine ⟨rfl, fun idx hi => ?_⟩
  unfold gathered
  dsimp only
  rw [hF]
  congr 1
  funext k q
  have hiff : (∀ i, i < K.length → (source (nth s i) (nth d i) (off i) (spOf last x.shape i) (spOf last idx i) (nth k i)).isSome = true) ↔
      (∀ i, i < K.length → (source (nth s i) (nth d i) (off' i) (spOf last x.shape i) (spOf last idx i) (nth k i)).isSome = true) :=
    forall_congr' fun i => forall_congr' fun hi => by rw [ho i hi]
  have hm : (List.range K.length).map (fun i => (source (nth s i) (nth d i) (off i) (spOf last x.shape i) (spOf last idx i) (nth k i)).getD 0) =
      (List.range K.length).map (fun i => (source (nth s i) (nth d i) (off' i) (spOf last x.shape i) (spOf last idx i) (nth k i)).getD 0) :=
    List.map_congr_left (fun i hi => by rw [ho i (List.mem_range.1 hi)])
  by_cases hc : InB K k ∧ q < chOf last K.length x.shape ∧
      ∀ i, i < K.length → (source (nth s i) (nth d i) (off' i) (spOf last x.shape i) (spOf last idx i) (nth k i)).isSome = true
  · rw [if_pos hc, if_pos ⟨hc.1, hc.2.1, hiff.2 hc.2.2⟩, hm]
  · rw [if_neg hc, if_neg (fun h => hc ⟨h.1, h.2.1, hiff.1 h.2.2⟩)]

/-- **Layout**: transposing the operand, running the operator channels first and transposing the result back is the same as running it channels last. -/
theorem gathered_layout (last : Bool) (K s d : List Nat) (off : Nat → Int) (out : List Nat) (cout : Nat) (F : Nat → (List Nat → Nat → Option α) → β) (x : T α)
    (hx : x.shape.length = K.length + 2) (hout : out.length = K.length) :
    Same (fromOnnx last K.length (gathered false K s d off out cout F (toOnnx last K.length x))) (gathered last K s d off out cout F x) := by
  obtain ⟨n, sp, c, hsp, hs⟩ := exists_mk last hx
  have hts := toOnnx_shape last x hsp hs
  have hshape : (gathered false K s d off out cout F (toOnnx last K.length x)).shape = mk false n out cout := by
    rw [gathered_shape, hts, nth_mk_zero]
  have hshape' : (gathered last K s d off out cout F x).shape = mk last n out cout := by
    rw [gathered_shape, hs, nth_mk_zero]
  have hf := fromOnnx_shape last (m := K.length) _ hout hshape
  refine ⟨hf.trans hshape'.symm, fun idx hi => ?_⟩
  rw [hf] at hi
  obtain ⟨b, o, q, ho, rfl⟩ := exists_mk last (m := K.length) (idx := idx) (by rw [hi.1, mk_length, hout])
  rw [fromOnnx_get last _ _ _ ho]
  have ch : ∀ l : Bool, chOf l K.length (mk l b o q) = q := fun l => by rw [← ho]; exact chOf_mk l b o q
  have cx : ∀ l : Bool, chOf l K.length (mk l n sp c) = c := fun l => by rw [← hsp]; exact chOf_mk l n sp c
  unfold gathered
  simp only [ch]
  congr 1
  funext k c'
  rw [hts, hs]
  simp only [cx, nth_mk_zero]
  have hsrc : ∀ i, i < K.length → source (nth s i) (nth d i) (off i) (spOf false (mk false n sp c) i) (spOf false (mk false b o q) i) (nth k i) =
      source (nth s i) (nth d i) (off i) (spOf last (mk last n sp c) i) (spOf last (mk last b o q) i) (nth k i) := fun i hi' => by
    have h1 : ∀ l, spOf l (mk l n sp c) i = nth sp i := fun l => spOf_mk _ _ _ _ (by rw [hsp]; exact hi')
    have h2 : ∀ l, spOf l (mk l b o q) i = nth o i := fun l => spOf_mk _ _ _ _ (by rw [ho]; exact hi')
    rw [h1, h1, h2, h2]
  have hiff : (∀ i, i < K.length → (source (nth s i) (nth d i) (off i) (spOf false (mk false n sp c) i) (spOf false (mk false b o q) i) (nth k i)).isSome = true) ↔
      (∀ i, i < K.length → (source (nth s i) (nth d i) (off i) (spOf last (mk last n sp c) i) (spOf last (mk last b o q) i) (nth k i)).isSome = true) :=
    forall_congr' fun i => forall_congr' fun hi => by rw [hsrc i hi]
  have hm : (List.range K.length).map (fun i => (source (nth s i) (nth d i) (off i) (spOf false (mk false n sp c) i) (spOf false (mk false b o q) i) (nth k i)).getD 0) =
      (List.range K.length).map (fun i => (source (nth s i) (nth d i) (off i) (spOf last (mk last n sp c) i) (spOf last (mk last b o q) i) (nth k i)).getD 0) :=
    List.map_congr_left (fun i hi => by rw [hsrc i (List.mem_range.1 hi)])
  by_cases hc : InB K k ∧ c' < c ∧
      ∀ i, i < K.length → (source (nth s i) (nth d i) (off i) (spOf last (mk last n sp c) i) (spOf last (mk last b o q) i) (nth k i)).isSome = true
  · rw [if_pos hc, if_pos ⟨hc.1, hc.2.1, hiff.2 hc.2.2⟩, hm, toOnnx_get last x _ _ (by simp)]
  · rw [if_neg hc, if_neg (fun h => hc ⟨h.1, h.2.1, hiff.1 h.2.2⟩)]

theorem backAt_congr (acc : Acc α) (zero : α) (K : List Nat) (C : Nat) {w w' : List Nat → Nat → Nat → α}
    (h : ∀ k c q, k.length = K.length → w k c q = w' k c q) : backAt acc zero K C w = backAt acc zero K C w' := by
  funext c r
  unfold backAt
  congr 1
  funext k q
  by_cases hk : InB K k ∧ q < C
  · rw [if_pos hk, if_pos hk, h k c q hk.1.1]
  · rw [if_neg hk, if_neg hk]

/-! ## What is assumed -/

/-- The operands of a node: an image of shape `sizes` with spatial dimensions `L` and `cin` channels, `N` images; kernel `K`; `y` has spatial dimensions `O` and
`cout` channels. -/
structure TransArgs (n : Node) (m : Nat) (p : TfPad) (strides dilations : List Nat) (N : Nat) (L K O : List Nat) (cin cout : Nat) (w y : T α) : Prop where
  attrs : Describes n m p strides dilations
  rankL : L.length = m
  rankK : K.length = m
  rankO : O.length = m
  wShape : w.shape = K ++ [cin, cout]
  yShape : y.shape = mk n.last N O cout
  kernelPos : ∀ d ∈ K, 1 ≤ d
  nonempty : ∀ d ∈ O, 1 ≤ d
  /-- TensorFlow accepts the operands -/
  windows : ∀ i, i < m → nth O i =
    (tfGeom p n.last (mk n.last N L cin) K (spatialPart n.last m strides) (spatialPart n.last m dilations)).outDim i (nth L i)
  /-- the recorded shapes are right; the size of the kernel is known -/
  inShape : ∃ r, n.inShape = some r ∧ Rec r y.shape
  kernelShape : ∃ r, n.kernelShape = some r ∧ Rec r w.shape ∧ ∀ i, i < m → r.getD i 0 ≠ -1
  outShape : n.outShape ≠ none

/-- The total padding along axis `i`: how much the windows, put next to each other without padding, stick out of the image. -/
def total (last : Bool) (strides dilations L K O : List Nat) (i : Nat) : Int :=
  (spOf last strides i : Int) * ((nth O i : Int) - 1) + (span (nth K i) (spOf last dilations i) : Nat) - (nth L i : Int)

variable {n : Node} {m : Nat} {p : TfPad} {strides dilations : List Nat} {N : Nat} {L K O : List Nat} {cin cout : Nat} {w y : T α}

theorem tfBackprop_eq (h : TransArgs n m p strides dilations N L K O cin cout w y) (acc : Acc α) (zero : α) :
    tfConvBackprop acc zero n.last p strides dilations (mk n.last N L cin) w y =
      gathered n.last K (spatialPart n.last m strides) (spatialPart n.last m dilations)
        (fun i => (nth (tfGeom p n.last (mk n.last N L cin) K (spatialPart n.last m strides) (spatialPart n.last m dilations)).before i : Int)) L cin
        (backAt acc zero K cout (fun k c q => w.get (k ++ [c, q]))) y := by
  have hm : w.shape.length - 2 = m := by rw [h.wShape]; simp [h.rankK]
  have ht : w.shape.take m = K := by rw [h.wShape, ← h.rankK]; simp
  have h1 : nth w.shape m = cin := by rw [h.wShape, nth_append_right (by rw [h.rankK]), h.rankK]; simp [nth]
  have h2 : nth w.shape (m + 1) = cout := by rw [h.wShape, nth_append_right (by rw [h.rankK]; omega), h.rankK]; simp [nth]
  have h3 : spatialPart n.last m (mk n.last N L cin) = L := by rw [← h.rankL]; exact spatialPart_mk ..
  unfold tfConvBackprop
  rw [hm]
  dsimp only
  rw [ht, h1, h2, h3]
  rfl

/-- Padding in front, for `SAME` and `VALID`. -/
theorem before_eq (h : TransArgs n m p strides dilations N L K O cin cout w y) (hp : p = .same ∨ p = .valid) {i : Nat} (hi : i < m) :
    (nth (tfGeom p n.last (mk n.last N L cin) K (spatialPart n.last m strides) (spatialPart n.last m dilations)).before i : Int) =
      max (total n.last strides dilations L K O i) 0 / 2 ∧ (p = .valid → total n.last strides dilations L K O i ≤ 0) := by
  have hO : 1 ≤ nth O i := nth_pos h.nonempty (by rw [h.rankO]; exact hi)
  have hw := h.windows i hi
  have hsp : spOf n.last (mk n.last N L cin) i = nth L i := spOf_mk _ _ _ _ (by rw [h.rankL]; exact hi)
  have hS : 1 ≤ spOf n.last strides i := by
    rw [← nth_spatialPart _ _ hi]
    exact nth_pos (spatialPart_pos _ h.attrs.stridesLen h.attrs.stridesPos) (by rw [spatialPart_length]; exact hi)
  have hK : i < K.length := by rw [h.rankK]; exact hi
  unfold Geom.outDim at hw
  unfold total
  rcases hp with rfl | rfl
  · refine ⟨?_, by simp⟩
    simp only [tfGeom, TfPad.at, nth_map_range, if_pos hK, nth_spatialPart _ _ hi, hsp] at hw ⊢
    rw [sameOut _ _ _ hS (by unfold span; omega)] at hw
    have hc := ceil_mul (nth L i) (spOf n.last strides i) hS
    rw [← hw] at hc
    have hlt := Nat.mod_lt (nth L i) (show spOf n.last strides i > 0 by omega)
    have hle := Nat.mod_le (nth L i) (spOf n.last strides i)
    unfold tfSamePad
    dsimp only
    generalize span (nth K i) (spOf n.last dilations i) = f at *
    generalize spOf n.last strides i = s at *
    generalize nth L i = l at *
    generalize nth O i = o at *
    generalize hr : l % s = r at *
    have hexp : (s : Int) * ((o : Int) - 1) = ((o * s : Nat) : Int) - s := by
      rw [Int.mul_sub, Int.mul_one]; push_cast; rw [Int.mul_comm]
    rw [hexp, hc]
    by_cases h0 : r = 0
    · rw [if_pos h0, if_pos h0]
      have : max ((l : Int) - s + (f : Nat) - l) 0 = ((f - s : Nat) : Int) := by omega
      rw [this]
      omega
    · rw [if_neg h0, if_neg h0]
      have : max (((l - r + s : Nat) : Int) - s + (f : Nat) - l) 0 = ((f - r : Nat) : Int) := by omega
      rw [this]
      omega
  · have hb : (nth (tfGeom .valid n.last (mk n.last N L cin) K (spatialPart n.last m strides) (spatialPart n.last m dilations)).before i : Int) = 0 := by
      simp only [tfGeom, TfPad.at, nth_map_range, if_pos hK]
      rfl
    rw [hb]
    simp only [tfGeom, TfPad.at, nth_map_range, if_pos hK, nth_spatialPart _ _ hi, Nat.add_zero] at hw
    have ht : (spOf n.last strides i : Int) * ((nth O i : Int) - 1) + (span (nth K i) (spOf n.last dilations i) : Nat) - (nth L i : Int) ≤ 0 := by
      generalize span (nth K i) (spOf n.last dilations i) = f at *
      generalize spOf n.last strides i = s at *
      generalize nth L i = l at *
      generalize nth O i = o at *
      have h1 : s * o ≤ l + s - f := by rw [hw]; exact Nat.mul_div_le _ _
      have hge : s ≤ s * o := Nat.le_mul_of_pos_right _ hO
      have : (s : Int) * ((o : Int) - 1) = ((s * o : Nat) : Int) - s := by rw [Int.mul_sub, Int.mul_one]; push_cast; rfl
      rw [this]
      omega
    exact ⟨by omega, fun _ => ht⟩

/-! ## The operator -/

/-- Attributes that agree with the node. -/
structure TBase (a : TAttrs) (n : Node) (m : Nat) (K : List Nat) : Prop where
  kernel : a.kernelShape = some (K.map Int.ofNat)
  strides : a.strides = some (parseDims n.last n.strides m)
  dilations : a.dilations = n.dilations.map (fun d => parseDims n.last d m)

/-- The length without padding. -/
def fullLen (last : Bool) (strides dilations K O : List Nat) (i : Nat) : Int :=
  (spOf last strides i : Int) * ((nth O i : Int) - 1) + (span (nth K i) (spOf last dilations i) : Nat)

theorem run_transpose (h : TransArgs n m p strides dilations N L K O cin cout w y) (acc : Acc α) (zero : α) (strict : Bool) (version : Nat) {a : TAttrs}
    (ha : TBase a n m K) {out : List Nat} {off : Nat → Int} (hout : out.length = m)
    (hok : ∀ full : Nat → Int, (∀ i, i < m → full i = fullLen n.last strides dilations K O i) → a.padsOk strict m full)
    (haxis : ∀ i, i < m → a.axis version m (fullLen n.last strides dilations K O i) i = (off i, (nth out i : Int))) :
    ∃ r, onnxConvTranspose acc zero strict version a (toOnnx n.last m y) (transpose (kernelPerm m) w) = some r ∧ r.shape = mk false N out cin ∧
      Same (fromOnnx n.last m r) (gathered n.last K (spatialPart n.last m strides) (spatialPart n.last m dilations) off out cin
        (backAt acc zero K cout (fun k c q => w.get (k ++ [c, q]))) y) := by
  have hWs : (transpose (kernelPerm m) w).shape = cout :: cin :: K := by
    show (kernelPerm m).map (nth w.shape) = _
    rw [h.wShape, kernelPerm_map _ _ h.rankK]
  have hXs := toOnnx_shape n.last y h.rankO h.yShape
  have hst : natAttr m 1 1 a.strides = some (spatialPart n.last m strides) := by
    rw [ha.strides, h.attrs.strideAttr, parseDims_cast _ h.attrs.stridesLen]
    exact natAttr_cast (spatialPart_length ..) (spatialPart_pos _ h.attrs.stridesLen h.attrs.stridesPos)
  have hdi : natAttr m 1 1 a.dilations = some (spatialPart n.last m dilations) := by
    rw [ha.dilations]
    rcases h.attrs.dilAttr with e | ⟨e, e'⟩
    · rw [e]
      show natAttr m 1 1 (some (parseDims _ _ _)) = _
      rw [parseDims_cast _ h.attrs.dilationsLen]
      exact natAttr_cast (spatialPart_length ..) (spatialPart_pos _ h.attrs.dilationsLen h.attrs.dilationsPos)
    · rw [e, e', spatialPart_ones]
      rfl
  have hfull : ∀ i, i < m → (nth (spatialPart n.last m strides) i : Int) * ((nth (toOnnx n.last m y).shape (i + 2) : Int) - 1) +
      (span (nth K i) (nth (spatialPart n.last m dilations) i) : Nat) = fullLen n.last strides dilations K O i := fun i hi => by
    unfold fullLen
    rw [nth_spatialPart _ _ hi, nth_spatialPart _ _ hi, hXs]
    rfl
  let r := gathered false K (spatialPart n.last m strides) (spatialPart n.last m dilations) off out cin
        (backAt acc zero K cout (fun k c q => (transpose (kernelPerm m) w).get (q :: c :: k))) (toOnnx n.last m y)
  have hrun : onnxConvTranspose acc zero strict version a (toOnnx n.last m y) (transpose (kernelPerm m) w) =
      some (gathered false K (spatialPart n.last m strides) (spatialPart n.last m dilations)
        (fun i => (a.axis version m ((nth (spatialPart n.last m strides) i : Int) * ((nth (toOnnx n.last m y).shape (i + 2) : Int) - 1) +
          (span (nth K i) (nth (spatialPart n.last m dilations) i) : Nat)) i).1)
        ((List.range m).map (fun i => (a.axis version m ((nth (spatialPart n.last m strides) i : Int) * ((nth (toOnnx n.last m y).shape (i + 2) : Int) - 1) +
          (span (nth K i) (nth (spatialPart n.last m dilations) i) : Nat)) i).2.toNat)) cin
        (backAt acc zero K cout (fun k c q => (transpose (kernelPerm m) w).get (q :: c :: k))) (toOnnx n.last m y)) := by
    unfold onnxConvTranspose
    rw [hWs]
    simp only [List.drop_succ_cons, List.drop_zero, nth_cons_succ, nth_cons_zero, List.length_cons, h.rankK]
    rw [if_pos]
    · rw [hst, hdi]
      dsimp only
      rw [if_pos]
      refine ⟨hok _ hfull, fun i hi => ?_⟩
      rw [hfull i hi, haxis i hi]
      exact Int.natCast_nonneg _
    · refine ⟨by omega, by rw [hXs, mk_length, h.rankO], fun l hl => ?_, by rw [hXs]; rfl⟩
      rw [ha.kernel] at hl
      injection hl with hl
      exact hl.symm
  have hlen : (List.range m).map (fun i => (a.axis version m ((nth (spatialPart n.last m strides) i : Int) * ((nth (toOnnx n.last m y).shape (i + 2) : Int) - 1) +
          (span (nth K i) (nth (spatialPart n.last m dilations) i) : Nat)) i).2.toNat) = out := by
    apply ext_nth (by simp [hout])
    intro i hi
    have hi' : i < m := by simpa using hi
    rw [nth_map_range, if_pos hi', hfull i hi', haxis i hi']
    exact Int.toNat_natCast _
  refine ⟨_, hrun, ?_, ?_⟩
  · rw [gathered_shape, hlen, hXs, nth_mk_zero]
  · rw [hlen, backAt_congr acc zero K cout (w := fun k c q => (transpose (kernelPerm m) w).get (q :: c :: k))
      (w' := fun k c q => w.get (k ++ [c, q])) (fun k c q hk => kernel_get w c q (hk.trans h.rankK))]
    have hl := gathered_layout n.last K (spatialPart n.last m strides) (spatialPart n.last m dilations)
      (fun i => (a.axis version m ((nth (spatialPart n.last m strides) i : Int) * ((nth (toOnnx n.last m y).shape (i + 2) : Int) - 1) +
          (span (nth K i) (nth (spatialPart n.last m dilations) i) : Nat)) i).1) out cin
      (backAt acc zero K cout (fun k c q => w.get (k ++ [c, q]))) y (by rw [h.yShape, mk_length, h.rankO, h.rankK]) (by rw [hout, h.rankK])
    rw [h.rankK] at hl
    refine hl.trans (gathered_congr _ _ _ _ _ _ _ (fun i hi => ?_) rfl)
    have hi' : i < m := by rw [← h.rankK]; exact hi
    rw [hfull i hi', haxis i hi']

/-! ## What the handler reads -/

theorem kernel_known (h : TransArgs n m p strides dilations N L K O cin cout w y) :
    convKernelShape n.kernelShape m = .ok (K.map Int.ofNat, some (K.map Int.ofNat)) := by
  obtain ⟨kR, hkR, hkRec, hk⟩ := h.kernelShape
  have hwl : w.shape.length = m + 2 := by rw [h.wShape]; simp [h.rankK]
  have hkl : kR.length = m + 2 := by rw [hkRec.1, hwl]
  have e : kR.take m = K.map Int.ofNat := by
    refine map_ofNat_of (by simp [h.rankK]; omega) (fun i hi => ?_)
    have hi' : i < m := by rw [← h.rankK]; exact hi
    rw [List.getD_eq_getElem?_getD, List.getElem?_take_of_lt hi', ← List.getD_eq_getElem?_getD]
    have := (hkRec.2 i (by rw [hwl]; omega)).resolve_left (hk i hi')
    rw [this, h.wShape, nth_append_left hi]
  unfold convKernelShape
  rw [hkR]
  dsimp only
  rw [if_neg (by simp [hkl]), e, if_pos]
  rw [List.all_eq_true]
  intro z hz
  obtain ⟨d, hd, rfl⟩ := List.mem_map.1 hz
  have := h.kernelPos d hd
  simp
  omega

theorem reads_ok (h : TransArgs n m p strides dilations N L K O cin cout w y) :
    ∃ inDims, transposeReads n m = .ok (inDims, some (K.map Int.ofNat)) ∧ inDims.length = m ∧ ∀ i, i < m → inDims.getD i 0 = -1 ∨ inDims.getD i 0 = (nth O i : Int) := by
  obtain ⟨r, hr, hrec⟩ := h.inShape
  refine ⟨spatialOf n.last m r, ?_, by simp [spatialOf], fun i hi => ?_⟩
  · unfold transposeReads
    rw [kernel_known h, hr]
    rfl
  · have hl : y.shape.length = m + 2 := by rw [h.yShape, mk_length, h.rankO]
    have := hrec.2 (if n.last then i + 1 else i + 2) (by rw [hl]; split <;> omega)
    have e : nth y.shape (if n.last then i + 1 else i + 2) = nth O i := by
      rw [h.yShape]
      exact spOf_mk n.last _ _ _ (by rw [h.rankO]; exact hi)
    rw [e] at this
    unfold spatialOf
    rw [List.getD_eq_getElem?_getD, List.getElem?_map, List.getElem?_range hi]
    exact this

theorem sizes_ok (last : Bool) {m N cin : Nat} {L : List Nat} (hL : L.length = m) : spatialOf last m ((mk last N L cin).map Int.ofNat) = L.map Int.ofNat := by
  refine map_ofNat_of (by simp [spatialOf, hL]) (fun i hi => ?_)
  unfold spatialOf
  rw [List.getD_eq_getElem?_getD, List.getElem?_map, List.getElem?_range (by omega)]
  show ((mk last N L cin).map Int.ofNat).getD (if last then i + 1 else i + 2) 0 = _
  rw [getD_cast]
  exact congrArg Nat.cast (spOf_mk last N L cin hi)

theorem outKnown_ok (h : TransArgs n m p strides dilations N L K O cin cout w y) : outKnown n = .ok () := by
  unfold outKnown
  rw [if_neg (fun e => h.outShape e.2)]

theorem total_cast (h : TransArgs n m p strides dilations N L K O cin cout w y) {i : Nat} (hi : i < m) :
    totalPadding (((spatialPart n.last m strides).map Int.ofNat).getD i 0) (nth O i) ((K.map Int.ofNat).getD i 0) (((spatialPart n.last m dilations).map Int.ofNat).getD i 0)
      ((L.map Int.ofNat).getD i 0) = total n.last strides dilations L K O i := by
  have hk : 1 ≤ nth K i := nth_pos h.kernelPos (by rw [h.rankK]; exact hi)
  unfold totalPadding total
  rw [getD_cast, getD_cast, getD_cast, getD_cast, nth_spatialPart _ _ hi, nth_spatialPart _ _ hi]
  have : ((nth K i : Int) - 1) * (spOf n.last dilations i : Int) + 1 = (span (nth K i) (spOf n.last dilations i) : Nat) := by
    have := span_cast (nth K i) (spOf n.last dilations i) hk
    unfold effective at this
    rw [← this, Int.mul_comm]
  rw [this]

/-- Windows do not outnumber the elements of the image. -/
theorem out_ge (h : TransArgs n m p strides dilations N L K O cin cout w y) (hp : p = .same ∨ p = .valid) {i : Nat} (hi : i < m) : nth O i ≤ nth L i := by
  have hO : 1 ≤ nth O i := nth_pos h.nonempty (by rw [h.rankO]; exact hi)
  have hw := h.windows i hi
  have hsp : spOf n.last (mk n.last N L cin) i = nth L i := spOf_mk _ _ _ _ (by rw [h.rankL]; exact hi)
  have hS : 1 ≤ spOf n.last strides i := by
    rw [← nth_spatialPart _ _ hi]
    exact nth_pos (spatialPart_pos _ h.attrs.stridesLen h.attrs.stridesPos) (by rw [spatialPart_length]; exact hi)
  have hK : i < K.length := by rw [h.rankK]; exact hi
  have hf : 1 ≤ span (nth K i) (spOf n.last dilations i) := by unfold span; omega
  unfold Geom.outDim at hw
  rcases hp with rfl | rfl
  · simp only [tfGeom, TfPad.at, nth_map_range, if_pos hK, nth_spatialPart _ _ hi, hsp] at hw
    rw [sameOut _ _ _ hS hf] at hw
    rw [hw]
    have : nth L i + spOf n.last strides i - 1 ≤ nth L i * spOf n.last strides i := by
      have hL : 1 ≤ nth L i := by
        rcases Nat.eq_zero_or_pos (nth L i) with h0 | h0
        · rw [h0] at hw
          rw [Nat.div_eq_of_lt (by omega)] at hw
          omega
        · exact h0
      obtain ⟨l, hl⟩ : ∃ l, nth L i = l + 1 := ⟨nth L i - 1, by omega⟩
      have := Nat.le_mul_of_pos_right l hS
      rw [hl, Nat.add_mul]
      omega
    exact Nat.div_le_of_le_mul (by rw [Nat.mul_comm]; exact this)
  · simp only [tfGeom, TfPad.at, nth_map_range, if_pos hK, nth_spatialPart _ _ hi, Nat.add_zero] at hw
    generalize span (nth K i) (spOf n.last dilations i) = f at *
    generalize spOf n.last strides i = s at *
    generalize nth L i = l at *
    generalize nth O i = o at *
    have h1 : s * o ≤ l + s - f := by rw [hw]; exact Nat.mul_div_le _ _
    obtain ⟨o', rfl⟩ : ∃ o', o = o' + 1 := ⟨o - 1, by omega⟩
    have := Nat.le_mul_of_pos_left o' hS
    rw [Nat.mul_add, Nat.mul_one] at h1
    omega

theorem tdiv_half {t : Int} (h : -1 ≤ t) : t.tdiv 2 = max t 0 / 2 := by
  by_cases h0 : 0 ≤ t
  · rw [Int.tdiv_eq_ediv_of_nonneg h0]; omega
  · obtain rfl : t = -1 := by omega
    rfl

/-! ## Known size -/

/-- **Constant shape, image of known size**: `SAME` and `VALID`. The total padding is at least 0, or at least -1 if the runtime takes negative pads. -/
theorem transpose_converts (acc : Acc α) (zero : α) (strict : Bool) (opset : Nat) (h : TransArgs n m p strides dilations N L K O cin cout w y)
    (hp : p = .same ∨ p = .valid) (hknown : ∀ r, n.inShape = some r → ∀ i, i < m → r.getD (if n.last then i + 1 else i + 2) 0 ≠ -1)
    (htot : ∀ i, i < m → (if strict then 0 else -1) ≤ total n.last strides dilations L K O i) :
    ∃ z, convertedTranspose acc zero strict opset n m ((mk n.last N L cin).map Int.ofNat) w y = .ok (some z) ∧
      Same z (tfConvBackprop acc zero n.last p strides dilations (mk n.last N L cin) w y) := by
  obtain ⟨r, hr, hrec⟩ := h.inShape
  have hyl : y.shape.length = m + 2 := by rw [h.yShape, mk_length, h.rankO]
  have hin : spatialOf n.last m r = O.map Int.ofNat := by
    refine map_ofNat_of (by simp [spatialOf, h.rankO]) (fun i hi => ?_)
    have hi' : i < m := by rw [← h.rankO]; exact hi
    unfold spatialOf
    rw [List.getD_eq_getElem?_getD, List.getElem?_map, List.getElem?_range hi']
    have := (hrec.2 (if n.last then i + 1 else i + 2) (by rw [hyl]; split <;> omega)).resolve_left (hknown r hr i hi')
    refine this.trans ?_
    rw [h.yShape]
    exact congrArg Nat.cast (spOf_mk n.last N O cout hi)
  have hreads : transposeReads n m = .ok (O.map Int.ofNat, some (K.map Int.ofNat)) := by
    unfold transposeReads
    rw [kernel_known h, hr, ← hin]
    rfl
  have hneg : ∀ l : List Nat, (-1 : Int) ∉ l.map Int.ofNat := by
    intro l hl
    obtain ⟨d, _, hd⟩ := List.mem_map.1 hl
    simp at hd
  have hsmall : (List.range m).any (fun i => decide ((L.map Int.ofNat).getD i 0 < (O.map Int.ofNat).getD i 0)) = false := by
    rw [List.any_eq_false]
    intro i hi
    rw [getD_cast, getD_cast]
    have := out_ge h hp (List.mem_range.1 hi)
    simp
    omega
  let pads : List Int := (List.range m).map (fun i => (total n.last strides dilations L K O i).tdiv 2) ++
    (List.range m).map (fun i => total n.last strides dilations L K O i - (total n.last strides dilations L K O i).tdiv 2)
  have hpads : transposePads ((spatialPart n.last m strides).map Int.ofNat) ((spatialPart n.last m dilations).map Int.ofNat) (K.map Int.ofNat) (O.map Int.ofNat)
      (L.map Int.ofNat) m = pads := by
    unfold transposePads
    have e : ∀ i, i < m → totalPadding (((spatialPart n.last m strides).map Int.ofNat).getD i 0) ((O.map Int.ofNat).getD i 0) ((K.map Int.ofNat).getD i 0)
        (((spatialPart n.last m dilations).map Int.ofNat).getD i 0) ((L.map Int.ofNat).getD i 0) = total n.last strides dilations L K O i := fun i hi => by
      rw [getD_cast O]; exact total_cast h hi
    show (List.range m).map _ ++ (List.range m).map _ = (List.range m).map _ ++ (List.range m).map _
    congr 1
    · exact List.map_congr_left (fun i hi => by dsimp only; rw [e i (List.mem_range.1 hi)])
    · exact List.map_congr_left (fun i hi => by dsimp only; rw [e i (List.mem_range.1 hi)])
  let a : TAttrs := ⟨some (K.map Int.ofNat), some (parseDims n.last n.strides m), n.dilations.map (fun d => parseDims n.last d m), some pads, none⟩
  have hattrs : transposeAttrs n m ((mk n.last N L cin).map Int.ofNat) = .ok a := by
    unfold transposeAttrs
    rw [hreads, sizes_ok n.last h.rankL]
    show (if (-1 : Int) ∈ L.map Int.ofNat then _ else
      if (List.range m).any (fun i => decide ((L.map Int.ofNat).getD i 0 < (O.map Int.ofNat).getD i 0)) = true then _ else
        if (-1 : Int) ∈ O.map Int.ofNat then _ else (outKnown n).map _ : Except String TAttrs) = _
    rw [if_neg (hneg L), if_neg (by rw [hsmall]; simp), if_neg (hneg O), outKnown_ok h]
    show Except.ok (⟨_, _, _, some (transposePads _ _ _ _ _ _), none⟩ : TAttrs) = _
    rw [dilations_getD h.attrs, h.attrs.strideAttr, parseDims_cast _ h.attrs.stridesLen, hpads, ← parseDims_cast _ h.attrs.stridesLen, ← h.attrs.strideAttr]
  have hp1 : ∀ i, i < m → pads.getD i 0 = (total n.last strides dilations L K O i).tdiv 2 := fun i hi => by
    show List.getD (_ ++ _) i 0 = _
    rw [List.getD_eq_getElem?_getD, List.getElem?_append_left (by simpa using hi), List.getElem?_map, List.getElem?_range hi]
    rfl
  have hp2 : ∀ i, i < m → pads.getD (i + m) 0 = total n.last strides dilations L K O i - (total n.last strides dilations L K O i).tdiv 2 := fun i hi => by
    show List.getD (_ ++ _) (i + m) 0 = _
    rw [List.getD_eq_getElem?_getD, List.getElem?_append_right (by simp), List.getElem?_map]
    simp only [List.length_map, List.length_range, Nat.add_sub_cancel]
    rw [List.getElem?_range hi]
    rfl
  obtain ⟨z, hz, hzs, hS⟩ := run_transpose h acc zero strict opset (a := a) ⟨rfl, rfl, rfl⟩ (out := L)
    (off := fun i => (nth (tfGeom p n.last (mk n.last N L cin) K (spatialPart n.last m strides) (spatialPart n.last m dilations)).before i : Int)) h.rankL
    (fun full hfull => by
      refine ⟨fun q hq => ?_, fun o ho => by simp [a] at ho⟩
      injection hq with hq
      subst hq
      refine ⟨by simp [pads]; omega, fun hstrict z hz => ?_⟩
      rw [hstrict] at htot
      simp only [if_true] at htot
      rcases List.mem_append.1 hz with hz | hz
      · obtain ⟨i, hi, rfl⟩ := List.mem_map.1 hz
        have := htot i (List.mem_range.1 hi)
        rw [tdiv_half (by omega)]
        omega
      · obtain ⟨i, hi, rfl⟩ := List.mem_map.1 hz
        have := htot i (List.mem_range.1 hi)
        rw [tdiv_half (by omega)]
        omega)
    (fun i hi => by
      show (pads.getD i 0, _ - pads.getD i 0 - pads.getD (i + m) 0) = _
      rw [hp1 i hi, hp2 i hi, (before_eq h hp hi).1]
      have ht := htot i hi
      have ht' : -1 ≤ total n.last strides dilations L K O i := by split at ht <;> omega
      have hf : fullLen n.last strides dilations K O i = total n.last strides dilations L K O i + nth L i := by unfold fullLen total; omega
      rw [hf]
      generalize total n.last strides dilations L K O i = t at *
      refine Prod.ext ?_ ?_
      · exact tdiv_half ht'
      · show t + nth L i - t.tdiv 2 - (t - t.tdiv 2) = nth L i
        omega)
  refine ⟨fromOnnx n.last m z, ?_, ?_⟩
  · unfold convertedTranspose
    rw [hattrs]
    show Except.ok ((onnxConvTranspose acc zero strict opset a _ _).map _) = _
    rw [hz]
    rfl
  · rw [tfBackprop_eq h]
    exact hS

end Verif.Conv
