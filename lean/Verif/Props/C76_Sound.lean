import Verif.Props.C76_Resize
/-!
# C76: the converted resize operators are TensorFlow's
-/
namespace Verif.Resize
open Verif.Tensor Verif.Einsum Verif.Emit Verif.Channels Verif.Fourier

/-- The grid that the two attributes select. -/
def gridOf (align half : Bool) : Grid := if half then .halfPixel else if align then .corners else .legacy

/-- What the conversion can express: not `ResizeArea`; `ResizeBicubic` only with `half_pixel_centers`; for TensorRT not `ResizeNearestNeighbor` with `half_pixel_centers`. -/
def Expressible (kind : Kind) (half tensorrt : Bool) : Prop :=
  kind = .bilinear ∨ (kind = .nearest ∧ ¬(half = true ∧ tensorrt = true)) ∨ (kind = .bicubic ∧ half = true)

/-- The recorded shape agrees with the shape. -/
def Agrees (recorded : Option (List Int)) (shape : List Nat) : Prop := ∀ l, recorded = some l → List.Forall₂ (fun (r : Int) (n : Nat) => r = -1 ∨ r = n) l shape

/-- The quotients of the sizes are numbers of single precision. -/
def Exact (h w nh nw : Nat) : Prop := f32 ((nh : ℚ) / h) = (nh : ℚ) / h ∧ f32 ((nw : ℚ) / w) = (nw : ℚ) / w

theorem attrs_ok {kind : Kind} {align half tensorrt : Bool} (h : (attrs11 kind align half tensorrt).coord = .tfHalfPixelForNn) (hb : ¬(align = true ∧ half = true)) :
    (attrs11 kind align half tensorrt).mode = .nearest ∧ (attrs11 kind align half tensorrt).nearest = .floor := by
  revert h hb
  cases kind <;> cases align <;> cases half <;> cases tensorrt <;> simp [attrs11]

/-- One axis. -/
theorem axis11 {kind : Kind} {align half tensorrt : Bool} {n m i : Nat} (hb : ¬(align = true ∧ half = true)) (he : Expressible kind half tensorrt) (hn : 0 < n) (hi : i < m)
    (f : Nat → ℚ) : tapSum (onnxTaps (attrs11 kind align half tensorrt) n m ((m : ℚ) / n) i) f = tapSum (tfTaps kind (gridOf align half) n m i) f := by
  rcases he with rfl | ⟨rfl, ht⟩ | ⟨rfl, rfl⟩
  · have e : attrs11 .bilinear align half tensorrt = ⟨.linear, coordFor .bilinear (gridOf align half), if align then .roundPreferCeil else .floor, -3 / 4, false⟩ := by
      cases align <;> cases half <;> simp [attrs11, coordFor, gridOf]
    rw [e]
    exact axis_bilinear f hn hi
  · have e : attrs11 .nearest align half tensorrt = ⟨.nearest, coordFor .nearest (gridOf align half), if gridOf align half = .corners then .roundPreferCeil else .floor, -3 / 4, false⟩ := by
      revert ht hb
      cases align <;> cases half <;> cases tensorrt <;> simp [attrs11, coordFor, gridOf]
    rw [e]
    exact axis_nearest f hn hi
  · have ha : align = false := by
      cases align
      · rfl
      · exact absurd ⟨rfl, rfl⟩ hb
    subst ha
    have e : attrs11 .bicubic false true tensorrt = ⟨.cubic, .halfPixel, .floor, -1 / 2, true⟩ := by simp [attrs11]
    rw [e]
    exact axis_bicubic f

/-- What `known` finds out is right. -/
theorem known_cases {recorded : Option (List Int)} {isConst : Bool} {b h w c nh nw : Nat} (hr : Agrees recorded [b, h, w, c]) (hh : 0 < h) (hw : 0 < w) :
    known recorded (if isConst then some ((nh : Int), (nw : Int)) else none) = .ok none ∨
      (isConst = true ∧ recorded ≠ none ∧ known recorded (if isConst then some ((nh : Int), (nw : Int)) else none) = .ok (some ((h : Int), (w : Int), (nh : Int), (nw : Int)))) := by
  match recorded with
  | none => left; cases isConst <;> rfl
  | some l =>
    have hl := hr l rfl
    match l, hl with
    | [r0, r1, r2, r3], .cons _ (.cons h1 (.cons h2 _)) =>
      cases isConst
      · left; rfl
      · show (if r2 ≠ -1 ∧ r1 ≠ -1 then (if r1 = 0 ∨ r2 = 0 then (Except.error "ZeroDivisionError" : Except String _) else .ok (some (r1, r2, (nh : Int), (nw : Int)))) else .ok none) = _ ∨
          (_ ∧ _ ∧ (if r2 ≠ -1 ∧ r1 ≠ -1 then (if r1 = 0 ∨ r2 = 0 then (Except.error "ZeroDivisionError" : Except String _) else .ok (some (r1, r2, (nh : Int), (nw : Int)))) else .ok none) = _)
        by_cases hk : r2 ≠ -1 ∧ r1 ≠ -1
        · right
          have e1 : r1 = h := h1.resolve_left hk.2
          have e2 : r2 = w := h2.resolve_left hk.1
          have hz : ¬(r1 = 0 ∨ r2 = 0) := by omega
          refine ⟨rfl, by simp, ?_⟩
          rw [if_pos hk, if_neg hz, e1, e2]
        · left
          rw [if_neg hk]

/-- **C76.** `Resize.version_11`: where the attributes can express the operator, the converted operator is TensorFlow's, for all sizes, with the sizes read at run time; with the scales stored in
the model, where they are numbers of single precision. -/
theorem resize11_sound_partial {kind : Kind} {align half tensorrt : Bool} {recorded : Option (List Int)} {isConst : Bool} {b h w c nh nw : Nat} {x : T ℚ}
    (hx : x.shape = [b, h, w, c]) (hpos : 0 < b ∧ 0 < h ∧ 0 < w ∧ 0 < c) (hn : 0 < nh ∧ 0 < nw) (hr : Agrees recorded x.shape)
    (hb : ¬(align = true ∧ half = true)) (he : Expressible kind half tensorrt) (hs : isConst = true ∧ recorded ≠ none → Exact h w nh nw) :
    ∃ z, resize11 kind align half tensorrt recorded isConst nh nw x = .ok (some z) ∧ Same z (tfResize kind (gridOf align half) nh nw x) := by
  obtain ⟨hb0, hh, hw, hc⟩ := hpos
  have ts : (transpose [0, 3, 1, 2] x).shape = [b, c, h, w] := by
    show [nth x.shape 0, nth x.shape 3, nth x.shape 1, nth x.shape 2] = _
    rw [hx]; rfl
  rw [hx] at hr
  rcases known_cases (isConst := isConst) (nh := nh) (nw := nw) hr hh hw with hk | ⟨hc1, hc2, hk⟩
  · obtain ⟨z, h1, h2⟩ := between_sound (kind := kind) (g := gridOf align half) (a := attrs11 kind align half tensorrt) (nh := nh) (nw := nw)
      (f := fun t => resizeSizes (attrs11 kind align half tensorrt) (sliceVec (t.shape.map Int.ofNat) 0 2 ++ [(nh : Int), (nw : Int)]) t) hx
      (sizes_eq ts hb0 hc) (fun q => attrs_ok q hb) (fun i hi u => axis11 hb he hh hi u) (fun i hi u => axis11 hb he hw hi u)
    exact ⟨z, by unfold resize11; rw [hk]; exact congrArg Except.ok h1, h2⟩
  · obtain ⟨e1, e2⟩ := hs ⟨hc1, hc2⟩
    have es : constScales h w nh nw = [1, 1, (nh : ℚ) / h, (nw : ℚ) / w] := by
      show [1, 1, f32 (((nh : Int) : ℚ) / ((h : Int) : ℚ)), f32 (((nw : Int) : ℚ) / ((w : Int) : ℚ))] = _
      rw [Int.cast_natCast, Int.cast_natCast, Int.cast_natCast, Int.cast_natCast, e1, e2]
    obtain ⟨z, h1, h2⟩ := between_sound (kind := kind) (g := gridOf align half) (a := attrs11 kind align half tensorrt) (nh := nh) (nw := nw)
      (f := resizeScales (attrs11 kind align half tensorrt) (constScales h w nh nw)) hx
      (by rw [es]; exact scales_eq ts hh hw hn.1 hn.2) (fun q => attrs_ok q hb) (fun i hi u => axis11 hb he hh hi u) (fun i hi u => axis11 hb he hw hi u)
    exact ⟨z, by unfold resize11; rw [hk]; exact congrArg Except.ok h1, h2⟩

/-! ## Before operator set 11 -/

/-- The attributes of the operators before operator set 11. -/
theorem axis9 {kind : Kind} {n m i : Nat} {ca : ℚ} (hk : kind = .bilinear ∨ kind = .nearest) (hn : 0 < n) (hi : i < m) (f : Nat → ℚ) :
    tapSum (onnxTaps ⟨if kind = .bilinear then .linear else .nearest, .asymmetric, .floor, ca, false⟩ n m ((m : ℚ) / n) i) f = tapSum (tfTaps kind .legacy n m i) f := by
  rcases hk with rfl | rfl
  · exact axis_bilinear (g := .legacy) f hn hi
  · exact axis_nearest (g := .legacy) f hn hi

theorem upsample_eq {linear : Bool} {b c h w nh nw : Nat} {t : T ℚ} (ht : t.shape = [b, c, h, w]) (hh : 0 < h) (hw : 0 < w) (h1 : h ≤ nh) (h2 : w ≤ nw) :
    upsample linear [1, 1, (nh : ℚ) / h, (nw : ℚ) / w] t = some (interpT ⟨if linear then .linear else .nearest, .asymmetric, .floor, -3 / 4, false⟩ [b, c, nh, nw]
      [1, 1, (nh : ℚ) / h, (nw : ℚ) / w] t) := by
  have p : ∀ {u v : Nat}, 0 < v → v ≤ u → (1 : ℚ) ≤ (u : ℚ) / v := by
    intro u v hv hu
    have hv' : (0 : ℚ) < v := by exact_mod_cast hv
    rw [le_div_iff₀ hv', one_mul]
    exact_mod_cast hu
  have hfit : ∀ s ∈ [1, 1, (nh : ℚ) / h, (nw : ℚ) / w], (1 : ℚ) ≤ s := by
    intro s hs
    simp only [List.mem_cons, List.not_mem_nil, or_false] at hs
    rcases hs with rfl | rfl | rfl | rfl
    · norm_num
    · norm_num
    · exact p hh h1
    · exact p hw h2
  rw [upsample, if_pos hfit]
  exact scales_eq ht hh hw (by omega) (by omega)

/-- **C76.** `version_9` and `version_10`, for scales that are numbers of single precision, and for `version_9` not below 1: the converted operator is TensorFlow's. -/
theorem resize9_sound_partial {v : Nat} {kind : Kind} {recorded : Option (List Int)} {isConst : Bool} {b h w c nh nw : Nat} {x : T ℚ}
    (hx : x.shape = [b, h, w, c]) (hh : 0 < h) (hw : 0 < w) (hn : 0 < nh ∧ 0 < nw) (hr : Agrees recorded x.shape)
    (hk : kind = .bilinear ∨ kind = .nearest) (hs : Exact h w nh nw) (hv : v < 10 → h ≤ nh ∧ w ≤ nw) :
    ∃ z, resize9 v kind false false recorded isConst nh nw x = .ok (some z) ∧ Same z (tfResize kind .legacy nh nw x) := by
  have ts : (transpose [0, 3, 1, 2] x).shape = [b, c, h, w] := by
    show [nth x.shape 0, nth x.shape 3, nth x.shape 1, nth x.shape 2] = _
    rw [hx]; rfl
  obtain ⟨e1, e2⟩ := hs
  have es : constScales h w nh nw = [1, 1, (nh : ℚ) / h, (nw : ℚ) / w] := by
    show [1, 1, f32 (((nh : Int) : ℚ) / ((h : Int) : ℚ)), f32 (((nw : Int) : ℚ) / ((w : Int) : ℚ))] = _
    rw [Int.cast_natCast, Int.cast_natCast, Int.cast_natCast, Int.cast_natCast, e1, e2]
  have er : runScales nh nw x = [1, 1, (nh : ℚ) / h, (nw : ℚ) / w] := by
    have q1 : nth x.shape 1 = h := by rw [hx]; rfl
    have q2 : nth x.shape 2 = w := by rw [hx]; rfl
    show [1, 1, f32 (((nh : Int) : ℚ) / (nth x.shape 1 : Nat)), f32 (((nw : Int) : ℚ) / (nth x.shape 2 : Nat))] = _
    rw [q1, q2, Int.cast_natCast, Int.cast_natCast, e1, e2]
  have hkb : kind ≠ .bicubic := by rcases hk with rfl | rfl <;> decide
  have hm : (if decide (kind = .bilinear) = true then Mode.linear else .nearest) = (if kind = .bilinear then Mode.linear else .nearest) := by
    rcases hk with rfl | rfl <;> rfl
  have key : ∃ z, between (if v < 10 then upsample (decide (kind = .bilinear)) [1, 1, (nh : ℚ) / h, (nw : ℚ) / w]
      else resizeScales ⟨if kind = .bilinear then .linear else .nearest, .asymmetric, .floor, -3 / 4, false⟩ [1, 1, (nh : ℚ) / h, (nw : ℚ) / w]) x = some z ∧ Same z (tfResize kind .legacy nh nw x) := by
    refine between_sound (a := ⟨if kind = .bilinear then .linear else .nearest, .asymmetric, .floor, -3 / 4, false⟩) hx ?_ (fun q => Coord.noConfusion q)
      (fun i hi u => axis9 hk hh hi u) (fun i hi u => axis9 hk hw hi u)
    by_cases h10 : v < 10
    · rw [if_pos h10, upsample_eq ts hh hw (hv h10).1 (hv h10).2, hm]
    · rw [if_neg h10, scales_eq ts hh hw hn.1 hn.2]
  obtain ⟨z, h1, h2⟩ := key
  rw [hx] at hr
  refine ⟨z, ?_, h2⟩
  unfold resize9
  rw [if_neg hkb, if_neg (by decide), if_neg (by decide)]
  rcases known_cases (isConst := isConst) (nh := nh) (nw := nw) hr hh hw with hk' | ⟨_, _, hk'⟩
  · rw [hk']
    dsimp only
    rw [er]
    exact congrArg Except.ok h1
  · rw [hk']
    dsimp only
    rw [es]
    exact congrArg Except.ok h1

/-- Where `version_9` and `version_10` cannot convert the operator, they raise. -/
theorem resize9_refuses {v : Nat} {kind : Kind} {align half : Bool} {recorded : Option (List Int)} {isConst : Bool} {nh nw : Int} {x : T ℚ}
    (h : kind = .bicubic ∨ align = true ∨ half = true) : ∃ e, resize9 v kind align half recorded isConst nh nw x = .error e := by
  unfold resize9
  by_cases h1 : kind = .bicubic
  · rw [if_pos h1]; exact ⟨_, rfl⟩
  · rw [if_neg h1]
    by_cases h2 : align = true
    · rw [if_pos h2]; exact ⟨_, rfl⟩
    · rw [if_neg h2, if_pos (h.resolve_left h1 |>.resolve_left h2)]; exact ⟨_, rfl⟩

/-- **C76.** `version_7`: likewise for the default attributes and scales not below 1. -/
theorem resize7_sound_partial {kind : Kind} {b h w c nh nw : Nat} {r0 r3 : Int} {x : T ℚ}
    (hx : x.shape = [b, h, w, c]) (hh : 0 < h) (hw : 0 < w) (h1 : h ≤ nh) (h2 : w ≤ nw) (hk : kind = .bilinear ∨ kind = .nearest) (hs : Exact h w nh nw) :
    ∃ z, resize7 kind (some [r0, h, w, r3]) (some (nh, nw)) x = .ok (some z) ∧ Same z (tfResize kind .legacy nh nw x) := by
  have ts : (transpose [0, 3, 1, 2] x).shape = [b, c, h, w] := by
    show [nth x.shape 0, nth x.shape 3, nth x.shape 1, nth x.shape 2] = _
    rw [hx]; rfl
  obtain ⟨e1, e2⟩ := hs
  have es : constScales h w nh nw = [1, 1, (nh : ℚ) / h, (nw : ℚ) / w] := by
    show [1, 1, f32 (((nh : Int) : ℚ) / ((h : Int) : ℚ)), f32 (((nw : Int) : ℚ) / ((w : Int) : ℚ))] = _
    rw [Int.cast_natCast, Int.cast_natCast, Int.cast_natCast, Int.cast_natCast, e1, e2]
  have hkb : kind ≠ .bicubic := by rcases hk with rfl | rfl <;> decide
  have hm : (if decide (kind = .bilinear) = true then Mode.linear else .nearest) = (if kind = .bilinear then Mode.linear else .nearest) := by
    rcases hk with rfl | rfl <;> rfl
  obtain ⟨z, q1, q2⟩ := between_sound (kind := kind) (g := .legacy) (nh := nh) (nw := nw) (f := upsample (decide (kind = .bilinear)) [1, 1, (nh : ℚ) / h, (nw : ℚ) / w])
    (a := ⟨if kind = .bilinear then .linear else .nearest, .asymmetric, .floor, -3 / 4, false⟩) hx (by rw [upsample_eq ts hh hw h1 h2, hm]) (fun q => Coord.noConfusion q)
      (fun i hi u => axis9 hk hh hi u) (fun i hi u => axis9 hk hw hi u)
  refine ⟨z, ?_, q2⟩
  unfold resize7
  rw [if_neg hkb]
  dsimp only
  rw [if_neg (by omega), if_neg (by omega), es]
  exact congrArg Except.ok q1

/-! ## Scales of single precision -/

theorem roundEven_int (z : Int) : roundEven (z : ℚ) = z := by
  unfold roundEven
  rw [Int.fract_intCast, if_pos (by norm_num), Int.floor_intCast]

theorem find_ge {p : Nat → Bool} {l : List Nat} {j d : Nat} (hd : j ≤ d) (h : ∀ k, k < j → p k = false) : j ≤ (l.find? p).getD d := by
  cases hf : l.find? p with
  | none => exact hd
  | some k =>
    have hp : p k = true := List.find?_some hf
    show j ≤ k
    by_contra hlt
    rw [h k (by omega)] at hp
    cases hp

/-- A number of at most 24 binary digits is exact, so all whole scales below `2 ^ 24` and their quotients by powers of two. -/
theorem f32_dyadic {a j : Nat} (ha : a < 2 ^ 24) (hj : j ≤ 149) : f32 ((a : ℚ) / 2 ^ j) = (a : ℚ) / 2 ^ j := by
  have hp : j ≤ places ((a : ℚ) / 2 ^ j) := by
    refine find_ge hj ?_
    intro k hk
    rw [decide_eq_false_iff_not, not_le]
    have h2 : (2 : ℚ) ^ j = 2 ^ k * 2 ^ (j - k) := by rw [← pow_add]; congr 1; omega
    have hk0 : (0 : ℚ) < 2 ^ k := by positivity
    have e : (a : ℚ) / 2 ^ j * 2 ^ k = a / 2 ^ (j - k) := by rw [h2]; field_simp
    rw [e, div_lt_iff₀ (by positivity)]
    have h1 : (a : ℚ) < 2 ^ 24 := by exact_mod_cast ha
    have h3 : (2 : ℚ) ^ 1 ≤ 2 ^ (j - k) := pow_le_pow_right₀ (by norm_num) (by omega)
    calc (a : ℚ) < 2 ^ 24 := h1
      _ = 2 ^ 23 * 2 ^ 1 := by norm_num
      _ ≤ 2 ^ 23 * 2 ^ (j - k) := mul_le_mul_of_nonneg_left h3 (by positivity)
  unfold f32
  generalize places ((a : ℚ) / 2 ^ j) = p at hp
  have e : (a : ℚ) / 2 ^ j * 2 ^ p = ((a * 2 ^ (p - j) : Nat) : Int) := by
    have h2 : (2 : ℚ) ^ p = 2 ^ j * 2 ^ (p - j) := by rw [← pow_add]; congr 1; omega
    rw [h2]
    push_cast
    field_simp
  rw [e, roundEven_int, ← e]
  field_simp

/-- Whole factors: images enlarged by them. -/
theorem exact_whole {h w k l : Nat} (hh : 0 < h) (hw : 0 < w) (hk : k < 2 ^ 24) (hl : l < 2 ^ 24) : Exact h w (k * h) (l * w) := by
  have p : ∀ {u v : Nat}, 0 < u → v < 2 ^ 24 → f32 (((v * u : Nat) : ℚ) / u) = ((v * u : Nat) : ℚ) / u := by
    intro u v hu hv
    have hu' : (u : ℚ) ≠ 0 := by exact_mod_cast hu.ne'
    have e : ((v * u : Nat) : ℚ) / u = (v : ℚ) / 2 ^ 0 := by push_cast; field_simp
    rw [e]
    exact f32_dyadic hv (by omega)
  exact ⟨p hh hk, p hw hl⟩

/-- Images reduced to a half, a quarter, … of their size. -/
theorem exact_halves {h w j l : Nat} (hh : 0 < h) (hw : 0 < w) (hj : j ≤ 149) (hl : l ≤ 149) : Exact (2 ^ j * h) (2 ^ l * w) h w := by
  have p : ∀ {u v : Nat}, 0 < u → v ≤ 149 → f32 ((u : ℚ) / ((2 ^ v * u : Nat) : ℚ)) = (u : ℚ) / ((2 ^ v * u : Nat) : ℚ) := by
    intro u v hu hv
    have hu' : (u : ℚ) ≠ 0 := by exact_mod_cast hu.ne'
    have e : (u : ℚ) / ((2 ^ v * u : Nat) : ℚ) = ((1 : Nat) : ℚ) / 2 ^ v := by push_cast; field_simp
    rw [e]
    exact f32_dyadic (by norm_num) hv
  exact ⟨p hh hj, p hw hl⟩

end Verif.Resize
