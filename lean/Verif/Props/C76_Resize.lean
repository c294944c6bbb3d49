import Verif.Props.C76_Taps
import Verif.Props.C75_Blocks
/-!
# C76: the resize operators
-/
namespace Verif.Resize
open Verif.Tensor Verif.Einsum Verif.Emit Verif.Channels Verif.Fourier

/-- Images in channels-first layout. -/
theorem interp_four {s : List Nat} {d0 d1 d2 d3 i0 i1 i2 i3 : Nat} {a : Attrs} {s0 s1 s2 s3 : ℚ} {f : List Nat → ℚ} :
    interp ((List.range [d0, d1, d2, d3].length).map (fun k => onnxTaps a (nth s k) (nth [d0, d1, d2, d3] k) ([s0, s1, s2, s3].getD k 0) (nth [i0, i1, i2, i3] k))) f =
      tapSum (onnxTaps a (nth s 0) d0 s0 i0) (fun p => tapSum (onnxTaps a (nth s 1) d1 s1 i1) (fun q =>
        tapSum (onnxTaps a (nth s 2) d2 s2 i2) (fun y => tapSum (onnxTaps a (nth s 3) d3 s3 i3) (fun z => f [p, q, y, z])))) := (rfl)

theorem tapSum_congr {taps : List (ℚ × Nat)} {f g : Nat → ℚ} (h : ∀ k, f k = g k) : tapSum taps f = tapSum taps g := by
  have : f = g := funext h
  rw [this]

/-- The emitted operator between the transposes gives the resized image, where its taps are TensorFlow's. -/
theorem between_sound {b h w c nh nw : Nat} {x : T ℚ} {kind : Kind} {g : Grid} {a : Attrs} {f : T ℚ → Option (T ℚ)} (hx : x.shape = [b, h, w, c])
    (hf : f (transpose [0, 3, 1, 2] x) = some (interpT a [b, c, nh, nw] [1, 1, (nh : ℚ) / h, (nw : ℚ) / w] (transpose [0, 3, 1, 2] x)))
    (ha : a.coord = .tfHalfPixelForNn → a.mode = .nearest ∧ a.nearest = .floor)
    (h1 : ∀ i, i < nh → ∀ u, tapSum (onnxTaps a h nh ((nh : ℚ) / h) i) u = tapSum (tfTaps kind g h nh i) u)
    (h2 : ∀ i, i < nw → ∀ u, tapSum (onnxTaps a w nw ((nw : ℚ) / w) i) u = tapSum (tfTaps kind g w nw i) u) :
    ∃ z, between f x = some z ∧ Same z (tfResize kind g nh nw x) := by
  have t1 : transposeT [0, 3, 1, 2] x = some (transpose [0, 3, 1, 2] x) := if_pos ⟨by decide, by rw [hx]; rfl⟩
  have ts : (transpose [0, 3, 1, 2] x).shape = [b, c, h, w] := by
    show [nth x.shape 0, nth x.shape 3, nth x.shape 1, nth x.shape 2] = _
    rw [hx]; rfl
  generalize hz : interpT a [b, c, nh, nw] [1, 1, (nh : ℚ) / h, (nw : ℚ) / w] (transpose [0, 3, 1, 2] x) = z at hf
  have zs : z.shape = [b, c, nh, nw] := by rw [← hz]; rfl
  have t2 : transposeT [0, 2, 3, 1] z = some (transpose [0, 2, 3, 1] z) := if_pos ⟨by decide, by rw [zs]; rfl⟩
  have es : (transpose [0, 2, 3, 1] z).shape = [b, nh, nw, c] := by
    show [nth z.shape 0, nth z.shape 2, nth z.shape 3, nth z.shape 1] = _
    rw [zs]; rfl
  refine ⟨transpose [0, 2, 3, 1] z, ?_, ?_, ?_⟩
  · rw [between, t1, Option.bind_some, hf, Option.bind_some, t2]
  · rw [es]
    show _ = [nth x.shape 0, nh, nw, nth x.shape 3]
    rw [hx]; rfl
  · intro i hi
    rw [es] at hi
    match i, hi.1 with
    | [p, q, r, k], _ =>
      obtain ⟨hp, hq, hr, hk⟩ : p < b ∧ q < nh ∧ r < nw ∧ k < c := ⟨hi.2 0 (by simp), hi.2 1 (by simp), hi.2 2 (by simp), hi.2 3 (by simp)⟩
      show z.get [p, k, q, r] = tapSum (tfTaps kind g (nth x.shape 1) nh q) (fun y => tapSum (tfTaps kind g (nth x.shape 2) nw r) (fun v => x.get [p, y, v, k]))
      rw [← hz, hx]
      show interp ((List.range [b, c, nh, nw].length).map (fun j => onnxTaps a (nth (transpose [0, 3, 1, 2] x).shape j) (nth [b, c, nh, nw] j) ([1, 1, (nh : ℚ) / h, (nw : ℚ) / w].getD j 0)
        (nth [p, k, q, r] j))) (transpose [0, 3, 1, 2] x).get = _
      rw [ts, interp_four]
      show tapSum (onnxTaps a b b 1 p) (fun p => tapSum (onnxTaps a c c 1 k) (fun k => tapSum (onnxTaps a h nh ((nh : ℚ) / h) q) (fun y =>
        tapSum (onnxTaps a w nw ((nw : ℚ) / w) r) (fun v => x.get [p, y, v, k])))) = tapSum (tfTaps kind g h nh q) (fun y => tapSum (tfTaps kind g w nw r) (fun v => x.get [p, y, v, k]))
      rw [axis_same _ hp ha, axis_same _ hk ha, h1 q hq]
      exact tapSum_congr (fun y => h2 r hr _)

/-! ## The emitted operators -/

theorem floor_size {n m : Nat} (hn : 0 < n) : (⌊(n : ℚ) * ((m : ℚ) / n)⌋).toNat = m := by
  have h : (n : ℚ) ≠ 0 := by exact_mod_cast hn.ne'
  have : (n : ℚ) * ((m : ℚ) / n) = m := by field_simp
  rw [this, Int.floor_natCast]
  rfl

/-- `Resize` and `Upsample` with exact scales. -/
theorem scales_eq {b c h w nh nw : Nat} {a : Attrs} {t : T ℚ} (ht : t.shape = [b, c, h, w]) (hh : 0 < h) (hw : 0 < w) (hnh : 0 < nh) (hnw : 0 < nw) :
    resizeScales a [1, 1, (nh : ℚ) / h, (nw : ℚ) / w] t = some (interpT a [b, c, nh, nw] [1, 1, (nh : ℚ) / h, (nw : ℚ) / w] t) := by
  have p : ∀ {u v : Nat}, 0 < u → 0 < v → (0 : ℚ) < (u : ℚ) / v := by
    intro u v hu hv
    have : (0 : ℚ) < u := by exact_mod_cast hu
    have : (0 : ℚ) < v := by exact_mod_cast hv
    positivity
  have hfit : [1, 1, (nh : ℚ) / h, (nw : ℚ) / w].length = t.shape.length ∧ ∀ s ∈ [1, 1, (nh : ℚ) / h, (nw : ℚ) / w], 0 < s := by
    refine ⟨by rw [ht]; rfl, ?_⟩
    intro s hs
    simp only [List.mem_cons, List.not_mem_nil, or_false] at hs
    rcases hs with rfl | rfl | rfl | rfl
    · norm_num
    · norm_num
    · exact p hnh hh
    · exact p hnw hw
  have hd : List.zipWith (fun (n : Nat) (s : ℚ) => (⌊(n : ℚ) * s⌋).toNat) t.shape [1, 1, (nh : ℚ) / h, (nw : ℚ) / w] = [b, c, nh, nw] := by
    rw [ht]
    show [(⌊(b : ℚ) * 1⌋).toNat, (⌊(c : ℚ) * 1⌋).toNat, (⌊(h : ℚ) * ((nh : ℚ) / h)⌋).toNat, (⌊(w : ℚ) * ((nw : ℚ) / w)⌋).toNat] = _
    rw [floor_size hh, floor_size hw, mul_one, mul_one, Int.floor_natCast, Int.floor_natCast]
    rfl
  rw [resizeScales, if_pos hfit, hd]

/-- `Resize` with sizes. -/
theorem sizes_eq {b c h w nh nw : Nat} {a : Attrs} {t : T ℚ} (ht : t.shape = [b, c, h, w]) (hb : 0 < b) (hc : 0 < c) :
    resizeSizes a (sliceVec (t.shape.map Int.ofNat) 0 2 ++ [(nh : Int), (nw : Int)]) t = some (interpT a [b, c, nh, nw] [1, 1, (nh : ℚ) / h, (nw : ℚ) / w] t) := by
  have e : sliceVec (t.shape.map Int.ofNat) 0 2 = [(b : Int), (c : Int)] := by rw [ht]; rfl
  have hb' : (b : ℚ) ≠ 0 := by exact_mod_cast hb.ne'
  have hc' : (c : ℚ) ≠ 0 := by exact_mod_cast hc.ne'
  have hfit : ([(b : Int), (c : Int)] ++ [(nh : Int), (nw : Int)]).length = t.shape.length ∧ (∀ s ∈ [(b : Int), (c : Int)] ++ [(nh : Int), (nw : Int)], 0 ≤ s) := by
    refine ⟨by rw [ht]; rfl, ?_⟩
    intro s hs
    simp only [List.cons_append, List.nil_append, List.mem_cons, List.not_mem_nil, or_false] at hs
    omega
  have hd : List.zipWith (fun (n : Nat) (s : Int) => (s : ℚ) / n) t.shape ([(b : Int), (c : Int)] ++ [(nh : Int), (nw : Int)]) = [1, 1, (nh : ℚ) / h, (nw : ℚ) / w] := by
    rw [ht]
    show [(((b : Int) : ℚ) / (b : ℚ)), (((c : Int) : ℚ) / (c : ℚ)), (((nh : Int) : ℚ) / (h : ℚ)), (((nw : Int) : ℚ) / (w : ℚ))] = _
    push_cast
    rw [div_self hb', div_self hc']
  have hm : ([(b : Int), (c : Int)] ++ [(nh : Int), (nw : Int)]).map Int.toNat = [b, c, nh, nw] := (rfl)
  rw [e, resizeSizes, if_pos hfit, hd, hm]

end Verif.Resize
