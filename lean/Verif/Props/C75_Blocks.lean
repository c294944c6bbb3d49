import Verif.Model.Channels
import Verif.Props.C57_Kit
import Verif.Props.EmitVec
import Verif.Props.C71_Kit
/-!
# C75: space to depth, depth to space
-/
namespace Verif.Channels
open Verif.Tensor Verif.Conv Verif.Einsum Verif.Emit

variable {α : Type}

theorem inB4 {n c h w a b d e : Nat} (h1 : a < n) (h2 : b < c) (h3 : d < h) (h4 : e < w) : InB [n, c, h, w] [a, b, d, e] :=
  inB_cons.2 ⟨h1, inB_cons.2 ⟨h2, inB_cons.2 ⟨h3, inB_cons.2 ⟨h4, by simp [InB]⟩⟩⟩⟩

theorem inB4_iff {n c h w a b d e : Nat} : InB [n, c, h, w] [a, b, d, e] ↔ a < n ∧ b < c ∧ d < h ∧ e < w := by
  rw [inB_cons, inB_cons, inB_cons, inB_cons]
  simp [InB]

theorem inB6 {n c h w p q a b d e f g : Nat} (h1 : a < n) (h2 : b < c) (h3 : d < h) (h4 : e < w) (h5 : f < p) (h6 : g < q) : InB [n, c, h, w, p, q] [a, b, d, e, f, g] :=
  inB_cons.2 ⟨h1, inB_cons.2 ⟨h2, inB_cons.2 ⟨h3, inB_cons.2 ⟨h4, inB_cons.2 ⟨h5, inB_cons.2 ⟨h6, by simp [InB]⟩⟩⟩⟩⟩⟩

/-- What the emitted `DepthToSpace` gives: the element at row `i * b + p`, column `j * b + q`. -/
theorem onnxDepthToSpace_at {b : Nat} {x : T α} {n C h w : Nat} (hx : x.shape = [n, b * b * C, h, w]) (hb : 0 < b) :
    ∃ z, onnxDepthToSpace b x = some z ∧ z.shape = [n, C, h * b, w * b] ∧
      ∀ m c i j p q, m < n → c < C → i < h → j < w → p < b → q < b → z.get [m, c, i * b + p, j * b + q] = x.get [m, (p * b + q) * C + c, i, j] := by
  have hd : b * b * C / (b * b) = C := Nat.mul_div_cancel_left C (Nat.mul_pos hb hb)
  have h1 : reshapeN [n, b, b, C, h, w] x = some (Tensor.reshape [n, b, b, C, h, w] x) := if_pos (by rw [hx]; simp only [size, List.foldr_cons, List.foldr_nil]; ring)
  have h2 : transposeT [0, 3, 4, 1, 5, 2] (Tensor.reshape [n, b, b, C, h, w] x) = some (transpose [0, 3, 4, 1, 5, 2] (Tensor.reshape [n, b, b, C, h, w] x)) := if_pos ⟨by decide, rfl⟩
  have h3 : reshapeN [n, C, h * b, w * b] (transpose [0, 3, 4, 1, 5, 2] (Tensor.reshape [n, b, b, C, h, w] x)) =
      some (Tensor.reshape [n, C, h * b, w * b] (transpose [0, 3, 4, 1, 5, 2] (Tensor.reshape [n, b, b, C, h, w] x))) := if_pos (by
    show size [n, C, h * b, w * b] = size [n, C, h, b, w, b]
    simp only [size, List.foldr_cons, List.foldr_nil]
    ring)
  refine ⟨Tensor.reshape [n, C, h * b, w * b] (transpose [0, 3, 4, 1, 5, 2] (Tensor.reshape [n, b, b, C, h, w] x)), ?_, rfl, fun m c i j p q hm hc hi hj hp hq => ?_⟩
  · unfold onnxDepthToSpace
    rw [hx]
    dsimp only
    rw [hd, h1, Option.bind_some, h2, Option.bind_some, h3]
  · rw [reshape_get (j := [m, c, i, p, j, q]) (inB6 hm hc hi hp hj hq) (by
      show lin [n, C, h * b, w * b] _ = lin [n, C, h, b, w, b] _
      simp only [lin, size, List.foldr_cons, List.foldr_nil]
      ring)]
    show (Tensor.reshape [n, b, b, C, h, w] x).get [m, p, q, c, i, j] = _
    have hk : (p * b + q) * C + c < b * b * C := by
      have e1 : p * b + q < b * b := by nlinarith
      have e2 : (p * b + q + 1) * C ≤ b * b * C := Nat.mul_le_mul_right C e1
      rw [Nat.add_mul, one_mul] at e2
      omega
    rw [reshape_get (j := [m, (p * b + q) * C + c, i, j]) (by rw [hx]; exact inB4 hm hk hi hj) (by
      rw [hx]
      simp only [lin, size, List.foldr_cons, List.foldr_nil]
      ring)]

/-- What the emitted `SpaceToDepth` gives: the element at channel `(p * b + q) * C + c`. -/
theorem onnxSpaceToDepth_at {b : Nat} {x : T α} {n C h w : Nat} (hx : x.shape = [n, C, h * b, w * b]) (hb : 0 < b) :
    ∃ z, onnxSpaceToDepth b x = some z ∧ z.shape = [n, b * b * C, h, w] ∧
      ∀ m c i j p q, m < n → c < C → i < h → j < w → p < b → q < b → z.get [m, (p * b + q) * C + c, i, j] = x.get [m, c, i * b + p, j * b + q] := by
  have hh : h * b / b = h := Nat.mul_div_cancel h hb
  have hw : w * b / b = w := Nat.mul_div_cancel w hb
  have hcb : C * b * b = b * b * C := by ring
  have h1 : reshapeN [n, C, h, b, w, b] x = some (Tensor.reshape [n, C, h, b, w, b] x) := if_pos (by rw [hx]; simp only [size, List.foldr_cons, List.foldr_nil]; ring)
  have h2 : transposeT [0, 3, 5, 1, 2, 4] (Tensor.reshape [n, C, h, b, w, b] x) = some (transpose [0, 3, 5, 1, 2, 4] (Tensor.reshape [n, C, h, b, w, b] x)) := if_pos ⟨by decide, rfl⟩
  have h3 : reshapeN [n, b * b * C, h, w] (transpose [0, 3, 5, 1, 2, 4] (Tensor.reshape [n, C, h, b, w, b] x)) =
      some (Tensor.reshape [n, b * b * C, h, w] (transpose [0, 3, 5, 1, 2, 4] (Tensor.reshape [n, C, h, b, w, b] x))) := if_pos (by
    show size [n, b * b * C, h, w] = size [n, b, b, C, h, w]
    simp only [size, List.foldr_cons, List.foldr_nil]
    ring)
  refine ⟨Tensor.reshape [n, b * b * C, h, w] (transpose [0, 3, 5, 1, 2, 4] (Tensor.reshape [n, C, h, b, w, b] x)), ?_, rfl, fun m c i j p q hm hc hi hj hp hq => ?_⟩
  · unfold onnxSpaceToDepth
    rw [hx]
    dsimp only
    rw [hh, hw, hcb, h1, Option.bind_some, h2, Option.bind_some, h3]
  · rw [reshape_get (j := [m, p, q, c, i, j]) (inB6 hm hp hq hc hi hj) (by
      show lin [n, b * b * C, h, w] _ = lin [n, b, b, C, h, w] _
      simp only [lin, size, List.foldr_cons, List.foldr_nil]
      ring)]
    show (Tensor.reshape [n, C, h, b, w, b] x).get [m, c, i, p, j, q] = _
    have hi' : i * b + p < h * b := by
      have : (i + 1) * b ≤ h * b := Nat.mul_le_mul_right b hi
      rw [Nat.add_mul, one_mul] at this
      omega
    have hj' : j * b + q < w * b := by
      have : (j + 1) * b ≤ w * b := Nat.mul_le_mul_right b hj
      rw [Nat.add_mul, one_mul] at this
      omega
    rw [reshape_get (j := [m, c, i * b + p, j * b + q]) (by rw [hx]; exact inB4 hm hc hi' hj') (by
      rw [hx]
      simp only [lin, size, List.foldr_cons, List.foldr_nil]
      ring)]

theorem spOf0 (last : Bool) (n y x c : Nat) : spOf last (mk last n [y, x] c) 0 = y := by cases last <;> rfl
theorem spOf1 (last : Bool) (n y x c : Nat) : spOf last (mk last n [y, x] c) 1 = x := by cases last <;> rfl
theorem ch2 (last : Bool) (n y x c : Nat) : chOf last 2 (mk last n [y, x] c) = c := by cases last <;> rfl

theorem exists_mk2 (last : Bool) {i : List Nat} (h : i.length = 4) : ∃ n y x c, i = mk last n [y, x] c := by
  obtain ⟨n, sp, c, hs, rfl⟩ := exists_mk last (m := 2) h
  match sp, hs with
  | [y, x], _ => exact ⟨n, y, x, c, rfl⟩

theorem inB_mk2 {last : Bool} {N H W C n y x c : Nat} : InB (mk last N [H, W] C) (mk last n [y, x] c) ↔ n < N ∧ y < H ∧ x < W ∧ c < C := by
  cases last <;> simp only [mk, if_true, if_false, Bool.false_eq_true, List.cons_append, List.nil_append, inB4_iff] <;> tauto

/-- From the element-wise description of a channels-first result to the result in the layout of the node. -/
theorem around_same {last : Bool} {out : Option (List Int)} {f : T α → Option (T α)} {x t z : T α} {N H W C : Nat} (hz : f (toOnnx last 2 x) = some z) (hs : z.shape = [N, C, H, W])
    (ht : t.shape = mk last N [H, W] C) (hg : ∀ n y w c, n < N → y < H → w < W → c < C → z.get [n, c, y, w] = t.get (mk last n [y, w] c))
    (ho : last = true → out ≠ none) : ∃ r, around last 2 out f x = .ok (some r) ∧ Same r t := by
  refine ⟨fromOnnx last 2 z, ?_, ?_, ?_⟩
  · unfold around
    rw [if_neg (fun h => ho h.1 h.2), hz]
    rfl
  · rw [ht]
    exact fromOnnx_shape last z (sp := [H, W]) rfl hs
  · intro i hi
    have hshape := fromOnnx_shape (m := 2) last z (sp := [H, W]) rfl hs
    rw [hshape] at hi
    obtain ⟨n, y, w, c, rfl⟩ := exists_mk2 last (i := i) (by rw [hi.1, mk_length]; rfl)
    obtain ⟨h1, h2, h3, h4⟩ := inB_mk2.1 hi
    rw [fromOnnx_get (m := 2) (sp := [y, w]) last z n c rfl]
    exact hg n y w c h1 h2 h3 h4

/-- **C75.** The converted `DepthToSpace` is TensorFlow's, in both layouts, for all sizes. -/
theorem depthToSpace_sound {last : Bool} {out : Option (List Int)} {b N H W C : Nat} {x : T α} (hx : x.shape = mk last N [H, W] (b * b * C)) (hb : 0 < b)
    (ho : last = true → out ≠ none) : ∃ r, depthToSpace last out b x = .ok (some r) ∧ Same r (tfDepthToSpace last b x) := by
  have hs := toOnnx_shape last x (m := 2) (sp := [H, W]) rfl hx
  obtain ⟨z, hz, hzs, hzg⟩ := onnxDepthToSpace_at (b := b) (C := C) hs hb
  have hC : chOf last 2 x.shape / (b * b) = C := by rw [hx, ch2, Nat.mul_div_cancel_left C (Nat.mul_pos hb hb)]
  refine around_same hz hzs ?_ ?_ ho
  · show mk last _ _ _ = _
    rw [hC, hx, spOf0, spOf1, nth_mk_zero]
  · intro n y w c hn hy hw hc
    have e : ∀ v : Nat, v / b * b + v % b = v := fun v => Nat.div_add_mod' v b
    have h := hzg n c (y / b) (w / b) (y % b) (w % b) hn hc ((Nat.div_lt_iff_lt_mul hb).2 hy) ((Nat.div_lt_iff_lt_mul hb).2 hw) (Nat.mod_lt _ hb) (Nat.mod_lt _ hb)
    rw [e, e] at h
    rw [h]
    show _ = x.get (mk last _ [_ / b, _ / b] ((_ % b * b + _ % b) * _ + _))
    rw [hC, ch2, spOf0, spOf1, nth_mk_zero]
    exact toOnnx_get last x n _ rfl

/-- **C75.** The converted `SpaceToDepth` is TensorFlow's, in both layouts, for all sizes. -/
theorem spaceToDepth_sound {last : Bool} {out : Option (List Int)} {b N H W C : Nat} {x : T α} (hx : x.shape = mk last N [H * b, W * b] C) (hb : 0 < b)
    (ho : last = true → out ≠ none) : ∃ r, spaceToDepth last out b x = .ok (some r) ∧ Same r (tfSpaceToDepth last b x) := by
  have hs := toOnnx_shape last x (m := 2) (sp := [H * b, W * b]) rfl hx
  obtain ⟨z, hz, hzs, hzg⟩ := onnxSpaceToDepth_at (b := b) (C := C) hs hb
  have hC : chOf last 2 x.shape = C := by rw [hx, ch2]
  refine around_same hz hzs ?_ ?_ ho
  · show mk last _ _ _ = _
    rw [hC, hx, spOf0, spOf1, nth_mk_zero, Nat.mul_div_cancel H hb, Nat.mul_div_cancel W hb]
  · intro n y w k hn hy hw hk
    have hCpos : 0 < C := by
      rcases Nat.eq_zero_or_pos C with h | h
      · rw [h, Nat.mul_zero] at hk
        omega
      · exact h
    have hp : k / C < b * b := (Nat.div_lt_iff_lt_mul hCpos).2 hk
    have h := hzg n (k % C) y w (k / C / b) (k / C % b) hn (Nat.mod_lt _ hCpos) hy hw ((Nat.div_lt_iff_lt_mul hb).2 hp) (Nat.mod_lt _ hb)
    rw [Nat.div_add_mod', Nat.div_add_mod'] at h
    rw [h]
    show _ = x.get (mk last _ [_ * b + _ / _ / b, _ * b + _ / _ % b] (_ % _))
    rw [hC, ch2, spOf0, spOf1, nth_mk_zero]
    exact toOnnx_get last x n _ rfl

/-- The two are inverse to each other. -/
theorem depth_space_inverse {last : Bool} {b N H W C : Nat} {x : T α} (hx : x.shape = mk last N [H * b, W * b] C) (hb : 0 < b) :
    Same (tfDepthToSpace last b (tfSpaceToDepth last b x)) x := by
  have hC : chOf last 2 x.shape = C := by rw [hx, ch2]
  have hs : (tfSpaceToDepth last b x).shape = mk last N [H, W] (b * b * C) := by
    show mk last _ _ _ = _
    rw [hC, hx, spOf0, spOf1, nth_mk_zero, Nat.mul_div_cancel H hb, Nat.mul_div_cancel W hb]
  have hC2 : chOf last 2 (tfSpaceToDepth last b x).shape / (b * b) = C := by rw [hs, ch2, Nat.mul_div_cancel_left C (Nat.mul_pos hb hb)]
  have hs2 : (tfDepthToSpace last b (tfSpaceToDepth last b x)).shape = mk last N [H * b, W * b] C := by
    show mk last _ _ _ = _
    rw [hC2, hs, spOf0, spOf1, nth_mk_zero]
  refine ⟨by rw [hs2, hx], fun i hi => ?_⟩
  rw [hs2] at hi
  obtain ⟨n, y, w, c, rfl⟩ := exists_mk2 last (i := i) (by rw [hi.1, mk_length]; rfl)
  obtain ⟨h1, h2, h3, h4⟩ := inB_mk2.1 hi
  show (tfSpaceToDepth last b x).get (mk last _ [_ / b, _ / b] ((_ % b * b + _ % b) * _ + _)) = _
  rw [hC2, ch2, spOf0, spOf1, nth_mk_zero]
  show x.get (mk last _ [_ * b + _ / _ / b, _ * b + _ / _ % b] (_ % _)) = _
  rw [hC, ch2, spOf0, spOf1, nth_mk_zero]
  have e1 : ((y % b * b + w % b) * C + c) / C = y % b * b + w % b := by
    rw [Nat.mul_comm _ C, Nat.mul_add_div (by omega), Nat.div_eq_of_lt h4, Nat.add_zero]
  have e2 : ((y % b * b + w % b) * C + c) % C = c := by rw [Nat.mul_comm _ C, Nat.mul_add_mod, Nat.mod_eq_of_lt h4]
  have e3 : (y % b * b + w % b) / b = y % b := by rw [Nat.mul_comm, Nat.mul_add_div hb, Nat.div_eq_of_lt (Nat.mod_lt _ hb), Nat.add_zero]
  have e4 : (y % b * b + w % b) % b = w % b := by rw [Nat.mul_comm, Nat.mul_add_mod, Nat.mod_mod]
  rw [e1, e2, e3, e4, Nat.div_add_mod', Nat.div_add_mod']

/-- A concrete case: one pixel of four channels becomes a block. -/
theorem ex_depthToSpace : ∃ r, depthToSpace true (some [1, 2, 2, 1]) 2 ⟨[1, 1, 1, 4], fun i => nth i 3⟩ = .ok (some r) ∧ r.shape = [1, 2, 2, 1] ∧
    (allIdx r.shape).map r.get = [0, 1, 2, 3] := ⟨_, rfl, by decide +kernel, by decide +kernel⟩

end Verif.Channels
