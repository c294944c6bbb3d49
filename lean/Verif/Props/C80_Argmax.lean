import Verif.Model.Argmax
import Verif.Props.C58_Pool
import Verif.Props.C71_Kit
import Verif.Props.C75_Stretch
import Verif.Props.C75_Blocks
/-!
# C80: the largest elements of windows, with their positions
-/
namespace Verif.Argmax
open Verif.Tensor Verif.Conv Verif.Emit Verif.Tensor

variable {α β : Type}

/-! ## Windows are not empty -/

theorem window_nonempty_valid {n f s o : Nat} (hs : 1 ≤ s) (hf : 1 ≤ f) (ho : o < (n + 0 + 0 + s - span f 1) / s) : ∃ k, k < f ∧ 0 ≤ o * s + k * 1 ∧ o * s + k * 1 - 0 < n := by
  refine ⟨0, hf, Nat.zero_le _, ?_⟩
  have h := (Nat.lt_div_iff_mul_lt hs).1 ho
  have e : span f 1 = f := by unfold span; omega
  rw [e] at h
  have h2 : s * o = o * s := Nat.mul_comm _ _
  omega

theorem window_nonempty_same {n f s o : Nat} (hs : 1 ≤ s) (hf : 1 ≤ f)
    (ho : o < (n + (tfSamePad n (span f 1) s).1 + (tfSamePad n (span f 1) s).2 + s - span f 1) / s) :
    ∃ k, k < f ∧ (tfSamePad n (span f 1) s).1 ≤ o * s + k * 1 ∧ o * s + k * 1 - (tfSamePad n (span f 1) s).1 < n := by
  have e : span f 1 = f := by unfold span; omega
  rw [e] at ho ⊢
  rw [sameOut n f s hs hf] at ho
  have h1 : (o + 1) * s ≤ n + s - 1 := (Nat.mul_le_mul_right s (Nat.succ_le_of_lt ho)).trans (Nat.div_mul_le_self _ _)
  rw [Nat.add_mul, Nat.one_mul] at h1
  have hb : (tfSamePad n f s).1 ≤ f - 1 := by
    unfold tfSamePad
    dsimp only
    split <;> omega
  generalize (tfSamePad n f s).1 = b at *
  by_cases h : b ≤ o * s
  · exact ⟨0, hf, by omega, by omega⟩
  · exact ⟨b - o * s, by omega, by omega, by omega⟩

theorem window_nonempty {p : TfPad} (hp : p = .same ∨ p = .valid) {shape k s : List Nat} {i o : Nat} (hi : i < k.length) (hs : 1 ≤ nth s i) (hf : 1 ≤ nth k i) (hl : k.length = 2)
    (ho : o < (tfGeom p true shape k s (List.replicate 2 1)).outDim i (spOf true shape i)) :
    ∃ t, t < nth k i ∧ nth (tfGeom p true shape k s (List.replicate 2 1)).before i ≤ o * nth s i + t * nth (List.replicate 2 1) i ∧
      o * nth s i + t * nth (List.replicate 2 1) i - nth (tfGeom p true shape k s (List.replicate 2 1)).before i < spOf true shape i := by
  have h1 : nth (List.replicate 2 1) i = 1 := by
    rw [hl] at hi
    match i, hi with
    | 0, _ => rfl
    | 1, _ => rfl
  have hb : nth (tfGeom p true shape k s (List.replicate 2 1)).before i = (p.at true shape k s (List.replicate 2 1) i).1 := by
    show nth ((List.range k.length).map _) i = _
    rw [nth_map_range, if_pos hi]
  have ha : nth (tfGeom p true shape k s (List.replicate 2 1)).after i = (p.at true shape k s (List.replicate 2 1) i).2 := by
    show nth ((List.range k.length).map _) i = _
    rw [nth_map_range, if_pos hi]
  unfold Geom.outDim at ho
  rw [hb, ha] at ho
  change o < (spOf true shape i + (p.at true shape k s (List.replicate 2 1) i).1 + (p.at true shape k s (List.replicate 2 1) i).2 + nth s i -
    span (nth k i) (nth (List.replicate 2 1) i)) / nth s i at ho
  rw [hb, h1]
  rw [h1] at ho
  rcases hp with rfl | rfl
  · have e : TfPad.same.at true shape k s (List.replicate 2 1) i = tfSamePad (spOf true shape i) (span (nth k i) 1) (nth s i) := by
      show tfSamePad _ (span _ (nth (List.replicate 2 1) i)) _ = _
      rw [h1]
    rw [e] at ho ⊢
    exact window_nonempty_same hs hf ho
  · exact window_nonempty_valid hs hf ho

/-! ## Images that agree -/

theorem windowed_same (last : Bool) (g : Geom) (cout : Nat) (F : Nat → (List Nat → Nat → Option α) → β) {x y : T α} (h : Same x y) (hx : x.shape.length = g.kernel.length + 2) :
    Same (windowed last g cout F x) (windowed last g cout F y) := by
  refine ⟨by rw [windowed_shape, windowed_shape, h.1], fun idx hi => ?_⟩
  obtain ⟨b, sp, c, hsp, hs⟩ := exists_mk last hx
  rw [windowed_shape] at hi
  obtain ⟨n, o, q, ho, rfl⟩ := exists_mk last (m := g.kernel.length) (idx := idx) (by rw [hi.1, mk_length]; simp)
  have hn := ((inB_mk (by simpa using ho)).1 hi).1
  unfold windowed
  dsimp only
  rw [← h.1]
  congr 1
  funext k c'
  by_cases hc : InB g.kernel k ∧ c' < chOf last g.kernel.length x.shape ∧ ∀ i, i < g.kernel.length → nth g.before i ≤ g.pos (spOf last (mk last n o q)) (nth k) i ∧
      g.pos (spOf last (mk last n o q)) (nth k) i - nth g.before i < spOf last x.shape i
  · rw [if_pos hc, if_pos hc]
    congr 1
    apply h.2
    rw [hs]
    refine (inB_mk (by simpa using hsp.symm)).2 ⟨?_, ?_, ?_⟩
    · rw [nth_mk_zero]
      rw [hs, nth_mk_zero] at hn
      exact hn
    · refine ⟨by simp [hsp], fun i hi => ?_⟩
      rw [hsp] at hi
      rw [nth_map_range, if_pos hi]
      have := (hc.2.2 i hi).2
      rwa [hs, spOf_mk _ _ _ _ (hsp ▸ hi)] at this
    · have := hc.2.1
      rw [hs, ← hsp, chOf_mk] at this
      exact this
  · rw [if_neg hc, if_neg hc]

theorem onnxPool_same (pool : Pool α) (a : Attrs) {x y : T α} (h : Same x y) {u : T α} (hu : onnxPool pool a x = some u) : ∃ v, onnxPool pool a y = some v ∧ Same u v ∧ u.shape.length = x.shape.length := by
  unfold onnxPool at *
  cases hk : a.kernelShape with
  | none => rw [hk] at hu; simp at hu
  | some l =>
    rw [hk] at hu
    dsimp only at hu ⊢
    rw [← h.1]
    by_cases hc : x.shape.length = l.length + 2 ∧ ∀ z ∈ l, 1 ≤ z
    · rw [if_pos hc] at hu ⊢
      obtain ⟨g, hg, rfl⟩ := Option.map_eq_some_iff.1 hu
      have : g.kernel = l.map Int.toNat := by
        unfold Attrs.geom at hg
        dsimp only at hg
        split at hg
        · split at hg
          · split at hg
            · simp at hg
            · simp only [Option.some.injEq] at hg
              rw [← hg]
          · simp only [Option.some.injEq] at hg
            rw [← hg]
        · simp at hg
      have hlen : x.shape.length = g.kernel.length + 2 := by rw [this, List.length_map, hc.1]
      refine ⟨_, by rw [hg]; rfl, windowed_same false g _ _ h hlen, ?_⟩
      rw [windowed_shape, mk_length, hlen]
      simp
    · rw [if_neg hc] at hu
      simp at hu

/-! ## The positions -/

/-- A tensor whose last axis is as long as a vector, or meets a vector of length 1. -/
theorem zip_last {γ δ : Type} (F : β → γ → δ) {x : T β} {y : T γ} {n p q c d : Nat} (hx : x.shape = [n, p, q, c]) (hy : y.shape = [d]) (hd : d = c ∨ d = 1) :
    ∃ z, zipT F x y = some z ∧ z.shape = [n, p, q, c] ∧ ∀ a u v k, a < n → u < p → v < q → k < c → z.get [a, u, v, k] = F (x.get [a, u, v, k]) (y.get [if d = 1 then 0 else k]) := by
  have h1 : zipT F x y = zipT F x (⟨[1, 1, 1, d], fun i => y.get (i.drop 3)⟩ : T γ) := by
    unfold zipT
    simp only [hx, hy, expandRank]
    rfl
  obtain ⟨z, hz, hs, hg⟩ := Channels.zip_stretch F (x := x) (y := (⟨[1, 1, 1, d], fun i => y.get (i.drop 3)⟩ : T γ)) (by rw [hx]; rfl) (by
    rw [hx]
    intro k hk
    match k, hk with
    | 0, _ => exact Or.inl rfl
    | 1, _ => exact Or.inl rfl
    | 2, _ => exact Or.inl rfl
    | 3, _ => exact hd.symm)
  refine ⟨z, h1.trans hz, hs.trans hx, fun a u v k ha hu hv hk => ?_⟩
  rw [hg _ (by rw [hx]; exact Channels.inB4 ha hu hv hk)]
  rfl

/-- The numbers of the images. -/
theorem zip_first {γ δ : Type} (F : β → γ → δ) {x : T β} {y : T γ} {n p q c : Nat} (hx : x.shape = [n, p, q, c]) (hy : y.shape = [n, 1, 1, 1]) :
    ∃ z, zipT F x y = some z ∧ z.shape = [n, p, q, c] ∧ ∀ a u v k, a < n → u < p → v < q → k < c → z.get [a, u, v, k] = F (x.get [a, u, v, k]) (y.get [if n = 1 then 0 else a, 0, 0, 0]) := by
  obtain ⟨z, hz, hs, hg⟩ := Channels.zip_stretch F (x := x) (y := y) (by rw [hx, hy]; rfl) (by
    rw [hx, hy]
    intro k hk
    match k, hk with
    | 0, _ => exact Or.inr rfl
    | 1, _ => exact Or.inl rfl
    | 2, _ => exact Or.inl rfl
    | 3, _ => exact Or.inl rfl)
  refine ⟨z, hz, hs.trans hx, fun a u v k ha hu hv hk => ?_⟩
  rw [hg _ (by rw [hx]; exact Channels.inB4 ha hu hv hk), hy]
  rfl

/-- The position within an image of one channel. -/
theorem xyOf_ok {opset hw : Nat} {ind : T Nat} {s : List Nat} (hs : ind.shape = s) (hne : s ≠ []) :
    ∃ z, xyOf opset hw ind = some z ∧ z.shape = s ∧ ∀ i, InB s i → z.get i = ind.get i % hw := by
  unfold xyOf
  split
  · exact Fourier.zip_one (· % ·) hs (Or.inr ⟨rfl, hne⟩) (v := hw) (fun _ => rfl)
  · obtain ⟨q, hq, hqs, hqg⟩ := Fourier.zip_one (· / ·) hs (y := one hw) (Or.inr ⟨rfl, hne⟩) (v := hw) (fun _ => rfl)
    obtain ⟨m, hm, hms, hmg⟩ := Fourier.zip_one (· * ·) hqs (y := one hw) (Or.inr ⟨rfl, hne⟩) (v := hw) (fun _ => rfl)
    obtain ⟨z, hz, hzs, hzg⟩ := Scan.zipT_same (· - ·) ind m (hs.trans hms.symm)
    refine ⟨z, by rw [hq, Option.bind_some, hm, Option.bind_some, hz], hzs.trans hs, fun i hi => ?_⟩
    rw [hzg i (by rw [hs]; exact hi), hmg i hi, hqg i hi]
    have := Nat.div_add_mod (ind.get i) hw
    rw [Nat.mul_comm] at this
    omega

/-- The recorded number of channels, or operator set 11. -/
theorem channels_ok {opset : Nat} {r : List Int} {N H W C : Nat} (hr : Rec r [N, H, W, C]) (h : 0 < r.getD 3 0 ∨ 11 ≤ opset) :
    channels opset (some r) C = .ok ⟨[C], fun i => nth i 0⟩ := by
  unfold channels
  dsimp only [Option.getD_some]
  have hc := hr.2 3 (by simp)
  by_cases hp : 0 < r.getD 3 0
  · rw [if_pos hp]
    rcases hc with hc | hc
    · omega
    · rw [hc]
      rfl
  · rw [if_neg hp, if_pos (h.resolve_left hp)]

/-- **The positions**: position `h * W + w` of channel `c` of image `n`, counted channels first, becomes the one counted channels last. -/
theorem convertIndices_ok {n : ArgNode} {r : List Int} {N H W C P Q : Nat} (hr : Rec r [N, H, W, C]) (hrec : n.inShape = some r) (hC : 0 < r.getD 3 0 ∨ 11 ≤ n.opset)
    (hB : n.batch.getD true = true → r.getD 0 0 = 1 ∨ 11 ≤ n.opset) {ind : T Nat} (hs : ind.shape = [N, P, Q, C]) :
    ∃ z, convertIndices n [N, H, W, C] ind = .ok (some z) ∧ z.shape = [N, P, Q, C] ∧ ∀ a u v c, a < N → u < P → v < Q → c < C →
      z.get [a, u, v, c] = ind.get [a, u, v, c] % (H * W) * C + c + (if n.batch.getD true then a * (H * W * C) else 0) := by
  obtain ⟨xy, hxy, hxys, hxyg⟩ := xyOf_ok (opset := n.opset) (hw := H * W) hs (by simp)
  obtain ⟨m, hm, hms, hmg⟩ := Fourier.zip_one (· * ·) hxys (y := one C) (Or.inr ⟨rfl, by simp⟩) (v := C) (fun _ => rfl)
  obtain ⟨s, hsz, hss, hsg⟩ := zip_last (· + ·) (x := m) (y := (⟨[C], fun i => nth i 0⟩ : T Nat)) hms rfl (Or.inl rfl)
  have hsg' : ∀ a u v c, a < N → u < P → v < Q → c < C → s.get [a, u, v, c] = ind.get [a, u, v, c] % (H * W) * C + c := by
    intro a u v c ha hu hv hc
    have hin := Channels.inB4 ha hu hv hc
    rw [hsg a u v c ha hu hv hc, hmg _ hin, hxyg _ hin]
    congr 1
    show (if C = 1 then 0 else c) = c
    split <;> omega
  have hchan : channels n.opset n.inShape (nth [N, H, W, C] 3) = .ok ⟨[C], fun i => nth i 0⟩ := by rw [hrec]; exact channels_ok hr hC
  have hr0 := hr.2 0 (by simp)
  by_cases hb : n.batch.getD true = true ∧ r.getD 0 0 ≠ 1
  · obtain ⟨t, ht, hts, htg⟩ := Fourier.zip_one (· * ·) (x := (⟨[N, 1, 1, 1], fun i => nth i 0⟩ : T Nat)) (s := [N, 1, 1, 1]) rfl (y := one (H * W * C)) (Or.inr ⟨rfl, by simp⟩)
      (v := H * W * C) (fun _ => rfl)
    have him : images n (nth [N, H, W, C] 0) (nth [N, H, W, C] 1 * nth [N, H, W, C] 2 * nth [N, H, W, C] 3) = .ok (some t) := by
      unfold images
      rw [hrec]
      dsimp only [Option.getD_some]
      rw [if_pos (by rw [hb.1]; simpa using hb.2), if_pos ((hB hb.1).resolve_left hb.2)]
      exact congrArg Except.ok ht
    obtain ⟨z, hz, hzs, hzg⟩ := zip_first (· + ·) hss hts
    refine ⟨z, ?_, hzs, fun a u v c ha hu hv hc => ?_⟩
    · unfold convertIndices
      rw [hchan, him]
      dsimp only
      have e : xyOf n.opset (nth [N, H, W, C] 1 * nth [N, H, W, C] 2) ind = some xy := hxy
      have e2 : zipT (· * ·) xy (one (nth [N, H, W, C] 3)) = some m := hm
      rw [e, Option.bind_some, e2, Option.bind_some, hsz, Option.bind_some, Option.bind_some, hz]
    · rw [hzg a u v c ha hu hv hc, hsg' a u v c ha hu hv hc, if_pos hb.1]
      congr 1
      rw [htg _ (Channels.inB4 (by split <;> omega) Nat.one_pos Nat.one_pos Nat.one_pos)]
      show (if N = 1 then 0 else a) * _ = _
      split
      · have : a = 0 := by omega
        rw [this]
      · rfl
  · have him : images n (nth [N, H, W, C] 0) (nth [N, H, W, C] 1 * nth [N, H, W, C] 2 * nth [N, H, W, C] 3) = .ok (some ⟨[], fun _ => 0⟩) := by
      unfold images
      rw [hrec]
      dsimp only [Option.getD_some]
      refine if_neg ?_
      intro h
      apply hb
      simpa using h
    obtain ⟨z, hz, hzs, hzg⟩ := Fourier.zip_one (· + ·) hss (y := (⟨[], fun _ => 0⟩ : T Nat)) (Or.inl rfl) (v := 0) (fun _ => rfl)
    refine ⟨z, ?_, hzs, fun a u v c ha hu hv hc => ?_⟩
    · unfold convertIndices
      rw [hchan, him]
      dsimp only
      have e : xyOf n.opset (nth [N, H, W, C] 1 * nth [N, H, W, C] 2) ind = some xy := hxy
      have e2 : zipT (· * ·) xy (one (nth [N, H, W, C] 3)) = some m := hm
      rw [e, Option.bind_some, e2, Option.bind_some, hsz, Option.bind_some, Option.bind_some, hz]
    · rw [hzg _ (Channels.inB4 ha hu hv hc), hsg' a u v c ha hu hv hc]
      congr 1
      split
      · rename_i hbt
        have h1 : r.getD 0 0 = 1 := by
          by_contra hne
          exact hb ⟨hbt, hne⟩
        rw [h1] at hr0
        have : N = 1 := by
          rcases hr0 with h | h
          · omega
          · have : (1 : Int) = N := h
            omega
        have : a = 0 := by omega
        rw [this, Nat.zero_mul]
      · rfl

/-! ## The handler -/

/-- A `MaxPoolWithArgmax` that TensorFlow accepts, and what the converter knows of it. -/
structure Args (ch : Choice α) (d : Nat × α) (n : ArgNode) (p : TfPad) (ksize strides : List Nat) (x : T α) (r : List Int) : Prop where
  padding : n.padding = "SAME" ∧ p = .same ∨ n.padding = "VALID" ∧ p = .valid
  ksizeAttr : n.ksize = ksize.map Int.ofNat
  ksizeLen : ksize.length = 4
  ksizePos : ∀ k ∈ ksize, 1 ≤ k
  strideAttr : n.strides = strides.map Int.ofNat
  strideLen : strides.length = 4
  stridePos : ∀ k ∈ strides, 1 ≤ k
  image : x.shape.length = 4
  /-- the recorded shapes have the right rank, and every dimension is unknown or right -/
  inShape : n.inShape = some r
  inRight : Rec r x.shape
  outShape : ∃ o, n.outShape = some o ∧ Rec o (tfMaxArg ch d (n.batch.getD true) p ksize strides x).shape
  /-- before operator set 11 the number of channels is known, and the batch is not included unless there is one image -/
  channelsKnown : 0 < r.getD 3 0 ∨ 11 ≤ n.opset
  batchKnown : n.batch.getD true = true → r.getD 0 0 = 1 ∨ 11 ≤ n.opset

/-- The element that a window takes does not depend on the numbers of the elements. -/
theorem pool_reads {ch : Choice α} (hch : Chooses ch) (d : Nat × α) {p : TfPad} (hp : p = .same ∨ p = .valid) {kh kw k0 k3 sh sw s0 s3 N H W C : Nat} (hkh : 1 ≤ kh) (hkw : 1 ≤ kw) (hsh : 1 ≤ sh)
    (hsw : 1 ≤ sw) {x : T α} (hx : x.shape = [N, H, W, C]) {a u v q : Nat}
    (hu : u < (tfGeom p true x.shape [kh, kw] [sh, sw] (List.replicate 2 1)).outDim 0 H) (hv : v < (tfGeom p true x.shape [kh, kw] [sh, sw] (List.replicate 2 1)).outDim 1 W) (hq : q < C) :
    ∃ h w, h < H ∧ w < W ∧ ∀ l, (tfPool (pick ch d) true 2 p [k0, kh, kw, k3] [s0, sh, sw, s3] (labelled l x)).get [a, u, v, q] = (l [a, h, w, q], x.get [a, h, w, q]) := by
  have hl : ∀ l : List Nat → Nat, (tfPool (pick ch d) true 2 p [k0, kh, kw, k3] [s0, sh, sw, s3] (labelled l x)) =
      windowed true (tfGeom p true x.shape [kh, kw] [sh, sw] (List.replicate 2 1)) (nth x.shape 3) (fun q r => pick ch d [kh, kw] (fun k' => r k' q)) (labelled l x) := fun l => rfl
  obtain ⟨t0, ht0, hb0, hr0⟩ := window_nonempty hp (shape := x.shape) (k := [kh, kw]) (s := [sh, sw]) (i := 0) (o := u) (by simp) hsh hkh rfl (by rw [hx] at hu ⊢; exact hu)
  obtain ⟨t1, ht1, hb1, hr1⟩ := window_nonempty hp (shape := x.shape) (k := [kh, kw]) (s := [sh, sw]) (i := 1) (o := v) (by simp) hsw hkw rfl (by rw [hx] at hv ⊢; exact hv)
  generalize hM : tfGeom p true x.shape [kh, kw] [sh, sw] (List.replicate 2 1) = M at *
  have hMk : M.kernel = [kh, kw] := by rw [← hM]; rfl
  have hMs : M.strides = [sh, sw] := by rw [← hM]; rfl
  have hMd : M.dilations = List.replicate 2 1 := by rw [← hM]; rfl
  -- where the window reads
  let cond : List Nat → Prop := fun k => InB [kh, kw] k ∧ q < C ∧ ∀ i, i < 2 → nth M.before i ≤ M.pos (spOf true [a, u, v, q]) (nth k) i ∧
    M.pos (spOf true [a, u, v, q]) (nth k) i - nth M.before i < spOf true x.shape i
  classical
  let read : List Nat → Option (List Nat) := fun k => if cond k then some [a, M.pos (spOf true [a, u, v, q]) (nth k) 0 - nth M.before 0,
    M.pos (spOf true [a, u, v, q]) (nth k) 1 - nth M.before 1, q] else none
  have hwin : ∀ l : List Nat → Nat, (tfPool (pick ch d) true 2 p [k0, kh, kw, k3] [s0, sh, sw, s3] (labelled l x)).get [a, u, v, q] =
      pick ch d [kh, kw] (fun k => (read k).map (fun i => (l i, x.get i))) := by
    intro l
    rw [hl]
    unfold windowed
    dsimp only
    rw [hMk]
    have hc : chOf true [kh, kw].length [a, u, v, q] = q := rfl
    rw [hc]
    congr 1
    funext k
    have hsh' : (labelled l x).shape = x.shape := rfl
    have hC : chOf true [kh, kw].length x.shape = C := by rw [hx]; rfl
    rw [hsh', hC]
    by_cases hck : cond k
    · have e : read k = some _ := if_pos hck
      rw [e]
      exact if_pos hck
    · have e : read k = none := if_neg hck
      rw [e]
      exact if_neg hck
  have hcond : cond [t0, t1] := by
    refine ⟨inB_cons.2 ⟨ht0, inB_cons.2 ⟨ht1, by simp [InB]⟩⟩, hq, fun i hi => ?_⟩
    unfold Geom.pos
    rw [hMs, hMd]
    match i, hi with
    | 0, _ => exact ⟨hb0, hr0⟩
    | 1, _ => exact ⟨hb1, hr1⟩
  have hsome := hch [kh, kw] (fun k => (read k).map x.get) ⟨[t0, t1], hcond.1, by
    have e : read [t0, t1] = some _ := if_pos hcond
    rw [e]
    simp⟩
  generalize hk : ch [kh, kw] (fun k => (read k).map x.get) = ks at hsome
  by_cases hks : cond ks
  · have e : read ks = some [a, M.pos (spOf true [a, u, v, q]) (nth ks) 0 - nth M.before 0, M.pos (spOf true [a, u, v, q]) (nth ks) 1 - nth M.before 1, q] := if_pos hks
    refine ⟨M.pos (spOf true [a, u, v, q]) (nth ks) 0 - nth M.before 0, M.pos (spOf true [a, u, v, q]) (nth ks) 1 - nth M.before 1, ?_, ?_, fun l => ?_⟩
    · have := (hks.2.2 0 (by decide)).2
      rw [hx] at this
      exact this
    · have := (hks.2.2 1 (by decide)).2
      rw [hx] at this
      exact this
    · rw [hwin]
      unfold pick
      have e2 : (fun k => ((read k).map (fun i => (l i, x.get i))).map Prod.snd) = fun k => (read k).map x.get := by
        funext k
        rw [Option.map_map]
        rfl
      rw [e2, hk]
      dsimp only
      rw [e]
      rfl
  · have e : read ks = none := if_neg hks
    rw [e] at hsome
    exact absurd rfl hsome

theorem lin4 (N H W C n h w c : Nat) : lin [N, H, W, C] [n, h, w, c] = n * (H * W * C) + h * (W * C) + w * C + c := by
  simp only [lin, size, List.foldr_cons, List.foldr_nil, Nat.mul_one, Nat.add_zero]
  rw [Nat.mul_assoc]
  omega

/-- Counted channels first, and channels last. -/
theorem label_eq {N H W C n h w c : Nat} (hh : h < H) (hw : w < W) (batch : Bool) :
    lin [N, C, H, W] [n, c, h, w] % (H * W) * C + c + (if batch = true then n * (H * W * C) else 0) = tfLabel batch [N, H, W, C] [n, h, w, c] := by
  have e : lin [N, C, H, W] [n, c, h, w] = (h * W + w) + (H * W) * (n * C + c) := by
    rw [lin4]
    ring
  have hlt : h * W + w < H * W := by
    calc h * W + w < h * W + W := by omega
      _ = (h + 1) * W := by rw [Nat.add_mul, Nat.one_mul]
      _ ≤ H * W := Nat.mul_le_mul_right _ hh
  rw [e, Nat.add_mul_mod_self_left, Nat.mod_eq_of_lt hlt]
  unfold tfLabel
  cases batch
  · rw [if_neg (by simp), if_neg (by simp)]
    show _ = lin [H, W, C] [h, w, c]
    simp only [lin, size, List.foldr_cons, List.foldr_nil, Nat.mul_one, Nat.add_zero]
    ring
  · rw [if_pos rfl, if_pos rfl, lin4]
    ring

theorem list4 {l : List Nat} (h : l.length = 4) : ∃ a b c d, l = [a, b, c, d] := by
  match l, h with
  | [a, b, c, d], _ => exact ⟨a, b, c, d, rfl⟩

/-- **C80**: `MaxPoolWithArgmax` that TensorFlow accepts, whichever element of a window is taken, is converted, and gives the same elements, with the same positions in TensorFlow's order,
the batch included or not. -/
theorem argmax_converts {ch : Choice α} (hch : Chooses ch) (d : Nat × α) (n : ArgNode) (p : TfPad) (ksize strides : List Nat) (x : T α) (r : List Int) (h : Args ch d n p ksize strides x r) :
    ∃ y i, maxPoolWithArgmax ch d n x = .ok (some (y, i)) ∧ Same y (mapT Prod.snd (tfMaxArg ch d (n.batch.getD true) p ksize strides x)) ∧
      Same i (mapT Prod.fst (tfMaxArg ch d (n.batch.getD true) p ksize strides x)) := by
  obtain ⟨N, H, W, C, hx⟩ := list4 h.image
  obtain ⟨k0, kh, kw, k3, rfl⟩ := list4 h.ksizeLen
  obtain ⟨s0, sh, sw, s3, rfl⟩ := list4 h.strideLen
  have hp : p = .same ∨ p = .valid := h.padding.imp (·.2) (·.2)
  have hkh : 1 ≤ kh := h.ksizePos kh (by simp)
  have hkw : 1 ≤ kw := h.ksizePos kw (by simp)
  have hsh : 1 ≤ sh := h.stridePos sh (by simp)
  have hsw : 1 ≤ sw := h.stridePos sw (by simp)
  have hnl : n.node.last = true := by
    show (!("NC".toList.isPrefixOf "NHWC".toList)) = true
    decide
  -- the image with the numbers of ONNX
  let L : List Nat → Nat := fun i => lin [N, C, H, W] [nth i 0, nth i 3, nth i 1, nth i 2]
  have hpool : PoolArgs (pick ch d) n.node 2 p [k0, kh, kw, k3] [s0, sh, sw, s3] (labelled L x) := by
    refine ⟨⟨?_, ?_, ?_, h.strideAttr, rfl, h.stridePos, Or.inr ⟨rfl, rfl⟩, rfl, ?_⟩, h.image, rfl, h.ksizePos, ⟨r, h.inShape, h.inRight⟩, by rw [hnl]; exact h.outShape⟩
    · rcases h.padding with ⟨e, rfl⟩ | ⟨e, rfl⟩
      · exact e
      · exact e
    · rcases hp with rfl | rfl <;> rfl
    · intro l hl
      rcases hp with rfl | rfl <;> exact absurd hl (by simp)
    · intro e he
      rw [List.eq_of_mem_replicate he]
  obtain ⟨y0, hy0, hy0s⟩ := pool_converts _ _ _ _ _ _ _ hpool
  rw [hnl] at hy0s
  unfold convertedPool at hy0
  rw [hnl] at hy0
  unfold maxPoolWithArgmax
  rw [h.ksizeAttr]
  cases ha : poolAttrs n.node ([k0, kh, kw, k3].map Int.ofNat) 2 with
  | error e => rw [ha] at hy0; simp [Bind.bind, Except.bind] at hy0
  | ok a =>
    rw [ha] at hy0
    dsimp only [Bind.bind, Except.bind] at hy0
    simp only [Except.ok.injEq] at hy0
    obtain ⟨u0, hu0, rfl⟩ := Option.map_eq_some_iff.1 hy0
    have hsame : Same (toOnnx true 2 (labelled L x)) (labelled (lin (toOnnx true 2 x).shape) (toOnnx true 2 x)) := by
      have hsx : (toOnnx true 2 x).shape = [N, C, H, W] := by
        show [0, 3, 1, 2].map (nth x.shape) = _
        rw [hx]
        rfl
      refine ⟨rfl, fun i hi => ?_⟩
      have hi' : InB [N, C, H, W] i := hsx ▸ hi
      obtain ⟨i0, i1, i2, i3, rfl⟩ := list4 (l := i) (by rw [hi'.1]; rfl)
      show (L (permIdx [0, 3, 1, 2] [i0, i1, i2, i3]), x.get (permIdx [0, 3, 1, 2] [i0, i1, i2, i3])) = (lin (toOnnx true 2 x).shape [i0, i1, i2, i3], _)
      rw [hsx]
      rfl
    obtain ⟨w, hw, huw, hlen⟩ := onnxPool_same _ _ hsame hu0
    have hlen4 : u0.shape.length = 4 := by
      rw [hlen]
      rfl
    have hfin : Same (fromOnnx true 2 w) (tfPool (pick ch d) true 2 p [k0, kh, kw, k3] [s0, sh, sw, s3] (labelled L x)) :=
      (Same.fromOnnx true huw hlen4).symm.trans hy0s
    dsimp only
    have hw' : onnxMaxArg ch d a (toOnnx true 2 x) = some w := hw
    rw [hw']
    dsimp only
    -- the shape of the result
    obtain ⟨P, hP⟩ : ∃ P, (tfGeom p true x.shape [kh, kw] [sh, sw] (List.replicate 2 1)).outDim 0 H = P := ⟨_, rfl⟩
    obtain ⟨Q, hQ⟩ : ∃ Q, (tfGeom p true x.shape [kh, kw] [sh, sw] (List.replicate 2 1)).outDim 1 W = Q := ⟨_, rfl⟩
    have hshape : ∀ l : List Nat → Nat, (tfPool (pick ch d) true 2 p [k0, kh, kw, k3] [s0, sh, sw, s3] (labelled l x)).shape = [N, P, Q, C] := by
      intro l
      rw [← hP, ← hQ]
      obtain ⟨xs, xg⟩ := x
      dsimp only at hx
      subst hx
      rfl
    have hws : (fromOnnx true 2 w).shape = [N, P, Q, C] := hfin.1.trans (hshape L)
    have hread : ∀ i0 u v q, i0 < N → u < P → v < Q → q < C → ∃ h w, h < H ∧ w < W ∧ ∀ l,
        (tfPool (pick ch d) true 2 p [k0, kh, kw, k3] [s0, sh, sw, s3] (labelled l x)).get [i0, u, v, q] = (l [i0, h, w, q], x.get [i0, h, w, q]) := by
      intro i0 u v q _ hu hv hq
      exact pool_reads hch d hp hkh hkw hsh hsw hx (by rw [hP]; exact hu) (by rw [hQ]; exact hv) hq
    obtain ⟨z, hz, hzs, hzg⟩ := convertIndices_ok (n := n) (r := r) (N := N) (H := H) (W := W) (C := C) (P := P) (Q := Q) (by rw [← hx]; exact h.inRight) h.inShape h.channelsKnown h.batchKnown
      (ind := fromOnnx true 2 (mapT Prod.fst w)) hws
    refine ⟨fromOnnx true 2 (mapT Prod.snd w), z, ?_, ⟨hws.trans (hshape _).symm, fun i hi => ?_⟩, ⟨hzs.trans (hshape _).symm, fun i hi => ?_⟩⟩
    · rw [hx, hz]
      rfl
    · have hi' : InB [N, P, Q, C] i := hws ▸ hi
      obtain ⟨i0, u, v, q, rfl⟩ := list4 (l := i) (by rw [hi'.1]; rfl)
      obtain ⟨h1, h2, h3, h4⟩ := Channels.inB4_iff.1 hi'
      obtain ⟨hh, ww, _, _, hr⟩ := hread i0 u v q h1 h2 h3 h4
      have e : (fromOnnx true 2 (mapT Prod.snd w)).get [i0, u, v, q] = ((fromOnnx true 2 w).get [i0, u, v, q]).2 := rfl
      rw [e, hfin.2 _ (by rw [hws]; exact hi'), hr]
      show _ = ((tfPool (pick ch d) true 2 p [k0, kh, kw, k3] [s0, sh, sw, s3] (labelled _ x)).get [i0, u, v, q]).2
      rw [hr]
    · have hi' : InB [N, P, Q, C] i := hzs ▸ hi
      obtain ⟨i0, u, v, q, rfl⟩ := list4 (l := i) (by rw [hi'.1]; rfl)
      obtain ⟨h1, h2, h3, h4⟩ := Channels.inB4_iff.1 hi'
      obtain ⟨hh, ww, hhH, hwW, hr⟩ := hread i0 u v q h1 h2 h3 h4
      have e : (fromOnnx true 2 (mapT Prod.fst w)).get [i0, u, v, q] = ((fromOnnx true 2 w).get [i0, u, v, q]).1 := rfl
      rw [hzg _ _ _ _ h1 h2 h3 h4, e, hfin.2 _ (by rw [hws]; exact hi'), hr]
      show _ = ((tfPool (pick ch d) true 2 p [k0, kh, kw, k3] [s0, sh, sw, s3] (labelled (tfLabel (n.batch.getD true) x.shape) x)).get [i0, u, v, q]).1
      rw [hr, hx]
      exact label_eq hhH hwW _

/-! ## The first largest element -/

theorem better_some [LinearOrder α] {f : List Nat → Option α} {best : Option (List Nat)} (hb : ∀ k, best = some k → f k ≠ none) (k : List Nat) :
    (∀ j, better f best k = some j → f j ≠ none) ∧ (f k ≠ none ∨ best ≠ none → better f best k ≠ none) := by
  unfold better
  cases hk : f k with
  | none =>
    refine ⟨fun j hj => hb j (by cases best <;> first | exact hj | exact absurd hj (by simp)), fun h => ?_⟩
    rcases h with h | h
    · exact absurd rfl h
    · exact h
  | some v =>
    cases best with
    | none => exact ⟨fun j hj => by simp only [Option.bind_none, Option.some.injEq] at hj; rw [← hj, hk]; simp, fun _ => by simp⟩
    | some b =>
      have hbs := hb b rfl
      cases hfb : f b with
      | none => exact absurd hfb hbs
      | some vb =>
        simp only [Option.bind_some, hfb]
        split
        · exact ⟨fun j hj => by simp only [Option.some.injEq] at hj; rw [← hj, hk]; simp, fun _ => by simp⟩
        · exact ⟨fun j hj => by simp only [Option.some.injEq] at hj; rw [← hj, hfb]; simp, fun _ => by simp⟩

theorem fold_some [LinearOrder α] {f : List Nat → Option α} (l : List (List Nat)) (best : Option (List Nat)) (hb : ∀ k, best = some k → f k ≠ none) :
    (∀ j, l.foldl (better f) best = some j → f j ≠ none) ∧ ((∃ k ∈ l, f k ≠ none) ∨ best ≠ none → l.foldl (better f) best ≠ none) := by
  induction l generalizing best with
  | nil => exact ⟨hb, fun h => h.resolve_left (by simp)⟩
  | cons k l ih =>
    obtain ⟨h1, h2⟩ := better_some hb k
    obtain ⟨i1, i2⟩ := ih (better f best k) h1
    refine ⟨i1, fun h => i2 ?_⟩
    rcases h with ⟨j, hj, hfj⟩ | h
    · rcases List.mem_cons.1 hj with rfl | hj
      · exact Or.inr (h2 (Or.inl hfj))
      · exact Or.inl ⟨j, hj, hfj⟩
    · exact Or.inr (h2 (Or.inr h))

/-- The first of the largest elements is one. -/
theorem firstMax_chooses [LinearOrder α] : Chooses (firstMax (α := α)) := by
  intro K f ⟨k, hk, hf⟩
  obtain ⟨h1, h2⟩ := fold_some (f := f) (allIdx K) none (by simp)
  have hne := h2 (Or.inl ⟨k, (TransposeOpt.mem_allIdx K k).2 hk, hf⟩)
  unfold firstMax
  cases hr : (allIdx K).foldl (better f) none with
  | none => exact absurd hr hne
  | some j => exact h1 j hr

end Verif.Argmax
