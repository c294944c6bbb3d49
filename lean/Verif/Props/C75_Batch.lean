import Verif.Props.C75_Norm
/-!
# C75: batch normalisation, main theorems
-/
namespace Verif.Channels
open Verif.Tensor Verif.Conv Verif.Einsum Verif.Emit

/-- The image with the channels first, and the values of its channels. -/
theorem stats_sound {m N C : Nat} {sp : List Nat} (hsp : sp.length = m) {x : T ℝ} (hx : x.shape = mk false N sp C) :
    ∃ μ σ2, batchStats x = some (μ, σ2) ∧ μ.shape = [C] ∧ σ2.shape = [C] ∧
      ∀ c, c < C → μ.get [c] = mean (channelValues false m x c) ∧ σ2.get [c] = variance (channelValues false m x c) := by
  have hr : x.shape.length = m + 2 := by rw [hx, mk_length, hsp]
  obtain ⟨l1, d1, g1⟩ := reduceKeep_fits mean (fun k => (statAxes (m + 2)).contains k) x
  have hsq : squeezeT (statAxes (m + 2)) (reduceKeep mean (fun k => (statAxes (m + 2)).contains k) x) =
      some (reduceDrop mean (fun k => (statAxes (m + 2)).contains k) x) := by
    refine if_pos ⟨?_, fun a ha => ?_⟩
    · unfold statAxes
      rw [List.nodup_cons]
      refine ⟨?_, List.Nodup.map (fun a b h => by simpa using h) List.nodup_range⟩
      intro h
      obtain ⟨a, _, h⟩ := List.mem_map.1 h
      omega
    · have ha2 : a < m + 2 := by
        unfold statAxes at ha
        rw [List.mem_cons, List.mem_map] at ha
        rcases ha with h | ⟨b, hb, h⟩
        · omega
        · have := List.mem_range.1 hb
          omega
      refine ⟨by rw [l1, hr]; exact ha2, ?_⟩
      show nth ((List.range x.shape.length).map _) a = 1
      have hc : (statAxes (m + 2)).contains a = true := List.contains_iff_mem.2 ha
      rw [nth_map_range, if_pos (by omega)]
      simp only [hc, if_true]
  obtain ⟨dsh, dg⟩ := drop_stat mean hsp hx
  obtain ⟨sub, hsub, hsubs, hsubg⟩ := zip_stretch (fun a b : ℝ => a - b) (x := x) (y := reduceKeep mean (fun k => (statAxes (m + 2)).contains k) x) l1 d1
  obtain ⟨qsh, qg⟩ := drop_stat (fun s => (s.map (· ^ 2)).sum) hsp (x := sub) (by rw [hsubs, hx])
  have hgather : Vec.gather (x.shape.map Int.ofNat) ((statAxes (m + 2)).map Int.ofNat) = some ((statAxes (m + 2)).map (fun k => (x.shape.map Int.ofNat).getD k 0)) :=
    Verif.Ragged.gather_nat (fun k => k) 0 (fun k hk => by
      rw [List.length_map, hr]
      unfold statAxes at hk
      rw [List.mem_cons, List.mem_map] at hk
      rcases hk with h | ⟨b, hb, h⟩
      · omega
      · have := List.mem_range.1 hb
        omega)
  have hdims : ((statAxes (m + 2)).map (fun k => (x.shape.map Int.ofNat).getD k 0)) = (N :: sp).map Int.ofNat := by
    unfold statAxes
    rw [hx, List.map_cons, List.map_map, List.map_cons]
    congr 1
    apply List.ext_getElem
    · simp [hsp]
    · intro k h1 h2
      simp only [List.length_map, List.length_range] at h1
      have hk : k < sp.length := by omega
      simp [mk, List.getD, hk]
  obtain ⟨pop, hpop, hpops, hpopg⟩ := zip_scalar (fun a b : ℝ => a / b) (x := reduceDrop (fun s => (s.map (· ^ 2)).sum) (fun k => (statAxes (m + 2)).contains k) sub)
    (y := ⟨[], fun _ => ((((N :: sp).map Int.ofNat).prod : Int) : ℝ)⟩) rfl
  refine ⟨_, pop, ?_, dsh, by rw [hpops, qsh], fun c hc => ⟨dg c, ?_⟩⟩
  · unfold batchStats
    rw [hr]
    dsimp only
    rw [hsq, Option.bind_some, hsub, Option.bind_some, hgather, Option.bind_some, hdims, hpop]
    rfl
  · rw [hpopg [c] (by rw [qsh]; exact inB_cons.2 ⟨hc, by simp [InB]⟩), qg]
    have hcard := card_channelValues (last := false) hsp hx hc
    unfold variance
    generalize hM : mean (channelValues false m x c) = M
    unfold mean
    rw [Multiset.card_map, hcard]
    have hprod : (((((N :: sp).map Int.ofNat).prod : Int)) : ℝ) = ((size (N :: sp) : Nat) : ℝ) := by
      have : ∀ l : List Nat, (l.map Int.ofNat).prod = ((size l : Nat) : Int) := by
        intro l
        induction l with
        | nil => rfl
        | cons a l ih =>
          rw [List.map_cons, List.prod_cons, ih]
          simp [size]
      rw [this]
      simp
    show _ / (((((N :: sp).map Int.ofNat).prod : Int)) : ℝ) = _
    rw [hprod]
    congr 2
    rw [channelValues_eq hsp (by rw [hsubs, hx]) hc, channelValues_eq hsp hx hc, Multiset.map_coe, Multiset.map_coe, List.map_map, List.map_map]
    congr 1
    apply List.map_congr_left
    intro i hi
    rw [TransposeOpt.mem_allIdx] at hi
    have hlen : i.tail.length = sp.length := by rw [List.length_tail, hi.1, List.length_cons, Nat.add_sub_cancel]
    have hin : InB x.shape (mk false (nth i 0) i.tail c) := by
      rw [hx]
      match i, hi with
      | n :: t, hi => exact (inB_mk (by simpa using hlen)).2 ⟨(inB_cons.1 hi).1, (inB_cons.1 hi).2, hc⟩
      | [], hi => exact absurd hi.1 (by simp)
    show sub.get _ ^ 2 = (x.get _ - _) ^ 2
    rw [hsubg _ hin, g1 _ hin, group_channel hr]
    show (_ - mean (channelValues false m x c)) ^ 2 = _
    rw [hM]

/-- The emitted `BatchNormalization` between the transposes. -/
theorem norm_around {last : Bool} {m N C : Nat} {sp : List Nat} (hsp : sp.length = m) {eps : ℝ} {x scale b μ σ2 : T ℝ} (hx : x.shape = mk last N sp C) (hs : scale.shape = [C])
    (hb : b.shape = [C]) (hμ : μ.shape = [C]) (hσ : σ2.shape = [C]) {fμ fσ : Nat → ℝ} (gμ : ∀ c, c < C → μ.get [c] = fμ c) (gσ : ∀ c, c < C → σ2.get [c] = fσ c) :
    ∃ z, (onnxBatchNorm eps (toOnnx last m x) scale b μ σ2).map (fromOnnx last m) = some z ∧
      Same z (normalise last m eps (fun c => scale.get [c]) (fun c => b.get [c]) fμ fσ x) := by
  have hxs := toOnnx_shape last x hsp hx
  have h1 : nth (toOnnx last m x).shape 1 = C := by rw [hxs]; rfl
  have hc : onnxBatchNorm eps (toOnnx last m x) scale b μ σ2 = some ⟨(toOnnx last m x).shape, fun i =>
      ((toOnnx last m x).get i - μ.get [nth i 1]) / Real.sqrt (σ2.get [nth i 1] + eps) * scale.get [nth i 1] + b.get [nth i 1]⟩ := by
    unfold onnxBatchNorm
    rw [if_pos]
    rw [h1]
    exact ⟨by rw [hxs, mk_length]; omega, hs, hb, hμ, hσ⟩
  rw [hc]
  refine ⟨_, rfl, ?_, ?_⟩
  · rw [fromOnnx_shape (m := m) (n := N) (sp := sp) (c := C) last _ hsp (by exact hxs)]
    exact hx.symm
  · intro i hi
    rw [fromOnnx_shape (m := m) (n := N) (sp := sp) (c := C) last _ hsp (by exact hxs)] at hi
    obtain ⟨n, t, c, ht, rfl⟩ := exists_mk last (m := m) (idx := i) (by rw [hi.1, mk_length, hsp])
    have h3 := (inB_mk (by rw [ht, hsp])).1 hi
    rw [fromOnnx_get last _ n c ht]
    have e1 : nth (mk false n t c) 1 = c := rfl
    have e2 : chOf last m (mk last n t c) = c := by rw [← ht, chOf_mk]
    show ((toOnnx last m x).get (mk false n t c) - _) / _ * _ + _ = (x.get (mk last n t c) - fμ _) * (_ / Real.sqrt (fσ _ + _)) + _
    rw [e1, e2, toOnnx_get last x n c ht, gμ c h3.2.2, gσ c h3.2.2]
    ring

/-- **C75.** Batch normalisation while training: the mean and the variance are those of the batch. -/
theorem batchNorm_training_sound {n : BatchNormNode} {m N C : Nat} {sp : List Nat} (hsp : sp.length = m) {x scale b μ σ2 : T ℝ} (hx : x.shape = mk n.last N sp C)
    (hs : scale.shape = [C]) (hb : b.shape = [C]) (hm : m = 2 ∨ m = 3) (hrec : ∃ l, n.xShape = some l ∧ l.length = x.shape.length) (ho : n.last = true → n.outShape ≠ none)
    (ht : n.training.getD true = true) (hf : n.factor.getD 1 = 1) :
    ∃ z, batchNorm n x scale b μ σ2 = .ok (some z) ∧ Same z (tfBatchNormTraining n.last m n.eps (fun c => scale.get [c]) (fun c => b.get [c]) x) := by
  obtain ⟨l, hl, hll⟩ := hrec
  have hspat : spatialOf n.xShape = .ok m := by
    rw [hl]
    unfold spatialOf
    rw [hx, mk_length, hsp] at hll
    rcases hm with rfl | rfl
    · exact if_pos hll
    · show (if l.length = 4 then _ else _) = _
      rw [if_neg (by omega), if_pos hll]
  obtain ⟨μ', σ', hst, h1, h2, h3⟩ := stats_sound hsp (toOnnx_shape n.last x hsp hx)
  obtain ⟨z, hz, hsame⟩ := norm_around (eps := n.eps) hsp hx hs hb h1 h2 (fμ := fun c => mean (channelValues n.last m x c)) (fσ := fun c => variance (channelValues n.last m x c))
    (fun c hc => by rw [(h3 c hc).1, channelValues_toOnnx hsp hx hc]) (fun c hc => by rw [(h3 c hc).2, channelValues_toOnnx hsp hx hc])
  refine ⟨z, ?_, hsame⟩
  unfold batchNorm
  rw [hspat]
  dsimp only
  rw [if_pos ⟨ht, hf⟩]
  unfold around
  rw [if_neg (fun h => ho h.1 h.2)]
  dsimp only
  rw [hst, Option.bind_some, hz]

/-- Mean and variance that have the shape of the scale are not changed. -/
theorem fit_same {scaleShape recorded : Option (List Int)} {isConst : Bool} {t t' : T ℝ} {C : Nat} (ht : t.shape = [C]) (hs : ∀ s, scaleShape = some s → ∃ d, s = [d] ∧ (0 ≤ d → d = C))
    (h : fit scaleShape recorded isConst t = .ok t') : t'.shape = [C] ∧ ∀ c, c < C → t'.get [c] = t.get [c] := by
  unfold fit at h
  split at h
  · cases h
    exact ⟨ht, fun _ _ => rfl⟩
  · split at h
    · cases h
    · rename_i s _
      obtain ⟨d, rfl, hd⟩ := hs s rfl
      split at h
      · rename_i hpos
        have hdc := hd (hpos d (by simp))
        split at h
        · cases h
          subst hdc
          refine ⟨rfl, fun c hc => ?_⟩
          show (if size t.shape = 0 then 0 else t.get (delin t.shape (lin [(C : Int).toNat] [c] % size t.shape))) = _
          have hsz : size t.shape = C := by rw [ht]; simp [size]
          rw [if_neg (by omega), hsz, ht]
          have : lin [(C : Int).toNat] [c] % C = c := by simp [lin, size, Nat.mod_eq_of_lt hc]
          rw [this]
          simp [delin, size]
        · cases h
      · cases h
        exact ⟨ht, fun _ _ => rfl⟩

/-- **C75.** Batch normalisation outside of training, if the handler accepts the node. -/
theorem batchNorm_sound {n : BatchNormNode} {m N C : Nat} {sp : List Nat} (hsp : sp.length = m) {x scale b μ σ2 : T ℝ} {r : Option (T ℝ)} (hx : x.shape = mk n.last N sp C)
    (hs : scale.shape = [C]) (hb : b.shape = [C]) (hμ : μ.shape = [C]) (hσ : σ2.shape = [C]) (hrec : ∀ l, n.xShape = some l → l.length = x.shape.length)
    (hsc : ∀ s, n.scaleShape = some s → ∃ d, s = [d] ∧ (0 ≤ d → d = C)) (ht : n.training = some false) (h : batchNorm n x scale b μ σ2 = .ok r) :
    ∃ z, r = some z ∧ Same z (tfBatchNorm n.last m n.eps (fun c => scale.get [c]) (fun c => b.get [c]) (fun c => μ.get [c]) (fun c => σ2.get [c]) x) := by
  unfold batchNorm at h
  split at h
  · cases h
  · rename_i m' hm'
    have hmm : m' = m := by
      unfold spatialOf at hm'
      split at hm'
      · cases hm'
      · rename_i l hl
        have h1 := hrec l hl
        rw [hx, mk_length, hsp] at h1
        split at hm'
        · cases hm'; omega
        · split at hm'
          · cases hm'; omega
          · cases hm'
    subst hmm
    rw [ht, if_neg (fun h => by cases h.1)] at h
    split at h
    · rename_i μ' σ' h1 h2
      obtain ⟨a1, a2⟩ := fit_same hμ hsc h1
      obtain ⟨b1, b2⟩ := fit_same hσ hsc h2
      obtain ⟨z, hz, hsame⟩ := norm_around (eps := n.eps) hsp hx hs hb a1 b1 a2 b2
      unfold around at h
      split at h
      · cases h
      · rw [hz] at h
        cases h
        exact ⟨z, rfl, hsame⟩
    · cases h
    · cases h

/-- When the handler accepts a node outside of training. -/
theorem batchNorm_accepts {n : BatchNormNode} {l : List Int} {x scale b μ σ2 : T ℝ} (hrec : n.xShape = some l) (hl : l.length = 4 ∨ l.length = 5)
    (h1 : n.meanShape = n.scaleShape) (h2 : n.varShape = n.scaleShape) (ho : n.last = true → n.outShape ≠ none) (ht : n.training = some false) :
    ∃ r, batchNorm n x scale b μ σ2 = .ok r := by
  unfold batchNorm
  have hspat : ∃ m, spatialOf n.xShape = .ok m := by
    rw [hrec]
    rcases hl with h | h
    · exact ⟨2, if_pos h⟩
    · refine ⟨3, ?_⟩
      show (if l.length = 4 then _ else _) = _
      rw [if_neg (by omega), if_pos h]
  obtain ⟨m, hm⟩ := hspat
  have e1 : fit n.scaleShape n.meanShape n.meanConst μ = .ok μ := if_pos h1
  have e2 : fit n.scaleShape n.varShape n.varConst σ2 = .ok σ2 := if_pos h2
  rw [hm, ht, e1, e2]
  dsimp only
  rw [if_neg (fun h => by cases h.1)]
  unfold around
  rw [if_neg (fun h => ho h.1 h.2)]
  exact ⟨_, rfl⟩

/-- **C75, a defect that is logged only.** Training with a moving average: TensorFlow normalises with the batch, the converted graph with the mean and the variance that are given. One pixel of
one channel: TensorFlow gives 0, the converted graph the pixel itself. -/
theorem batchNorm_average_violated : ∃ (n : BatchNormNode) (x scale b μ σ2 z : T ℝ), n.training = some true ∧ n.factor = some (1 / 2) ∧
    batchNorm n x scale b μ σ2 = .ok (some z) ∧ z.get [0, 0, 0, 0] = 1 ∧
    (tfBatchNormTraining n.last 2 n.eps (fun c => scale.get [c]) (fun c => b.get [c]) x).get [0, 0, 0, 0] = 0 := by
  refine ⟨⟨false, some [1, 1, 1, 1], some [1], some [1], some [1], none, false, false, 0, some true, some (1 / 2)⟩, ⟨[1, 1, 1, 1], fun _ => 1⟩, ⟨[1], fun _ => 1⟩, ⟨[1], fun _ => 0⟩,
    ⟨[1], fun _ => 0⟩, ⟨[1], fun _ => 1⟩, ⟨[1, 1, 1, 1], fun _ => (1 - 0) / Real.sqrt (1 + 0) * 1 + 0⟩, rfl, rfl, ?_, ?_, ?_⟩
  · unfold batchNorm
    have hs : spatialOf (some [1, 1, 1, 1]) = .ok 2 := rfl
    rw [hs]
    dsimp only
    rw [if_neg (fun h => by
      have := h.2
      simp only [Option.getD_some] at this
      norm_num at this)]
    rfl
  · simp
  · have hv : channelValues false 2 ⟨[1, 1, 1, 1], fun _ => (1 : ℝ)⟩ 0 = {1} := by
      rw [channelValues_eq (last := false) (m := 2) (N := 1) (C := 1) (sp := [1, 1]) rfl rfl (by omega)]
      rfl
    show (1 - mean (channelValues false 2 ⟨[1, 1, 1, 1], fun _ => (1 : ℝ)⟩ 0)) * _ + 0 = (0 : ℝ)
    rw [hv]
    simp [mean]

/-- A concrete case of training: two images of one pixel, values 1 and 3. -/
theorem ex_batchNorm : (tfBatchNormTraining true 2 0 (fun _ => 1) (fun _ => 5) ⟨[2, 1, 1, 1], fun i => if nth i 0 = 0 then 1 else 3⟩).get [1, 0, 0, 0] = 6 := by
  have hv : channelValues true 2 ⟨[2, 1, 1, 1], fun i => if nth i 0 = 0 then (1 : ℝ) else 3⟩ 0 = {1, 3} := by
    rw [channelValues_eq (last := true) (m := 2) (N := 2) (C := 1) (sp := [1, 1]) rfl rfl (by omega)]
    have : allIdx [2, 1, 1] = [[0, 0, 0], [1, 0, 0]] := by decide
    rw [this]
    rfl
  have hm : mean ({1, 3} : Multiset ℝ) = 2 := by
    simp [mean]
    norm_num
  have hvar : variance ({1, 3} : Multiset ℝ) = 1 := by
    unfold variance
    rw [hm]
    simp [mean]
    norm_num
  show (((if nth [1, 0, 0, 0] 0 = 0 then (1 : ℝ) else 3)) - mean (channelValues true 2 ⟨[2, 1, 1, 1], fun i => if nth i 0 = 0 then (1 : ℝ) else 3⟩ 0)) *
    (1 / Real.sqrt (variance (channelValues true 2 ⟨[2, 1, 1, 1], fun i => if nth i 0 = 0 then (1 : ℝ) else 3⟩ 0) + 0)) + 5 = 6
  rw [hv, hm, hvar]
  simp [nth]
  norm_num

/-- **C75, a defect.** Images of half precision: the `Cast` of the factor is made with the element type as its operand. -/
theorem contrast_half_violated {r : Option Nat} {x factor : T ℝ} : ∃ e, adjustContrast "half" "float" r x factor = .error e := ⟨_, if_pos (by decide)⟩

end Verif.Channels
