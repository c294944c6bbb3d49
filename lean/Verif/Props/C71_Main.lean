import Verif.Props.C71_Rfft
/-!
# C71: what `RFFT` becomes
-/
namespace Verif.Fourier
open Verif.Tensor Verif.Emit Verif.Einsum

theorem gather_last {pre : List Nat} {d : Nat} : Vec.gather ((pre ++ [d]).map Int.ofNat) [-1] = some [(d : Int)] := by
  unfold Vec.gather
  simp [posOf]

theorem sliceVec_init {pre : List Nat} {d : Nat} : sliceVec ((pre ++ [d]).map Int.ofNat) 0 (-1) = pre.map Int.ofNat := by
  have h1 : (clampPos ((pre ++ [d]).map Int.ofNat).length 0 ((pre ++ [d]).map Int.ofNat).length (-1)).toNat = pre.length := by
    unfold clampPos
    simp
  have h2 : (clampPos ((pre ++ [d]).map Int.ofNat).length 0 ((pre ++ [d]).map Int.ofNat).length 0).toNat = 0 := by
    unfold clampPos
    simp
  unfold sliceVec
  rw [h1, h2, List.drop_zero, List.map_append, List.take_append_of_le_length (by simp)]
  simp

theorem told_last {l : List Int} {pre : List Nat} {d : Nat} (h : Told l (pre ++ [d])) : l.getLastD 0 = -1 ∨ l.getLastD 0 = d := by
  have h1 : l.length = pre.length + 1 := by rw [h.1]; simp
  have := h.2 pre.length (by simp)
  have e : l.getLastD 0 = l.getD pre.length 0 := by
    rw [List.getLastD_eq_getLast?, List.getLast?_eq_getElem?, h1]
    simp
  rw [e]
  simpa [nth] using this

theorem told_known {l : List Int} {s : List Nat} (h : Told l s) (hp : ∀ z ∈ l, 0 < z) : l = s.map Int.ofNat := by
  apply List.ext_getElem (by simp [h.1])
  intro i h1 h2
  have hi : i < s.length := h.1 ▸ h1
  have hg : l.getD i 0 = l[i] := by simp [h1]
  rcases h.2 i hi with e | e
  · rw [hg] at e
    have := hp l[i] (List.getElem_mem h1)
    omega
  · rw [hg] at e
    rw [e, nth_eq _ _ hi]
    simp

/-- The operand as a matrix. -/
theorem flatten_is {l : List Int} {x : T ℝ} {pre : List Nat} {d : Nat} (hs : x.shape = pre ++ [d]) (hne : pre ≠ []) (hpos : ∀ e ∈ x.shape, 0 < e) (ht : Told l x.shape) :
    ∃ f, flatten (some l) x = .ok f ∧ (f.n = some (l.getLastD 0) ∨ f.n = none ∧ l.getLastD 0 ≤ 0) ∧
      ∃ y, f.data = some y ∧ Is2 y (size pre) d (fun r n => x.get (delin pre r ++ [n])) ∧
        (f.final = none ∧ pre = [size pre] ∨ f.final = some ([2] ++ pre.map Int.ofNat ++ [-1])) := by
  have hd : 0 < d := hpos d (by simp [hs])
  obtain ⟨y, hy, iy⟩ := reshape_rows hs hd
  have hlen : l.length = pre.length + 1 := by rw [ht.1, hs]; simp
  by_cases h2 : 2 < l.length
  · by_cases ha : l.any (fun d => decide (d ≤ 0)) = true
    · refine ⟨_, by simp only [flatten]; rw [if_pos h2, if_pos ha], ?_, y, ?_, iy, Or.inr ?_⟩
      · simp only [flatDynamic]
        by_cases hp : 0 < l.getLastD 0
        · rw [if_pos hp]; exact Or.inl rfl
        · rw [if_neg hp]; exact Or.inr ⟨rfl, by omega⟩
      · simp only [flatDynamic, hs, gather_last, Option.bind_some]
        exact hy
      · simp only [flatDynamic, hs, sliceVec_init]
    · have hall : ∀ z ∈ l, 0 < z := by
        intro z hz
        by_contra hc
        exact ha (List.any_eq_true.2 ⟨z, hz, by simpa using hc⟩)
      have hl : l = (pre ++ [d]).map Int.ofNat := by rw [told_known ht hall, hs]
      have hlast : l.getLastD 0 = d := by rw [hl]; simp
      have hdrop : l.dropLast = pre.map Int.ofNat := by rw [hl]; simp
      refine ⟨_, by simp only [flatten]; rw [if_pos h2, if_neg ha], Or.inl rfl, y, ?_, iy, Or.inr ?_⟩
      · simp only [hlast]
        exact hy
      · simp only [hdrop]
  · have hnil : l ≠ [] := by intro e; rw [e] at hlen; simp at hlen
    have hp1 : pre.length = 1 := by
      have : pre.length ≠ 0 := by simpa using hne
      omega
    obtain ⟨R, rfl⟩ := List.length_eq_one_iff.1 hp1
    refine ⟨_, by simp only [flatten]; rw [if_neg h2, if_neg hnil], Or.inl rfl, x, rfl, ⟨by rw [hs]; simp [size], fun r n hr hn => ?_⟩, Or.inl ⟨rfl, by simp [size]⟩⟩
    simp [delin, size]

theorem padded_in {x : T ℝ} {i : List Nat} (h : InB x.shape i) : padded x i = x.get i := if_pos h

/-- The rows of the operand are those of the specification. -/
theorem rows_spec {x : T ℝ} {pre i : List Nat} {d N k : Nat} (hs : x.shape = pre ++ [d]) (hN : N ≤ d) (hi : InB pre i) :
    rows N (fun r n => x.get (delin pre r ++ [n])) (lin pre i) k = (tfRfft N x).get (i ++ [k]) := by
  unfold rows tfRfft
  simp only [List.dropLast_concat]
  apply Finset.sum_congr rfl
  intro n hn
  have hn' := Finset.mem_range.1 hn
  rw [padded_in (by rw [hs, inB_append hi.1]; exact ⟨hi, inB_one.2 (by omega)⟩), delin_lin' hi]
  unfold unit
  simp

/-- The conditions under which the handler accepts the node, and the result. -/
theorem rfft_accepts {consumers : List String} {l : List Int} {len : T Int} {x : T ℝ} {pre : List Nat} {d : Nat}
    (hc : consumers ≠ [] ∧ ∀ c ∈ consumers, c = "ComplexAbs") (hs : x.shape = pre ++ [d]) (hne : pre ≠ []) (hpos : ∀ e ∈ x.shape, 0 < e)
    (ht : Told l x.shape) (hl : l.getLastD 0 = d) (hlen : len.shape = [1]) (h0 : 0 < len.get [0]) (hd : len.get [0] ≤ d) :
    ∃ z, anyVersion true consumers (some l) (some len) x = .ok (some z) ∧ Parts z (tfRfft (len.get [0]).toNat x) := by
  obtain ⟨f, hf, hn, y, hy, iy, hfin⟩ := flatten_is hs hne hpos ht
  have hn' : f.n = some (d : Int) := by
    rcases hn with h | ⟨-, h⟩
    · rw [h, hl]
    · rw [hl] at h
      have := hpos d (by simp [hs])
      omega
  have hlg : lengths f.n (some len) = .ok (d, (len.get [0]).toNat) := by
    rw [hn']
    simp only [lengths]
    rw [if_pos hlen, if_pos hd, if_pos h0]
    simp
  obtain ⟨w, hw, iw⟩ := emitted_is iy (N := (len.get [0]).toNat) (by omega) (by omega) f.final
  have hrun : anyVersion true consumers (some l) (some len) x = .ok (finish f.final w) := by
    simp only [anyVersion]
    rw [if_pos hc, hf]
    simp only [if_true]
    rw [hlg]
    simp only
    rw [hy, hw]
  generalize hN : (len.get [0]).toNat = N at *
  have hNd : N ≤ d := by omega
  have key : ∃ z, finish f.final w = some z ∧ z.shape = 2 :: (pre ++ [N / 2 + 1]) ∧ ∀ c i k, c < 2 → InB pre i → k < N / 2 + 1 → z.get (c :: (i ++ [k])) =
      if c = 0 then (rows N (fun r n => x.get (delin pre r ++ [n])) (lin pre i) k).re else (rows N (fun r n => x.get (delin pre r ++ [n])) (lin pre i) k).im := by
    rcases hfin with ⟨e, e1⟩ | e
    · refine ⟨w, by rw [e]; rfl, by rw [iw.shape]; conv_rhs => rw [e1]
                                    rfl, fun c i k hc hi hk => ?_⟩
      have hi' := hi
      rw [e1] at hi'
      obtain ⟨r, j, rfl, hr, hj⟩ := inB_cons' hi'
      rw [inB_nil.1 hj]
      have hlin : lin pre [r] = r := by
        conv_lhs => rw [e1]
        simp
      rw [inB_nil.1 hj] at hi
      show w.get [c, r, k] = _
      rw [hlin]
      exact iw.get c r k hc hr hk
    · obtain ⟨z, hz, hzs, hzg⟩ := finish_rows (fun e he => hpos e (by simp [hs, he])) iw
      exact ⟨z, by rw [e]; exact hz, hzs, hzg⟩
  obtain ⟨z, hz, hzs, hzg⟩ := key
  refine ⟨z, by rw [hrun, hz], ?_, fun i hi => ?_, fun i hi => ?_⟩
  · rw [hzs]
    simp [tfRfft, hs]
  · have hi' : InB (pre ++ [N / 2 + 1]) i := by simpa [tfRfft, hs] using hi
    obtain ⟨a, b, rfl, ha, hb⟩ := inB_append' hi'
    obtain ⟨k, j, rfl, hk, hj⟩ := inB_cons' hb
    rw [inB_nil.1 hj, hzg 0 a k (by omega) ha hk, if_pos rfl, rows_spec hs hNd ha]
  · have hi' : InB (pre ++ [N / 2 + 1]) i := by simpa [tfRfft, hs] using hi
    obtain ⟨a, b, rfl, ha, hb⟩ := inB_append' hi'
    obtain ⟨k, j, rfl, hk, hj⟩ := inB_cons' hb
    rw [inB_nil.1 hj, hzg 1 a k (by omega) ha hk, if_neg (by omega), rows_spec hs hNd ha]

/-- What has to be the case when the handler accepts the node and the result can be computed. -/
theorem rfft_needs {consumers : List String} {recorded : Option (List Int)} {fftLength : Option (T Int)} {x z : T ℝ} (hpos : ∀ e ∈ x.shape, 0 < e)
    (ht : ∀ l, recorded = some l → Told l x.shape) (h : anyVersion true consumers recorded fftLength x = .ok (some z)) :
    (consumers ≠ [] ∧ ∀ c ∈ consumers, c = "ComplexAbs") ∧ ∃ (l : List Int) (len : T Int) (pre : List Nat) (d : Nat), recorded = some l ∧ fftLength = some len ∧ len.shape = [1] ∧ x.shape = pre ++ [d] ∧ pre ≠ [] ∧
      l.getLastD 0 = (d : Int) ∧ 0 < len.get [0] ∧ len.get [0] ≤ d := by
  unfold anyVersion at h
  by_cases hc : consumers ≠ [] ∧ ∀ c ∈ consumers, c = "ComplexAbs"
  · rw [if_pos hc] at h
    refine ⟨hc, ?_⟩
    have hlen : ∀ n d N, lengths n fftLength = .ok (d, N) → ∃ len m, fftLength = some len ∧ n = some m ∧ len.shape = [1] ∧ 0 < len.get [0] ∧ len.get [0] ≤ m := by
      intro n d N h
      unfold lengths at h
      cases fftLength with
      | none => cases h
      | some len =>
        simp only at h
        split at h
        · rename_i h1
          cases n with
          | none => simp only at h; split at h <;> cases h
          | some m =>
            simp only at h
            split at h
            · split at h
              · rename_i h2 h3
                exact ⟨len, m, rfl, rfl, h1, h3, h2⟩
              · cases h
            · cases h
        · cases h
    cases hrec : recorded with
    | none =>
      rw [hrec] at h
      simp only [flatten, if_true] at h
      split at h
      · cases h
      · rename_i p hp
        obtain ⟨len, m, -, hm, -⟩ := hlen _ p.1 p.2 hp
        cases hm
    | some l =>
      have htl := ht l hrec
      rw [hrec] at h
      by_cases hr : x.shape = []
      · have : l = [] := by
          have := htl.1
          rw [hr] at this
          simpa using this
        subst this
        simp [flatten] at h
      obtain ⟨pre, d, hs⟩ : ∃ pre d, x.shape = pre ++ [d] := ⟨_, _, (List.dropLast_append_getLast hr).symm⟩
      have hlast := told_last (hs ▸ htl)
      by_cases hne : pre = []
      · have hl1 : l.length = 1 := by rw [htl.1, hs, hne]; rfl
        have hnil : l ≠ [] := by intro e; rw [e] at hl1; simp at hl1
        simp only [flatten] at h
        rw [if_neg (by omega), if_neg hnil] at h
        simp only [if_true] at h
        split at h
        · cases h
        · rename_i p hp
          obtain ⟨len, m, -, hm, -, h0, hle⟩ := hlen _ p.1 p.2 hp
          simp only [Except.ok.injEq] at h
          have hcut : ∀ w, cutInput p.1 p.2 x = some w → w.shape.length = 1 := by
            intro w hw
            unfold cutInput at hw
            split at hw
            · unfold sliceT at hw
              split at hw
              · simp only [Option.some.injEq] at hw
                rw [← hw]
                simp [sliceOn, slice_eq, hs, hne]
              · cases hw
            · simp only [Option.some.injEq] at hw
              rw [← hw, hs, hne]
              rfl
          exfalso
          simp only [emitted, Option.bind_some] at h
          cases hcw : cutInput p.1 p.2 x with
          | none => rw [hcw] at h; cases h
          | some w =>
            rw [hcw] at h
            have ht0 : transposeT [1, 0] w = none := by
              apply if_neg
              intro hh
              have := hcut w hcw
              rw [this] at hh
              exact absurd hh.2 (by decide)
            simp only [Option.bind_some, ht0] at h
            cases h
      · obtain ⟨f, hf, hn, y, -⟩ := flatten_is hs hne hpos htl
        rw [hf] at h
        simp only [if_true] at h
        split at h
        · cases h
        · rename_i p hp
          obtain ⟨len, m, e, hm, hsh, h0, hle⟩ := hlen _ p.1 p.2 hp
          have hmm : m = l.getLastD 0 := by
            rcases hn with h' | ⟨h', -⟩
            · rw [h'] at hm; simpa using hm.symm
            · rw [h'] at hm; cases hm
          rcases hlast with hl | hl
          · rw [hmm, hl] at hle
            omega
          · exact ⟨l, len, pre, d, rfl, e, hsh, hs, hne, hl, h0, by rw [← hl, ← hmm]; exact hle⟩
  · rw [if_neg hc] at h
    cases h

/-- Whatever `RFFT` is converted to computes the real and the imaginary parts of the transform. -/
theorem rfft_sound {consumers : List String} {recorded : Option (List Int)} {fftLength : Option (T Int)} {x z : T ℝ} (hpos : ∀ e ∈ x.shape, 0 < e)
    (ht : ∀ l, recorded = some l → Told l x.shape) (h : anyVersion true consumers recorded fftLength x = .ok (some z)) :
    ∃ len, fftLength = some len ∧ len.shape = [1] ∧ Parts z (tfRfft (len.get [0]).toNat x) := by
  obtain ⟨hc, l, len, pre, d, e1, e2, hsh, hs, hne, hl, h0, hle⟩ := rfft_needs hpos ht h
  obtain ⟨z', hz', hp⟩ := rfft_accepts (len := len) hc hs hne hpos (ht l e1) hl hsh h0 hle
  rw [e1, e2] at h
  rw [h] at hz'
  simp only [Except.ok.injEq, Option.some.injEq] at hz'
  exact ⟨len, e2, hsh, hz' ▸ hp⟩

/-- `FFT` is never converted. -/
theorem fft_refused (consumers : List String) (recorded : Option (List Int)) (fftLength : Option (T Int)) (x : T ℝ) :
    ∃ e, anyVersion false consumers recorded fftLength x = .error e := by
  unfold anyVersion
  split
  · cases flatten recorded x with
    | error e => exact ⟨e, rfl⟩
    | ok f => exact ⟨_, rfl⟩
  · exact ⟨_, rfl⟩

end Verif.Fourier
