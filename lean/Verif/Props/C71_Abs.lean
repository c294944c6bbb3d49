import Verif.Props.C71_Main
/-!
# C71: absolute values
-/
namespace Verif.Fourier
open Verif.Tensor Verif.Emit Verif.Einsum

theorem gather_part {z : T ℝ} {s : List Nat} (hz : z.shape = 2 :: s) {p : Nat} (hp : p < 2) :
    ∃ y, Seg.gather0 z ⟨[1], fun _ => (p : Int)⟩ = some y ∧ y.shape = 1 :: s ∧ ∀ i, y.get (0 :: i) = z.get (p :: i) := by
  have hok : IndicesOk (nth z.shape 0) ⟨[1], fun _ => (p : Int)⟩ := by
    intro i _
    rw [hz]
    simp [nth]
    omega
  refine ⟨_, if_pos ⟨by rw [hz]; simp, hok⟩, by simp [gatherOn, hz], fun i => ?_⟩
  have e : (if (p : Int) < 0 then (p : Int) + 2 else p).toNat = p := by rw [if_neg (by omega)]; omega
  simp [gatherOn, hz, nth, posOf]
  rw [e]

theorem squared_is {x : T ℝ} {s : List Nat} (hx : x.shape = 1 :: s) :
    ∃ z, squared x = some z ∧ z.shape = 1 :: s ∧ ∀ i, InB (1 :: s) i → z.get i = x.get i ^ 2 := by
  obtain ⟨z, hz, hs, hg⟩ := zip_one (fun a b : ℝ => a ^ b) (y := ⟨[1], fun _ => 2⟩) hx (Or.inr ⟨rfl, by simp⟩) (v := 2) (fun _ => rfl)
  exact ⟨z, hz, hs, fun i hi => by rw [hg i hi]; exact Real.rpow_two _⟩

theorem squeeze_first {x : T ℝ} {s : List Nat} (hx : x.shape = 1 :: s) :
    ∃ z, squeezeT [0] x = some z ∧ z.shape = s ∧ ∀ i, InB s i → z.get i = x.get (0 :: i) := by
  have hk : keptAxes (s.length + 1) (fun i => [0].contains i) = (List.range s.length).map (· + 1) := by
    unfold keptAxes
    rw [List.range_succ_eq_map, List.filter_cons_of_neg (by simp), List.filter_eq_self.2]
    intro a ha
    obtain ⟨b, -, rfl⟩ := List.mem_map.1 ha
    simp
  refine ⟨_, if_pos ⟨by decide, by simp [hx, nth]⟩, ?_, fun i hi => ?_⟩
  · simp only [squeeze, hx, List.length_cons, hk, List.map_map]
    apply ext_nth
    · simp
    intro j hj
    have hj' : j < s.length := by simpa using hj
    rw [nth_map_range, if_pos hj']
    rfl
  · simp only [squeeze, hx, List.length_cons, hk]
    congr 1
    apply ext_nth
    · simp [hi.1]
    intro j hj
    have hj' : j < s.length + 1 := by simpa using hj
    rw [nth_map_range, if_pos hj']
    cases j with
    | zero => simp [nth]
    | succ j =>
      have hj2 : j < s.length := by omega
      have hix : ((List.range s.length).map (· + 1)).idxOf (j + 1) = j := by
        have hnd : ((List.range s.length).map (· + 1)).Nodup := List.nodup_range.map (fun a b h => by omega)
        have := hnd.idxOf_getElem j (by simpa using hj2)
        simpa using this
      rw [hix]
      simp [nth]

/-- The emitted operators compute the absolute values. -/
theorem abs_emitted {z : T ℝ} {c : T ℂ} (h : Parts z c) : ∃ w, absEmitted z = some w ∧ Same w (tfAbs c) := by
  obtain ⟨re, e1, s1, g1⟩ := gather_part h.shape (p := 0) (by omega)
  obtain ⟨im, e2, s2, g2⟩ := gather_part h.shape (p := 1) (by omega)
  obtain ⟨re2, e3, s3, g3⟩ := squared_is s1
  obtain ⟨im2, e4, s4, g4⟩ := squared_is s2
  obtain ⟨s, e5, s5, g5⟩ := Scan.zipT_same (· + ·) re2 im2 (by rw [s3, s4])
  obtain ⟨w, e6, s6, g6⟩ := squeeze_first (s5.trans s3)
  refine ⟨Scan.mapT Real.sqrt w, ?_, s6, fun i hi => ?_⟩
  · unfold absEmitted
    have e1' : Seg.gather0 z ⟨[1], fun _ => 0⟩ = some re := e1
    have e2' : Seg.gather0 z ⟨[1], fun _ => 1⟩ = some im := e2
    simp only [e1', e2', e3, e4, e5, e6, Option.bind_some, Option.map_some]
  · have hi' : InB c.shape i := by
      have : InB w.shape i := hi
      rwa [s6] at this
    have hb : InB (1 :: c.shape) (0 :: i) := inB_cons.2 ⟨by omega, hi'⟩
    show Real.sqrt (w.get i) = ‖c.get i‖
    rw [g6 i hi', g5 _ (s3 ▸ hb), g3 _ hb, g4 _ hb, g1, g2, h.re i hi', h.im i hi', Complex.norm_def, Complex.normSq_apply]
    congr 1
    ring

/-- `ComplexAbs` of what `RFFT` is converted to: if both handlers accept their nodes, the result is the absolute value of the transform. `recorded'` is what is recorded about the
result of `RFFT`. -/
theorem rfft_abs_partial {consumers : List String} {recorded recorded' : Option (List Int)} {fftLength : Option (T Int)} {x z : T ℝ} {r : Option (T ℝ)} (hpos : ∀ e ∈ x.shape, 0 < e)
    (ht : ∀ l, recorded = some l → Told l x.shape) (h : anyVersion true consumers recorded fftLength x = .ok (some z)) (h' : complexAbs recorded' z = .ok r) :
    ∃ len w, fftLength = some len ∧ len.shape = [1] ∧ r = some w ∧ Same w (tfAbs (tfRfft (len.get [0]).toNat x)) := by
  obtain ⟨len, e, hl, hp⟩ := rfft_sound hpos ht h
  obtain ⟨w, hw, hsame⟩ := abs_emitted hp
  refine ⟨len, w, e, hl, ?_, hsame⟩
  unfold complexAbs at h'
  split at h'
  · rw [hw] at h'; exact (Except.ok.inj h').symm
  · cases h'
  · split at h'
    · rw [hw] at h'; exact (Except.ok.inj h').symm
    · cases h'

/-- The handler of `ComplexAbs` accepts what `RFFT` is converted to, if the first dimension is recorded at all. -/
theorem complexAbs_accepts {z : T ℝ} {c : T ℂ} {recorded : Option (List Int)} (h : Parts z c) (hk : ∀ l, recorded = some l → l.head? = some 2) :
    ∃ w, complexAbs recorded z = .ok (some w) ∧ Same w (tfAbs c) := by
  obtain ⟨w, hw, hsame⟩ := abs_emitted h
  refine ⟨w, ?_, hsame⟩
  cases recorded with
  | none => simp only [complexAbs, hw]
  | some l =>
    have h2 := hk l rfl
    cases l with
    | nil => cases h2
    | cons d l =>
      simp only [List.head?_cons, Option.some.injEq] at h2
      simp only [complexAbs, h2, if_true, hw]

/-- Where a shape is recorded whose first dimension is not the 2 of a pair of parts, the handler raises; so it never takes a tensor for a complex one that is known not to be. -/
theorem complexAbs_needs {z : T ℝ} {r : Option (T ℝ)} {recorded : Option (List Int)} (h : complexAbs recorded z = .ok r) : recorded = none ∨ ∃ t, recorded = some (2 :: t) := by
  match recorded, h with
  | none, _ => exact Or.inl rfl
  | some (d :: t), h =>
    by_cases hd : d = 2
    · exact Or.inr ⟨t, by rw [hd]⟩
    · simp only [complexAbs, if_neg hd] at h
      cases h

end Verif.Fourier
