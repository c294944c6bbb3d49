import Verif.Props.C67_Round
import Verif.Props.C19_Push
/-!
# C67: quantization operators become `QuantizeLinear` and `DequantizeLinear`
-/
namespace Verif.Quant
open Verif.Tensor Verif.TransposeOpt

/-! ## One element -/

theorem fixed_eq {o : Options} (hb : o.bits = 8) : o.fixed = quantRange o := by
  unfold Options.fixed quantRange
  rw [hb]
  cases o.signed <;> cases o.narrow <;> rfl

theorem quantRange_facts (o : Options) : (quantRange o).1 ≤ 0 ∧ 0 < (quantRange o).2 ∧ (quantRange o).2 = (bounds o.signed).2 ∧
    (bounds o.signed).1 ≤ (quantRange o).1 ∧ ((quantRange o).1 < 0 ↔ o.signed = true) ∧ ((o.narrow = true ∧ o.signed = true) ∨ (quantRange o).1 = (bounds o.signed).1) := by
  unfold quantRange bounds
  cases o.signed <;> cases o.narrow <;> decide

/-- One element: quantized and dequantized with TensorFlow's scale. -/
theorem element {o : Options} (hb : o.bits = 8) (hu : o.up = false) {given : Bool} {lo hi x v s inv : Rat}
    (hs : tfScale (quantRange o).1 (quantRange o).2 lo hi = some (s, inv)) (hv : tfQdq1 o given lo hi x = some v)
    (hg : given = true → o.narrow = true → o.signed = true → lo ≤ x) (hn : given = false → x ≤ hi ∧ (o.signed = true → lo ≤ x) ∧ (o.signed = false → 0 ≤ x)) :
    dequantize inv 0 (quantize o.signed inv 0 x) = v := by
  obtain ⟨f1, f2, f3, f4, f5, f6⟩ := quantRange_facts o
  obtain ⟨h1, h2, -, -, -, h6, h7⟩ := scale_facts f1 f2 hs
  unfold tfQdq1 at hv
  rw [fixed_eq hb, hs, hu] at hv
  simp only [Option.map_some, Option.some.injEq, Bool.false_eq_true, if_false] at hv
  rw [← hv, h2]
  unfold dequantize quantize
  rw [sub_zero, add_zero]
  congr 2
  rw [mul_one_div]
  by_cases hgv : given = true
  · rw [if_pos hgv, clamp_div h1, round_clamp (fun _ _ => halfEven_mono) halfEven_int, f3]
    rcases f6 with ⟨h8, h9⟩ | h8
    · -- below the range there is nothing
      have hx := hg hgv h8 h9
      have hlow : (quantRange o).1 ≤ halfEven (x / inv) := by
        rw [← halfEven_int (quantRange o).1]
        apply halfEven_mono
        rw [le_div_iff₀ h1]
        exact (h6 (f5.2 h9)).trans hx
      have hmin : (quantRange o).1 ≤ min (bounds o.signed).2 (halfEven (x / inv)) := le_min (by omega) hlow
      unfold clamp
      rw [max_eq_right (f4.trans hmin), max_eq_right hmin]
    · rw [h8]
  · rw [if_neg hgv]
    obtain ⟨n1, n2, n3⟩ := hn (by simpa using hgv)
    apply clamp_self
    · rw [← halfEven_int (bounds o.signed).1]
      apply halfEven_mono
      rw [le_div_iff₀ h1]
      cases hsg : o.signed with
      | true =>
        refine le_trans ?_ ((h6 (f5.2 hsg)).trans (n2 hsg))
        rw [hsg] at f4
        have : (((bounds true).1 : Int) : Rat) ≤ ((quantRange o).1 : Rat) := by exact_mod_cast f4
        exact mul_le_mul_of_nonneg_right this h1.le
      | false =>
        simp only [bounds, Bool.false_eq_true, if_false, Int.cast_zero, zero_mul]
        exact n3 hsg
    · rw [← halfEven_int (bounds o.signed).2, ← f3]
      apply halfEven_mono
      rw [div_le_iff₀ h1]
      exact n1.trans h7

/-! ## Channels -/

/-- The operand has an element in every channel. -/
theorem exists_member {axis : Int} {s i : List Nat} (hi : InB s i) (ha : axis = -1 ∨ 0 ≤ axis ∧ axis < s.length) {c : Nat} (hc : c < channels axis s) :
    ∃ j, InB s j ∧ channel axis j = c := by
  unfold channels at hc
  by_cases h : axis = -1
  · rw [if_pos h] at hc
    refine ⟨i, hi, ?_⟩
    unfold channel
    rw [if_pos h]
    omega
  · rw [if_neg h] at hc
    have ha' := ha.resolve_left h
    have hlt : axis.toNat < s.length := by omega
    refine ⟨(List.range s.length).map (fun k => if k = axis.toNat then c else nth i k), ⟨by simp, fun k hk => ?_⟩, ?_⟩
    · rw [nth_map_range, if_pos hk]
      split
      · rename_i he; rw [he]; exact hc
      · exact hi.2 k hk
    · unfold channel
      rw [if_neg h, nth_map_range, if_pos hlt, if_pos rfl]

theorem channel_lt {axis : Int} {s i : List Nat} (hi : InB s i) (ha : axis = -1 ∨ 0 ≤ axis ∧ axis < s.length) : channel axis i < channels axis s := by
  unfold channel channels
  split
  · exact Nat.one_pos
  · rename_i h
    have ha' := ha.resolve_left h
    exact hi.2 _ (by omega)

theorem mem_members {axis : Int} {x : T Rat} {i : List Nat} (hi : InB x.shape i) : x.get i ∈ members axis x (channel axis i) := by
  unfold members
  refine List.mem_map.2 ⟨i, List.mem_filter.2 ⟨(mem_allIdx _ _).2 hi, by simp⟩, rfl⟩

theorem mem_members_iff {axis : Int} {x : T Rat} {c : Nat} {v : Rat} : v ∈ members axis x c ↔ ∃ i, InB x.shape i ∧ channel axis i = c ∧ x.get i = v := by
  unfold members
  simp only [List.mem_map, List.mem_filter, mem_allIdx, decide_eq_true_eq, and_assoc]

/-- A list of results. -/
theorem mapM_opt {β γ : Type} {f : β → Option γ} {g : β → γ} {l : List β} (h : ∀ a ∈ l, f a = some (g a)) : l.mapM f = some (l.map g) := by
  induction l with
  | nil => rfl
  | cons a l ih =>
    rw [List.mapM_cons, h a (List.mem_cons_self ..), ih (fun b hb => h b (List.mem_cons_of_mem _ hb))]
    rfl

theorem mapM_exc {β γ : Type} {f : β → Except String γ} {g : β → γ} {l : List β} (h : ∀ a ∈ l, f a = .ok (g a)) : l.mapM f = .ok (l.map g) := by
  induction l with
  | nil => rfl
  | cons a l ih =>
    rw [List.mapM_cons, h a (List.mem_cons_self ..), ih (fun b hb => h b (List.mem_cons_of_mem _ hb))]
    rfl

/-- `QuantizeLinear` and `DequantizeLinear` with one scale for each channel. -/
theorem onnxQdq_ok {signed : Bool} {axis : Int} {x : T Rat} (ha : axis = -1 ∨ 0 ≤ axis ∧ axis < x.shape.length) (g : Nat → Rat) :
    ∃ y, onnxQdq signed axis ((List.range (channels axis x.shape)).map g) x = some y ∧ y.shape = x.shape ∧
      ∀ i, InB x.shape i → y.get i = dequantize (g (channel axis i)) 0 (quantize signed (g (channel axis i)) 0 (x.get i)) := by
  have hget : ∀ c, c < channels axis x.shape → ((List.range (channels axis x.shape)).map g).getD c 0 = g c := by
    intro c hc
    simp [List.getD, hc]
  unfold onnxQdq
  by_cases h1 : ((List.range (channels axis x.shape)).map g).length = 1
  · rw [if_pos h1]
    simp only [List.length_map, List.length_range] at h1
    refine ⟨_, rfl, rfl, fun i hi => ?_⟩
    have hc := channel_lt hi ha
    have : channel axis i = 0 := by omega
    dsimp only
    rw [hget 0 (by omega), this]
  · rw [if_neg h1]
    simp only [List.length_map, List.length_range] at h1 ⊢
    have hne : axis ≠ -1 := by
      intro h
      apply h1
      unfold channels
      rw [if_pos h]
    have ha' := ha.resolve_left hne
    rw [if_pos ⟨ha'.1, ha'.2, by unfold channels; rw [if_neg hne]⟩]
    exact ⟨_, rfl, rfl, fun i hi => by dsimp only; rw [hget _ (channel_lt hi ha)]⟩

/-! ## The operator -/

/-- What the proof needs to know about a call: 8 bits, rounding to even, an axis of the operand, ranges for every channel, some element; with a narrow given range
nothing below it, with computed unsigned ranges nothing negative. -/
structure Call (opset : Nat) (o : Options) (given : Option (List Rat × List Rat)) (x : T Rat) : Prop where
  opset : o.axis ≠ -1 → 13 ≤ opset
  bits : o.bits = 8
  even : o.up = false
  axis : o.axis = -1 ∨ 0 ≤ o.axis ∧ o.axis < x.shape.length
  some_ : ∃ i, InB x.shape i
  ranges : ∀ l, given = some l → l.1.length = channels o.axis x.shape ∧ l.2.length = channels o.axis x.shape
  narrow : ∀ l, given = some l → o.narrow = true → o.signed = true → ∀ i, InB x.shape i → l.1.getD (channel o.axis i) 0 ≤ x.get i
  unsigned : given = none → o.signed = false → ∀ i, InB x.shape i → 0 ≤ x.get i

/-- **C67**: the two operators compute what `QuantizeAndDequantize` does. -/
theorem qdq_partial {opset : Nat} {o : Options} {given : Option (List Rat × List Rat)} {x v : T Rat} (hc : Call opset o given x) (hv : IsQdq o given x v) :
    ∃ y, qdqRewrite opset o given x = .ok (some y) ∧ Same y v := by
  obtain ⟨i₀, hi₀⟩ := hc.some_
  obtain ⟨hvs, hv⟩ := hv
  have hstep : ¬ (o.axis ≠ -1 ∧ opset < 13) := fun h => absurd (hc.opset h.1) (by omega)
  obtain ⟨f1, f2, f3, f4, f5, f6⟩ := quantRange_facts o
  -- the scale of every channel
  have hch : ∀ c, c < channels o.axis x.shape → ∃ lo hi s inv, rangeOf o.axis given x c = some (lo, hi) ∧ tfScale (quantRange o).1 (quantRange o).2 lo hi = some (s, inv) := by
    intro c hcc
    obtain ⟨j, hj, rfl⟩ := exists_member hi₀ hc.axis hcc
    obtain ⟨lo, hi, h1, h2⟩ := hv j hj
    unfold tfQdq1 at h2
    rw [fixed_eq hc.bits] at h2
    cases hs : tfScale (quantRange o).1 (quantRange o).2 lo hi with
    | none => rw [hs] at h2; cases h2
    | some p => exact ⟨lo, hi, p.1, p.2, h1, hs⟩
  let g : Nat → Rat := fun c => ((rangeOf o.axis given x c).bind (fun r => (tfScale (quantRange o).1 (quantRange o).2 r.1 r.2).map Prod.snd)).getD 0
  have hg : ∀ c lo hi s inv, rangeOf o.axis given x c = some (lo, hi) → tfScale (quantRange o).1 (quantRange o).2 lo hi = some (s, inv) → g c = inv := by
    intro c lo hi s inv h1 h2
    show ((rangeOf o.axis given x c).bind _).getD 0 = inv
    rw [h1, Option.bind_some, h2]
    rfl
  obtain ⟨y, hy, hys, hyg⟩ := onnxQdq_ok (signed := o.signed) hc.axis g
  refine ⟨y, ?_, by rw [hys, hvs], fun i hi => ?_⟩
  · unfold qdqRewrite
    rw [if_neg hstep]
    cases hgv : given with
    | none =>
      dsimp only
      have hcs : computedScales o x = some ((List.range (channels o.axis x.shape)).map g) := by
        unfold computedScales
        apply mapM_opt
        intro c hcm
        obtain ⟨lo, hi, s, inv, h1, h2⟩ := hch c (List.mem_range.1 hcm)
        rw [hg c lo hi s inv h1 h2]
        rw [hgv] at h1
        obtain ⟨-, -, -, h3, h4, -⟩ := scale_facts f1 f2 h2
        unfold rangeOf at h1
        dsimp only at h1
        cases hmin : (members o.axis x c).min? with
        | none => rw [hmin] at h1; cases h1
        | some a =>
          cases hmax : (members o.axis x c).max? with
          | none => rw [hmin, hmax] at h1; cases h1
          | some b =>
            rw [hmin, hmax] at h1
            cases h1
            dsimp only
            cases hsg : o.signed with
            | true => rw [if_pos rfl, h3 (f5.2 hsg)]
            | false =>
              have : ¬ (quantRange o).1 < 0 := fun h => by rw [f5.1 h] at hsg; cases hsg
              rw [if_neg (by simp), h4 (by omega)]
      rw [hcs, Option.bind_some, hy]
    | some l =>
      obtain ⟨lo, hi⟩ := l
      obtain ⟨l1, l2⟩ := hc.ranges _ hgv
      dsimp only at l1 l2 ⊢
      have hgs : givenScales (quantRange o) lo hi = .ok ((List.range (channels o.axis x.shape)).map g) := by
        unfold givenScales
        rw [l1]
        apply mapM_exc
        intro c hcm
        have hcm := List.mem_range.1 hcm
        obtain ⟨lo', hi', s, inv, h1, h2⟩ := hch c hcm
        rw [hg c lo' hi' s inv h1 h2]
        rw [hgv] at h1
        unfold rangeOf at h1
        dsimp only at h1
        rw [if_pos ⟨by omega, by omega⟩] at h1
        cases h1
        obtain ⟨h3, -, h4, -⟩ := scale_facts f1 f2 h2
        rw [if_neg (by omega), h4, if_pos h3]
      rw [hgs]
      have hok : scalesOk o ((List.range (channels o.axis x.shape)).map g) = .ok ((List.range (channels o.axis x.shape)).map g) := by
        unfold scalesOk
        rw [if_neg]
        rintro ⟨h1, h2⟩
        apply h1
        simp [channels, h2]
      simp only [bind, Except.bind, hok, hy]
  · rw [hys] at hi
    rw [hyg i hi]
    obtain ⟨lo, hi', h1, h2⟩ := hv i hi
    obtain ⟨lo', hi'', s, inv, h3, h4⟩ := hch _ (channel_lt hi hc.axis)
    rw [h1] at h3
    cases h3
    rw [hg _ _ _ _ _ h1 h4]
    apply element hc.bits hc.even h4 h2
    · intro hgt hnr hsg
      obtain ⟨l, hl⟩ := Option.isSome_iff_exists.1 hgt
      have := hc.narrow l hl hnr hsg i hi
      rw [hl] at h1
      unfold rangeOf at h1
      dsimp only at h1
      split at h1
      · cases h1
        exact this
      · cases h1
    · intro hgf
      have hgn : given = none := by simpa using hgf
      rw [hgn] at h1
      unfold rangeOf at h1
      dsimp only at h1
      have hmem := mem_members (axis := o.axis) hi
      cases hmin : (members o.axis x (channel o.axis i)).min? with
      | none => rw [hmin] at h1; cases h1
      | some a =>
        cases hmax : (members o.axis x (channel o.axis i)).max? with
        | none => rw [hmin, hmax] at h1; cases h1
        | some b =>
          rw [hmin, hmax] at h1
          cases h1
          refine ⟨?_, fun _ => ?_, fun hsg => hc.unsigned hgn hsg i hi⟩
          · exact ((List.max?_eq_some_iff).1 hmax).2 _ hmem
          · exact ((List.min?_eq_some_iff).1 hmin).2 _ hmem

end Verif.Quant
