import Verif.Model.CastOpt
import Mathlib.Tactic.NormNum
import Mathlib.Tactic.Ring
import Mathlib.Tactic.Linarith
/-!
# C17: removing a cast in a chain of casts
-/
namespace Verif.Cast

/-- A conforming `Cast` exists. -/
theorem conforming_exists : ∃ cast, Conforming cast := by
  classical
  refine ⟨fun t v =>
    if HasType t v then v else
    match v with
    | .num q =>
      if t = .bool then .num (if q = 0 then 0 else 1) else
      match intRange t with
      | some r => if r.1 ≤ trunc q ∧ trunc q ≤ r.2 then .num (trunc q) else .num 0
      | none => if (floatFormat t).isSome then .nan else if t = .string then .str "" else .cplx 0 0
    | _ => if t = .string then .str "" else if t = .bool then .num 0 else
      if (intRange t).isSome then .num 0 else if (floatFormat t).isSome then .nan else .cplx 0 0, ?_, ?_, ?_, ?_⟩
  · intro t v
    by_cases h : HasType t v
    · simp [h]
    · simp only [h, if_false]
      have z : ∀ r, intRange t = some r → r.1 ≤ 0 ∧ 0 ≤ r.2 := by
        intro r hr
        cases t <;> simp [intRange] at hr <;> subst hr <;> norm_num
      cases v with
      | num q =>
        simp only
        split
        · rename_i hb
          right; right
          refine ⟨hb, ?_⟩
          split <;> simp
        · rename_i hb
          cases hr : intRange t with
          | some r =>
            simp only
            split
            · rename_i hin
              exact Or.inl ⟨r, hr, trunc q, rfl, hin.1, hin.2⟩
            · exact Or.inl ⟨r, hr, 0, by simp, (z r hr).1, (z r hr).2⟩
          | none =>
            cases t <;> simp [intRange, floatFormat, HasType] at hr hb ⊢
      | _ => cases t <;> simp [intRange, floatFormat, HasType] <;> exact ⟨0, by simp, by norm_num, by norm_num⟩
  · intro t v h
    simp [h]
  · intro t r q hr h1 h2
    by_cases h : HasType t (.num q)
    · simp only [h, if_true]
      rcases h with ⟨r', hr', i, hi, _⟩ | ⟨f, hf, _⟩ | ⟨hb, _⟩
      · subst hi
        simp [trunc]
      · cases t <;> simp [intRange, floatFormat] at hr hf
      · subst hb; simp [intRange] at hr
    · have hb : t ≠ .bool := by rintro rfl; simp [intRange] at hr
      simp [h, hb, hr, h1, h2]
  · intro q
    by_cases h : HasType .bool (.num q)
    · simp only [h, if_true]
      rcases h with ⟨r', hr', _⟩ | ⟨f, hf, _⟩ | ⟨_, h0 | h1⟩
      · simp [intRange] at hr'
      · simp [floatFormat] at hf
      · simp [h0]
      · simp [h1]
    · simp [h]

/-- Every value of type `s` is a value of type `t`. -/
def Embeds (s t : DT) : Prop := ∀ v, HasType s v → HasType t v

/-- Types the handler treats as holding as much information as anything else: floats and strings. -/
def HighInfo (t : DT) : Prop := t = .float ∨ t = .float16 ∨ t = .double ∨ t = .string

instance (t : DT) : Decidable (HighInfo t) := by unfold HighInfo; infer_instance

/-- A cast to an integer, boolean or odd type is never skipped for a consumer casting to another type, unless it is an
integer type and the consumer casts to bool. -/
theorem okToSkip_false {type1 type2 : DT} (h1 : ¬ HighInfo type1) (h2 : ¬ ((intRange type1).isSome ∧ type2 = .bool))
    (hne : type2 ≠ type1) : okToSkip type1 type2 = false := by
  cases type1 <;> cases type2 <;> first
    | exact absurd rfl hne
    | (exfalso; revert h1; decide)
    | (exfalso; revert h2; decide)
    | decide

/-- **C17, the parts of the claim that hold.** Let `v` be the operand of a cast to `type1` whose consumers are casts,
and let a parent cast (if any) have produced `v`. What each consumer computes is unchanged by the handler for every
conforming runtime when one of these holds: the parent casts to the same type (the handler's first rule); the
consumer casts to `type1` too; every value of the operand's type exists in `type1`; or `type1` is neither a float nor the
string type and this is not an integer type followed by bool (then the operand and the target may be anything).
Missing: the other removals the handler performs, which are wrong in general (see the witnesses below). -/
theorem cast_chain_partial (cast : DT → Val → Val) (hc : Conforming cast) (parent : Option DT) (type0 type1 type2 : DT)
    (consumers : List DT) (v : Val) (h0 : HasType type0 v) (hpar : ∀ t, parent = some t → t = type0)
    (hmem : type2 ∈ consumers)
    (h : parent = some type1 ∨ type2 = type1 ∨ Embeds type0 type1 ∨
      (¬ HighInfo type1 ∧ ¬ ((intRange type1).isSome ∧ type2 = .bool))) :
    after cast parent type1 consumers type2 v = before cast type1 type2 v := by
  have hpar' : parent = some type1 → cast type1 v = v := fun h => hc.exact type1 v (hpar _ h ▸ h0)
  unfold after before
  split
  · rename_i hr
    rcases h with h | h | h | ⟨h1, h2⟩
    · rw [hpar' h]
    · subst h; rw [hc.exact _ _ (hc.typed _ _)]
    · rw [hc.exact type1 v (h v h0)]
    · unfold removes at hr
      rw [Bool.or_eq_true] at hr
      rcases hr with hr | hr
      · rw [hpar' (of_decide_eq_true hr)]
      · have hs := List.all_eq_true.1 hr _ hmem
        by_cases hne : type2 = type1
        · subst hne; rw [hc.exact _ _ (hc.typed _ _)]
        · rw [okToSkip_false h1 h2 hne] at hs
          cases hs
  · rfl

/-- Instances of the last case: float → int32 → {int64, int32}, and float → bool → float, are left alone. -/
example : removes none .int32 [.int64, .int32] = false ∧ removes none .bool [.float] = false ∧
    (¬ HighInfo .int32 ∧ ¬ ((intRange .int32).isSome ∧ DT.int64 = .bool)) := by decide

theorem FloatRep.mono {p b k p' b' k' : Nat} {q : ℚ} (hp : p ≤ p') (hb : b ≤ b')
    (hk : k + (b' - b) ≤ k' + (p' - p)) (h : FloatRep p b k q) : FloatRep p' b' k' q := by
  obtain ⟨m, e, hm, he, hq⟩ := h
  have hq' : q * 2 ^ b' = m * 2 ^ (e + (b' - b)) := by
    rw [pow_add, ← mul_assoc, ← hq, mul_assoc, ← pow_add]
    congr 2
    omega
  rcases Nat.le_total (e + (b' - b)) k' with hle | hle
  · exact ⟨m, e + (b' - b), lt_of_lt_of_le hm (pow_le_pow_right₀ (by norm_num) hp), hle, hq'⟩
  · obtain ⟨d, hd⟩ : ∃ d, e + (b' - b) = d + k' := ⟨e + (b' - b) - k', by omega⟩
    refine ⟨m * 2 ^ d, k', ?_, le_refl _, ?_⟩
    · rw [abs_mul, abs_of_nonneg (pow_nonneg (by norm_num) d : (0 : Int) ≤ 2 ^ d)]
      calc |m| * 2 ^ d < 2 ^ p * 2 ^ d := by
            exact mul_lt_mul_of_pos_right hm (pow_pos (by norm_num) d)
        _ = 2 ^ (p + d) := (pow_add _ _ _).symm
        _ ≤ 2 ^ p' := pow_le_pow_right₀ (by norm_num) (by omega)
    · rw [hq', hd, pow_add]
      push_cast
      ring

theorem FloatRep.ofInt {p b k : Nat} {i : Int} (hk : b ≤ k) (hi : |i| < 2 ^ p) : FloatRep p b k (i : ℚ) :=
  ⟨i, b, hi, hk, rfl⟩

/-- Floating types that contain each other, integer types and booleans that fit a significand. -/
theorem embeds_float : Embeds .float16 .float ∧ Embeds .float16 .double ∧ Embeds .bfloat16 .float ∧
    Embeds .bfloat16 .double ∧ Embeds .float .double := by
  have key : ∀ s t fs ft, floatFormat s = some fs → floatFormat t = some ft → intRange s = none → s ≠ .bool →
      s ≠ .string → s ≠ .complex64 → s ≠ .complex128 →
      fs.1 ≤ ft.1 → fs.2.1 ≤ ft.2.1 → fs.2.2 + (ft.2.1 - fs.2.1) ≤ ft.2.2 + (ft.1 - fs.1) → Embeds s t := by
    intro s t fs ft hs ht hi hb hst h64 h128 h1 h2 h3 v hv
    cases v with
    | num q =>
      rcases hv with ⟨r, hr, _⟩ | ⟨f, hf, hq⟩ | ⟨hb', _⟩
      · rw [hi] at hr; cases hr
      · rw [hs] at hf; cases hf
        exact Or.inr (Or.inl ⟨ft, ht, hq.mono h1 h2 h3⟩)
      · exact absurd hb' hb
    | str s => exact absurd hv hst
    | cplx a b => rcases hv with hv | hv; exacts [absurd hv h64, absurd hv h128]
    | _ => simp [HasType, ht]
  refine ⟨?_, ?_, ?_, ?_, ?_⟩ <;>
    exact key _ _ _ _ rfl rfl rfl (by simp) (by simp) (by simp) (by simp) (by decide) (by decide) (by decide)

theorem embeds_int : (∀ s ∈ [DT.int8, .int16, .uint8, .uint16, .bool], Embeds s .float) ∧
    (∀ s ∈ [DT.int8, .int16, .int32, .uint8, .uint16, .uint32, .bool], Embeds s .double) ∧
    (∀ s ∈ [DT.int8, .uint8, .bool], Embeds s .float16) := by
  have key : ∀ s t ft, floatFormat t = some ft → floatFormat s = none → s ≠ .string → s ≠ .complex64 →
      s ≠ .complex128 → ft.2.1 ≤ ft.2.2 → 0 < ft.1 →
      (∀ r, intRange s = some r → -2 ^ ft.1 < r.1 ∧ r.2 < 2 ^ ft.1) → Embeds s t := by
    intro s t ft ht hs hst h64 h128 h1 hpos h2 v hv
    cases v with
    | num q =>
      rcases hv with ⟨r, hr, i, rfl, hl, hu⟩ | ⟨f, hf, hq⟩ | ⟨hb, hq⟩
      · have := h2 r hr
        exact Or.inr (Or.inl ⟨ft, ht, FloatRep.ofInt h1 (abs_lt.2 ⟨by omega, by omega⟩)⟩)
      · rw [hs] at hf; cases hf
      · have hone : (1 : Int) < 2 ^ ft.1 := by
          have := Nat.one_lt_two_pow (n := ft.1) (by omega)
          exact_mod_cast this
        rcases hq with rfl | rfl
        · have := FloatRep.ofInt (p := ft.1) (i := 0) h1 (by simp)
          exact Or.inr (Or.inl ⟨ft, ht, by simpa using this⟩)
        · have := FloatRep.ofInt (p := ft.1) (i := 1) h1 (by simpa using hone)
          exact Or.inr (Or.inl ⟨ft, ht, by simpa using this⟩)
    | str s => exact absurd hv hst
    | cplx a b => rcases hv with hv | hv; exacts [absurd hv h64, absurd hv h128]
    | nan => simp [HasType, hs] at hv
    | posInf => simp [HasType, hs] at hv
    | negInf => simp [HasType, hs] at hv
  refine ⟨?_, ?_, ?_⟩ <;> intro s hs <;> simp only [List.mem_cons, List.not_mem_nil, or_false] at hs <;>
    rcases hs with rfl | rfl | rfl | rfl | rfl | rfl | rfl <;>
    refine key _ _ _ rfl rfl (by simp) (by simp) (by simp) (by decide) (by decide) ?_ <;>
    (intro r hr; simp [intRange] at hr; try (subst hr; norm_num))

/-- Instance of the theorem: int8 → float → int32 is reduced to int8 → int32, and int8 embeds in float. -/
example : removes none .float [.int32] = true ∧ Embeds .int8 .float := ⟨by decide, embeds_int.1 _ (by simp)⟩

/-- **C17 is violated**: a cast to an integer type before a cast to bool is removed, but 0.5 truncates to 0 (false)
while it is true directly. -/
theorem cast_chain_int_bool_violated (cast : DT → Val → Val) (hc : Conforming cast) :
    HasType .float (.num (1 / 2)) ∧
    after cast none .int32 [.bool] .bool (.num (1 / 2)) ≠ before cast .int32 .bool (.num (1 / 2)) := by
  constructor
  · exact Or.inr (Or.inl ⟨_, rfl, 1, 148, by norm_num, by norm_num, by norm_num⟩)
  · have ht : trunc (1 / 2 : ℚ) = 0 := by
      unfold trunc
      rw [if_pos (by norm_num), Int.floor_eq_iff]
      norm_num
    have h1 : cast .int32 (.num (1 / 2)) = .num ((0 : Int) : ℚ) := by
      rw [hc.toInt .int32 _ (1 / 2) rfl (by rw [ht]; norm_num) (by rw [ht]; norm_num), ht]
    unfold after before
    rw [if_pos (by decide), h1, hc.toBool, hc.toBool]
    simp

theorem not_float16_2049 : ¬ FloatRep 11 24 29 2049 := by
  rintro ⟨m, e, hm, he, hq⟩
  have hz : (2049 : Int) * 2 ^ 24 = m * 2 ^ e := by exact_mod_cast hq
  rcases Nat.lt_or_ge 24 e with h | h
  · obtain ⟨d, rfl⟩ : ∃ d, e = 25 + d := ⟨e - 25, by omega⟩
    rw [pow_add] at hz
    have h2 : (2049 : Int) = 2 * (m * 2 ^ d) := by
      have : (2 : Int) ^ 25 = 2 * 2 ^ 24 := by norm_num
      rw [this] at hz
      have hz' : (2 : Int) ^ 24 * 2049 = 2 ^ 24 * (2 * (m * 2 ^ d)) := by rw [mul_comm, hz]; ring
      exact mul_left_cancel₀ (by norm_num) hz'
    omega
  · obtain ⟨d, hd⟩ : ∃ d, 24 = e + d := ⟨24 - e, by omega⟩
    have h2 : m = 2049 * 2 ^ d := by
      have : (2 : Int) ^ 24 = 2 ^ e * 2 ^ d := by rw [← pow_add, ← hd]
      rw [this] at hz
      have hz' : (2 : Int) ^ e * m = 2 ^ e * (2049 * 2 ^ d) := by rw [mul_comm, ← hz]; ring
      exact mul_left_cancel₀ (pow_ne_zero _ (by norm_num)) hz'
    have h3 : (1 : Int) ≤ 2 ^ d := one_le_pow₀ (by norm_num)
    rw [h2, abs_of_nonneg (by omega)] at hm
    norm_num at hm
    omega

/-- **C17 is violated**: int32 → float16 → double is reduced to int32 → double, but 2049 is no float16. -/
theorem cast_chain_float16_violated (cast : DT → Val → Val) (hc : Conforming cast) :
    HasType .int32 (.num 2049) ∧
    after cast none .float16 [.double] .double (.num 2049) ≠ before cast .float16 .double (.num 2049) := by
  have ht0 : HasType .int32 (.num 2049) := Or.inl ⟨_, rfl, 2049, by norm_num, by norm_num, by norm_num⟩
  have htd : HasType .double (.num 2049) := (embeds_int.2.1 .int32 (by simp)) _ ht0
  refine ⟨ht0, ?_⟩
  unfold after before
  rw [if_pos (by decide), hc.exact _ _ htd]
  have hty := hc.typed .float16 (.num 2049)
  rw [hc.exact .double _ (embeds_float.2.1 _ hty)]
  intro heq
  rw [← heq] at hty
  rcases hty with ⟨r, hr, _⟩ | ⟨f, hf, hq⟩ | ⟨hb, _⟩
  · simp [intRange] at hr
  · simp only [floatFormat, Option.some.injEq] at hf
    subst hf
    exact not_float16_2049 hq
  · simp at hb

end Verif.Cast
