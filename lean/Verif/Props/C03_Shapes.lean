import Mathlib.Data.List.Forall2
import Verif.Model.Shapes
/-!
# C03: shape merging is sound and lossless
-/
namespace Verif.Shapes

/-! ## Specification: what a static shape says about a tensor -/

/-- A run-time size matches a static dimension: an unknown dimension (`None`, `-1`, `0`) says nothing. -/
def DimMatches (d : Dim) (n : Nat) : Prop := ∀ k : Int, d = some k → 0 < k → (n : Int) = k

/-- A run-time shape matches a static shape. -/
def Matches (s : Shape) (c : List Nat) : Prop := ∀ l, s = some l → List.Forall₂ DimMatches l c

/-! ## Lemmas -/

theorem dimMatches_unknown {d : Dim} (h : isUnknownDim d = true) (n : Nat) : DimMatches d n := by
  intro k hk hpos
  subst hk
  simp [isUnknownDim] at h; omega

theorem dimMatches_known {d : Dim} (h : isUnknownDim d = false) : ∃ k : Nat, d = some (k : Int) ∧ 0 < k := by
  match d with
  | none => simp [isUnknownDim] at h
  | some k => simp [isUnknownDim] at h; exact ⟨k.toNat, by simp; omega, by omega⟩

theorem forall₂_cons_iff {α β} {R : α → β → Prop} {a : α} {l : List α} {c : List β} :
    List.Forall₂ R (a :: l) c ↔ ∃ b c', c = b :: c' ∧ R a b ∧ List.Forall₂ R l c' := by
  constructor
  · intro h
    cases h with
    | cons h1 h2 => exact ⟨_, _, rfl, h1, h2⟩
  · rintro ⟨b, c', rfl, h1, h2⟩; exact .cons h1 h2

theorem mergeDims_matches {a b r : List Dim} (hlen : a.length = b.length) (h : mergeDims a b = .ok r)
    (c : List Nat) :
    List.Forall₂ DimMatches r c ↔ List.Forall₂ DimMatches a c ∧ List.Forall₂ DimMatches b c := by
  induction a generalizing b r c with
  | nil =>
    cases b with
    | nil => simp [mergeDims] at h; subst h; simp
    | cons _ _ => simp at hlen
  | cons d1 a ih =>
    cases b with
    | nil => simp at hlen
    | cons d2 b =>
      simp at hlen
      cases hm : mergeDims a b with
      | error e => simp [mergeDims, hm, bind, Except.bind] at h; (repeat' split at h) <;> cases h
      | ok t =>
        have ih := ih hlen hm
        simp only [mergeDims, hm, bind, Except.bind] at h
        split at h
        · rename_i hu
          cases h
          simp only [forall₂_cons_iff]
          constructor
          · rintro ⟨n, c', rfl, h1, h2⟩
            exact ⟨⟨n, c', rfl, dimMatches_unknown hu n, ((ih c').1 h2).1⟩, ⟨n, c', rfl, h1, ((ih c').1 h2).2⟩⟩
          · rintro ⟨⟨n, c', rfl, _, h2⟩, ⟨n', c'', he, h1, h3⟩⟩
            cases he
            exact ⟨n, c', rfl, h1, (ih c').2 ⟨h2, h3⟩⟩
        · split at h
          · split at h
            · rename_i heq
              cases h
              subst heq
              simp only [forall₂_cons_iff]
              constructor
              · rintro ⟨n, c', rfl, h1, h2⟩
                exact ⟨⟨n, c', rfl, h1, ((ih c').1 h2).1⟩, ⟨n, c', rfl, h1, ((ih c').1 h2).2⟩⟩
              · rintro ⟨⟨n, c', rfl, h1, h2⟩, ⟨n', c'', he, _, h3⟩⟩
                cases he
                exact ⟨n, c', rfl, h1, (ih c').2 ⟨h2, h3⟩⟩
            · cases h
          · rename_i hu
            simp at hu
            cases h
            simp only [forall₂_cons_iff]
            constructor
            · rintro ⟨n, c', rfl, h1, h2⟩
              exact ⟨⟨n, c', rfl, h1, ((ih c').1 h2).1⟩, ⟨n, c', rfl, dimMatches_unknown hu n, ((ih c').1 h2).2⟩⟩
            · rintro ⟨⟨n, c', rfl, h1, h2⟩, ⟨n', c'', he, _, h3⟩⟩
              cases he
              exact ⟨n, c', rfl, h1, (ih c').2 ⟨h2, h3⟩⟩

/-- A run-time shape that matches a list of dimensions always exists. -/
theorem exists_forall₂ (l : List Dim) : ∃ c, List.Forall₂ DimMatches l c := by
  induction l with
  | nil => exact ⟨[], .nil⟩
  | cons d l ih =>
    obtain ⟨c, hc⟩ := ih
    refine ⟨(d.getD 0).toNat :: c, .cons ?_ hc⟩
    intro k hk hpos; subst hk; simp; omega

theorem mergeDims_ok_of_common {a b : List Dim} {c : List Nat} (ha : List.Forall₂ DimMatches a c)
    (hb : List.Forall₂ DimMatches b c) : ∃ r, mergeDims a b = .ok r := by
  induction ha generalizing b with
  | nil => exact ⟨[], by cases hb; rfl⟩
  | @cons d1 n a c h1 _ ih =>
    cases hb with
    | @cons d2 _ b _ h2 hb =>
      obtain ⟨r, hr⟩ := ih hb
      simp only [mergeDims, hr, bind, Except.bind]
      split
      · exact ⟨_, rfl⟩
      · rename_i hu1
        split
        · rename_i hu2
          simp at hu1 hu2
          obtain ⟨k1, rfl, hk1⟩ := dimMatches_known hu1
          obtain ⟨k2, rfl, hk2⟩ := dimMatches_known hu2
          have e1 := h1 k1 rfl (by omega)
          have e2 := h2 k2 rfl (by omega)
          rw [if_pos (by simp; omega)]
          exact ⟨_, rfl⟩
        · exact ⟨_, rfl⟩

theorem forall₂_length {l : List Dim} {c : List Nat} (h : List.Forall₂ DimMatches l c) : l.length = c.length := by
  induction h with
  | nil => rfl
  | cons _ _ ih => simp [ih]

theorem exists_matches (s : Shape) : ∃ c, Matches s c := by
  match s with
  | none => exact ⟨[], by intro l h; cases h⟩
  | some l =>
    obtain ⟨c, hc⟩ := exists_forall₂ l
    exact ⟨c, by intro l' h; cases h; exact hc⟩

/-! ## Theorems -/

/-- C03: the merged shape says exactly what the two shapes say together. -/
theorem merge_shapes_exact (a b r : Shape) (h : mergeShapes a b = .ok r) (c : List Nat) :
    Matches r c ↔ Matches a c ∧ Matches b c := by
  match a, b with
  | none, b => simp [mergeShapes] at h; subst h; simp [Matches]
  | some a, none => simp [mergeShapes] at h; subst h; simp [Matches]
  | some a, some b =>
    simp only [mergeShapes, bind, Except.bind] at h
    split at h
    · rename_i hlen
      cases hm : mergeDims a b with
      | error e => rw [hm] at h; cases h
      | ok t =>
        rw [hm] at h; cases h
        simpa [Matches] using mergeDims_matches hlen hm c
    · cases h

/-- C03: merging succeeds exactly when some run-time shape is allowed by both. -/
theorem merge_shapes_succeeds_iff (a b : Shape) :
    (∃ r, mergeShapes a b = .ok r) ↔ ∃ c, Matches a c ∧ Matches b c := by
  constructor
  · rintro ⟨r, h⟩
    obtain ⟨c, hc⟩ := exists_matches r
    exact ⟨c, (merge_shapes_exact a b r h c).1 hc⟩
  · rintro ⟨c, ha, hb⟩
    match a, b with
    | none, b => exact ⟨b, rfl⟩
    | some a, none => exact ⟨some a, rfl⟩
    | some a, some b =>
      have ha := ha a rfl
      have hb := hb b rfl
      obtain ⟨r, hr⟩ := mergeDims_ok_of_common ha hb
      refine ⟨some r, ?_⟩
      simp [mergeShapes, forall₂_length ha, forall₂_length hb, hr, bind, Except.bind]

/-- C03: `are_shapes_compatible` decides exactly the existence of a common run-time shape. -/
theorem are_shapes_compatible_iff (a b : Shape) :
    areShapesCompatible a b = true ↔ ∃ c, Matches a c ∧ Matches b c := by
  rw [← merge_shapes_succeeds_iff]
  unfold areShapesCompatible
  cases mergeShapes a b <;> simp

/-- C03: commutativity (same success, same meaning). -/
theorem merge_shapes_comm (a b : Shape) :
    ((∃ r, mergeShapes a b = .ok r) ↔ ∃ r, mergeShapes b a = .ok r) ∧
    ∀ r r', mergeShapes a b = .ok r → mergeShapes b a = .ok r' → ∀ c, Matches r c ↔ Matches r' c := by
  refine ⟨?_, ?_⟩
  · simp only [merge_shapes_succeeds_iff]
    constructor <;> rintro ⟨c, h1, h2⟩ <;> exact ⟨c, h2, h1⟩
  · intro r r' h h' c
    rw [merge_shapes_exact a b r h, merge_shapes_exact b a r' h', and_comm]

/-- C03: associativity (same success, same meaning). -/
theorem merge_shapes_assoc (a b c : Shape) :
    ((∃ ab r, mergeShapes a b = .ok ab ∧ mergeShapes ab c = .ok r) ↔
      ∃ bc r, mergeShapes b c = .ok bc ∧ mergeShapes a bc = .ok r) ∧
    ∀ ab r bc r', mergeShapes a b = .ok ab → mergeShapes ab c = .ok r → mergeShapes b c = .ok bc →
      mergeShapes a bc = .ok r' → ∀ x, Matches r x ↔ Matches r' x := by
  refine ⟨⟨?_, ?_⟩, ?_⟩
  · rintro ⟨ab, r, h1, h2⟩
    obtain ⟨x, hx1, hx2⟩ := (merge_shapes_succeeds_iff ab c).1 ⟨r, h2⟩
    obtain ⟨hxa, hxb⟩ := (merge_shapes_exact a b ab h1 x).1 hx1
    obtain ⟨bc, hbc⟩ := (merge_shapes_succeeds_iff b c).2 ⟨x, hxb, hx2⟩
    obtain ⟨r', hr'⟩ := (merge_shapes_succeeds_iff a bc).2 ⟨x, hxa, (merge_shapes_exact b c bc hbc x).2 ⟨hxb, hx2⟩⟩
    exact ⟨bc, r', hbc, hr'⟩
  · rintro ⟨bc, r, h1, h2⟩
    obtain ⟨x, hx1, hx2⟩ := (merge_shapes_succeeds_iff a bc).1 ⟨r, h2⟩
    obtain ⟨hxb, hxc⟩ := (merge_shapes_exact b c bc h1 x).1 hx2
    obtain ⟨ab, hab⟩ := (merge_shapes_succeeds_iff a b).2 ⟨x, hx1, hxb⟩
    obtain ⟨r', hr'⟩ := (merge_shapes_succeeds_iff ab c).2 ⟨x, (merge_shapes_exact a b ab hab x).2 ⟨hx1, hxb⟩, hxc⟩
    exact ⟨ab, r', hab, hr'⟩
  · intro ab r bc r' h1 h2 h3 h4 x
    rw [merge_shapes_exact _ _ _ h2, merge_shapes_exact _ _ _ h1, merge_shapes_exact _ _ _ h4,
      merge_shapes_exact _ _ _ h3, and_assoc]

/-- C03: idempotence, literally. -/
theorem merge_shapes_self (a : Shape) : mergeShapes a a = .ok a := by
  match a with
  | none => rfl
  | some a =>
    have : mergeDims a a = .ok a := by
      induction a with
      | nil => rfl
      | cons d a ih => simp only [mergeDims, ih, bind, Except.bind]; split <;> simp
    simp [mergeShapes, this, bind, Except.bind]

/-- `are_shapes_equal` is equality. -/
theorem are_shapes_equal_iff (a b : Shape) : areShapesEqual a b = true ↔ a = b := by
  match a, b with
  | none, none => simp [areShapesEqual]
  | none, some _ => simp [areShapesEqual]
  | some _, none => simp [areShapesEqual]
  | some a, some b =>
    have key : ∀ a b : List Dim, a.length = b.length →
        ((a.zip b).all (fun p => p.1 == p.2) = true ↔ a = b) := by
      intro a
      induction a with
      | nil => intro b h; cases b <;> simp_all
      | cons x a ih =>
        intro b h
        cases b with
        | nil => simp at h
        | cons y b => simp at h; have := ih b h; simp at this; simp [this]
    unfold areShapesEqual
    by_cases hl : a.length = b.length
    · simp only [hl, ne_eq, not_true_eq_false, if_false, Option.some.injEq]; exact key a b hl
    · simp only [ne_eq, hl, not_false_eq_true, if_true, Option.some.injEq]
      constructor
      · intro h; cases h
      · rintro rfl; exact absurd rfl hl

/-- Non-trivial instances: a successful merge of partially known shapes and an incompatible pair. -/
example : mergeShapes (some [some (-1), some 3, none]) (some [some 2, some 3, some (-1)])
    = .ok (some [some 2, some 3, some (-1)]) := by rfl
example : areShapesCompatible (some [some 2, some 3]) (some [some 2, some 4]) = false := by decide
example : Matches (some [some (-1), some 3]) [7, 3] := by
  intro l h; cases h
  exact .cons (by intro k hk; cases hk; omega) (.cons (by intro k hk; cases hk; omega) .nil)

end Verif.Shapes
