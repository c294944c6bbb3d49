import Verif.Model.ShapeInf
import Mathlib.Data.List.Forall2
import Mathlib.Tactic.Linarith
/-!
# C36: inferred shapes are true

Specification: `σ` gives the shape every tensor has in one execution. `OpSem σ o` says that the execution respects what
TensorFlow documents about the op's shapes.
-/
namespace Verif.ShapeInf

/-! ## Specification -/

/-- The `k`-th dimension from the right; missing dimensions count as 1. -/
def fromRight (l : List Nat) (k : Nat) : Nat := l.reverse.getD k 1

/-- numpy / TensorFlow broadcasting of two shapes. -/
def Broadcast (a b o : List Nat) : Prop :=
  o.length = max a.length b.length ∧ ∀ k < o.length,
    (fromRight a k = fromRight b k ∧ fromRight o k = fromRight a k) ∨ (fromRight a k = 1 ∧ fromRight o k = fromRight b k) ∨
    (fromRight b k = 1 ∧ fromRight o k = fromRight a k)

/-- An axis of a tensor of rank `n`: negative axes count from the end. -/
def IsAxis (n : Nat) (axis : Int) (k : Nat) : Prop := k < n ∧ (axis = k ∨ axis + n = k)

instance (n : Nat) (a : Int) (k : Nat) : Decidable (IsAxis n a k) := by unfold IsAxis; infer_instance

/-- The shapes of a run respect the op. -/
def OpSem (σ : Nat → List Nat) (o : Op) : Prop :=
  match o.kind with
  | .placeholder (some a) => List.Forall₂ (fun (d : Int) (n : Nat) => d < 0 ∨ d = n) a (σ (o.out 0))
  | .merge => σ (o.out 0) = σ (o.inp 0) ∧ σ (o.out 0) = σ (o.inp 1)
  | .switch => σ (o.out 0) = σ (o.inp 0) ∧ σ (o.out 1) = σ (o.inp 0)
  | .enter | .direct => σ (o.out 0) = σ (o.inp 0)
  | .taGather (some w) => ∃ n, σ (o.out 0) = n :: σ w
  | .taRead (some w) => ∃ n, σ w = n :: σ (o.out 0)
  | .broadcast | .minMax | .pow => Broadcast (σ (o.inp 0)) (σ (o.inp 1)) (σ (o.out 0))
  | .randomUniform (some t) => σ (o.out 0) = σ t
  | .gather (some axis) => ∃ k, IsAxis (σ (o.inp 0)).length axis k ∧
      σ (o.out 0) = (σ (o.inp 0)).take k ++ σ (o.inp 1) ++ (σ (o.inp 0)).drop (k + 1)
  | .reduce (some axes) keep => (∀ a ∈ axes, ∃ k, IsAxis (σ (o.inp 0)).length a k) ∧
      σ (o.out 0) = (σ (o.inp 0)).zipIdx.flatMap (fun p =>
        if ∃ a ∈ axes, IsAxis (σ (o.inp 0)).length a p.2 then (if keep then [1] else []) else [p.1])
  | .expandDims (some dim) => ∃ k, IsAxis ((σ (o.inp 0)).length + 1) dim k ∧
      σ (o.out 0) = (σ (o.inp 0)).take k ++ [1] ++ (σ (o.inp 0)).drop k
  | .unpack axis => ∃ k, IsAxis (σ (o.inp 0)).length axis k ∧
      ∀ t ∈ o.outputs, σ t = (σ (o.inp 0)).take k ++ (σ (o.inp 0)).drop (k + 1)
  | .select => σ (o.inp 1) = σ (o.out 0) ∧ σ (o.inp 2) = σ (o.out 0)
  | .selectV2 => ∃ m, Broadcast (σ (o.inp 1)) (σ (o.inp 2)) m ∧ Broadcast (σ (o.inp 0)) m (σ (o.out 0))
  | .pack axis => ∃ s k, (∀ t ∈ o.inputs, σ t = s) ∧ IsAxis (s.length + 1) axis k ∧
      σ (o.out 0) = s.take k ++ [o.inputs.length] ++ s.drop k
  | _ => True

/-- A static shape is true of a run-time shape. -/
def Fits (s : List Dim) (l : List Nat) : Prop := List.Forall₂ (fun d n => d = none ∨ d = some n) s l

/-- All known static shapes are true. -/
def Agrees (st : Store) (σ : Nat → List Nat) : Prop := ∀ t s, st t = some s → Fits s (σ t)

/-- What the inference needs beyond `OpSem`; for each of these the property is false without it, see below. -/
def Safe (st0 : Store) (σ : Nat → List Nat) (o : Op) : Prop :=
  match o.kind with
  | .placeholder none => σ (o.out 0) = []
  | .broadcast | .minMax => (σ (o.inp 0)).length = (σ (o.inp 1)).length ∨ σ (o.inp 0) = [] ∨ σ (o.inp 1) = []
  | .gather (some axis) => 0 ≤ axis
  | .pack axis => 0 ≤ axis
  | .pow => σ (o.out 0) = σ (o.inp 0) ∧ (σ (o.out 0) = σ (o.inp 1) ∨ (st0 (o.inp 0)).isSome)
  | .selectV2 => σ (o.inp 1) = σ (o.out 0) ∧ σ (o.inp 2) = σ (o.out 0)
  | _ => True

/-- Nothing that was known is forgotten. -/
def Mono (st st' : Store) : Prop := ∀ t, (st t).isSome → (st' t).isSome

theorem Mono.refl (st : Store) : Mono st st := fun _ h => h
theorem Mono.trans {a b c : Store} (h : Mono a b) (h' : Mono b c) : Mono a c := fun t ht => h' t (h t ht)

/-! ## set_shape -/

theorem mergeList_fits {s s' : List Dim} {l : List Nat} (h : Fits s l) (h' : Fits s' l) :
    ∃ m, mergeList s s' = .ok m ∧ Fits m l := by
  unfold Fits at *
  induction h generalizing s' with
  | nil => cases h'; exact ⟨[], rfl, .nil⟩
  | @cons d n s l hd _ ih =>
    cases h' with
    | @cons d' _ s' _ hd' h' =>
      obtain ⟨m, hm, hf⟩ := ih h'
      have hdim : ∃ e, mergeDim d d' = .ok e ∧ (e = none ∨ e = some n) := by
        rcases hd with rfl | rfl <;> rcases hd' with rfl | rfl <;> simp [mergeDim]
      obtain ⟨e, he, he'⟩ := hdim
      exact ⟨e :: m, by simp [mergeList, he, hm], .cons he' hf⟩

theorem setShape_true {st : Store} {σ : Nat → List Nat} (ha : Agrees st σ) {t : Nat} {s : List Dim} (hs : Fits s (σ t)) :
    ∃ st', setShape st t s = .ok st' ∧ Agrees st' σ ∧ Mono st st' ∧ (st' t).isSome := by
  unfold setShape
  cases h : st t with
  | none =>
    refine ⟨_, rfl, ?_, ?_, by simp⟩
    · intro x s' hx
      simp only at hx
      split at hx
      · rename_i e; subst e; cases hx; exact hs
      · exact ha x s' hx
    · intro x hx; simp only; split <;> simp [hx]
  | some s0 =>
    obtain ⟨m, hm, hf⟩ := mergeList_fits (ha t s0 h) hs
    simp only [hm]
    refine ⟨_, rfl, ?_, ?_, by simp⟩
    · intro x s' hx
      simp only at hx
      split at hx
      · rename_i e; subst e; cases hx; exact hf
      · exact ha x s' hx
    · intro x hx; simp only; split <;> simp [hx]

/-- All calls of `set_shape` pass a true shape. -/
def TrueCalls (σ : Nat → List Nat) (a : List (Nat × List Dim)) : Prop := ∀ p ∈ a, Fits p.2 (σ p.1)

theorem setShapes_true {σ : Nat → List Nat} {a : List (Nat × List Dim)} {st : Store} (ha : Agrees st σ)
    (h : TrueCalls σ a) :
    ∃ st', setShapes st a = .ok st' ∧ Agrees st' σ ∧ Mono st st' ∧ ∀ p ∈ a, (st' p.1).isSome := by
  induction a generalizing st with
  | nil => exact ⟨st, rfl, ha, .refl _, by simp⟩
  | cons p a ih =>
    obtain ⟨t, s⟩ := p
    obtain ⟨st1, h1, a1, m1, k1⟩ := setShape_true ha (h (t, s) (by simp))
    obtain ⟨st2, h2, a2, m2, k2⟩ := ih a1 (fun p hp => h p (by simp [hp]))
    refine ⟨st2, by simp [setShapes, h1, h2], a2, m1.trans m2, ?_⟩
    intro p hp
    rcases List.mem_cons.1 hp with rfl | hp
    · exact m2 _ k1
    · exact k2 p hp

/-! ## Shapes of lists -/

theorem Fits.length {s : List Dim} {l : List Nat} (h : Fits s l) : s.length = l.length := List.Forall₂.length_eq h
theorem Fits.append {s s' : List Dim} {l l' : List Nat} (h : Fits s l) (h' : Fits s' l') : Fits (s ++ s') (l ++ l') :=
  List.rel_append h h'
theorem Fits.take {s : List Dim} {l : List Nat} (h : Fits s l) (k : Nat) : Fits (s.take k) (l.take k) :=
  List.forall₂_take k h
theorem Fits.drop {s : List Dim} {l : List Nat} (h : Fits s l) (k : Nat) : Fits (s.drop k) (l.drop k) :=
  List.forall₂_drop k h
theorem Fits.one {n : Nat} : Fits [some n] [n] := .cons (Or.inr rfl) .nil

theorem pyPos_nonneg {n k : Nat} (h : k ≤ n) : pyPos n (k : Int) = k := by
  unfold pyPos
  rw [if_neg (by omega)]
  simp only [Int.toNat_natCast]
  omega

theorem fits_of_ints {a : List Int} {s : List Dim} {l : List Nat} (h : dimsOfInts a = .ok s)
    (h' : List.Forall₂ (fun (d : Int) (n : Nat) => d < 0 ∨ d = n) a l) : Fits s l := by
  induction h' generalizing s with
  | nil => simp only [dimsOfInts, Except.ok.injEq] at h; subst h; exact .nil
  | @cons d n a l hd _ ih =>
    simp only [dimsOfInts] at h
    split at h
    · cases h
    · rename_i hnn
      split at h
      · cases h
      · rename_i r hr
        cases h
        refine .cons (Or.inr ?_) (ih hr)
        rcases hd with hd | hd
        · exact absurd hd hnn
        · subst hd; simp

theorem mergeForTf_fits {s1 s2 : List Dim} {l : List Nat} (h1 : Fits s1 l) (h2 : Fits s2 l) : Fits (mergeForTf s1 s2) l := by
  unfold Fits at *
  induction h1 generalizing s2 with
  | nil => exact .nil
  | @cons d n s l hd _ ih =>
    cases h2 with
    | cons hd' h' =>
      refine .cons ?_ (ih h')
      split
      · exact hd'
      · split
        · exact Or.inl rfl
        · exact hd

/-! ## Broadcasting of shapes with the same rank -/

theorem getD_reverse {l : List Nat} {i : Nat} (h : i < l.length) : fromRight l (l.length - 1 - i) = l[i] := by
  unfold fromRight
  rw [List.getD_eq_getElem?_getD, List.getElem?_reverse (by omega)]
  have : l.length - 1 - (l.length - 1 - i) = i := by omega
  rw [this, List.getElem?_eq_getElem h]
  rfl

theorem broadcast_same {a b o : List Nat} (h : Broadcast a b o) (he : a.length = b.length) :
    o.length = a.length ∧ ∀ (i : Nat) (h1 : i < a.length) (h2 : i < b.length) (h3 : i < o.length),
      (a[i] = b[i] ∧ o[i] = a[i]) ∨ (a[i] = 1 ∧ o[i] = b[i]) ∨ (b[i] = 1 ∧ o[i] = a[i]) := by
  obtain ⟨hl, h⟩ := h
  have hlen : o.length = a.length := by rw [hl, he]; simp
  refine ⟨hlen, fun i h1 h2 h3 => ?_⟩
  have := h (o.length - 1 - i) (by omega)
  rw [getD_reverse h3] at this
  have e1 : o.length - 1 - i = a.length - 1 - i := by rw [hlen]
  have e2 : a.length - 1 - i = b.length - 1 - i := by rw [he]
  rw [e1, getD_reverse h1, e2, getD_reverse h2] at this
  exact this

theorem bcastDim_fits {d0 d1 d : Dim} {a b o : Nat} (h : bcastDim d0 d1 = some d) (h0 : d0 = none ∨ d0 = some a)
    (h1 : d1 = none ∨ d1 = some b) (hb : (a = b ∧ o = a) ∨ (a = 1 ∧ o = b) ∨ (b = 1 ∧ o = a)) : d = none ∨ d = some o := by
  unfold bcastDim at h
  split at h
  · rename_i e
    cases h
    rcases h1 with h1 | h1
    · exact Or.inl h1
    · subst h1
      rcases h0 with h0 | h0
      · rw [h0] at e; cases e
      · rw [h0] at e; cases e
        right; congr 1; omega
  · split at h
    · rename_i e; cases h
      rcases h1 with h1 | h1
      · exact Or.inl h1
      · rcases h0 with h0 | h0
        · rw [h0] at e; cases e
        · rw [h0] at e; cases e
          right; rw [h1]; congr 1; omega
    · split at h
      · rename_i e; cases h
        rcases h0 with h0 | h0
        · exact Or.inl h0
        · rcases h1 with h1 | h1
          · rw [h1] at e; cases e
          · rw [h1] at e; cases e
            right; rw [h0]; congr 1; omega
      · cases h

theorem bcastLoop_fits {s0 s1 r : List Dim} {a b o : List Nat} (h0 : Fits s0 a) (h1 : Fits s1 b)
    (he : a.length = b.length) (hl : o.length = a.length)
    (hb : ∀ (i : Nat) (h1 : i < a.length) (h2 : i < b.length) (h3 : i < o.length),
      (a[i] = b[i] ∧ o[i] = a[i]) ∨ (a[i] = 1 ∧ o[i] = b[i]) ∨ (b[i] = 1 ∧ o[i] = a[i]))
    (h : bcastLoop s0 s1 = some r) : Fits r o := by
  unfold Fits at *
  induction h0 generalizing s1 b o r with
  | nil =>
    have : b = [] := List.eq_nil_of_length_eq_zero (by simpa using he.symm)
    subst this
    cases h1
    have : o = [] := List.eq_nil_of_length_eq_zero (by simpa using hl)
    subst this
    simp only [bcastLoop, Option.some.injEq] at h
    subst h
    exact .nil
  | @cons d0 n s0 a hd0 _ ih =>
    cases h1 with
    | nil => simp at he
    | @cons d1 m s1 b hd1 h1 =>
      cases o with
      | nil => simp at hl
      | cons x o =>
        simp only [bcastLoop] at h
        split at h
        · rename_i d r' e1 e2
          cases h
          refine .cons ?_ (ih h1 (by simpa using he) (by simpa using hl) ?_ e2)
          · exact bcastDim_fits e1 hd0 hd1 (hb 0 (by simp) (by simp) (by simp))
          · intro i i1 i2 i3
            exact hb (i + 1) (by simpa using i1) (by simpa using i2) (by simpa using i3)
        · cases h

theorem fromRight_nil (k : Nat) : fromRight [] k = 1 := by simp [fromRight]

theorem eq_of_fromRight {a o : List Nat} (hl : o.length = a.length) (h : ∀ k < o.length, fromRight o k = fromRight a k) :
    o = a := by
  apply List.ext_getElem hl
  intro i h1 h2
  have := h (o.length - 1 - i) (by omega)
  rw [getD_reverse h1] at this
  have e : o.length - 1 - i = a.length - 1 - i := by rw [hl]
  rw [e, getD_reverse h2] at this
  exact this

theorem broadcast_nil_left {b o : List Nat} (h : Broadcast [] b o) : o = b := by
  obtain ⟨hl, h⟩ := h
  have hl' : o.length = b.length := by simpa using hl
  refine eq_of_fromRight hl' fun k hk => ?_
  have := h k hk
  rw [fromRight_nil] at this
  rcases this with ⟨h1, h2⟩ | ⟨_, h2⟩ | ⟨h1, h2⟩
  · rw [h2, h1]
  · exact h2
  · rw [h2, h1]

theorem broadcast_nil_right {a o : List Nat} (h : Broadcast a [] o) : o = a := by
  obtain ⟨hl, h⟩ := h
  have hl' : o.length = a.length := by simpa using hl
  refine eq_of_fromRight hl' fun k hk => ?_
  have := h k hk
  rw [fromRight_nil] at this
  rcases this with ⟨_, h2⟩ | ⟨h1, h2⟩ | ⟨_, h2⟩
  · exact h2
  · rw [h2, h1]
  · exact h2

theorem bcastDim_comm (a b : Dim) : bcastDim a b = bcastDim b a := by
  unfold bcastDim
  split_ifs <;> simp_all

theorem bcastInfer_fits {s0 s1 r : List Dim} {a b o : List Nat} (h0 : Fits s0 a) (h1 : Fits s1 b) (hb : Broadcast a b o)
    (hs : a.length = b.length ∨ a = [] ∨ b = []) (h : bcastInfer s0 s1 = some r) : Fits r o := by
  unfold bcastInfer at h
  rcases hs with he | rfl | rfl
  · rw [if_neg (by rw [h0.length, h1.length]; omega)] at h
    obtain ⟨hl, hb⟩ := broadcast_same hb he
    exact bcastLoop_fits h0 h1 he hl hb h
  · have : s0 = [] := by cases h0; rfl
    subst this
    rw [if_neg (by simp)] at h
    simp only [bcastLoop, Option.some.injEq] at h
    subst h
    rw [broadcast_nil_left hb]; exact h1
  · have : s1 = [] := by cases h1; rfl
    subst this
    rw [broadcast_nil_right hb]
    split at h
    · simp only [bcastLoop, Option.some.injEq] at h
      subst h; exact h0
    · rename_i hn
      have : s0 = [] := by
        cases s0 with
        | nil => rfl
        | cons _ _ => simp at hn
      subst this
      simp only [bcastLoop, Option.some.injEq] at h
      subst h; exact h0

/-! ## Reductions -/

theorem reduceDims_fits {axes axes' : List Int} {keep : Bool} {s : List Dim} {l : List Nat} (h : Fits s l)
    (i : Nat) {N : Nat} (hx : ∀ j : Nat, i ≤ j → j < i + l.length → ((j : Int) ∈ axes' ↔ ∃ a ∈ axes, IsAxis N a j)) :
    Fits (reduceDims axes' keep i s) ((l.zipIdx i).flatMap (fun p =>
      if ∃ a ∈ axes, IsAxis N a p.2 then (if keep then [1] else []) else [p.1])) := by
  induction h generalizing i with
  | nil => exact .nil
  | @cons d n s l hd _ ih =>
    have ih := ih (i + 1) (fun j h1 h2 => hx j (by omega) (by simp only [List.length_cons]; omega))
    have hi := hx i (Nat.le_refl _) (by simp)
    simp only [reduceDims, List.zipIdx_cons, List.flatMap_cons]
    by_cases hm : (i : Int) ∈ axes'
    · rw [if_pos hm, if_pos (hi.1 hm)]
      refine Fits.append ?_ ih
      cases keep
      · exact .nil
      · exact Fits.one
    · rw [if_neg hm, if_neg (fun h => hm (hi.2 h))]
      exact .cons hd ih

/-! ## The plans -/

theorem fits_firstKnown {st : Store} {σ : Nat → List Nat} (ha : Agrees st σ) {ts : List Nat} {s : List Dim}
    (h : firstKnown st ts = some s) : ∃ t ∈ ts, st t = some s ∧ Fits s (σ t) := by
  induction ts with
  | nil => cases h
  | cons t ts ih =>
    simp only [firstKnown] at h
    split at h
    · rename_i s' hs'
      cases h
      exact ⟨t, by simp, hs', ha _ _ hs'⟩
    · obtain ⟨t', h1, h2⟩ := ih h
      exact ⟨t', by simp [h1], h2⟩

theorem planOp_true {st st0 : Store} {σ : Nat → List Nat} {o : Op} (ha : Agrees st σ) (hm : OpSem σ o) (hs : Safe st0 σ o)
    {a : List (Nat × List Dim)} (h : planOp st o = .ok (some a)) : TrueCalls σ a := by
  unfold planOp at h
  split at h
  · cases h
  unfold OpSem at hm
  unfold Safe at hs
  cases hk : o.kind with
  | placeholder at_ =>
    rw [hk] at h hm hs
    cases at_ with
    | none =>
      simp only [Except.ok.injEq, Option.some.injEq] at h hs
      subst h
      intro p hp
      simp only [List.mem_singleton] at hp
      subst hp
      simp only [hs]
      exact .nil
    | some a0 =>
      simp only at h hm
      split at h
      · cases h
      · rename_i s hs'
        cases h
        intro p hp
        simp only [List.mem_singleton] at hp
        subst hp
        exact fits_of_ints hs' hm
  | merge =>
    rw [hk] at h hm
    simp only at h hm
    split at h
    · cases h
    · rename_i s2 _ h2
      cases h
      have f := ha _ _ h2
      intro p hp
      simp only [List.mem_cons, List.not_mem_nil, or_false] at hp
      rcases hp with rfl | rfl | rfl
      · show Fits s2 (σ (o.inp 0)); rw [← hm.1, hm.2]; exact f
      · exact f
      · show Fits s2 (σ (o.out 0)); rw [hm.2]; exact f
    · rename_i s1 h1 _
      cases h
      have f := ha _ _ h1
      intro p hp
      simp only [List.mem_cons, List.not_mem_nil, or_false] at hp
      rcases hp with rfl | rfl | rfl
      · exact f
      · show Fits s1 (σ (o.inp 1)); rw [← hm.2, hm.1]; exact f
      · show Fits s1 (σ (o.out 0)); rw [hm.1]; exact f
    · rename_i s1 s2 h1 h2
      have f1 := ha _ _ h1
      have f2 := ha _ _ h2
      rw [← hm.1] at f1
      rw [← hm.2] at f2
      simp only [Except.ok.injEq, planMergeBoth] at h
      split at h
      · split at h
        · cases h
        · cases h
          intro p hp
          simp only [List.mem_singleton] at hp
          subst hp
          exact mergeForTf_fits f1 f2
      · cases h
        intro p hp
        simp only [List.mem_singleton] at hp
        subst hp
        exact f1
  | switch =>
    rw [hk] at h hm
    simp only at h hm
    split at h
    · rename_i s hs'
      cases h
      have f := ha _ _ hs'
      intro p hp
      simp only [List.mem_cons, List.not_mem_nil, or_false] at hp
      rcases hp with rfl | rfl
      · show Fits s (σ (o.out 0)); rw [hm.1]; exact f
      · show Fits s (σ (o.out 1)); rw [hm.2]; exact f
    · cases h
  | enter =>
    rw [hk] at h hm
    simp only at h hm
    split at h
    · rename_i s hs'
      cases h
      have f := ha _ _ hs'
      intro p hp
      simp only [List.mem_singleton] at hp
      subst hp
      show Fits s (σ (o.out 0)); rw [hm]; exact f
    · cases h
  | taGather w =>
    rw [hk] at h hm
    cases w with
    | none => cases h
    | some w =>
      simp only at h hm
      split at h
      · rename_i s hs'
        cases h
        obtain ⟨n, hn⟩ := hm
        intro p hp
        simp only [List.mem_singleton] at hp
        subst hp
        show Fits (none :: s) (σ (o.out 0)); rw [hn]
        exact .cons (Or.inl rfl) (ha _ _ hs')
      · cases h
  | taRead w =>
    rw [hk] at h hm
    cases w with
    | none => cases h
    | some w =>
      simp only at h hm
      split at h
      · rename_i s hs'
        cases h
        obtain ⟨n, hn⟩ := hm
        have f := ha _ _ hs'
        rw [hn] at f
        intro p hp
        simp only [List.mem_singleton] at hp
        subst hp
        exact f.drop 1
      · cases h
  | direct => rw [hk] at h; cases h
  | broadcast => rw [hk] at h; cases h
  | randomUniform _ => rw [hk] at h; cases h
  | gather _ => rw [hk] at h; cases h
  | reduce _ _ => rw [hk] at h; cases h
  | expandDims _ => rw [hk] at h; cases h
  | unpack _ => rw [hk] at h; cases h
  | minMax => rw [hk] at h; cases h
  | concat => rw [hk] at h; cases h
  | select => rw [hk] at h; cases h
  | selectV2 => rw [hk] at h; cases h
  | pack _ => rw [hk] at h; cases h
  | pow => rw [hk] at h; cases h
  | other => rw [hk] at h; cases h

theorem planInputs_select {st : Store} {σ : Nat → List Nat} {o : Op} (ha : Agrees st σ)
    (hm : σ (o.inp 1) = σ (o.out 0) ∧ σ (o.inp 2) = σ (o.out 0)) {a : List (Nat × List Dim)}
    (h : (match st (o.inp 1), st (o.inp 2) with
    | some _, some _ => none
    | some [], none => none
    | some (d :: s), none => some [(o.inp 1, d :: s), (o.inp 2, d :: s)]
    | none, some s => some [(o.inp 1, s), (o.inp 2, s)]
    | none, none => none) = some a) : TrueCalls σ a := by
  split at h
  · cases h
  · cases h
  · rename_i d s h1 h2
    cases h
    have f := ha _ _ h1
    intro p hp
    simp only [List.mem_cons, List.not_mem_nil, or_false] at hp
    rcases hp with rfl | rfl
    · exact f
    · show Fits (d :: s) (σ (o.inp 2)); rw [hm.2, ← hm.1]; exact f
  · rename_i s h1 h2
    cases h
    have f := ha _ _ h2
    intro p hp
    simp only [List.mem_cons, List.not_mem_nil, or_false] at hp
    rcases hp with rfl | rfl
    · show Fits s (σ (o.inp 1)); rw [hm.1, ← hm.2]; exact f
    · exact f
  · cases h

theorem planInputs_true {st st0 : Store} {σ : Nat → List Nat} {o : Op} (ha : Agrees st σ) (hm : OpSem σ o)
    (hs : Safe st0 σ o) {a : List (Nat × List Dim)} (h : planInputs st o = some a) : TrueCalls σ a := by
  unfold planInputs at h
  unfold OpSem at hm
  unfold Safe at hs
  cases hk : o.kind
  case select => rw [hk] at h hm; exact planInputs_select ha hm h
  case selectV2 => rw [hk] at h hs; exact planInputs_select ha hs h
  all_goals (rw [hk] at h; cases h)

theorem packInputs_mem {st : Store} {s : List Dim} {ts : List Nat} {p : Nat × List Dim} (h : p ∈ packInputs st s ts) :
    p.2 = s ∧ p.1 ∈ ts := by
  induction ts with
  | nil => simp [packInputs] at h
  | cons t ts ih =>
    simp only [packInputs] at h
    split at h
    · have := ih h; exact ⟨this.1, by simp [this.2]⟩
    · rcases List.mem_cons.1 h with rfl | h
      · exact ⟨rfl, by simp⟩
      · have := ih h; exact ⟨this.1, by simp [this.2]⟩

theorem planPartial_select {st : Store} {σ : Nat → List Nat} {o : Op} (ha : Agrees st σ)
    (hm : σ (o.inp 1) = σ (o.out 0) ∧ σ (o.inp 2) = σ (o.out 0)) {a : List (Nat × List Dim)}
    (h : (match firstKnown st [o.inp 1, o.inp 2] with
    | some s => some (.ok (some [(o.out 0, s), (o.inp 1, s), (o.inp 2, s)]))
    | none => some (.ok none)) = some ((.ok (some a) : Plan))) : TrueCalls σ a := by
  split at h
  · rename_i s hs
    cases h
    obtain ⟨t, ht, _, f⟩ := fits_firstKnown ha hs
    have f' : Fits s (σ (o.out 0)) := by
      simp only [List.mem_cons, List.not_mem_nil, or_false] at ht
      rcases ht with rfl | rfl
      · rw [← hm.1]; exact f
      · rw [← hm.2]; exact f
    intro p hp
    simp only [List.mem_cons, List.not_mem_nil, or_false] at hp
    rcases hp with rfl | rfl | rfl
    · exact f'
    · show Fits s (σ (o.inp 1)); rw [hm.1]; exact f'
    · show Fits s (σ (o.inp 2)); rw [hm.2]; exact f'
  · cases h

theorem planPartial_true {st st0 : Store} {σ : Nat → List Nat} {o : Op} (ha : Agrees st σ) (hmono : Mono st0 st)
    (hm : OpSem σ o) (hs : Safe st0 σ o) {a : List (Nat × List Dim)}
    (h : planPartial st o = some (.ok (some a))) : TrueCalls σ a := by
  unfold planPartial at h
  unfold OpSem at hm
  unfold Safe at hs
  cases hk : o.kind
  case concat =>
    rw [hk] at h
    simp only at h
    split at h <;> cases h
  case select => rw [hk] at h hm; exact planPartial_select ha hm h
  case selectV2 => rw [hk] at h hs; exact planPartial_select ha hs h
  case pack axis =>
    rw [hk] at h hm hs
    simp only at h hm hs
    split at h
    · cases h
    · rename_i s hf
      cases h
      obtain ⟨l, k, hin, ⟨hk1, hk2⟩, hout⟩ := hm
      obtain ⟨t, ht, _, f⟩ := fits_firstKnown ha hf
      rw [hin t ht] at f
      have hax : axis = k := by omega
      intro p hp
      rcases List.mem_append.1 hp with hp | hp
      · obtain ⟨e1, e2⟩ := packInputs_mem hp
        rw [e1, hin _ e2]; exact f
      · simp only [List.mem_singleton] at hp
        subst hp
        simp only [hout]
        rw [if_neg (by omega), hax]
        unfold pyTake pyDrop
        rw [pyPos_nonneg (by rw [f.length]; omega)]
        exact ((f.take k).append .one).append (f.drop k)
  case pow =>
    rw [hk] at h hs
    simp only at h hs
    split at h
    · rename_i s hf
      cases h
      intro p hp
      simp only [List.mem_singleton] at hp
      subst hp
      show Fits s (σ (o.out 0))
      simp only [firstKnown] at hf
      split at hf
      · rename_i s' h0
        cases hf
        rw [hs.1]; exact ha _ _ h0
      · rename_i h0
        rcases hs.2 with h1 | h1
        · split at hf
          · rename_i s' h1'
            cases hf
            rw [h1]; exact ha _ _ h1'
          · cases hf
        · have := hmono _ h1
          rw [h0] at this; simp at this
    · cases h
  all_goals (rw [hk] at h; cases h)

theorem planFull_true {st st0 : Store} {σ : Nat → List Nat} {o : Op} (ha : Agrees st σ) (hm : OpSem σ o)
    (hs : Safe st0 σ o) {a : List (Nat × List Dim)} (h : planFull st o = some a) : TrueCalls σ a := by
  unfold planFull at h
  unfold OpSem at hm
  unfold Safe at hs
  cases hk : o.kind
  case direct =>
    rw [hk] at h hm
    simp only at h hm
    split at h
    · rename_i s hf
      cases h
      intro p hp
      simp only [List.mem_singleton] at hp
      subst hp
      show Fits s (σ (o.out 0)); rw [hm]; exact ha _ _ hf
    · cases h
  case broadcast =>
    rw [hk] at h hm hs
    simp only at h hm hs
    split at h
    · rename_i s0 s1 h0 h1
      split at h
      · rename_i s hf
        cases h
        intro p hp
        simp only [List.mem_singleton] at hp
        subst hp
        exact bcastInfer_fits (ha _ _ h0) (ha _ _ h1) hm hs hf
      · cases h
    · cases h
  case minMax =>
    rw [hk] at h hm hs
    simp only at h hm hs
    split at h
    · rename_i s0 s1 h0 h1
      split at h
      · rename_i s hf
        cases h
        intro p hp
        simp only [List.mem_singleton] at hp
        subst hp
        exact bcastInfer_fits (ha _ _ h0) (ha _ _ h1) hm hs hf
      · cases h; intro p hp; cases hp
    · cases h
  case randomUniform w =>
    rw [hk] at h hm
    cases w with
    | none => cases h
    | some w =>
      simp only at h hm
      split at h
      · rename_i s hf
        cases h
        intro p hp
        simp only [List.mem_singleton] at hp
        subst hp
        show Fits s (σ (o.out 0)); rw [hm]; exact ha _ _ hf
      · cases h
  case gather w =>
    rw [hk] at h hm hs
    cases w with
    | none => cases h
    | some axis =>
      simp only at h hm hs
      split at h
      · rename_i p i h0 h1
        cases h
        obtain ⟨k, ⟨hk1, hk2⟩, hout⟩ := hm
        have f0 := ha _ _ h0
        have f1 := ha _ _ h1
        have hax : axis = k := by omega
        intro q hq
        simp only [List.mem_singleton] at hq
        subst hq
        simp only [hout]
        have : axis + 1 = ((k + 1 : Nat) : Int) := by omega
        rw [this, hax]
        unfold pyTake pyDrop
        rw [pyPos_nonneg (by rw [f0.length]; omega), pyPos_nonneg (by rw [f0.length]; omega)]
        exact ((f0.take k).append f1).append (f0.drop (k + 1))
      · cases h
  case reduce axes keep =>
    rw [hk] at h hm
    cases axes with
    | none => cases h
    | some axes =>
      simp only at h hm
      split at h
      · rename_i s hf
        cases h
        obtain ⟨hv, hout⟩ := hm
        have f := ha _ _ hf
        intro q hq
        simp only [List.mem_singleton] at hq
        subst hq
        simp only [hout]
        refine reduceDims_fits f 0 ?_
        intro j _ hj
        rw [f.length]
        simp only [List.mem_map]
        constructor
        · rintro ⟨a, ha', he⟩
          refine ⟨a, ha', by omega, ?_⟩
          split at he <;> omega
        · rintro ⟨a, ha', h1, h2⟩
          refine ⟨a, ha', ?_⟩
          split <;> omega
      · cases h
  case expandDims w =>
    rw [hk] at h hm
    cases w with
    | none => cases h
    | some dim =>
      simp only at h hm
      split at h
      · rename_i s hf
        cases h
        obtain ⟨k, ⟨hk1, hk2⟩, hout⟩ := hm
        have f := ha _ _ hf
        intro q hq
        simp only [List.mem_singleton] at hq
        subst hq
        simp only [hout]
        have hax : (if dim < 0 then dim + (s.length : Int) + 1 else dim) = k := by
          rw [f.length]; split <;> omega
        rw [hax]
        unfold pyTake pyDrop
        rw [pyPos_nonneg (by rw [f.length]; omega)]
        exact ((f.take k).append .one).append (f.drop k)
      · cases h
  case unpack axis =>
    rw [hk] at h hm
    simp only at h hm
    split at h
    · rename_i s hf
      cases h
      obtain ⟨k, ⟨hk1, hk2⟩, hout⟩ := hm
      have f := ha _ _ hf
      intro q hq
      simp only [List.mem_map] at hq
      obtain ⟨t, ht, rfl⟩ := hq
      simp only [hout t ht]
      have hax : (if axis ≥ 0 then axis else axis + (s.length : Int)) = k := by
        rw [f.length]; split <;> omega
      rw [hax]
      have : (k : Int) + 1 = ((k + 1 : Nat) : Int) := by omega
      rw [this]
      unfold pyTake pyDrop
      rw [pyPos_nonneg (by rw [f.length]; omega), pyPos_nonneg (by rw [f.length]; omega)]
      exact (f.take k).append (f.drop (k + 1))
    · cases h
  all_goals (rw [hk] at h; cases h)

/-! ## One op -/

theorem setShape_mono {st st' : Store} {t : Nat} {s : List Dim} (h : setShape st t s = .ok st') :
    Mono st st' ∧ (st' t).isSome := by
  unfold setShape at h
  split at h
  · cases h
    exact ⟨fun x hx => by simp only; split <;> simp [hx], by simp⟩
  · split at h
    · cases h
    · cases h
      exact ⟨fun x hx => by simp only; split <;> simp [hx], by simp⟩

theorem setShapes_mono {a : List (Nat × List Dim)} {st st' : Store} (h : setShapes st a = .ok st') :
    Mono st st' ∧ ∀ p ∈ a, (st' p.1).isSome := by
  induction a generalizing st with
  | nil => cases h; exact ⟨.refl _, by simp⟩
  | cons p a ih =>
    obtain ⟨t, s⟩ := p
    simp only [setShapes] at h
    split at h
    · cases h
    · rename_i st1 h1
      obtain ⟨m1, k1⟩ := setShape_mono h1
      obtain ⟨m2, k2⟩ := ih h
      refine ⟨m1.trans m2, fun p hp => ?_⟩
      rcases List.mem_cons.1 hp with rfl | hp
      · exact m2 _ k1
      · exact k2 p hp

theorem runPlan_mono {st st' : Store} {p : Plan} {u : Bool} (h : runPlan st p = .ok (st', u)) :
    Mono st st' ∧ (u = true → ∃ a, p = .ok (some a) ∧ ∀ q ∈ a, (st' q.1).isSome) := by
  unfold runPlan at h
  split at h
  · cases h
  · cases h; exact ⟨.refl _, by simp⟩
  · split at h
    · cases h
    · rename_i h'
      cases h
      have := setShapes_mono h'
      exact ⟨this.1, fun _ => ⟨_, rfl, this.2⟩⟩

theorem runPlan_true {st st' : Store} {σ : Nat → List Nat} {p : Plan} {u : Bool} (ha : Agrees st σ)
    (hp : ∀ a, p = .ok (some a) → TrueCalls σ a) (h : runPlan st p = .ok (st', u)) : Agrees st' σ := by
  unfold runPlan at h
  split at h
  · cases h
  · cases h; exact ha
  · split at h
    · cases h
    · rename_i h'
      cases h
      obtain ⟨st2, h2, a2, _⟩ := setShapes_true ha (hp _ rfl)
      rw [h2] at h'; cases h'
      exact a2

theorem runPlan_ok {st : Store} {σ : Nat → List Nat} {p : Plan} (ha : Agrees st σ)
    (hp : ∀ a, p = .ok (some a) → TrueCalls σ a) (he : ∀ e, p ≠ .error e) : ∃ r, runPlan st p = .ok r := by
  cases p with
  | error e => exact absurd rfl (he e)
  | ok p =>
    cases p with
    | none => exact ⟨_, rfl⟩
    | some a =>
      obtain ⟨st2, h2, _⟩ := setShapes_true ha (hp a rfl)
      exact ⟨(st2, true), by simp [runPlan, h2]⟩

/-- Ops on which the code does not raise by itself: no `Concat` (see `infer_concat_violated`), and no negative dimension in
the attribute of a placeholder. -/
def Clean (o : Op) : Prop :=
  match o.kind with
  | .placeholder (some a) => ∀ d ∈ a, 0 ≤ d
  | .concat => False
  | _ => True

theorem dimsOfInts_ok {a : List Int} (h : ∀ d ∈ a, 0 ≤ d) : ∃ s, dimsOfInts a = .ok s := by
  induction a with
  | nil => exact ⟨_, rfl⟩
  | cons d a ih =>
    obtain ⟨s, hs⟩ := ih (fun d hd => h d (by simp [hd]))
    have := h d (by simp)
    exact ⟨some d.toNat :: s, by simp [dimsOfInts, hs]; omega⟩

theorem planOp_clean {st : Store} {o : Op} (h : Clean o) (e : String) : planOp st o ≠ .error e := by
  unfold planOp
  unfold Clean at h
  split
  · simp
  · cases hk : o.kind
    case placeholder a =>
      cases a with
      | none => simp
      | some a =>
        rw [hk] at h
        obtain ⟨s, hs⟩ := dimsOfInts_ok h
        simp [hs]
    case taGather w => cases w <;> simp only [ne_eq, reduceCtorEq, not_false_eq_true] ; split <;> simp
    case taRead w => cases w <;> simp only [ne_eq, reduceCtorEq, not_false_eq_true] ; split <;> simp
    all_goals (simp only; try split) <;> simp

theorem planPartial_clean {st : Store} {o : Op} (h : Clean o) (e : String) : planPartial st o ≠ some (.error e) := by
  unfold planPartial
  unfold Clean at h
  cases hk : o.kind
  case concat => rw [hk] at h; exact h.elim
  all_goals (simp only; try split) <;> simp

theorem inferOp_true {st st0 st' : Store} {σ : Nat → List Nat} {o : Op} {u : Bool} (ha : Agrees st σ) (hm : OpSem σ o)
    (hs : Safe st0 σ o) (h : inferOp st o = .ok (st', u)) : Agrees st' σ :=
  runPlan_true ha (fun _ hp => planOp_true ha hm hs hp) h

theorem planRest_true {st st0 : Store} {σ : Nat → List Nat} {o : Op} (ha : Agrees st σ) (hmono : Mono st0 st)
    (hm : OpSem σ o) (hs : Safe st0 σ o) {a : List (Nat × List Dim)} (h : planRest st o = .ok (some a)) :
    TrueCalls σ a := by
  unfold planRest at h
  split at h
  · rename_i p hp
    subst h
    exact planPartial_true ha hmono hm hs hp
  · split at h
    · cases h
    · simp only [Except.ok.injEq] at h
      exact planFull_true ha hm hs h

theorem inferOpLegacy_true {st st0 st' : Store} {σ : Nat → List Nat} {o : Op} {u : Bool} (ha : Agrees st σ)
    (hmono : Mono st0 st) (hm : OpSem σ o) (hs : Safe st0 σ o) (h : inferOpLegacy st o = .ok (st', u)) :
    Agrees st' σ := by
  unfold inferOpLegacy at h
  split at h
  · cases h
  rename_i st1 u1 h1
  have a1 := inferOp_true ha hm hs h1
  have m1 := (runPlan_mono h1).1
  split at h
  · rename_i a hpl
    split at hpl
    · exact runPlan_true a1 (fun _ hp => by cases hp; exact planInputs_true a1 hm hs hpl) h
    · cases hpl
  · split at h
    · cases h; exact a1
    · exact runPlan_true a1 (fun _ hp => planRest_true a1 (hmono.trans m1) hm hs hp) h

theorem inferOpLegacy_mono {st st' : Store} {o : Op} {u : Bool} (h : inferOpLegacy st o = .ok (st', u)) : Mono st st' := by
  unfold inferOpLegacy at h
  split at h
  · cases h
  rename_i st1 u1 h1
  have m1 := (runPlan_mono h1).1
  split at h
  · exact m1.trans (runPlan_mono h).1
  · split at h
    · cases h; exact m1
    · exact m1.trans (runPlan_mono h).1

theorem inferOpLegacy_ok {st st0 : Store} {σ : Nat → List Nat} {o : Op} (ha : Agrees st σ)
    (hmono : Mono st0 st) (hm : OpSem σ o) (hs : Safe st0 σ o) (hc : Clean o) : ∃ r, inferOpLegacy st o = .ok r := by
  obtain ⟨⟨st1, u1⟩, h1⟩ := runPlan_ok ha (fun _ hp => planOp_true ha hm hs hp) (planOp_clean (st := st) hc)
  have h1' : inferOp st o = .ok (st1, u1) := h1
  have a1 := inferOp_true ha hm hs h1'
  have m1 := (runPlan_mono h1).1
  unfold inferOpLegacy
  rw [h1']
  simp only
  split
  · rename_i a hpl
    split at hpl
    · exact runPlan_ok a1 (fun _ hp => by cases hp; exact planInputs_true a1 hm hs hpl) (by simp)
    · cases hpl
  · split
    · exact ⟨_, rfl⟩
    · refine runPlan_ok a1 (fun _ hp => planRest_true a1 (hmono.trans m1) hm hs hp) ?_
      intro e he
      unfold planRest at he
      split at he
      · rename_i p hp
        subst he
        exact planPartial_clean hc e hp
      · split at he <;> cases he

/-! ## The loops -/

/-- What both inference functions do on a graph that respects the run. -/
structure Step (f : Store → Op → Except String (Store × Bool)) (st0 : Store) (σ : Nat → List Nat) (o : Op) : Prop where
  good : ∀ st st' u, Agrees st σ → Mono st0 st → f st o = .ok (st', u) → Agrees st' σ ∧ Mono st st'

theorem round_true {f : Store → Op → Except String (Store × Bool)} {st0 : Store} {σ : Nat → List Nat} {ops : List Op}
    (hf : ∀ o ∈ ops, Step f st0 σ o) {st st' : Store} {u : Bool} (ha : Agrees st σ) (hm : Mono st0 st)
    (h : round f ops st = .ok (st', u)) : Agrees st' σ ∧ Mono st st' := by
  induction ops generalizing st st' u with
  | nil => cases h; exact ⟨ha, .refl _⟩
  | cons o ops ih =>
    simp only [round] at h
    split at h
    · cases h
    · rename_i st1 u1 h1
      obtain ⟨a1, m1⟩ := (hf o (by simp)).good _ _ _ ha hm h1
      split at h
      · cases h
      · rename_i st2 u2 h2
        cases h
        obtain ⟨a2, m2⟩ := ih (fun o ho => hf o (by simp [ho])) a1 (hm.trans m1) h2
        exact ⟨a2, m1.trans m2⟩

/-- `tf_reload_graph` keeps shapes true and does not forget any. -/
def ReloadTrue (reload : Store → Store) (σ : Nat → List Nat) : Prop :=
  ∀ st, Agrees st σ → Agrees (reload st) σ ∧ Mono st (reload st)

theorem loop_true {f : Store → Op → Except String (Store × Bool)} {st0 : Store} {σ : Nat → List Nat} {ops : List Op}
    {reload : Store → Store} (hr : ReloadTrue reload σ) (hf : ∀ o ∈ ops, Step f st0 σ o) {fuel : Nat} {st st' : Store}
    (ha : Agrees st σ) (hm : Mono st0 st) (h : loop f reload ops fuel st = some (.ok st')) :
    Agrees st' σ ∧ Mono st st' := by
  induction fuel generalizing st with
  | zero => cases h
  | succ fuel ih =>
    simp only [loop] at h
    split at h
    · cases h
    · rename_i h1
      cases h
      exact round_true hf ha hm h1
    · rename_i st1 h1
      obtain ⟨a1, m1⟩ := round_true hf ha hm h1
      obtain ⟨a2, m2⟩ := hr st1 a1
      obtain ⟨a3, m3⟩ := ih a2 ((hm.trans m1).trans m2) h
      exact ⟨a3, (m1.trans m2).trans m3⟩

theorem step_inferOp {st0 : Store} {σ : Nat → List Nat} {o : Op} (hm : OpSem σ o) (hs : Safe st0 σ o) :
    Step inferOp st0 σ o :=
  ⟨fun _ _ _ ha _ h => ⟨inferOp_true ha hm hs h, (runPlan_mono h).1⟩⟩

theorem step_legacy {st0 : Store} {σ : Nat → List Nat} {o : Op} (hm : OpSem σ o) (hs : Safe st0 σ o) :
    Step inferOpLegacy st0 σ o :=
  ⟨fun _ _ _ ha hmono h => ⟨inferOpLegacy_true ha hmono hm hs h, inferOpLegacy_mono h⟩⟩

/-- C36. Whenever `infer_shape` returns, every shape it has written is true of every execution `σ` that respects the ops
and the shapes known at the start.
Missing for the full property: ops that are not `Safe`; for those the property is false, see the `_violated` theorems
below. TensorFlow's own inference (`tf_reload_graph`) is assumed to be true and not to forget ranks. -/
theorem infer_shape_true_partial {reload : Store → Store} {ops : List Op} {fuel : Nat} {st st' : Store}
    {σ : Nat → List Nat} (hr : ReloadTrue reload σ) (ha : Agrees st σ) (hsem : ∀ o ∈ ops, OpSem σ o)
    (hsafe : ∀ o ∈ ops, Safe st σ o) (h : inferShape reload ops fuel st = some (.ok st')) :
    Agrees st' σ ∧ Mono st st' := by
  unfold inferShape at h
  split at h
  · cases h
  · cases h
  · rename_i st1 h1
    obtain ⟨a1, m1⟩ := loop_true hr (fun o ho => step_inferOp (hsem o ho) (hsafe o ho)) ha (.refl _) h1
    split at h
    · obtain ⟨a2, m2⟩ := loop_true (reload := id) (fun st ha => ⟨ha, .refl _⟩)
        (fun o ho => step_legacy (hsem o ho) (hsafe o ho)) a1 m1 h
      exact ⟨a2, m1.trans m2⟩
    · cases h; exact ⟨a1, m1⟩

theorem round_ok {f : Store → Op → Except String (Store × Bool)} {st0 : Store} {σ : Nat → List Nat} {ops : List Op}
    (hf : ∀ o ∈ ops, Step f st0 σ o) (hok : ∀ o ∈ ops, ∀ st, Agrees st σ → Mono st0 st → ∃ r, f st o = .ok r)
    {st : Store} (ha : Agrees st σ) (hm : Mono st0 st) : ∃ r, round f ops st = .ok r := by
  induction ops generalizing st with
  | nil => exact ⟨_, rfl⟩
  | cons o ops ih =>
    obtain ⟨⟨st1, u1⟩, h1⟩ := hok o (by simp) st ha hm
    obtain ⟨a1, m1⟩ := (hf o (by simp)).good _ _ _ ha hm h1
    obtain ⟨⟨st2, u2⟩, h2⟩ := ih (fun o ho => hf o (by simp [ho])) (fun o ho => hok o (by simp [ho])) a1 (hm.trans m1)
    exact ⟨(st2, u1 || u2), by simp [round, h1, h2]⟩

theorem loop_ok {f : Store → Op → Except String (Store × Bool)} {st0 : Store} {σ : Nat → List Nat} {ops : List Op}
    {reload : Store → Store} (hr : ReloadTrue reload σ)
    (hf : ∀ o ∈ ops, Step f st0 σ o) (hok : ∀ o ∈ ops, ∀ st, Agrees st σ → Mono st0 st → ∃ r, f st o = .ok r)
    {fuel : Nat} {st : Store} (ha : Agrees st σ) (hm : Mono st0 st) (e : String) :
    loop f reload ops fuel st ≠ some (.error e) := by
  induction fuel generalizing st with
  | zero => simp [loop]
  | succ fuel ih =>
    obtain ⟨⟨st1, u⟩, h1⟩ := round_ok hf hok ha hm
    obtain ⟨a1, m1⟩ := round_true hf ha hm h1
    simp only [loop, h1]
    cases u with
    | false => simp
    | true =>
      obtain ⟨a2, m2⟩ := hr st1 a1
      exact ih a2 ((hm.trans m1).trans m2)

/-- The inference raises no exception on such graphs, if there is no `Concat` and no placeholder with a partial `shape`
attribute. -/
theorem infer_shape_no_exception {reload : Store → Store} {ops : List Op} {fuel : Nat} {st : Store}
    {σ : Nat → List Nat} (hr : ReloadTrue reload σ) (ha : Agrees st σ) (hsem : ∀ o ∈ ops, OpSem σ o)
    (hsafe : ∀ o ∈ ops, Safe st σ o) (hclean : ∀ o ∈ ops, Clean o) (e : String) :
    inferShape reload ops fuel st ≠ some (.error e) := by
  have s1 := fun o (ho : o ∈ ops) => step_inferOp (hsem o ho) (hsafe o ho)
  have s2 := fun o (ho : o ∈ ops) => step_legacy (hsem o ho) (hsafe o ho)
  unfold inferShape
  split
  · simp
  · rename_i e' h1
    exfalso
    refine loop_ok hr s1 ?_ ha (.refl _) e' h1
    intro o ho st' ha' _
    exact runPlan_ok ha' (fun _ hp => planOp_true ha' (hsem o ho) (hsafe o ho) hp) (planOp_clean (hclean o ho))
  · rename_i st1 h1
    obtain ⟨a1, m1⟩ := loop_true hr s1 ha (.refl _) h1
    split
    · refine loop_ok (reload := id) (fun st ha => ⟨ha, .refl _⟩) s2 ?_ a1 m1 e
      intro o ho st' ha' hm'
      exact inferOpLegacy_ok ha' hm' (hsem o ho) (hsafe o ho) (hclean o ho)
    · simp

/-! ## Termination -/

/-- The number of tensors of unknown rank. -/
def unknown (n : Nat) (st : Store) : Nat := ((List.range n).filter (fun t => (st t).isNone)).length

theorem filter_length_le {α : Type} {p q : α → Bool} (l : List α) (h : ∀ x ∈ l, p x → q x) :
    (l.filter p).length ≤ (l.filter q).length := by
  induction l with
  | nil => simp
  | cons x l ih =>
    have ih := ih (fun y hy => h y (by simp [hy]))
    simp only [List.filter_cons]
    by_cases hp : p x
    · rw [if_pos hp, if_pos (h x (by simp) hp)]; simp only [List.length_cons]; omega
    · rw [if_neg hp]; split <;> (try simp only [List.length_cons]) <;> omega

theorem filter_length_lt {α : Type} {p q : α → Bool} (l : List α) (h : ∀ x ∈ l, p x → q x) {x : α} (hx : x ∈ l)
    (hp : p x = false) (hq : q x = true) : (l.filter p).length < (l.filter q).length := by
  induction l with
  | nil => cases hx
  | cons y l ih =>
    have hle := filter_length_le (p := p) (q := q) l (fun z hz => h z (by simp [hz]))
    simp only [List.filter_cons]
    rcases List.mem_cons.1 hx with rfl | hx
    · rw [if_neg (by simp [hp]), if_pos hq]; simp only [List.length_cons]; omega
    · have ih := ih (fun z hz => h z (by simp [hz])) hx
      by_cases hpy : p y
      · rw [if_pos hpy, if_pos (h y (by simp) hpy)]; simp only [List.length_cons]; omega
      · rw [if_neg hpy]; split <;> (try simp only [List.length_cons]) <;> omega

theorem unknown_le {n : Nat} {st st' : Store} (h : Mono st st') : unknown n st' ≤ unknown n st := by
  refine filter_length_le _ fun t _ ht => ?_
  cases hs : st t with
  | none => rfl
  | some s =>
    have := h t (by rw [hs]; rfl)
    cases hs' : st' t with
    | none => rw [hs'] at this; cases this
    | some _ => rw [hs'] at ht; cases ht

theorem unknown_lt {n : Nat} {st st' : Store} (h : Mono st st') {t : Nat} (ht : t < n) (h1 : st t = none)
    (h2 : (st' t).isSome) : unknown n st' < unknown n st := by
  refine filter_length_lt _ (fun t _ ht => ?_) (List.mem_range.2 ht) ?_ (by rw [h1]; rfl)
  · cases hs : st t with
    | none => rfl
    | some s =>
      have := h t (by rw [hs]; rfl)
      cases hs' : st' t with
      | none => rw [hs'] at this; cases this
      | some _ => rw [hs'] at ht; cases ht
  · cases hs' : st' t with
    | none => rw [hs'] at h2; cases h2
    | some _ => rfl

/-- Ops as TensorFlow makes them: tensors are numbered below `n`; `Merge` has one output besides the value index, whose
shape is known; `Switch` has two outputs and the others one; `Select` has three inputs. -/
def Arity (n : Nat) (st0 : Store) (o : Op) : Prop :=
  (∀ t ∈ o.inputs, t < n) ∧ (∀ t ∈ o.outputs, t < n) ∧
  match o.kind with
  | .merge => ∃ a r, o.outputs = a :: r ∧ ∀ t ∈ r, (st0 t).isSome
  | .switch => ∃ a b, o.outputs = [a, b]
  | .select | .selectV2 => (∃ a, o.outputs = [a]) ∧ ∃ c t e, o.inputs = [c, t, e]
  | .unpack _ => True
  | _ => ∃ a, o.outputs = [a]

theorem unknownIn_true {st : Store} {ts : List Nat} (h : ¬ unknownIn st ts = false) : ∃ t ∈ ts, st t = none := by
  simp only [unknownIn, List.any_eq_false, Bool.not_eq_true, not_forall, Bool.not_eq_false] at h
  obtain ⟨t, ht, hn⟩ := h
  exact ⟨t, ht, by simpa using hn⟩

/-- Progress of a plan: some tensor of unknown rank below `n` is given a shape. -/
def Progress (n : Nat) (st : Store) (a : List (Nat × List Dim)) : Prop := ∃ p ∈ a, p.1 < n ∧ st p.1 = none

theorem out_unknown {n : Nat} {st : Store} {o : Op} (h : ∃ a, o.outputs = [a]) (hn : ∀ t ∈ o.outputs, t < n)
    (hu : ¬ unknownIn st o.outputs = false) : o.out 0 < n ∧ st (o.out 0) = none := by
  obtain ⟨a, ha⟩ := h
  obtain ⟨t, ht, hs⟩ := unknownIn_true hu
  rw [ha] at ht hn
  simp only [List.mem_singleton] at ht
  subst ht
  have : o.out 0 = t := by simp [Op.out, ha]
  rw [this]
  exact ⟨hn t (by simp), hs⟩

theorem planOp_progress {n : Nat} {st0 st : Store} {o : Op} (har : Arity n st0 o) (hmono : Mono st0 st)
    {a : List (Nat × List Dim)} (h : planOp st o = .ok (some a)) : Progress n st a := by
  unfold planOp at h
  split at h
  · cases h
  rename_i hu
  obtain ⟨hi, ho, har⟩ := har
  cases hk : o.kind
  case merge =>
    rw [hk] at h har
    obtain ⟨x, r, hx, hr⟩ := har
    have hout : o.out 0 = x := by simp [Op.out, hx]
    have hn : st (o.out 0) = none ∧ o.out 0 < n := by
      obtain ⟨t, ht, hs⟩ := unknownIn_true hu
      rw [hx] at ht
      rcases List.mem_cons.1 ht with rfl | ht
      · rw [hout]; exact ⟨hs, ho t (by rw [hx]; simp)⟩
      · have := hmono t (hr t ht)
        rw [hs] at this; cases this
    simp only at h
    split at h
    · cases h
    · cases h; exact ⟨_, List.mem_cons_of_mem _ (List.mem_cons_of_mem _ (List.mem_singleton.2 rfl)), hn.2, hn.1⟩
    · cases h; exact ⟨_, List.mem_cons_of_mem _ (List.mem_cons_of_mem _ (List.mem_singleton.2 rfl)), hn.2, hn.1⟩
    · simp only [planMergeBoth, Except.ok.injEq] at h
      split at h
      · split at h
        · cases h
        · cases h; exact ⟨_, List.mem_singleton.2 rfl, hn.2, hn.1⟩
      · cases h; exact ⟨_, List.mem_singleton.2 rfl, hn.2, hn.1⟩
  case switch =>
    rw [hk] at h har
    obtain ⟨x, y, hx⟩ := har
    simp only at h
    split at h
    · cases h
      obtain ⟨t, ht, hs⟩ := unknownIn_true hu
      have htn := ho t ht
      rw [hx] at ht
      simp only [List.mem_cons, List.not_mem_nil, or_false] at ht
      have h0 : o.out 0 = x := by simp [Op.out, hx]
      have h1 : o.out 1 = y := by simp [Op.out, hx]
      rw [h0, h1]
      rcases ht with rfl | rfl
      · exact ⟨_, List.mem_cons_self, htn, hs⟩
      · exact ⟨_, List.mem_cons_of_mem _ (List.mem_singleton.2 rfl), htn, hs⟩
    · cases h
  case placeholder at_ =>
    rw [hk] at h har
    obtain ⟨h1, h2⟩ := out_unknown har ho hu
    cases at_ with
    | none => cases h; exact ⟨_, List.mem_singleton.2 rfl, h1, h2⟩
    | some a0 =>
      simp only at h
      split at h
      · cases h
      · cases h; exact ⟨_, List.mem_singleton.2 rfl, h1, h2⟩
  case enter =>
    rw [hk] at h har
    obtain ⟨h1, h2⟩ := out_unknown har ho hu
    simp only at h
    split at h
    · cases h; exact ⟨_, List.mem_singleton.2 rfl, h1, h2⟩
    · cases h
  case taGather w =>
    rw [hk] at h har
    obtain ⟨h1, h2⟩ := out_unknown har ho hu
    cases w with
    | none => cases h
    | some w =>
      simp only at h
      split at h
      · cases h; exact ⟨_, List.mem_singleton.2 rfl, h1, h2⟩
      · cases h
  case taRead w =>
    rw [hk] at h har
    obtain ⟨h1, h2⟩ := out_unknown har ho hu
    cases w with
    | none => cases h
    | some w =>
      simp only at h
      split at h
      · cases h; exact ⟨_, List.mem_singleton.2 rfl, h1, h2⟩
      · cases h
  all_goals (rw [hk] at h; cases h)

theorem planInputs_progress {n : Nat} {st0 st : Store} {o : Op} (har : Arity n st0 o)
    {a : List (Nat × List Dim)} (h : planInputs st o = some a) : Progress n st a := by
  obtain ⟨hi, ho, har⟩ := har
  unfold planInputs at h
  have key : (∃ c t e, o.inputs = [c, t, e]) → (match st (o.inp 1), st (o.inp 2) with
    | some _, some _ => none
    | some [], none => none
    | some (d :: s), none => some [(o.inp 1, d :: s), (o.inp 2, d :: s)]
    | none, some s => some [(o.inp 1, s), (o.inp 2, s)]
    | none, none => none) = some a → Progress n st a := by
    rintro ⟨c, t, e, hin⟩ h
    have h1 : o.inp 1 = t := by simp [Op.inp, hin]
    have h2 : o.inp 2 = e := by simp [Op.inp, hin]
    rw [h1, h2] at h
    split at h
    · cases h
    · cases h
    · rename_i hn
      cases h; exact ⟨_, List.mem_cons_of_mem _ (List.mem_singleton.2 rfl), hi e (by rw [hin]; simp), hn⟩
    · rename_i hn _
      cases h; exact ⟨_, List.mem_cons_self, hi t (by rw [hin]; simp), hn⟩
    · cases h
  cases hk : o.kind
  case select => rw [hk] at h har; exact key har.2 h
  case selectV2 => rw [hk] at h har; exact key har.2 h
  all_goals (rw [hk] at h; cases h)

theorem planPartial_progress {n : Nat} {st0 st : Store} {o : Op} (har : Arity n st0 o)
    (hu : ¬ unknownIn st o.outputs = false)
    {a : List (Nat × List Dim)} (h : planPartial st o = some (.ok (some a))) : Progress n st a := by
  obtain ⟨hi, ho, har⟩ := har
  unfold planPartial at h
  cases hk : o.kind
  case concat => rw [hk] at h; simp only at h; split at h <;> cases h
  case select =>
    rw [hk] at h har
    obtain ⟨h1, h2⟩ := out_unknown har.1 ho hu
    simp only at h
    split at h
    · cases h; exact ⟨_, List.mem_cons_self, h1, h2⟩
    · cases h
  case selectV2 =>
    rw [hk] at h har
    obtain ⟨h1, h2⟩ := out_unknown har.1 ho hu
    simp only at h
    split at h
    · cases h; exact ⟨_, List.mem_cons_self, h1, h2⟩
    · cases h
  case pack =>
    rw [hk] at h har
    obtain ⟨h1, h2⟩ := out_unknown har ho hu
    simp only at h
    split at h
    · cases h
    · cases h; exact ⟨_, List.mem_append_right _ (List.mem_singleton.2 rfl), h1, h2⟩
  case pow =>
    rw [hk] at h har
    obtain ⟨h1, h2⟩ := out_unknown har ho hu
    simp only at h
    split at h
    · cases h; exact ⟨_, List.mem_singleton.2 rfl, h1, h2⟩
    · cases h
  all_goals (rw [hk] at h; cases h)

theorem planFull_progress {n : Nat} {st0 st : Store} {o : Op} (har : Arity n st0 o) (hk' : o.kind ≠ .minMax)
    (hu : ¬ unknownIn st o.outputs = false)
    {a : List (Nat × List Dim)} (h : planFull st o = some a) : Progress n st a := by
  obtain ⟨hi, ho, har⟩ := har
  unfold planFull at h
  cases hk : o.kind
  case minMax => exact absurd hk hk'
  case unpack axis =>
    rw [hk] at h
    simp only at h
    split at h
    · cases h
      obtain ⟨t, ht, hs⟩ := unknownIn_true hu
      exact ⟨_, List.mem_map.2 ⟨t, ht, rfl⟩, ho t ht, hs⟩
    · cases h
  case direct =>
    rw [hk] at h har
    obtain ⟨h1, h2⟩ := out_unknown har ho hu
    simp only at h
    split at h
    · cases h; exact ⟨_, List.mem_singleton.2 rfl, h1, h2⟩
    · cases h
  case broadcast =>
    rw [hk] at h har
    obtain ⟨h1, h2⟩ := out_unknown har ho hu
    simp only at h
    split at h
    · split at h
      · cases h; exact ⟨_, List.mem_singleton.2 rfl, h1, h2⟩
      · cases h
    · cases h
  case randomUniform w =>
    rw [hk] at h har
    obtain ⟨h1, h2⟩ := out_unknown har ho hu
    cases w with
    | none => cases h
    | some w =>
      simp only at h
      split at h
      · cases h; exact ⟨_, List.mem_singleton.2 rfl, h1, h2⟩
      · cases h
  case gather w =>
    rw [hk] at h har
    obtain ⟨h1, h2⟩ := out_unknown har ho hu
    cases w with
    | none => cases h
    | some w =>
      simp only at h
      split at h
      · cases h; exact ⟨_, List.mem_singleton.2 rfl, h1, h2⟩
      · cases h
  case reduce w _ =>
    rw [hk] at h har
    obtain ⟨h1, h2⟩ := out_unknown har ho hu
    cases w with
    | none => cases h
    | some w =>
      simp only at h
      split at h
      · cases h; exact ⟨_, List.mem_singleton.2 rfl, h1, h2⟩
      · cases h
  case expandDims w =>
    rw [hk] at h har
    obtain ⟨h1, h2⟩ := out_unknown har ho hu
    cases w with
    | none => cases h
    | some w =>
      simp only at h
      split at h
      · cases h; exact ⟨_, List.mem_singleton.2 rfl, h1, h2⟩
      · cases h
  all_goals (rw [hk] at h; cases h)

theorem runPlan_progress {n : Nat} {st st' : Store} {p : Plan}
    (hp : ∀ a, p = .ok (some a) → Progress n st a) (h : runPlan st p = .ok (st', true)) : unknown n st' < unknown n st := by
  obtain ⟨m, k⟩ := runPlan_mono h
  obtain ⟨a, ha, hk⟩ := k rfl
  obtain ⟨q, hq, hn, hs⟩ := hp a ha
  exact unknown_lt m hn hs (hk q hq)

theorem inferOpLegacy_progress {n : Nat} {st0 st st' : Store} {o : Op} (har : Arity n st0 o) (hk : o.kind ≠ .minMax)
    (h : inferOpLegacy st o = .ok (st', true)) : unknown n st' < unknown n st := by
  unfold inferOpLegacy at h
  split at h
  · cases h
  rename_i st1 u1 h1
  have m1 := (runPlan_mono h1).1
  refine Nat.lt_of_lt_of_le ?_ (unknown_le m1)
  split at h
  · rename_i a hpl
    split at hpl
    · exact runPlan_progress (fun _ hp => by cases hp; exact planInputs_progress har hpl) h
    · cases hpl
  · split at h
    · cases h
    · rename_i hu
      refine runPlan_progress (fun a hp => ?_) h
      unfold planRest at hp
      split at hp
      · rename_i p hp'
        subst hp
        exact planPartial_progress har hu hp'
      · split at hp
        · cases hp
        · simp only [Except.ok.injEq] at hp
          exact planFull_progress har hk hu hp

/-- What termination needs of an inference function. -/
structure Prog (f : Store → Op → Except String (Store × Bool)) (n : Nat) (st0 : Store) (o : Op) : Prop where
  mono : ∀ st st' u, f st o = .ok (st', u) → Mono st st'
  lt : ∀ st st', Mono st0 st → f st o = .ok (st', true) → unknown n st' < unknown n st

theorem round_progress {f : Store → Op → Except String (Store × Bool)} {n : Nat} {st0 : Store} {ops : List Op}
    (hf : ∀ o ∈ ops, Prog f n st0 o) {st st' : Store} {u : Bool} (hm : Mono st0 st) (h : round f ops st = .ok (st', u)) :
    Mono st st' ∧ (u = true → unknown n st' < unknown n st) := by
  induction ops generalizing st st' u with
  | nil => cases h; exact ⟨.refl _, by simp⟩
  | cons o ops ih =>
    simp only [round] at h
    split at h
    · cases h
    · rename_i st1 u1 h1
      have m1 := (hf o (by simp)).mono _ _ _ h1
      split at h
      · cases h
      · rename_i st2 u2 h2
        cases h
        obtain ⟨m2, k2⟩ := ih (fun o ho => hf o (by simp [ho])) (hm.trans m1) h2
        refine ⟨m1.trans m2, fun hu => ?_⟩
        cases u1 with
        | true => exact Nat.lt_of_le_of_lt (unknown_le m2) ((hf o (by simp)).lt _ _ hm h1)
        | false =>
          simp only [Bool.false_or] at hu
          exact Nat.lt_of_lt_of_le (k2 hu) (unknown_le m1)

theorem loop_terminates {f : Store → Op → Except String (Store × Bool)} {n : Nat} {st0 : Store} {ops : List Op}
    {reload : Store → Store} (hr : ∀ st, Mono st (reload st)) (hf : ∀ o ∈ ops, Prog f n st0 o) {fuel : Nat} {st : Store}
    (hm : Mono st0 st) (hfuel : unknown n st < fuel) :
    ∃ r, loop f reload ops fuel st = some r ∧ ∀ st', r = .ok st' → Mono st st' := by
  induction fuel generalizing st with
  | zero => omega
  | succ fuel ih =>
    simp only [loop]
    cases h : round f ops st with
    | error e => exact ⟨_, rfl, by simp⟩
    | ok p =>
      obtain ⟨st1, u⟩ := p
      obtain ⟨m1, k1⟩ := round_progress hf hm h
      cases u with
      | false => exact ⟨_, rfl, by rintro st' h'; cases h'; exact m1⟩
      | true =>
        have h1 := k1 rfl
        have h2 := unknown_le (n := n) (hr st1)
        obtain ⟨r, hr1, hr2⟩ := ih (st := reload st1) ((hm.trans m1).trans (hr st1)) (by omega)
        exact ⟨r, hr1, fun st' h' => (m1.trans (hr st1)).trans (hr2 st' h')⟩

/-- `infer_shape` terminates: each loop runs at most once more than there are tensors of unknown rank. This holds for all
graphs and shapes, true or not.
Missing for the full property: graphs with `Minimum` / `Maximum`, on which the loop may run forever, see
`infer_shape_terminates_violated`. -/
theorem infer_shape_terminates_partial {reload : Store → Store} {ops : List Op} {n : Nat} {st : Store}
    (hr : ∀ st, Mono st (reload st)) (har : ∀ o ∈ ops, Arity n st o) (hk : ∀ o ∈ ops, o.kind ≠ .minMax)
    {fuel : Nat} (hfuel : n < fuel) : ∃ r, inferShape reload ops fuel st = some r := by
  have hle : ∀ st, unknown n st ≤ n := fun st => by
    have := List.length_filter_le (fun t => (st t).isNone) (List.range n)
    rw [List.length_range] at this
    exact this
  have p1 : ∀ o ∈ ops, Prog inferOp n st o := fun o ho =>
    ⟨fun _ _ _ h => (runPlan_mono h).1, fun _ _ hm h => runPlan_progress (fun _ hp => planOp_progress (har o ho) hm hp) h⟩
  have p2 : ∀ o ∈ ops, Prog inferOpLegacy n st o := fun o ho =>
    ⟨fun _ _ _ h => inferOpLegacy_mono h, fun _ _ _ h => inferOpLegacy_progress (har o ho) (hk o ho) h⟩
  obtain ⟨r, h1, h2⟩ := loop_terminates hr p1 (.refl st) (Nat.lt_of_le_of_lt (hle st) hfuel)
  unfold inferShape
  rw [h1]
  cases r with
  | error e => exact ⟨_, rfl⟩
  | ok st1 =>
    simp only
    split
    · obtain ⟨r, h3, _⟩ := loop_terminates (reload := id) (fun _ => .refl _) p2 (h2 st1 rfl)
        (Nat.lt_of_le_of_lt (hle st1) hfuel)
      exact ⟨r, h3⟩
    · exact ⟨_, rfl⟩

/-! ## Where the full property is false -/

/-- A store from a list. -/
def storeOf (l : List (Option (List Dim))) : Store := fun t => l.getD t none
def shapesOf (l : List (List Nat)) : Nat → List Nat := fun t => l.getD t []

theorem reloadId (σ : Nat → List Nat) : ReloadTrue id σ := fun _ h => ⟨h, .refl _⟩

theorem fits_iff (s : List Dim) (l : List Nat) :
    Fits s l ↔ s.length = l.length ∧ (s.zip l).all (fun p => p.1 == none || p.1 == some p.2) = true := by
  unfold Fits
  induction s generalizing l with
  | nil => cases l <;> simp
  | cons d s ih =>
    cases l with
    | nil => simp
    | cons n l =>
      rw [List.forall₂_cons, ih]
      simp only [List.length_cons, Nat.add_right_cancel_iff, List.zip_cons_cons, List.all_cons, Bool.and_eq_true,
        Bool.or_eq_true, beq_iff_eq]
      tauto

instance (s : List Dim) (l : List Nat) : Decidable (Fits s l) := decidable_of_iff _ (fits_iff s l).symm

theorem agrees_of_list {l : List (Option (List Dim))} {m : List (List Nat)}
    (h : ∀ t ∈ List.range l.length, (match l.getD t none with
      | none => true
      | some s => decide (Fits s (m.getD t []))) = true) :
    Agrees (storeOf l) (shapesOf m) := by
  intro t s hs
  by_cases ht : t < l.length
  · have := h t (List.mem_range.2 ht)
    unfold storeOf at hs
    rw [hs] at this
    exact of_decide_eq_true this
  · unfold storeOf at hs
    rw [List.getD_eq_getElem?_getD, List.getElem?_eq_none (by omega)] at hs
    cases hs

/-- A run respects the graph and the initial shapes, but the inferred shapes are wrong. -/
def Wrong (ops : List Op) (l : List (Option (List Dim))) (m : List (List Nat)) : Prop :=
  Agrees (storeOf l) (shapesOf m) ∧ (∀ o ∈ ops, OpSem (shapesOf m) o) ∧
  ∃ st', inferShape id ops 10 (storeOf l) = some (.ok st') ∧ ¬ Agrees st' (shapesOf m)

theorem agrees_two {a b : List Dim} {m : List (List Nat)} (ha : Fits a (m.getD 0 [])) (hb : Fits b (m.getD 1 [])) (k : Nat) :
    Agrees (storeOf (some a :: some b :: List.replicate k none)) (shapesOf m) := by
  intro t s hs
  match t with
  | 0 => cases hs; exact ha
  | 1 => cases hs; exact hb
  | t + 2 =>
    exfalso
    unfold storeOf at hs
    simp only [List.getD_eq_getElem?_getD, List.getElem?_cons_succ, List.getElem?_replicate] at hs
    split at hs <;> cases hs

/-- `[3] + [1, 3]` has shape `[1, 3]`, the inferred shape is `[3, 3]`: dimensions are compared from the left. -/
theorem infer_broadcast_violated : Wrong [⟨.broadcast, [0, 1], [2]⟩] [some [some 3], some [some 1, some 3], none]
    [[3], [1, 3], [1, 3]] := by
  refine ⟨agrees_two (by decide) (by decide) 1, ?_, _, rfl, ?_⟩
  · intro o ho
    simp only [List.mem_singleton] at ho
    subst ho
    show Broadcast [3] [1, 3] [1, 3]
    exact ⟨rfl, by decide⟩
  · intro h
    exact absurd (h 2 [some 3, some 3] rfl) (by decide)

/-- `x ** y` with shapes `[1]` and `[5]` has shape `[5]`, the inferred shape is `[1]`: broadcasting is ignored. -/
theorem infer_pow_violated : Wrong [⟨.pow, [0, 1], [2]⟩] [some [some 1], some [some 5], none] [[1], [5], [5]] := by
  refine ⟨agrees_two (by decide) (by decide) 1, ?_, _, rfl, ?_⟩
  · intro o ho
    simp only [List.mem_singleton] at ho
    subst ho
    show Broadcast [1] [5] [5]
    exact ⟨rfl, by decide⟩
  · intro h
    exact absurd (h 2 [some 1] rfl) (by decide)

/-- `tf.stack([x, y], axis=-1)` of shapes `[2]` has shape `[2, 2]`; of `[3]` it has shape `[3, 2]` and the inferred shape is
`[2, 3]`: -1 is taken to be the last axis of the operand, not of the result. -/
theorem infer_pack_violated : Wrong [⟨.pack (-1), [0, 1], [2]⟩] [some [some 3], some [some 3], none] [[3], [3], [3, 2]] := by
  refine ⟨agrees_two (by decide) (by decide) 1, ?_, _, rfl, ?_⟩
  · intro o ho
    simp only [List.mem_singleton] at ho
    subst ho
    exact ⟨[3], 1, by decide, ⟨by decide, by decide⟩, rfl⟩
  · intro h
    exact absurd (h 2 [some 2, some 3] rfl) (by decide)

/-- `tf.where(c, x, y)` with `x : [1]` and `y` not known but `[5]` at run time has shape `[5]`; `y` and the result are
inferred to have the shape of `x`. -/
theorem infer_select_v2_violated : Wrong [⟨.selectV2, [0, 1, 2], [3]⟩]
    [some [some 1], some [some 1], none, none] [[1], [1], [5], [5]] := by
  refine ⟨agrees_two (by decide) (by decide) 2, ?_, _, rfl, ?_⟩
  · intro o ho
    simp only [List.mem_singleton] at ho
    subst ho
    exact ⟨[5], ⟨rfl, by decide⟩, ⟨rfl, by decide⟩⟩
  · intro h
    exact absurd (h 3 [some 1] rfl) (by decide)

/-- A placeholder without a known shape is taken to be a scalar, whatever is fed. -/
theorem infer_placeholder_violated : Wrong [⟨.placeholder none, [], [0]⟩] [none] [[7]] := by
  refine ⟨?_, ?_, _, rfl, ?_⟩
  · intro t s hs
    match t with
    | 0 => cases hs
    | t + 1 => cases hs
  · intro o ho
    simp only [List.mem_singleton] at ho
    subst ho
    trivial
  · intro h
    exact absurd (h 0 [] rfl) (by decide)

/-- `Merge` forwards one of its operands. With operands of shapes `[None]` and `[5]` the inferred shape is `[5]`, although
the first operand, of the same rank, may have another length. (This breaks the assumption that the comment in the code
spells out in full, but not the one in parentheses: "at least the same rank".) -/
theorem infer_merge_rank_only_violated :
    ∃ st', inferShape id [⟨.merge, [0, 1], [2]⟩] 10 (storeOf [some [none], some [some 5], none]) = some (.ok st') ∧
      st' 2 = some [some 5] ∧ ∀ n, Fits [none] [n] ∧ (n ≠ 5 → ¬ Fits [some 5] [n]) := by
  refine ⟨_, rfl, rfl, fun n => ⟨.cons (Or.inl rfl) .nil, ?_⟩⟩
  intro hn h
  cases h with
  | cons h _ => simp at h; exact hn h.symm

/-- On every `Concat` whose output shape is unknown and that has an operand of known shape, the code raises. -/
theorem infer_concat_violated {st : Store} {o : Op} (hk : o.kind = .concat) (hu : unknownIn st o.outputs = true)
    (hf : (firstKnown st o.inputs.dropLast).isSome) : ∃ e, inferOpLegacy st o = .error e := by
  have h1 : planOp st o = .ok none := by unfold planOp; rw [hk]; split <;> rfl
  have h2 : planInputs st o = none := by unfold planInputs; rw [hk]
  unfold inferOpLegacy inferOp
  rw [h1]
  simp only [runPlan, h2, ite_self, hu]
  have h3 : ∃ e, planRest st o = .error e := by
    unfold planRest planPartial
    rw [hk]
    simp only
    cases hf' : firstKnown st o.inputs.dropLast with
    | none => rw [hf'] at hf; cases hf
    | some s => exact ⟨_, rfl⟩
  obtain ⟨e, he⟩ := h3
  rw [he]
  exact ⟨e, rfl⟩

/-- `tf.minimum(x, y)` with shapes `[None]` and `[5]`: the legacy loop sets no shape, reports an update and never ends. -/
theorem infer_shape_terminates_violated (fuel : Nat) :
    inferShape id [⟨.minMax, [0, 1], [2]⟩] fuel (storeOf [some [none], some [some 5], none]) = none := by
  have h1 : round inferOpLegacy [⟨.minMax, [0, 1], [2]⟩] (storeOf [some [none], some [some 5], none]) =
      .ok (storeOf [some [none], some [some 5], none], true) := rfl
  have h2 : ∀ fuel, loop inferOpLegacy id [⟨.minMax, [0, 1], [2]⟩] fuel (storeOf [some [none], some [some 5], none]) = none := by
    intro fuel
    induction fuel with
    | zero => rfl
    | succ fuel ih => simp only [loop, h1]; exact ih
  cases fuel with
  | zero => rfl
  | succ fuel =>
    have h3 : loop inferOp id [⟨.minMax, [0, 1], [2]⟩] (fuel + 1) (storeOf [some [none], some [some 5], none]) =
      some (.ok (storeOf [some [none], some [some 5], none])) := rfl
    unfold inferShape
    rw [h3]
    exact h2 (fuel + 1)

/-! ## A graph that meets the hypotheses -/

/-- A placeholder `[None, 3]`, a scalar, their product, its maximum over the last axis, a new axis, and a stack of two. -/
def sample : List Op :=
  [⟨.broadcast, [0, 1], [2]⟩, ⟨.reduce (some [-1]) false, [2], [3]⟩, ⟨.expandDims (some (-1)), [3], [4]⟩,
   ⟨.pack 0, [4, 5], [6]⟩, ⟨.unpack (-1), [6], [7]⟩, ⟨.gather (some 0), [7, 8], [9]⟩, ⟨.pow, [0, 1], [10]⟩]

def sampleStore : Store := storeOf [some [none, some 3], some [], none, none, none, none, none, none, some [some 4, none]]
def sampleShapes : Nat → List Nat :=
  shapesOf [[7, 3], [], [7, 3], [7], [7, 1], [7, 1], [2, 7, 1], [2, 7], [4, 6], [4, 6, 7], [7, 3]]

example : ∃ st', inferShape id sample 20 sampleStore = some (.ok st') ∧ st' 3 = some [none] ∧ st' 5 = some [none, some 1] ∧
    st' 6 = some [some 2, none, some 1] ∧ st' 9 = some [some 4, none, none] := ⟨_, rfl, rfl, rfl, rfl, rfl⟩

theorem sample_sem : ∀ o ∈ sample, OpSem sampleShapes o := by
  intro o ho
  simp only [sample, List.mem_cons, List.not_mem_nil, or_false] at ho
  rcases ho with rfl | rfl | rfl | rfl | rfl | rfl | rfl
  · exact ⟨rfl, by decide⟩
  · exact ⟨by intro a ha; simp only [List.mem_singleton] at ha; subst ha; exact ⟨1, by decide, by decide⟩, by decide⟩
  · exact ⟨1, by decide, rfl⟩
  · exact ⟨[7, 1], 0, by decide, by decide, rfl⟩
  · exact ⟨2, by decide, by decide⟩
  · exact ⟨0, by decide, rfl⟩
  · exact ⟨rfl, by decide⟩

theorem sample_safe : (∀ o ∈ sample, Safe sampleStore sampleShapes o) ∧ (∀ o ∈ sample, Clean o) ∧
    Agrees sampleStore sampleShapes := by
  refine ⟨?_, ?_, ?_⟩
  · intro o ho
    simp only [sample, List.mem_cons, List.not_mem_nil, or_false] at ho
    rcases ho with rfl | rfl | rfl | rfl | rfl | rfl | rfl
    · exact Or.inr (Or.inr rfl)
    · trivial
    · trivial
    · show (0 : Int) ≤ 0; decide
    · trivial
    · show (0 : Int) ≤ 0; decide
    · exact ⟨rfl, Or.inr rfl⟩
  · intro o ho
    simp only [sample, List.mem_cons, List.not_mem_nil, or_false] at ho
    rcases ho with rfl | rfl | rfl | rfl | rfl | rfl | rfl <;> trivial
  · apply agrees_of_list
    decide

theorem sample_arity : ∀ o ∈ sample, Arity 11 sampleStore o ∧ o.kind ≠ .minMax := by
  intro o ho
  simp only [sample, List.mem_cons, List.not_mem_nil, or_false] at ho
  rcases ho with rfl | rfl | rfl | rfl | rfl | rfl | rfl <;>
    exact ⟨⟨by decide, by decide, by first | exact ⟨_, rfl⟩ | trivial⟩, by decide⟩

/-- The three theorems apply to this graph. -/
example : ∃ st', inferShape id sample 20 sampleStore = some (.ok st') ∧ Agrees st' sampleShapes := by
  obtain ⟨r, hr⟩ := infer_shape_terminates_partial (reload := id) (fun _ => .refl _) (fun o ho => (sample_arity o ho).1)
    (fun o ho => (sample_arity o ho).2) (fuel := 20) (by decide)
  cases r with
  | error e =>
    exact absurd hr (infer_shape_no_exception (reloadId _) sample_safe.2.2 sample_sem sample_safe.1 sample_safe.2.1 e)
  | ok st' => exact ⟨st', hr, (infer_shape_true_partial (reloadId _) sample_safe.2.2 sample_sem sample_safe.1 hr).1⟩

end Verif.ShapeInf
