import Verif.Props.C62_Step
/-!
# The loop over the operands
-/
namespace Verif.Einsum
open Verif.Tensor

variable {α : Type} [CommSemiring α]

/-! ## The product of the result so far and an operand -/

theorem onlyHere_right (n : Nat) (r0 r1 : List Int) (u : Nat → Bool) (A : List Nat) :
    onlyHere r0 (Rset n (maskR r0) (maskR r1) u) (Lset n (maskR r0) (maskR r1) u) A = [] := by
  unfold onlyHere
  rw [List.filter_eq_nil_iff]
  intro d hd h
  simp only [Bool.and_eq_true, Bool.not_eq_true', List.contains_eq_mem, decide_eq_false_iff_not] at h
  have h0 : maskR r0 d = true := h.1.1
  obtain ⟨h1, h2⟩ := List.mem_filter.1 hd
  refine h.1.2 (List.mem_filter.2 ⟨h1, ?_⟩)
  revert h2
  simp only [h0]
  cases maskR r1 d <;> simp

theorem onlyHere_left (n : Nat) (r0 r1 : List Int) (u : Nat → Bool) (A : List Nat) :
    onlyHere r1 (Lset n (maskR r0) (maskR r1) u) (Rset n (maskR r0) (maskR r1) u) A = [] := by
  unfold onlyHere
  rw [List.filter_eq_nil_iff]
  intro d hd h
  simp only [Bool.and_eq_true, Bool.not_eq_true', List.contains_eq_mem, decide_eq_false_iff_not] at h
  have h0 : maskR r1 d = true := h.1.1
  obtain ⟨h1, h2⟩ := List.mem_filter.1 hd
  refine h.1.2 (List.mem_filter.2 ⟨h1, ?_⟩)
  revert h2
  simp only [h0]
  cases maskR r0 d <;> simp

theorem rget_maxRow {n : Nat} {r0 r1 : List Int} (h0 : r0.length = n) (h1 : r1.length = n) {d : Nat} (hd : d < n) :
    rget (maxRow r0 r1) d = max (rget r0 d) (rget r1 d) := by
  have a : d < r0.length := by omega
  have b : d < r1.length := by omega
  simp [rget, maxRow, List.getElem?_zipWith, a, b]

theorem matmul_res {n v : Nat} {dim : Nat → Nat} {xs : List (T α)} {s0 s1 : Sub} {r0 r1 : List Int} {F G : (Nat → Nat) → α} (u : Nat → Bool) (hv : 13 ≤ v)
    (hpos : ∀ d, d < n → 0 < dim d) (h0 : Res n v dim xs s0 r0 F) (h1 : Res n v dim xs s1 r1 G) :
    ∃ p, matmulStep n (Lset n (maskR r0) (maskR r1) u) (Rset n (maskR r0) (maskR r1) u) (Aset n (maskR r0) (maskR r1) u) s0 s1 r0 r1 = some p ∧
      Res n v dim xs p.1 p.2 (sumL dim (Aset n (maskR r0) (maskR r1) u) (fun τ => F τ * G τ)) ∧
      ∀ d, d < n → maskR p.2 d = ((maskR r0 d || maskR r1 d) && !(Aset n (maskR r0) (maskR r1) u).contains d) := by
  unfold matmulStep
  by_cases hc : Aset n (maskR r0) (maskR r1) u = [] ∧ ∀ d ∈ Lset n (maskR r0) (maskR r1) u, d ∉ Rset n (maskR r0) (maskR r1) u
  · rw [if_pos hc]
    have hmask : ∀ d, d < n → maskR (maxRow r0 r1) d = (maskR r0 d || maskR r1 d) := by
      intro d hd
      unfold maskR
      rw [rget_maxRow h0.row.1 h1.row.1 hd, Bool.eq_iff_iff]
      simp only [decide_eq_true_eq, Bool.or_eq_true]
      omega
    refine ⟨_, rfl, ⟨⟨?_, fun d => ?_⟩, ?_⟩, fun d hd => ?_⟩
    · simp [maxRow, h0.row.1, h1.row.1]
    · by_cases hd : d < n
      · simp only
        rw [rget_maxRow h0.row.1 h1.row.1 hd]
        have := h0.row.2 d
        omega
      · have : ¬ d < (maxRow r0 r1).length := by simp [maxRow, h0.row.1, h1.row.1, hd]
        rw [rget, List.getD_eq_getElem?_getD, List.getElem?_eq_none (by simpa using this)]
        simp
    · rw [hc.1]
      obtain ⟨x, hx, hax⟩ := h0.run
      obtain ⟨y, hy, hay⟩ := h1.run
      obtain ⟨w, hw, haw⟩ := mulT_al hax hay
      refine ⟨canonT w, by simp only [Sub.run, hx, hy, Option.bind_some, hw, Option.map_some], ?_⟩
      exact haw.canon.congr (fun d hd => (hmask d (List.mem_range.1 hd)).symm) (fun _ _ => rfl)
    · rw [hc.1, hmask d hd]
      simp
  · have hd : (∀ d ∈ Aset n (maskR r0) (maskR r1) u, d ∉ Lset n (maskR r0) (maskR r1) u) ∧
        ∀ d ∈ Aset n (maskR r0) (maskR r1) u, d ∉ Rset n (maskR r0) (maskR r1) u := by
      constructor <;>
      · intro d ha hl
        have h1 := (List.mem_filter.1 ha).2
        have h2 := (List.mem_filter.1 hl).2
        revert h1 h2
        cases maskR r0 d <;> cases maskR r1 d <;> cases u d <;> simp
    rw [if_neg hc, if_pos hd, if_pos (onlyHere_left n r0 r1 u _)]
    simp only [onlyHere_right, mkReduce, if_true]
    exact ⟨_, rfl, dotStep_res u hv hpos h0 h1⟩

/-! ## Functions that depend on some letters only -/

/-- The value depends on the letters `S` only. -/
def Dep {ι : Type} (S : List ι) (F : (ι → Nat) → α) : Prop := ∀ σ τ, (∀ d ∈ S, σ d = τ d) → F σ = F τ

theorem Dep.sumL {ι : Type} [DecidableEq ι] {S : List ι} {F : (ι → Nat) → α} (h : Dep S F) (dim : ι → Nat) (D : List ι) : Dep S (sumL dim D F) := by
  induction D with
  | nil => exact h
  | cons d D ih =>
    intro σ τ hst
    simp only [Einsum.sumL]
    apply Finset.sum_congr rfl
    intro k _
    apply ih
    intro e he
    simp only [upd, hst e he]

theorem Dep.ext {ι : Type} [DecidableEq ι] {S D : List ι} {F : (ι → Nat) → α} (h : Dep S F) {dim : ι → Nat} (hd : ∀ d ∈ D, d ∉ S) {σ τ : ι → Nat}
    (he : Ext dim D σ τ) : F τ = F σ :=
  h τ σ (fun d hS => he.1 d (fun hD => hd d hD hS))

theorem dep_term {ι : Type} (x : T α) (t : List ι) : Dep t (fun σ : ι → Nat => x.get (t.map σ)) := by
  intro σ τ h
  simp only
  congr 1
  exact List.map_congr_left h

theorem dep_product {ι : Type} (ins : List (List ι)) (xs : List (T α)) : Dep ins.flatten (product ins xs) := by
  intro σ τ h
  unfold product
  congr 1
  induction ins generalizing xs with
  | nil => rfl
  | cons t ins ih =>
    cases xs with
    | nil => rfl
    | cons x xs =>
      simp only [List.zipWith_cons_cons]
      congr 1
      · congr 1
        exact List.map_congr_left (fun d hd => h d (by simp [hd]))
      · exact ih xs (fun d hd => h d (by simp only [List.flatten_cons, List.mem_append]; exact Or.inr hd))

theorem product_snoc {ι : Type} (pre : List (List ι)) (t : List ι) (xs : List (T α)) (x : T α) (hx : xs[pre.length]? = some x) (σ : ι → Nat) :
    product (pre ++ [t]) xs σ = product pre xs σ * x.get (t.map σ) := by
  unfold product
  induction pre generalizing xs with
  | nil =>
    cases xs with
    | nil => simp at hx
    | cons y ys =>
      simp only [List.length_nil, List.getElem?_cons_zero, Option.some.injEq] at hx
      subst hx
      simp
  | cons p pre ih =>
    cases xs with
    | nil => simp at hx
    | cons y ys =>
      simp only [List.length_cons, List.getElem?_cons_succ] at hx
      simp only [List.cons_append, List.zipWith_cons_cons, List.prod_cons, ih ys hx, mul_assoc]

/-! ## The loop -/

theorem usedLater_nrow {n d : Nat} (terms : List (List Nat)) (hd : d < n) : usedLater (terms.map (nrow n)) d = decide (d ∈ terms.flatten) := by
  unfold usedLater
  rw [Bool.eq_iff_iff, List.any_eq_true]
  simp only [List.mem_map, decide_eq_true_eq, List.mem_flatten]
  constructor
  · rintro ⟨r, ⟨t, ht, rfl⟩, h⟩
    refine ⟨t, ht, ?_⟩
    rw [← rget_nrow_iff hd]
    omega
  · rintro ⟨t, ht, h⟩
    refine ⟨_, ⟨t, ht, rfl⟩, ?_⟩
    rw [rget_nrow hd, if_pos h]
    omega

/-- After the terms `pre`; `rest` are the terms still to come, with the output. -/
structure Inv (n v : Nat) (dim : Nat → Nat) (xs : List (T α)) (pre rest : List (List Nat)) (s : Sub) (r0 : List Int) : Prop where
  mask : ∀ d, d < n → maskR r0 d = (decide (d ∈ pre.flatten) && decide (d ∈ rest.flatten))
  res : ∃ D : List Nat, D.Nodup ∧ (∀ d, d ∈ D ↔ d ∈ pre.flatten ∧ d ∉ rest.flatten) ∧ Res n v dim xs s r0 (sumL dim D (product pre xs))

theorem dead_spec {n : Nat} {later : List (List Nat)} {pre t : List Nat} {r0 r1 : List Int} (h0 : RowOk n r0) (h1 : RowOk n r1)
    (hm0 : ∀ d, d < n → maskR r0 d = (decide (d ∈ pre) && (decide (d ∈ t) || decide (d ∈ later.flatten)))) (hm1 : ∀ d, d < n → maskR r1 d = maskT t d)
    (ht : ∀ d ∈ t, d < n) (d : Nat) :
    d ∈ deadLetters n (later.map (nrow n)) r0 r1 ↔ d ∈ t ∧ d ∉ later.flatten ∧ d ∉ pre := by
  unfold deadLetters
  rw [List.mem_filter, List.mem_range]
  constructor
  · rintro ⟨hd, h⟩
    simp only [Bool.and_eq_true, decide_eq_true_eq, Bool.not_eq_true'] at h
    rw [usedLater_nrow _ hd, h1.ne d, hm1 d hd, h0.eq d, hm0 d hd] at h
    simp only [maskT, decide_eq_true_eq, decide_eq_false_iff_not, Bool.and_eq_false_iff, Bool.or_eq_false_iff] at h
    tauto
  · rintro ⟨a, b, c⟩
    have hd := ht d a
    refine ⟨hd, ?_⟩
    simp only [Bool.and_eq_true, decide_eq_true_eq, Bool.not_eq_true']
    rw [usedLater_nrow _ hd, h1.ne d, hm1 d hd, h0.eq d, hm0 d hd]
    simp [maskT, a, b, c]

theorem dead_nodup (n : Nat) (later : List (List Int)) (r0 r1 : List Int) : (deadLetters n later r0 r1).Nodup := List.nodup_range.filter _

theorem rget_replicate (n d : Nat) : rget (List.replicate n (-1)) d = -1 := by
  unfold rget
  rw [List.getD_eq_getElem?_getD]
  by_cases h : d < n <;> simp [h, List.getElem?_replicate]

theorem replicate_ok (n : Nat) : RowOk n (List.replicate n (-1)) := ⟨by simp, fun d => by rw [rget_replicate]⟩

/-- The first operand. -/
theorem operand_first {n v : Nat} {dim : Nat → Nat} {xs : List (T α)} {t : List Nat} {later : List (List Nat)} {x : T α} (hv : 13 ≤ v)
    (hn : t.Nodup) (hlt : ∀ d ∈ t, d < n) (hx : xs[0]? = some x) (hs : x.shape = t.map dim) :
    ∃ p, operand n 0 (later.map (nrow n)) (nrow n t) none (List.replicate n (-1)) = some p ∧ Inv n v dim xs [t] later p.1 p.2 := by
  obtain ⟨hres, hmask⟩ := align_res (n := n) (v := v) (i := 0) hv hn hlt hx hs
  refine ⟨_, rfl, ?_⟩
  have hds := dead_spec (n := n) (later := later) (pre := []) (t := t) (replicate_ok n) hres.row
    (fun d _ => by simp [maskR, rget_replicate]) hmask hlt
  obtain ⟨h1, h2⟩ := mkReduce_res (red := deadLetters n (later.map (nrow n)) (List.replicate n (-1)) (align 0 (nrow n t)).2) hv hres (dead_nodup _ _ _ _)
    (fun d hd => by
      have := (hds d).1 hd
      exact ⟨hlt d this.1, by rw [hmask d (hlt d this.1)]; simp [maskT, this.1]⟩)
  refine ⟨fun d hd => ?_, deadLetters n (later.map (nrow n)) (List.replicate n (-1)) (align 0 (nrow n t)).2, dead_nodup _ _ _ _, fun d => ?_, ?_⟩
  · rw [h2 d hd, hmask d hd, List.contains_eq_mem]
    simp only [hds d, maskT, List.flatten_cons, List.flatten_nil, List.append_nil]
    by_cases a : d ∈ t <;> by_cases b : d ∈ later.flatten <;> simp [a, b]
  · rw [hds d]; simp
  · have e : product [t] xs = fun σ => x.get (t.map σ) := by
      funext σ
      rw [show ([t] : List (List Nat)) = [] ++ [t] from rfl, product_snoc [] t xs x hx]
      simp [product]
    rw [e]
    exact h1

/-- Another operand. -/
theorem operand_next {n v i : Nat} {dim : Nat → Nat} {xs : List (T α)} {pre : List (List Nat)} {t : List Nat} {later : List (List Nat)} {x : T α}
    {s : Sub} {r0 : List Int} (hv : 13 ≤ v) (hpos : ∀ d, d < n → 0 < dim d) (hn : t.Nodup) (hlt : ∀ d ∈ t, d < n) (hi : i = pre.length)
    (hpre : ∀ d ∈ pre.flatten, d < n) (hx : xs[i]? = some x) (hs : x.shape = t.map dim) (hinv : Inv n v dim xs pre (t :: later) s r0) :
    ∃ p, operand n i (later.map (nrow n)) (nrow n t) (some s) r0 = some p ∧ Inv n v dim xs (pre ++ [t]) later p.1 p.2 := by
  obtain ⟨hres, hmask⟩ := align_res (n := n) (v := v) (i := i) hv hn hlt hx hs
  obtain ⟨D, hDn, hD, hr0⟩ := hinv.res
  have hds := dead_spec (n := n) (later := later) (pre := pre.flatten) (t := t) hr0.row hres.row
    (fun d hd => by
      rw [hinv.mask d hd]
      simp only [List.flatten_cons, List.mem_append, Bool.decide_or]) hmask hlt
  obtain ⟨h1, h2⟩ := mkReduce_res (red := deadLetters n (later.map (nrow n)) r0 (align i (nrow n t)).2) hv hres (dead_nodup _ _ _ _)
    (fun d hd => by
      have := (hds d).1 hd
      exact ⟨hlt d this.1, by rw [hmask d (hlt d this.1)]; simp [maskT, this.1]⟩)
  have hdn := dead_nodup n (later.map (nrow n)) r0 (align i (nrow n t)).2
  generalize hdl : deadLetters n (later.map (nrow n)) r0 (align i (nrow n t)).2 = dl at *
  unfold operand
  simp only [hdl]
  generalize mkReduce dl (align i (nrow n t)) = q at *
  rw [leftOf_eq, rightOf_eq, axesOf_eq]
  obtain ⟨p, hp, hpr, hpm⟩ := matmul_res (usedLater (later.map (nrow n))) hv hpos hr0 h1
  refine ⟨p, hp, ?_⟩
  have hm1 : ∀ d, d < n → maskR q.2 d = (decide (d ∈ t) && !decide (d ∈ dl)) := by
    intro d hd
    rw [h2 d hd, hmask d hd, List.contains_eq_mem]
    rfl
  have hA : ∀ d, d ∈ Aset n (maskR r0) (maskR q.2) (usedLater (later.map (nrow n))) ↔ d ∈ pre.flatten ∧ d ∈ t ∧ d ∉ later.flatten := by
    intro d
    unfold Aset
    rw [List.mem_filter, List.mem_range]
    constructor
    · rintro ⟨hd, h⟩
      rw [hm1 d hd, hinv.mask d hd, usedLater_nrow _ hd] at h
      simp only [Bool.and_eq_true, decide_eq_true_eq, Bool.not_eq_true', decide_eq_false_iff_not] at h
      tauto
    · rintro ⟨a, b, c⟩
      have hd := hlt d b
      refine ⟨hd, ?_⟩
      rw [hm1 d hd, hinv.mask d hd, usedLater_nrow _ hd]
      have : d ∉ dl := fun h => ((hds d).1 h).2.2 a
      have e : d ∈ (t :: later).flatten := by simp [b]
      simp [a, b, c, this]
  have hAn : (Aset n (maskR r0) (maskR q.2) (usedLater (later.map (nrow n)))).Nodup := List.nodup_range.filter _
  generalize Aset n (maskR r0) (maskR q.2) (usedLater (later.map (nrow n))) = A at *
  have hpt : ∀ d, d ∈ (pre ++ [t]).flatten ↔ d ∈ pre.flatten ∨ d ∈ t := fun d => by simp
  have htl : ∀ d, d ∈ (t :: later).flatten ↔ d ∈ t ∨ d ∈ later.flatten := fun d => by simp
  refine ⟨fun d hd => ?_, A ++ (D ++ dl), ?_, fun d => ?_, ?_⟩
  · rw [hpm d hd, hm1 d hd, hinv.mask d hd, List.contains_eq_mem]
    simp only [hA d, hds d, hpt d, htl d]
    by_cases a : d ∈ pre.flatten <;> by_cases b : d ∈ t <;> by_cases c : d ∈ later.flatten <;> simp [a, b, c]
  · rw [List.nodup_append, List.nodup_append]
    refine ⟨hAn, ⟨hDn, hdn, ?_⟩, ?_⟩
    · intro a ha b hb hab
      subst hab
      have h1 := (hD a).1 ha
      have h2 := (hds a).1 hb
      exact h2.2.2 h1.1
    · intro a ha b hb hab
      subst hab
      have h0 := (hA a).1 ha
      rcases List.mem_append.1 hb with hb | hb
      · exact ((hD a).1 hb).2 ((htl a).2 (Or.inl h0.2.1))
      · exact ((hds a).1 hb).2.2 h0.1
  · rw [hpt d, List.mem_append, List.mem_append, hA d, hD d, hds d, htl d]
    tauto
  · have e : sumL dim (A ++ (D ++ dl)) (product (pre ++ [t]) xs) =
        sumL dim A (fun τ => sumL dim D (product pre xs) τ * sumL dim dl (fun σ => x.get (t.map σ)) τ) := by
      funext σ
      rw [sumL_append]
      congr 1
      funext τ
      rw [sumL_append]
      have e1 : product (pre ++ [t]) xs = fun σ => product pre xs σ * x.get (t.map σ) := by
        funext σ; exact product_snoc pre t xs x (by rw [← hi]; exact hx) σ
      rw [e1]
      have e2 : sumL dim dl (fun σ => product pre xs σ * x.get (t.map σ)) =
          fun ρ => sumL dim dl (fun σ => x.get (t.map σ)) ρ * product pre xs ρ := by
        funext ρ
        rw [sumL_mul_left (fun τ' hτ => (dep_product pre xs).ext (fun d hd => ((hds d).1 hd).2.2) hτ), mul_comm]
      rw [e2, sumL_mul_left (fun τ' hτ => ((dep_term x t).sumL dim dl).ext (fun d hd h => ((hD d).1 hd).2 ((htl d).2 (Or.inl h))) hτ), mul_comm]
    rw [e]
    exact hpr

/-- All operands after the first. -/
theorem operands_res {n v : Nat} {dim : Nat → Nat} {xs : List (T α)} {out : List Nat} (hv : 13 ≤ v) (hpos : ∀ d, d < n → 0 < dim d)
    (terms : List (List Nat)) : ∀ (pre : List (List Nat)) (i : Nat) (s : Sub) (r0 : List Int), i = pre.length → (∀ d ∈ pre.flatten, d < n) →
    (∀ t ∈ terms, t.Nodup ∧ ∀ d ∈ t, d < n) → List.Forall₂ (fun t x => x.shape = t.map dim) terms (xs.drop i) →
    Inv n v dim xs pre (terms ++ [out]) s r0 →
    ∃ s' r', operands n (nrow n out) i (terms.map (nrow n)) (some s) r0 = some (some s', r') ∧ Inv n v dim xs (pre ++ terms) [out] s' r' := by
  induction terms with
  | nil =>
    intro pre i s r0 _ _ _ _ hinv
    exact ⟨s, r0, rfl, by simpa using hinv⟩
  | cons t terms ih =>
    intro pre i s r0 hi hpre hok hfx hinv
    obtain ⟨x, ys, hsx, hrest, hd⟩ := List.forall₂_cons_left_iff.1 hfx
    have hx : xs[i]? = some x := by
      have : (xs.drop i)[0]? = some x := by rw [hd]; rfl
      simpa using this
    obtain ⟨p, hp, hpi⟩ := operand_next (later := terms ++ [out]) hv hpos (hok t (by simp)).1 (hok t (by simp)).2 hi hpre hx hsx hinv
    have hdrop : xs.drop (i + 1) = ys := by rw [← List.drop_drop, hd]; rfl
    obtain ⟨s', r', h1, h2⟩ := ih (pre ++ [t]) (i + 1) p.1 p.2 (by simp [hi])
      (fun d hd => by
        simp only [List.flatten_append, List.mem_append, List.flatten_cons, List.flatten_nil, List.append_nil] at hd
        rcases hd with h | h
        · exact hpre d h
        · exact (hok t (by simp)).2 d h)
      (fun t' ht' => hok t' (by simp [ht'])) (by rw [hdrop]; exact hrest) hpi
    refine ⟨s', r', ?_, by simpa using h2⟩
    rw [List.map_cons, operands]
    rw [List.map_append] at hp
    simp only [List.map_cons, List.map_nil] at hp
    rw [hp]
    exact h1

/-- The output. -/
theorem finalOut_res {n v : Nat} {dim : Nat → Nat} {xs : List (T α)} {out : List Nat} {pre : List (List Nat)} {s : Sub} {r0 : List Int} (hn : out.Nodup)
    (hv : 13 ≤ v) (hlt : ∀ d ∈ out, d < n) (hknown : ∀ d ∈ out, d ∈ pre.flatten) (hinv : Inv n v dim xs pre [out] s r0) :
    ∃ s', finalOut n (nrow n out) s r0 = some s' ∧ ∃ D : List Nat, D.Nodup ∧ (∀ d, d ∈ D ↔ d ∈ pre.flatten ∧ d ∉ out) ∧
      ∃ t, s'.run v xs = some t ∧ Al dim out (maskT out) t (sumL dim D (product pre xs)) := by
  have hm : ∀ d, d < n → maskR r0 d = maskT out d := by
    intro d hd
    rw [hinv.mask d hd]
    simp only [List.flatten_cons, List.flatten_nil, List.append_nil, maskT]
    by_cases h : d ∈ out
    · simp [h, hknown d h]
    · simp [h]
  obtain ⟨D, hDn, hD, hres⟩ := hinv.res
  have hD' : ∀ d, d ∈ D ↔ d ∈ pre.flatten ∧ d ∉ out := fun d => by rw [hD d]; simp
  unfold finalOut
  rw [if_neg (by
    rintro ⟨d, hd, h1, h2⟩
    have hd := List.mem_range.1 hd
    rw [hres.row.eq d, hm d hd] at h1
    have : maskR (nrow n out) d = true := by simpa [maskR] using h2
    rw [maskR_nrow hd] at this
    rw [this] at h1
    cases h1)]
  have hred : (List.range n).filter (fun d => decide (0 < rget r0 d) && decide (rget (nrow n out) d = -1)) = [] := by
    rw [List.filter_eq_nil_iff]
    intro d hd h
    have hd := List.mem_range.1 hd
    simp only [Bool.and_eq_true, decide_eq_true_eq] at h
    have h2 := ((nrow_ok n out).eq d).1 h.2
    rw [maskR_nrow hd, ← hm d hd] at h2
    have h3 : maskR r0 d = true := by simp only [maskR, decide_eq_true_eq]; omega
    rw [h3] at h2
    cases h2
  simp only [hred, if_true]
  refine ⟨_, rfl, D, hDn, hD', ?_⟩
  have hpp := present_perm hn hlt
  have hpn : (present (nrow n out)).Nodup := hpp.nodup_iff.2 hn
  have hperm : IsPerm (outPerm (nrow n out)) := by
    rw [outPerm_nrow hn hlt]
    exact swap_isPerm hn hpp (fun d hd => hlt d (hpp.mem_iff.1 hd))
  have hlen : (outPerm (nrow n out)).length = n := by rw [outPerm_nrow hn hlt]; simp
  obtain ⟨t, ht, hat⟩ := mkTranspose_run hperm (by rw [hlen]; simp) hres.run
  have hmapr : (outPerm (nrow n out)).map (nth (List.range n)) = swap n (present (nrow n out)) out := by
    rw [← outPerm_nrow hn hlt]
    conv_rhs => rw [← List.map_id (outPerm (nrow n out))]
    apply List.map_congr_left
    intro d hd
    exact nth_range (by have := hperm.mem.1 hd; omega)
  rw [hmapr] at hat
  have hat' : Al dim (swap n (present (nrow n out)) out) (maskT out) t (sumL dim D (product pre xs)) := by
    refine hat.congr (fun d hd => ?_) (fun _ _ => rfl)
    refine hm d ?_
    rw [← outPerm_nrow hn hlt] at hd
    have := hperm.mem.1 hd
    omega
  obtain ⟨w, hw, haw⟩ := squeeze_al hn hlt hat'
  by_cases ha : absent (nrow n out) = []
  · rw [if_pos ha]
    refine ⟨t, ht, ?_⟩
    have hfull : present (nrow n out) = List.range n := by
      rw [present_nrow]
      rw [absent_nrow] at ha
      rw [List.filter_eq_self]
      intro d hd
      have := (List.filter_eq_nil_iff.1 ha) d hd
      simpa using this
    have : swap n (present (nrow n out)) out = out := by
      rw [hfull]
      have hol : out.length = n := by rw [← hpp.length_eq, hfull]; simp
      apply ext_nth (by simp [hol])
      intro i hi
      have hi : i < n := by simpa using hi
      rw [nth_swap hi, if_pos (List.mem_range.2 hi)]
      congr 1
      have := List.nodup_range (n := n) |>.idxOf_getElem i (by simpa using hi)
      simpa using this
    rw [this] at hat'
    exact hat'
  · rw [if_neg ha]
    refine ⟨canonT w, ?_, haw.canon⟩
    simp only [Sub.run, ht, Option.bind_some]
    rw [if_pos (by omega), hw]
    rfl

end Verif.Einsum
