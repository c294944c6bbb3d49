import Verif.Props.C19_Unsqueeze
import Verif.Props.C18_Reshape
/-!
# C15: constant folding computes what the runtime would
-/
namespace Verif.ConstFold
open Verif.Tensor Verif.TransposeOpt

/-! ## Reshape -/

theorem size_fill_count0 (v : Nat) (t : List Int) (h : (-1 : Int) ∉ t) :
    t.map (fun d => if d = -1 then v else d.toNat) = t.map Int.toNat := by
  apply List.map_congr_left
  intro d hd
  have hne : d ≠ -1 := fun c => h (by rw [← c]; exact hd)
  rw [if_neg hne]

/-- A list with exactly one `-1`. -/
theorem split_one {t : List Int} (h : (t.filter (· = -1)).length = 1) :
    ∃ a b : List Int, t = a ++ (-1) :: b ∧ (-1 : Int) ∉ a ∧ (-1 : Int) ∉ b := by
  induction t with
  | nil => simp at h
  | cons d t ih =>
    by_cases hd : d = -1
    · subst hd
      refine ⟨[], t, rfl, by simp, ?_⟩
      intro hm
      have : (t.filter (fun x => decide (x = -1))) ≠ [] := by
        intro e
        rw [List.filter_eq_nil_iff] at e
        exact e _ hm (by simp)
      simp at h
      exact h _ hm rfl
    · rw [List.filter_cons_of_neg (by simpa using hd)] at h
      obtain ⟨a, b, rfl, ha, hb⟩ := ih h
      refine ⟨d :: a, b, rfl, ?_, hb⟩
      simp only [List.mem_cons, not_or]
      exact ⟨fun c => hd c.symm, ha⟩

theorem size_append (a b : List Nat) : size (a ++ b) = size a * size b := by
  induction a with
  | nil => simp [size]
  | cons d a ih => simp only [List.cons_append, size_cons, ih, Nat.mul_assoc]

theorem filter_ne_of_not_mem {t : List Int} (h : (-1 : Int) ∉ t) : t.filter (fun x => decide (x ≠ -1)) = t := by
  rw [List.filter_eq_self]
  intro a ha
  have : a ≠ -1 := fun c => h (c ▸ ha)
  simpa using this

/-- Entries are resolved one by one. -/
theorem resolved_entries {s : List Nat} {t : List Int} {r : List Nat} (h : ReshapesTo true s t r) (v : Nat)
    (hv : ∀ i : Nat, t[i]? = some (-1) → nth r i = v) : r = t.map (fun d => if d = -1 then v else d.toNat) := by
  apply ext_nth (by simp [h.rank])
  intro i hi
  have hit : i < t.length := h.rank ▸ hi
  have hti : t[i]? = some t[i] := List.getElem?_eq_getElem hit
  have e : nth (t.map (fun d => if d = -1 then v else d.toNat)) i = if t[i] = -1 then v else (t[i]).toNat := by
    simp [nth, List.getD, hit]
  rw [e]
  by_cases h1 : t[i] = -1
  · rw [if_pos h1]; exact hv i (by rw [hti, h1])
  · rw [if_neg h1]
    rcases lt_trichotomy t[i] 0 with hlt | h0 | hpos
    · have := h.valid t[i] (List.getElem_mem hit)
      omega
    · rw [h.zero i (by rw [hti, h0]) rfl, h0]; rfl
    · have := h.pos i _ hti hpos
      omega

/-- `numpy.reshape`'s resolution is the specified one. -/
theorem npReshape_spec (s : List Nat) (t : List Int) (r : List Nat) :
    npReshape s t = .ok r ↔ ReshapesTo true s t r := by
  unfold npReshape
  simp only
  by_cases hneg : t.any (fun x => decide (x < -1)) = true
  · rw [if_pos hneg]
    constructor
    · intro h; cases h
    · intro h
      rw [List.any_eq_true] at hneg
      obtain ⟨d, hd, hlt⟩ := hneg
      have := h.valid d hd
      simp at hlt
      omega
  · rw [if_neg hneg]
    have hvalid : ∀ d ∈ t, -1 ≤ d := by
      intro d hd
      by_contra hc
      apply hneg
      rw [List.any_eq_true]
      exact ⟨d, hd, by simpa using hc⟩
    by_cases hmany : (t.filter (fun x => decide (x = -1))).length > 1
    · rw [if_pos hmany]
      constructor
      · intro h; cases h
      · intro h
        exfalso
        -- two positions hold -1
        have h2 : 2 ≤ t.countP (fun x => decide (x = -1)) := by rw [List.countP_eq_length_filter]; exact hmany
        obtain ⟨i, hi⟩ : ∃ i : Nat, t[i]? = some (-1) := by
          have : 0 < t.countP (fun x => decide (x = -1)) := by omega
          rw [List.countP_pos_iff] at this
          obtain ⟨a, ha, hd⟩ := this
          simp at hd; subst hd
          exact List.mem_iff_getElem?.1 ha
        have hil : i < t.length := (List.getElem?_eq_some_iff.1 hi).1
        have hsplit : t = t.take i ++ (-1) :: t.drop (i + 1) := by
          conv => lhs; rw [← List.take_append_drop i t]
          congr 1
          rw [List.drop_eq_getElem_cons hil]
          congr 1
          exact (List.getElem?_eq_some_iff.1 hi).2
        rw [hsplit, List.countP_append, List.countP_cons] at h2
        simp only [decide_true, if_true] at h2
        have hex : 0 < (t.take i).countP (fun x => decide (x = -1)) ∨
            0 < (t.drop (i + 1)).countP (fun x => decide (x = -1)) := by omega
        rcases hex with hx | hx
        · rw [List.countP_pos_iff] at hx
          obtain ⟨a, ha, hd⟩ := hx
          simp at hd; subst hd
          obtain ⟨j, hj⟩ := List.mem_iff_getElem?.1 ha
          have hji : j < i := by
            by_contra hc
            rw [List.getElem?_take, if_neg hc] at hj; cases hj
          rw [List.getElem?_take, if_pos hji] at hj
          have := h.one j i hj hi
          omega
        · rw [List.countP_pos_iff] at hx
          obtain ⟨a, ha, hd⟩ := hx
          simp at hd; subst hd
          obtain ⟨j, hj⟩ := List.mem_iff_getElem?.1 ha
          rw [List.getElem?_drop] at hj
          have := h.one _ i hj hi
          omega
    · rw [if_neg hmany]
      by_cases hone : (t.filter (fun x => decide (x = -1))).length = 1
      · rw [if_pos hone]
        obtain ⟨a, b, rfl, ha, hb⟩ := split_one hone
        have hk : (a ++ (-1) :: b).filter (fun x => decide (x ≠ -1)) = a ++ b := by
          rw [List.filter_append, filter_ne_of_not_mem ha, List.filter_cons_of_neg (by simp), filter_ne_of_not_mem hb]
        rw [hk]
        have hpos : ∀ i : Nat, (a ++ (-1 : Int) :: b)[i]? = some (-1) ↔ i = a.length := by
          intro i
          constructor
          · intro h
            by_contra hc
            rcases Nat.lt_or_gt_of_ne hc with hlt | hgt
            · rw [List.getElem?_append_left hlt] at h
              exact ha (List.mem_of_getElem? h)
            · rw [List.getElem?_append_right (by omega)] at h
              obtain ⟨j, hj⟩ : ∃ j, i - a.length = j + 1 := ⟨i - a.length - 1, by omega⟩
              rw [hj, List.getElem?_cons_succ] at h
              exact hb (List.mem_of_getElem? h)
          · rintro rfl
            simp
        have hfill : ∀ v : Nat, (a ++ (-1 : Int) :: b).map (fun d => if d = -1 then v else d.toNat) =
            a.map Int.toNat ++ v :: b.map Int.toNat := by
          intro v
          rw [List.map_append, List.map_cons, size_fill_count0 v a ha, size_fill_count0 v b hb]
          rfl
        have hsz : ∀ v : Nat, size (a.map Int.toNat ++ v :: b.map Int.toNat) =
            v * size ((a ++ b).map Int.toNat) := by
          intro v
          rw [size_append, size_cons, List.map_append, size_append]
          rw [Nat.mul_left_comm]
        constructor
        · intro h
          by_cases hbad : size ((a ++ b).map Int.toNat) = 0 ∨ size s % size ((a ++ b).map Int.toNat) ≠ 0
          · rw [if_pos hbad] at h; cases h
          · rw [if_neg hbad] at h
            simp only [not_or, not_not] at hbad
            simp only [Except.ok.injEq] at h
            rw [hfill] at h
            subst h
            refine ⟨by simp, ?_, ?_, ?_, hvalid, ?_, ?_, ?_⟩
            · intro i _ hc; cases hc
            · intro i hi _
              have hne : i ≠ a.length := by
                intro c
                have := (hpos i).2 c
                rw [hi] at this
                simp at this
              rcases Nat.lt_or_gt_of_ne hne with hlt | hgt
              · rw [List.getElem?_append_left hlt] at hi
                have hai := (List.getElem?_eq_some_iff.1 hi).2
                simp [nth, List.getD, List.getElem?_append_left, hlt, hai]
              · rw [List.getElem?_append_right (by omega)] at hi
                obtain ⟨j, hj⟩ : ∃ j, i - a.length = j + 1 := ⟨i - a.length - 1, by omega⟩
                rw [hj, List.getElem?_cons_succ] at hi
                simp only [nth, List.getD_eq_getElem?_getD]
                rw [List.getElem?_append_right (by simp; omega)]
                simp [hj, hi]
            · intro i d hi hd
              have hne : i ≠ a.length := by
                intro c
                have := (hpos i).2 c
                rw [hi] at this
                simp at this
                omega
              rcases Nat.lt_or_gt_of_ne hne with hlt | hgt
              · rw [List.getElem?_append_left hlt] at hi
                have hai := (List.getElem?_eq_some_iff.1 hi).2
                simp [nth, List.getD, List.getElem?_append_left, hlt, hai]
                omega
              · rw [List.getElem?_append_right (by omega)] at hi
                obtain ⟨j, hj⟩ : ∃ j, i - a.length = j + 1 := ⟨i - a.length - 1, by omega⟩
                rw [hj, List.getElem?_cons_succ] at hi
                simp only [nth, List.getD_eq_getElem?_getD]
                rw [List.getElem?_append_right (by simp; omega)]
                simp [hj, hi]
                omega
            · intro i j hi hj
              rw [(hpos i).1 hi, (hpos j).1 hj]
            · rw [hsz]
              exact Nat.div_mul_cancel (Nat.dvd_of_mod_eq_zero hbad.2)
            · intro i hi
              rw [(hpos i).1 hi]
              have : (a.map Int.toNat ++ size s / size ((a ++ b).map Int.toNat) :: b.map Int.toNat).eraseIdx a.length =
                  (a ++ b).map Int.toNat := by
                rw [List.eraseIdx_append_of_length_le (by simp)]
                simp
              rw [this]; exact hbad.1
        · intro h
          have hr := resolved_entries h (nth r a.length) (by
            intro i hi; rw [(hpos i).1 hi])
          rw [hfill] at hr
          have hnz := h.infer a.length ((hpos _).2 rfl)
          have htot := h.total
          have her : r.eraseIdx a.length = (a ++ b).map Int.toNat := by
            rw [hr, List.eraseIdx_append_of_length_le (by simp)]
            simp
          rw [her] at hnz
          have htot' : nth r a.length * size ((a ++ b).map Int.toNat) = size s := by
            rw [← hsz, ← hr]; exact htot
          have hpos' : 0 < size ((a ++ b).map Int.toNat) := Nat.pos_of_ne_zero hnz
          rw [if_neg]
          · congr 1
            rw [hfill]
            conv => rhs; rw [hr]
            congr 2
            rw [← htot', Nat.mul_div_cancel _ hpos']
          · simp only [not_or, not_not]
            refine ⟨hnz, ?_⟩
            rw [← htot', Nat.mul_mod_left]
      · rw [if_neg hone]
        have hno : (-1 : Int) ∉ t := by
          intro hm
          have : 0 < t.countP (fun x => decide (x = -1)) := by
            rw [List.countP_pos_iff]; exact ⟨_, hm, by simp⟩
          rw [List.countP_eq_length_filter] at this
          omega
        constructor
        · intro h
          split at h
          · rename_i htot
            simp only [Except.ok.injEq] at h
            subst h
            refine ⟨by simp, ?_, ?_, ?_, hvalid, ?_, htot, ?_⟩
            · intro i _ hc; cases hc
            · intro i hi _; simp [nth, List.getD, hi]
            · intro i d hi hd; simp [nth, List.getD, hi]; omega
            · intro i j hi; exact absurd (List.mem_of_getElem? hi) hno
            · intro i hi; exact absurd (List.mem_of_getElem? hi) hno
          · cases h
        · intro h
          have hr := resolved_entries h 0 (fun i hi => absurd (List.mem_of_getElem? hi) hno)
          rw [size_fill_count0 0 t hno] at hr
          have htot := h.total
          rw [← hr, if_pos htot]

/-- What the zero-copying loop does. -/
theorem copyZeros_spec (s : List Nat) (t t' : List Int) (k : Nat) :
    copyZeros s t k = .ok t' ↔ t'.length = t.length ∧ ∀ (i : Nat) (d : Int), t[i]? = some d →
      if d = 0 then ∃ v, s[k + i]? = some v ∧ t'[i]? = some (v : Int) else t'[i]? = some d := by
  induction t generalizing t' k with
  | nil =>
    simp only [copyZeros, Except.ok.injEq]
    constructor
    · rintro rfl; exact ⟨rfl, fun i d h => by simp at h⟩
    · rintro ⟨h, _⟩; exact (List.length_eq_zero_iff.1 h).symm
  | cons d t ih =>
    have step : ∀ (w : Int), (do let l ← copyZeros s t (k + 1); Except.ok (w :: l) : Except String (List Int)) = .ok t' ↔
        ∃ l, copyZeros s t (k + 1) = .ok l ∧ t' = w :: l := by
      intro w
      cases hc : copyZeros s t (k + 1) with
      | error e => simp [bind, Except.bind]
      | ok l => simp [bind, Except.bind, eq_comm]
    unfold copyZeros
    by_cases hd : d = 0
    · rw [if_pos hd]
      cases hs : s[k]? with
      | none =>
        simp only
        constructor
        · intro h; cases h
        · rintro ⟨_, h⟩
          have := h 0 d rfl
          rw [if_pos hd] at this
          obtain ⟨v, hv, _⟩ := this
          rw [Nat.add_zero, hs] at hv; cases hv
      | some v =>
        simp only
        rw [step]
        constructor
        · rintro ⟨l, hl, rfl⟩
          obtain ⟨h1, h2⟩ := (ih l (k + 1)).1 hl
          refine ⟨by simp [h1], fun i d' hi => ?_⟩
          cases i with
          | zero =>
            simp only [List.getElem?_cons_zero, Option.some.injEq] at hi
            subst hi
            rw [if_pos hd]
            exact ⟨v, by simpa using hs, rfl⟩
          | succ i =>
            rw [List.getElem?_cons_succ] at hi
            have := h2 i d' hi
            rw [show k + 1 + i = k + (i + 1) by omega] at this
            simpa using this
        · rintro ⟨h1, h2⟩
          cases t' with
          | nil => simp at h1
          | cons w l =>
            have h0 := h2 0 d rfl
            rw [if_pos hd] at h0
            obtain ⟨v', hv', hw⟩ := h0
            rw [Nat.add_zero, hs] at hv'
            simp only [Option.some.injEq] at hv'
            simp only [List.getElem?_cons_zero, Option.some.injEq] at hw
            refine ⟨l, (ih l (k + 1)).2 ⟨by simpa using h1, fun i d' hi => ?_⟩, by rw [hw, hv']⟩
            have := h2 (i + 1) d' (by simpa using hi)
            rw [show k + (i + 1) = k + 1 + i by omega] at this
            simpa using this
    · rw [if_neg hd, step]
      constructor
      · rintro ⟨l, hl, rfl⟩
        obtain ⟨h1, h2⟩ := (ih l (k + 1)).1 hl
        refine ⟨by simp [h1], fun i d' hi => ?_⟩
        cases i with
        | zero =>
          simp only [List.getElem?_cons_zero, Option.some.injEq] at hi
          subst hi
          rw [if_neg hd]; rfl
        | succ i =>
          rw [List.getElem?_cons_succ] at hi
          have := h2 i d' hi
          rw [show k + 1 + i = k + (i + 1) by omega] at this
          simpa using this
      · rintro ⟨h1, h2⟩
        cases t' with
        | nil => simp at h1
        | cons w l =>
          have h0 := h2 0 d rfl
          rw [if_neg hd] at h0
          simp only [List.getElem?_cons_zero, Option.some.injEq] at h0
          refine ⟨l, (ih l (k + 1)).2 ⟨by simpa using h1, fun i d' hi => ?_⟩, by rw [h0]⟩
          have := h2 (i + 1) d' (by simpa using hi)
          rw [show k + (i + 1) = k + 1 + i by omega] at this
          simpa using this

/-- **C15, Reshape**: the folded shape is the one ONNX specifies (for `allowzero = 0`), for every operand shape and
every shape operand, including `0` and `-1`; folding raises exactly when the ONNX reshape is not defined. -/
theorem fold_reshape_shape (s : List Nat) (t : List Int) (r : List Nat) :
    foldReshapeShape s t = .ok r ↔ ReshapesTo false s t r := by
  have hbind : foldReshapeShape s t = .ok r ↔ ∃ t', copyZeros s t 0 = .ok t' ∧ npReshape s t' = .ok r := by
    unfold foldReshapeShape
    cases copyZeros s t 0 with
    | error e => simp [bind, Except.bind]
    | ok t' => simp [bind, Except.bind]
  rw [hbind]
  constructor
  · rintro ⟨t', hc, hn⟩
    rw [copyZeros_spec] at hc
    rw [npReshape_spec] at hn
    obtain ⟨hl, hc⟩ := hc
    have hm1 : ∀ i : Nat, t[i]? = some (-1) → t'[i]? = some (-1) := by
      intro i hi
      have := hc i _ hi
      simpa using this
    refine ⟨hn.rank.trans hl, ?_, ?_, ?_, ?_, ?_, hn.total, ?_⟩
    · intro i hi _
      have := hc i 0 hi
      rw [if_pos rfl, Nat.zero_add] at this
      obtain ⟨v, hv, ht'⟩ := this
      refine ⟨(List.getElem?_eq_some_iff.1 hv).1, ?_⟩
      have hsv : nth s i = v := by simp [nth, List.getD, hv]
      rw [hsv]
      rcases Nat.eq_zero_or_pos v with h0 | h0
      · subst h0; exact hn.zero i ht' rfl
      · have := hn.pos i v ht' (by omega)
        omega
    · intro i _ hc; cases hc
    · intro i d hi hd
      have := hc i d hi
      rw [if_neg (by omega)] at this
      exact hn.pos i d this hd
    · intro d hd
      obtain ⟨i, hi⟩ := List.mem_iff_getElem?.1 hd
      have := hc i d hi
      by_cases h0 : d = 0
      · omega
      · rw [if_neg h0] at this
        exact hn.valid d (List.mem_of_getElem? this)
    · intro i j hi hj
      exact hn.one i j (hm1 i hi) (hm1 j hj)
    · intro i hi
      exact hn.infer i (hm1 i hi)
  · intro h
    refine ⟨(List.range t.length).map (fun i => if t.getD i 0 = 0 then (nth s i : Int) else t.getD i 0), ?_, ?_⟩
    · rw [copyZeros_spec]
      refine ⟨by simp, fun i d hi => ?_⟩
      have hil := (List.getElem?_eq_some_iff.1 hi).1
      have hd : t.getD i 0 = d := by simp [List.getD, hi]
      have hget : ((List.range t.length).map (fun i => if t.getD i 0 = 0 then (nth s i : Int) else t.getD i 0))[i]? =
          some (if d = 0 then (nth s i : Int) else d) := by
        rw [List.getElem?_map, List.getElem?_range hil, Option.map_some, hd]
      by_cases h0 : d = 0
      · rw [if_pos h0, hget, if_pos h0]
        have := (h.copy i (by rw [hi, h0]) rfl).1
        refine ⟨nth s i, ?_, rfl⟩
        rw [Nat.zero_add, nth_eq _ _ this, List.getElem?_eq_getElem this]
      · rw [if_neg h0, hget, if_neg h0]
    · rw [npReshape_spec]
      have hget : ∀ (i : Nat) (d : Int), t[i]? = some d → ((List.range t.length).map
          (fun i => if t.getD i 0 = 0 then (nth s i : Int) else t.getD i 0))[i]? =
          some (if d = 0 then (nth s i : Int) else d) := by
        intro i d hi
        have hil := (List.getElem?_eq_some_iff.1 hi).1
        have hd : t.getD i 0 = d := by simp [List.getD, hi]
        rw [List.getElem?_map, List.getElem?_range hil, Option.map_some, hd]
      have hback : ∀ (i : Nat) (e : Int), ((List.range t.length).map
          (fun i => if t.getD i 0 = 0 then (nth s i : Int) else t.getD i 0))[i]? = some e →
          ∃ d, t[i]? = some d ∧ e = if d = 0 then (nth s i : Int) else d := by
        intro i e he
        have hil : i < t.length := by simpa using (List.getElem?_eq_some_iff.1 he).1
        refine ⟨t[i], List.getElem?_eq_getElem hil, ?_⟩
        rw [hget i _ (List.getElem?_eq_getElem hil)] at he
        simpa using he.symm
      have hm1 : ∀ i : Nat, ((List.range t.length).map
          (fun i => if t.getD i 0 = 0 then (nth s i : Int) else t.getD i 0))[i]? = some (-1) → t[i]? = some (-1) := by
        intro i hi
        obtain ⟨d, hd, he⟩ := hback i _ hi
        by_cases h0 : d = 0
        · rw [if_pos h0] at he; omega
        · rw [if_neg h0] at he; rw [hd, he]
      refine ⟨by simp [h.rank], ?_, ?_, ?_, ?_, ?_, h.total, ?_⟩
      · intro i _ hc; cases hc
      · intro i hi _
        obtain ⟨d, hd, he⟩ := hback i _ hi
        by_cases h0 : d = 0
        · rw [if_pos h0] at he
          rw [(h.copy i (by rw [hd, h0]) rfl).2]; omega
        · rw [if_neg h0] at he; exact absurd he.symm h0
      · intro i e hi hpos
        obtain ⟨d, hd, he⟩ := hback i _ hi
        by_cases h0 : d = 0
        · rw [if_pos h0] at he
          rw [(h.copy i (by rw [hd, h0]) rfl).2, he]
        · rw [if_neg h0] at he
          rw [he] at hpos ⊢
          exact h.pos i d hd hpos
      · intro e he
        obtain ⟨i, hi⟩ := List.mem_iff_getElem?.1 he
        obtain ⟨d, hd, he⟩ := hback i _ hi
        by_cases h0 : d = 0
        · rw [if_pos h0] at he; omega
        · rw [if_neg h0] at he; rw [he]; exact h.valid d (List.mem_of_getElem? hd)
      · intro i j hi hj; exact h.one i j (hm1 i hi) (hm1 j hj)
      · intro i hi; exact h.infer i (hm1 i hi)

/-- The folded tensor is the ONNX reshape. -/
theorem fold_reshape {α : Type} (x y : T α) (t : List Int) :
    foldReshape x t = .ok y ↔ ∃ r, ReshapesTo false x.shape t r ∧ y = reshape r x := by
  unfold foldReshape
  constructor
  · intro h
    cases hf : foldReshapeShape x.shape t with
    | error e => rw [hf] at h; simp [bind, Except.bind] at h
    | ok r =>
      rw [hf] at h
      simp only [bind, Except.bind, Except.ok.injEq] at h
      exact ⟨r, (fold_reshape_shape _ _ _).1 hf, h.symm⟩
  · rintro ⟨r, hr, rfl⟩
    rw [(fold_reshape_shape _ _ _).2 hr]
    rfl

example : foldReshapeShape [2, 3, 4] [0, -1] = .ok [2, 12] := by decide
example : foldReshapeShape [2, 3, 4] [4, 0, 0] = .error "ValueError: cannot reshape array" := by decide

/-- **C15 is violated for `Reshape` with `allowzero = 1`** (opset 14): the folded result of a `[0, 3]` tensor reshaped
by `[3, 0]` does not exist (numpy raises), although ONNX gives `[3, 0]`. -/
theorem fold_reshape_allowzero_violated :
    ∃ (s : List Nat) (t : List Int) (r : List Nat), ReshapesTo true s t r ∧ foldReshapeShape s t ≠ .ok r :=
  ⟨[0, 3], [3, 0], [3, 0], (npReshape_spec _ _ _).1 (by decide), by decide⟩

/-! ## Transpose -/

/-- **C15, Transpose** without `perm`: the axes are reversed. -/
theorem fold_transpose_default {α : Type} (x : T α) :
    (foldTranspose x none).shape = x.shape.reverse ∧
    ∀ idx, idx.length = x.shape.length → (foldTranspose x none).get idx = x.get idx.reverse := by
  have hp : IsPerm (List.range x.shape.length).reverse := by
    apply isPerm_of_nodup
    · simp [List.nodup_range]
    · intro a ha; simpa using ha
  constructor
  · simp only [foldTranspose, Option.getD_none, transpose]
    rw [List.map_reverse, map_nth_range]
  · intro idx hl
    simp only [foldTranspose, Option.getD_none, transpose]
    congr 1
    apply ext_nth (by simp [hl])
    intro j hj
    simp only [permIdx_length, List.length_reverse, List.length_range] at hj
    have hj' : x.shape.length - 1 - j < (List.range x.shape.length).reverse.length := by simp; omega
    have e : nth (List.range x.shape.length).reverse (x.shape.length - 1 - j) = j := by
      rw [nth_eq _ _ hj']; simp; omega
    have : (List.range x.shape.length).reverse.idxOf j = x.shape.length - 1 - j := by
      have := hp.idxOf_nth hj'
      rwa [e] at this
    rw [nth_permIdx (by simpa using hj), this, nth_eq _ _ (by omega), nth_eq _ _ (by simp; omega)]
    simp only [List.getElem_reverse]
    congr 1
    omega

/-! ## Split -/

theorem cumsum_length (l : List Nat) (acc : Nat) : (cumsum l acc).length = l.length := by
  induction l generalizing acc with
  | nil => rfl
  | cons d l ih => simp [cumsum, ih]

theorem cumsum_nth (l : List Nat) (acc j : Nat) (h : j < l.length) : nth (cumsum l acc) j = acc + (l.take (j + 1)).sum := by
  induction l generalizing acc j with
  | nil => simp at h
  | cons d l ih =>
    cases j with
    | zero => simp [cumsum, nth]
    | succ j =>
      have := ih (acc + d) j (by simpa using h)
      simp only [cumsum, List.take_succ_cons, List.sum_cons]
      have e : nth ((acc + d) :: cumsum l (acc + d)) (j + 1) = nth (cumsum l (acc + d)) j := by simp [nth]
      rw [e, this]; omega

theorem sum_take_le (l : List Nat) (j : Nat) : (l.take j).sum ≤ l.sum := by
  conv => rhs; rw [← List.take_append_drop j l, List.sum_append]
  omega

/-- **C15, Split** with sizes that add up to the axis length: there is one chunk per size and chunk `j` is the ONNX
chunk. -/
theorem fold_split {α : Type} (x : T α) (axis : Int) (l : List Nat) (hl : 2 ≤ l.length)
    (hsum : l.sum = nth x.shape (normAxis x.shape.length axis)) :
    ∃ ys, foldSplit x axis l.length (some l) = .ok ys ∧ ys.length = l.length ∧
      ∀ j y, ys[j]? = some y → Same y (splitChunk (normAxis x.shape.length axis) l j x) := by
  generalize ha : normAxis x.shape.length axis = a at *
  refine ⟨splitAt a (cumsum l.dropLast 0) x, ?_, ?_, ?_⟩
  · unfold foldSplit
    rw [if_neg (by omega)]
    simp only [ha]
  · simp [splitAt, cumsum_length]; omega
  · intro j y hj
    have hcl : (cumsum l.dropLast 0).length = l.length - 1 := by rw [cumsum_length]; simp
    have hjl : j < l.length := by
      have := (List.getElem?_eq_some_iff.1 hj).1
      simp [splitAt, hcl] at this
      omega
    -- division points
    have hdiv : ∀ i, i ≤ l.length → nth (0 :: (cumsum l.dropLast 0 ++ [nth x.shape a])) i = (l.take i).sum := by
      intro i hi
      cases i with
      | zero => simp [nth]
      | succ i =>
        have e : nth (0 :: (cumsum l.dropLast 0 ++ [nth x.shape a])) (i + 1) =
            nth (cumsum l.dropLast 0 ++ [nth x.shape a]) i := by simp [nth]
        rw [e]
        by_cases hlt : i < l.length - 1
        · have e2 : nth (cumsum l.dropLast 0 ++ [nth x.shape a]) i = nth (cumsum l.dropLast 0) i := by
            simp [nth, List.getD, List.getElem?_append_left, hcl, hlt]
          rw [e2, cumsum_nth _ _ _ (by simpa using hlt), Nat.zero_add, List.dropLast_eq_take, List.take_take,
            min_eq_left (by omega)]
        · have hi' : i = l.length - 1 := by omega
          have e2 : nth (cumsum l.dropLast 0 ++ [nth x.shape a]) i = nth x.shape a := by
            simp [nth, List.getD, List.getElem?_append_right, hcl, hi']
          rw [e2, ← hsum, List.take_of_length_le (by omega)]
    have hy : y = pySlice a ((l.take j).sum) ((l.take (j + 1)).sum) x := by
      unfold splitAt at hj
      simp only [List.getElem?_map, List.tail_cons] at hj
      have hz : ((0 :: (cumsum l.dropLast 0 ++ [nth x.shape a])).zip (cumsum l.dropLast 0 ++ [nth x.shape a]))[j]? =
          some ((l.take j).sum, (l.take (j + 1)).sum) := by
        rw [List.getElem?_zip_eq_some]
        constructor
        · rw [← hdiv j (by omega)]
          have hlen : j < (0 :: (cumsum l.dropLast 0 ++ [nth x.shape a])).length := by simp [hcl]; omega
          rw [nth_eq _ _ hlen]
          exact List.getElem?_eq_getElem _
        · have hlen : j + 1 < (0 :: (cumsum l.dropLast 0 ++ [nth x.shape a])).length := by simp [hcl]; omega
          rw [← hdiv (j + 1) (by omega), nth_eq _ _ hlen]
          rw [List.getElem_cons_succ]
          exact List.getElem?_eq_getElem _
      rw [hz] at hj
      simpa using hj.symm
    rw [hy]
    have hle1 := sum_take_le l j
    have hle2 := sum_take_le l (j + 1)
    have hts : (l.take (j + 1)).sum = (l.take j).sum + nth l j := by
      rw [List.take_succ_eq_append_getElem hjl, List.sum_append, nth_eq _ _ hjl]; simp
    unfold pySlice splitChunk
    simp only
    rw [← hsum, min_eq_left hle1, min_eq_left hle2]
    rw [show (l.take (j + 1)).sum - (l.take j).sum = nth l j by omega]
    exact Same.refl _

/-- **C15, Split without sizes**: equal chunks, or an exception. -/
theorem fold_split_equal {α : Type} (x : T α) (axis : Int) (n : Nat) (hn : 2 ≤ n) (ys : List (T α))
    (h : foldSplit x axis n none = .ok ys) :
    ys.length = n ∧ nth x.shape (normAxis x.shape.length axis) % n = 0 ∧ ∀ j y, ys[j]? = some y →
      Same y (splitChunk (normAxis x.shape.length axis)
        (List.replicate n (nth x.shape (normAxis x.shape.length axis) / n)) j x) := by
  generalize ha : normAxis x.shape.length axis = a at *
  unfold foldSplit at h
  rw [if_neg (by omega)] at h
  simp only [ha] at h
  split at h
  · cases h
  · rename_i hok
    simp only [not_or, not_not] at hok
    simp only [Except.ok.injEq] at h
    subst h
    refine ⟨by simp [splitAt]; omega, hok.2, fun j y hj => ?_⟩
    generalize hd : nth x.shape a = d at *
    generalize hq : d / n = q
    have hdq : d = n * q := by
      rw [← hq]; exact (Nat.mul_div_cancel' (Nat.dvd_of_mod_eq_zero hok.2)).symm
    have hjl : j < n := by
      have := (List.getElem?_eq_some_iff.1 hj).1
      simp [splitAt] at this
      omega
    have hdiv : ∀ i, i ≤ n → nth (0 :: ((List.range (n - 1)).map (fun i => (i + 1) * q) ++ [d])) i = i * q := by
      intro i hi
      cases i with
      | zero => simp [nth]
      | succ i =>
        have e : nth (0 :: ((List.range (n - 1)).map (fun i => (i + 1) * q) ++ [d])) (i + 1) =
            nth ((List.range (n - 1)).map (fun i => (i + 1) * q) ++ [d]) i := by simp [nth]
        rw [e]
        by_cases hlt : i < n - 1
        · simp [nth, List.getD, List.getElem?_append_left, hlt]
        · have hi' : i = n - 1 := by omega
          subst hi'
          have : nth ((List.range (n - 1)).map (fun i => (i + 1) * q) ++ [d]) (n - 1) = d := by
            simp [nth, List.getD, List.getElem?_append_right]
          rw [this, hdq]
          congr 1; omega
    have hy : y = pySlice a (j * q) ((j + 1) * q) x := by
      unfold splitAt at hj
      rw [hd, hq] at hj
      simp only [List.getElem?_map, List.tail_cons] at hj
      have hz : ((0 :: ((List.range (n - 1)).map (fun i => (i + 1) * q) ++ [d])).zip
          ((List.range (n - 1)).map (fun i => (i + 1) * q) ++ [d]))[j]? = some (j * q, (j + 1) * q) := by
        rw [List.getElem?_zip_eq_some]
        constructor
        · rw [← hdiv j (by omega), nth_eq _ _ (by simp; omega)]
          exact List.getElem?_eq_getElem _
        · rw [← hdiv (j + 1) (by omega), nth_eq _ _ (by simp; omega), List.getElem_cons_succ]
          exact List.getElem?_eq_getElem _
      rw [hz] at hj
      simpa using hj.symm
    rw [hy]
    have hle1 : j * q ≤ d := by rw [hdq]; exact Nat.mul_le_mul_right _ hjl.le
    have hle2 : (j + 1) * q ≤ d := by rw [hdq]; exact Nat.mul_le_mul_right _ hjl
    unfold pySlice splitChunk
    simp only
    rw [hd, min_eq_left hle1, min_eq_left hle2]
    have e1 : (j + 1) * q - j * q = nth (List.replicate n q) j := by
      rw [Nat.add_mul, Nat.one_mul, Nat.add_sub_cancel_left]; simp [nth, hjl]
    have e2 : ((List.replicate n q).take j).sum = j * q := by
      rw [List.take_replicate, min_eq_left hjl.le]; simp
    rw [e1, e2]
    exact Same.refl _

example : (foldSplit (⟨[5], fun i => nth i 0⟩ : T Nat) 0 2 (some [2, 3])).map (fun l => l.map (·.shape)) =
    .ok [[2], [3]] := by decide


/-! ## Unsqueeze -/

/-- The loop of `_fold_unsqueeze`, for any list `L` of axes: the new shape, its size and its row-major positions. -/
theorem fillNext_spec (ax : Nat → Bool) (L : List Nat) (s : List Nat) (hn : L.Nodup)
    (hs : (L.filter (fun i => !ax i)).length = s.length) :
    fillNext (L.map (fun i => if ax i then some 1 else none)) s =
        .ok (L.map (fun i => if ax i then 1 else nth s ((L.filter (fun i => !ax i)).idxOf i))) ∧
    size (L.map (fun i => if ax i then 1 else nth s ((L.filter (fun i => !ax i)).idxOf i))) = size s ∧
    ∀ f : Nat → Nat, (∀ i ∈ L, ax i = true → f i = 0) →
      lin (L.map (fun i => if ax i then 1 else nth s ((L.filter (fun i => !ax i)).idxOf i))) (L.map f) =
        lin s ((L.filter (fun i => !ax i)).map f) := by
  induction L generalizing s with
  | nil =>
    cases s with
    | nil => exact ⟨rfl, rfl, fun _ _ => rfl⟩
    | cons d s => simp at hs
  | cons a L ih =>
    rw [List.nodup_cons] at hn
    cases ha : ax a with
    | true =>
      rw [List.filter_cons_of_neg (by simp [ha])] at hs ⊢
      obtain ⟨h1, h2, h3⟩ := ih s hn.2 hs
      simp only [List.map_cons, ha, if_true]
      refine ⟨?_, ?_, ?_⟩
      · simp only [fillNext, h1, bind, Except.bind]
      · rw [size_cons, h2, Nat.one_mul]
      · intro f hf
        simp only [lin]
        rw [h3 f (fun i hi => hf i (List.mem_cons_of_mem _ hi)), hf a (List.mem_cons_self) ha]
        omega
    | false =>
      rw [List.filter_cons_of_pos (by simp [ha])] at hs ⊢
      cases s with
      | nil => simp at hs
      | cons d s =>
        obtain ⟨h1, h2, h3⟩ := ih s hn.2 (by simpa using hs)
        have e : L.map (fun i => if ax i then 1 else nth (d :: s) ((a :: L.filter (fun i => !ax i)).idxOf i)) =
            L.map (fun i => if ax i then 1 else nth s ((L.filter (fun i => !ax i)).idxOf i)) := by
          apply List.map_congr_left
          intro i hi
          have hne : a ≠ i := fun c => hn.1 (c ▸ hi)
          rw [List.idxOf_cons_ne _ hne]
          simp [nth]
        simp only [List.map_cons, ha, Bool.false_eq_true, if_false, e]
        refine ⟨?_, ?_, ?_⟩
        · simp only [fillNext, h1, bind, Except.bind]
          simp [nth]
        · rw [size_cons, size_cons, h2]; simp [nth]
        · intro f hf
          simp only [lin]
          rw [h3 f (fun i hi => hf i (List.mem_cons_of_mem _ hi)), h2]

theorem foldl_set_mark (l : List Nat) (m : List (Option Nat)) (hl : ∀ a ∈ l, a < m.length) (i : Nat) :
    (l.foldl (fun m a => m.set a (some 1)) m)[i]? = if i ∈ l then some (some 1) else m[i]? := by
  induction l generalizing m with
  | nil => simp
  | cons a l ih =>
    simp only [List.foldl_cons]
    rw [ih _ (fun b hb => by simpa using hl b (List.mem_cons_of_mem _ hb))]
    by_cases h1 : i ∈ l
    · simp [h1]
    · have ham := hl a (List.mem_cons_self)
      by_cases h2 : i = a
      · subst h2; simp [h1, ham]
      · have h3 : a ≠ i := fun c => h2 c.symm
        simp [h1, h2, h3]

/-- numpy accepts a reshape to a concrete shape with the right number of elements. -/
theorem npReshape_concrete (s r : List Nat) (h : size r = size s) :
    npReshape s (r.map (fun (d : Nat) => (d : Int))) = .ok r := by
  rw [npReshape_spec]
  have hnot : ∀ i : Nat, (r.map (fun (d : Nat) => (d : Int)))[i]? ≠ some (-1) := by
    intro i hi
    rw [List.getElem?_map, Option.map_eq_some_iff] at hi
    obtain ⟨d, _, hd⟩ := hi
    omega
  have hval : ∀ (i : Nat) (e : Int), (r.map (fun (d : Nat) => (d : Int)))[i]? = some e → nth r i = e.toNat := by
    intro i e hi
    rw [List.getElem?_map, Option.map_eq_some_iff] at hi
    obtain ⟨d, hd, he⟩ := hi
    simp only [nth, List.getD_eq_getElem?_getD, hd, Option.getD_some]
    omega
  refine ⟨by simp, ?_, ?_, ?_, ?_, ?_, h, ?_⟩
  · intro i _ hc; cases hc
  · intro i hi _; have := hval i 0 hi; omega
  · intro i d hi hd; have := hval i d hi; omega
  · intro d hd
    rw [List.mem_map] at hd
    obtain ⟨e, _, rfl⟩ := hd
    omega
  · intro i j hi; exact absurd hi (hnot i)
  · intro i hi; exact absurd hi (hnot i)

/-- **C15, Unsqueeze**: for distinct valid axes (negative ones count from the end of the result's axes) folding
succeeds and gives what the operator gives. -/
theorem fold_unsqueeze {α : Type} (x : T α) (axes : List Int)
    (hax : ∀ a ∈ axes, ValidAxis (x.shape.length + axes.length) a)
    (hnd : (axes.map (normAxis (x.shape.length + axes.length))).Nodup) :
    ∃ y, foldUnsqueeze x axes = .ok y ∧
      Same y (unsqueeze (x.shape.length + axes.length) (axisSet (x.shape.length + axes.length) axes) x) := by
  generalize hN : x.shape.length + axes.length = n at *
  have hmem : ∀ i, axisSet n axes i = true ↔ i ∈ axes.map (normAxis n) := by intro i; simp [axisSet]
  have hlt : ∀ a ∈ axes.map (normAxis n), a < n := by
    intro a ha
    rw [List.mem_map] at ha
    obtain ⟨b, hb, rfl⟩ := ha
    exact normAxis_lt (hax b hb)
  have hcount : ((List.range n).filter (fun i => !axisSet n axes i)).length = x.shape.length := by
    have h0 := Verif.TransposeOpt.length_filter_mem hnd hlt
    have h1 := length_filter_not (n := n) (axisSet n axes)
    have h3 : (List.range n).filter (axisSet n axes) = (List.range n).filter (fun i => i ∈ axes.map (normAxis n)) := by
      apply List.filter_congr
      intro i _
      simp [axisSet]
    rw [h3] at h1
    simp only [List.length_map] at h0
    omega
  obtain ⟨h1, h2, h3⟩ := fillNext_spec (axisSet n axes) (List.range n) x.shape List.nodup_range hcount
  have hu : unsqueezeShape x.shape axes = .ok (unsqueeze n (axisSet n axes) x).shape := by
    unfold unsqueezeShape
    simp only [hN]
    have hnorm : ∀ a ∈ axes, (if a ≥ 0 then a else a + (n : Int)).toNat = normAxis n a ∧
        0 ≤ (if a ≥ 0 then a else a + (n : Int)) ∧ (if a ≥ 0 then a else a + (n : Int)) < n := by
      intro a ha
      have := hax a ha
      unfold ValidAxis at this
      unfold normAxis
      split <;> split <;> omega
    rw [if_neg]
    · have hm : (axes.map (fun i => if i ≥ 0 then i else i + (n : Int))).foldl
          (fun l i => l.set i.toNat (some 1)) (List.replicate n (none : Option Nat)) =
          (List.range n).map (fun i => if axisSet n axes i then some 1 else none) := by
        have e : (axes.map (fun i => if i ≥ 0 then i else i + (n : Int))).foldl
            (fun l i => l.set i.toNat (some 1)) (List.replicate n (none : Option Nat)) =
            (axes.map (normAxis n)).foldl (fun l i => l.set i (some 1)) (List.replicate n (none : Option Nat)) := by
          rw [List.foldl_map, List.foldl_map]
          apply List.foldl_ext
          intro l a ha
          rw [(hnorm a ha).1]
        rw [e]
        apply List.ext_getElem?
        intro i
        rw [foldl_set_mark _ _ (by simpa using hlt)]
        by_cases hi : i < n
        · by_cases hx : i ∈ axes.map (normAxis n)
          · have := (hmem i).2 hx
            rw [if_pos hx]
            simp [hi, this]
          · have : axisSet n axes i = false := by
              rw [← Bool.not_eq_true]; exact fun c => hx ((hmem i).1 c)
            rw [if_neg hx]
            simp [hi, this]
        · have hx : i ∉ axes.map (normAxis n) := fun c => hi (hlt i c)
          rw [if_neg hx]
          simp [hi]
      rw [hm, h1]
      rfl
    · simp only [List.any_eq_true, List.mem_map, decide_eq_true_eq, not_exists]
      rintro i ⟨⟨a, ha, rfl⟩, hbad⟩
      have := hnorm a ha
      omega
  have hsz : size (unsqueeze n (axisSet n axes) x).shape = size x.shape := h2
  refine ⟨reshape (unsqueeze n (axisSet n axes) x).shape x, ?_, rfl, ?_⟩
  · unfold foldUnsqueeze
    rw [hu]
    simp only [bind, Except.bind]
    rw [npReshape_concrete _ _ hsz]
  · intro idx hidx
    simp only [reshape] at hidx ⊢
    have hl : idx.length = n := by simpa [unsqueeze] using hidx.1
    have hf : idx = (List.range n).map (nth idx) := by rw [← hl, map_nth_range]
    have hz : ∀ i ∈ List.range n, axisSet n axes i = true → nth idx i = 0 := by
      intro i hi ht
      rw [List.mem_range] at hi
      have := hidx.2 i (by simpa [unsqueeze] using hi)
      simp only [unsqueeze] at this
      rw [nth_map_range, if_pos hi, if_pos ht] at this
      omega
    have hlin : lin (unsqueeze n (axisSet n axes) x).shape idx = lin x.shape ((keptAxes n (axisSet n axes)).map (nth idx)) := by
      conv => lhs; rw [hf]
      exact h3 (nth idx) hz
    rw [hlin]
    have hin : InB x.shape ((keptAxes n (axisSet n axes)).map (nth idx)) := by
      refine ⟨by simp only [List.length_map]; exact hcount, fun j hj => ?_⟩
      have hjk : j < (keptAxes n (axisSet n axes)).length := by
        have : (keptAxes n (axisSet n axes)).length = x.shape.length := hcount
        omega
      rw [nth_map _ _ _ hjk]
      have hkm : nth (keptAxes n (axisSet n axes)) j ∈ keptAxes n (axisSet n axes) := by
        rw [nth_eq _ _ hjk]; exact List.getElem_mem _
      obtain ⟨hkn, hkf⟩ := mem_keptAxes.1 hkm
      have := hidx.2 _ (by simpa [unsqueeze] using hkn)
      simp only [unsqueeze] at this
      rw [nth_map_range, if_pos hkn, hkf, if_neg (by simp)] at this
      have hidxOf : (keptAxes n (axisSet n axes)).idxOf (nth (keptAxes n (axisSet n axes)) j) = j := by
        rw [nth_eq _ _ hjk]
        exact List.Nodup.idxOf_getElem (List.nodup_range.filter _) j hjk
      rw [hidxOf] at this
      exact this
    rw [delin_lin hin]
    rfl

/-- Instance: a `[2, 3]` constant unsqueezed at `0` and `-1`. -/
example : unsqueezeShape [2, 3] [0, -1] = .ok [1, 2, 3, 1] := by decide

end Verif.ConstFold
