import Verif.Model.Greedy
import Verif.Props.C78_TopK
/-!
# C81: greedy decoding
-/
namespace Verif.Greedy

/-! ## The best class -/

section Best
variable {K : Type} [LinearOrder K]

theorem best_isTopK {C m : Nat} {l : Nat → K} (h : IsBest C l m) : Stack.IsTopK C 1 l [m] := by
  refine ⟨rfl, fun i hi => by rw [List.mem_singleton.1 hi]; exact h.range, List.pairwise_singleton _ _, ?_⟩
  intro i hi j hj hjm
  rw [List.mem_singleton.1 hi]
  rw [List.mem_singleton] at hjm
  rcases Nat.lt_or_ge j m with h1 | h1
  · exact .inl (h.first j h1)
  · rcases lt_or_eq_of_le (h.largest j hj) with h2 | h2
    · exact .inl h2
    · exact .inr ⟨h2.symm, by omega⟩

/-- `TopK` with one element gives the best class. -/
theorem topk_best {C m : Nat} {l : Nat → K} (h : IsBest C l m) : Stack.topk C 1 l = [m] :=
  Stack.topk_unique (Stack.topk_is (by have := h.range; omega) l) (best_isTopK h)

/-- There is a best class. -/
theorem best_exists {C : Nat} (hC : 1 ≤ C) (l : Nat → K) : ∃ m, IsBest C l m := by
  have h := Stack.topk_is hC l
  obtain ⟨m, hm⟩ := List.length_eq_one_iff.1 h.length
  rw [hm] at h
  refine ⟨m, h.range m (List.mem_singleton.2 rfl), ?_, ?_⟩
  · intro j hj
    by_cases hjm : j = m
    · rw [hjm]
    · rcases h.others m (List.mem_singleton.2 rfl) j hj (by rwa [List.mem_singleton]) with h1 | ⟨h1, _⟩
      · exact le_of_lt h1
      · exact le_of_eq h1.symm
  · intro j hj
    have hm' := h.range m (List.mem_singleton.2 rfl)
    rcases h.others m (List.mem_singleton.2 rfl) j (by omega) (by rw [List.mem_singleton]; omega) with h1 | ⟨_, h1⟩
    · exact h1
    · omega

/-- There is only one best class. -/
theorem best_unique {C m m' : Nat} {l : Nat → K} (h : IsBest C l m) (h' : IsBest C l m') : m = m' := by
  have := (topk_best h).symm.trans (topk_best h')
  exact List.singleton_inj.1 this

end Best

/-! ## Decoding as a filter -/

/-- The step before. -/
def before (p : Option Nat) (s : Nat) (g : Nat → Nat) (t : Nat) : Option Nat := if t = s then p else some (g (t - 1))

theorem decode_filter (merge : Bool) (blank : Nat) (g : Nat → Nat) : ∀ (n s : Nat) (p : Option Nat),
    decode merge blank p ((List.range' s n).map g) =
      ((List.range' s n).filter (fun t => !decide (g t = blank ∨ (merge = true ∧ before p s g t = some (g t))))).map g := by
  intro n
  induction n with
  | zero => intros; rfl
  | succ n ih =>
    intro s p
    rw [List.range'_succ, List.map_cons, decode, List.filter_cons, ih (s + 1) (some (g s))]
    have e : (List.range' (s + 1) n).filter (fun t => !decide (g t = blank ∨ (merge = true ∧ before (some (g s)) (s + 1) g t = some (g t)))) =
        (List.range' (s + 1) n).filter (fun t => !decide (g t = blank ∨ (merge = true ∧ before p s g t = some (g t)))) := by
      apply List.filter_congr
      intro t ht
      have hts := (List.mem_range'_1.1 ht).1
      have : before (some (g s)) (s + 1) g t = before p s g t := by
        unfold before
        by_cases h : t = s + 1
        · subst h
          rw [if_pos rfl, if_neg (by omega)]; rfl
        · rw [if_neg h, if_neg (by omega)]
      rw [this]
    rw [e]
    have hb : before p s g s = p := if_pos rfl
    rw [hb]
    by_cases h : g s = blank ∨ (merge = true ∧ p = some (g s))
    · rw [if_pos h]
      simp [h]
    · rw [if_neg h]
      simp [h]

/-! ## Lists -/

theorem count_before (k : Nat → Bool) (n : Nat) :
    ((List.range n).filter k).map (fun t => ((List.range t).map (fun u => if k u then 1 else 0)).sum) = List.range ((List.range n).filter k).length ∧
    ((List.range n).map (fun u => if k u then 1 else 0)).sum = ((List.range n).filter k).length := by
  induction n with
  | zero => exact ⟨rfl, rfl⟩
  | succ n ih =>
    rw [List.range_succ, List.filter_append, List.map_append, List.map_append, List.sum_append, List.length_append, ih.1, ih.2]
    by_cases h : k n = true
    · have e : [n].filter k = [n] := by simp [h]
      rw [e]
      constructor
      · rw [List.length_singleton, List.range_succ, List.map_singleton, ih.2]
      · simp [h]
    · have e : [n].filter k = [] := by simp [h]
      rw [e]
      constructor
      · simp
      · simp [h]

theorem compress_append {β : Type} {a b : List β} {c d : List Bool} (h : a.length = c.length) : compress (a ++ b) (c ++ d) = compress a c ++ compress b d := by
  unfold compress
  rw [List.zip_append h, List.filter_append, List.map_append]

theorem compress_map {β : Type} (f : Nat → β) (k : Nat → Bool) (l : List Nat) : compress (l.map f) (l.map k) = (l.filter k).map f := by
  unfold compress
  induction l with
  | nil => rfl
  | cons t l ih =>
    rw [List.map_cons, List.map_cons, List.zip_cons_cons, List.filter_cons, List.filter_cons]
    dsimp only
    split
    · rw [List.map_cons, List.map_cons, ih]
    · exact ih

theorem compress_flat {β : Type} (T : Nat) (f : Nat → Nat → β) (k : Nat → Nat → Bool) (bs : List Nat) :
    compress (bs.flatMap (fun b => (List.range T).map (f b))) (bs.flatMap (fun b => (List.range T).map (k b))) = bs.flatMap (fun b => ((List.range T).filter (k b)).map (f b)) := by
  induction bs with
  | nil => rfl
  | cons b bs ih =>
    rw [List.flatMap_cons, List.flatMap_cons, List.flatMap_cons, compress_append (by simp), ih, compress_map]

theorem zip_flat {β γ : Type} (T : Nat) (f : Nat → Nat → β) (g : Nat → Nat → γ) (bs : List Nat) :
    (bs.flatMap (fun b => (List.range T).map (f b))).zip (bs.flatMap (fun b => (List.range T).map (g b))) = bs.flatMap (fun b => (List.range T).map (fun t => (f b t, g b t))) := by
  induction bs with
  | nil => rfl
  | cons b bs ih =>
    rw [List.flatMap_cons, List.flatMap_cons, List.flatMap_cons, List.zip_append (by simp), ih, List.zip_map']

theorem filter_short (k : Nat → Bool) {n T : Nat} (h : n ≤ T) (hk : ∀ t, n ≤ t → k t = false) : (List.range T).filter k = (List.range n).filter k := by
  obtain ⟨d, rfl⟩ := Nat.exists_eq_add_of_le h
  rw [List.range_add, List.filter_append]
  have : (List.map (n + ·) (List.range d)).filter k = [] := by
    rw [List.filter_eq_nil_iff]
    intro t ht
    obtain ⟨u, _, rfl⟩ := List.mem_map.1 ht
    rw [hk _ (by omega)]
    exact Bool.false_ne_true
  rw [this, List.append_nil]

theorem foldl_max (l : List Nat) (a : Nat) : l.foldl max a = max a (l.foldr max 0) := by
  induction l generalizing a with
  | nil => simp
  | cons b l ih => rw [List.foldl_cons, ih, List.foldr_cons, max_assoc]

theorem foldr_max_append (l r : List Nat) : (l ++ r).foldr max 0 = max (l.foldr max 0) (r.foldr max 0) := by
  induction l with
  | nil => simp
  | cons b l ih => rw [List.cons_append, List.foldr_cons, ih, List.foldr_cons, max_assoc]

/-- The largest number below `n`, plus one, is `n`. -/
theorem foldr_max_range (n : Nat) : (List.range n).foldr max 0 = n - 1 := by
  induction n with
  | zero => rfl
  | succ n ih => rw [List.range_succ, foldr_max_append, ih]; simp

theorem foldr_max_rows (rows : List (List Nat)) : (rows.flatMap (fun r => List.range r.length)).foldr max 0 = (rows.map List.length).foldr max 0 - 1 := by
  induction rows with
  | nil => rfl
  | cons r rows ih =>
    rw [List.flatMap_cons, foldr_max_append, foldr_max_range, ih, List.map_cons, List.foldr_cons]
    omega

theorem reduceMax_rows {rows : List (List Nat)} : reduceMax (rows.flatMap (fun r => List.range r.length)) =
    if rows.flatten = [] then none else some ((rows.map List.length).foldr max 0 - 1) := by
  have hnil : rows.flatMap (fun r => List.range r.length) = [] ↔ rows.flatten = [] := by
    rw [List.flatMap_eq_nil_iff, List.flatten_eq_nil_iff]
    constructor
    · intro h r hr
      have := h r hr
      rwa [List.range_eq_nil, List.length_eq_zero_iff] at this
    · intro h r hr
      rw [h r hr]; rfl
  rw [← foldr_max_rows]
  cases hl : rows.flatMap (fun r => List.range r.length) with
  | nil => rw [if_pos (hnil.1 hl)]; rfl
  | cons a l =>
    rw [if_neg (fun h => by rw [hnil.2 h] at hl; cases hl)]
    show some (l.foldl max a) = _
    rw [foldl_max, List.foldr_cons]

theorem sparseRows_range (B : Nat) (f : Nat → List Nat) : sparseRows ((List.range B).map f) = (List.range B).flatMap (fun b => (List.range (f b).length).map (fun j => (b, j))) := by
  unfold sparseRows
  have e : ((List.range B).map f).zipIdx = (List.range B).map (fun b => (f b, b)) := by
    apply List.ext_getElem
    · simp
    · intro i h1 h2
      simp
  rw [e, List.flatMap_map]

/-! ## The decoder -/

variable {K : Type} [Ring K] [LinearOrder K]

theorem validInp_in {len : Nat → Nat} {x : Nat → Nat → Nat → K} {t b : Nat} (h : t < len b) : validInp len x t b = x t b := by
  funext c
  unfold validInp valid
  rw [decide_eq_true h, if_pos rfl, mul_one]

theorem validInp_out {len : Nat → Nat} {x : Nat → Nat → Nat → K} {t b c : Nat} (h : ¬ t < len b) : validInp len x t b c = 0 := by
  unfold validInp valid
  rw [decide_eq_false h, if_neg Bool.false_ne_true, mul_zero]

/-- Within the sequence, the class taken is the best one. -/
theorem maxIdx_best {C : Nat} {len : Nat → Nat} {x : Nat → Nat → Nat → K} {best : Nat → Nat → Nat} {t b : Nat} (h : t < len b) (hb : IsBest C (x t b) (best t b)) :
    maxIdx C len x t b = best t b := by
  unfold maxIdx
  rw [validInp_in h, topk_best hb]; rfl

/-- Sums of the largest logits: nothing behind the end is counted. -/
theorem sum_masked {C T : Nat} {len : Nat → Nat} {x : Nat → Nat → Nat → K} {best : Nat → Nat → Nat} {b : Nat} (hl : len b ≤ T) (hb : ∀ t, t < len b → IsBest C (x t b) (best t b)) :
    ((List.range T).map (fun t => validInp len x t b (maxIdx C len x t b))).sum = ((List.range (len b)).map (fun t => x t b (best t b))).sum := by
  obtain ⟨d, rfl⟩ := Nat.exists_eq_add_of_le hl
  rw [List.range_add, List.map_append, List.sum_append]
  have h2 : ((List.map (len b + ·) (List.range d)).map (fun t => validInp len x t b (maxIdx C len x t b))).sum = 0 := by
    apply List.sum_eq_zero
    intro v hv
    obtain ⟨t, ht, rfl⟩ := List.mem_map.1 hv
    obtain ⟨u, _, rfl⟩ := List.mem_map.1 ht
    exact validInp_out (by omega)
  rw [h2, add_zero]
  congr 1
  apply List.map_congr_left
  intro t ht
  have ht := List.mem_range.1 ht
  rw [validInp_in ht, maxIdx_best ht (hb t ht)]

/-- The steps kept, and the classes at them, are what is decoded. -/
theorem keep_decode {merge : Bool} {C T : Nat} {len : Nat → Nat} {x : Nat → Nat → Nat → K} {best : Nat → Nat → Nat} {b : Nat} (hl : len b ≤ T)
    (hb : ∀ t, t < len b → IsBest C (x t b) (best t b)) :
    ((List.range T).filter (keep merge ((C : Int) - 1) len (maxIdx C len x) b)).map (fun t => maxIdx C len x t b) =
      decode merge (C - 1) none ((List.range (len b)).map (fun t => best t b)) := by
  rw [filter_short _ hl (by
    intro t ht
    unfold keep valid
    rw [decide_eq_false (by omega : ¬ t < len b)]
    cases merge <;> simp)]
  rw [show List.range (len b) = List.range' 0 (len b) from List.range_eq_range', decode_filter, ← List.range_eq_range']
  have hf : (List.range (len b)).filter (keep merge ((C : Int) - 1) len (maxIdx C len x) b) =
      (List.range (len b)).filter (fun t => !decide (best t b = C - 1 ∨ (merge = true ∧ before none 0 (fun t => best t b) t = some (best t b)))) := by
    apply List.filter_congr
    intro t ht
    have ht := List.mem_range.1 ht
    have hm := (hb t ht).range
    have e : maxIdx C len x t b = best t b := maxIdx_best ht (hb t ht)
    unfold keep valid shifted before
    rw [e, decide_eq_true ht, Bool.and_true]
    rw [Bool.eq_iff_iff]
    by_cases h0 : t = 0
    · rw [if_pos h0, if_pos h0]
      cases merge <;> simp <;> omega
    · rw [if_neg h0, if_neg h0, maxIdx_best (by omega) (hb (t - 1) (by omega))]
      cases merge <;> simp <;> omega
  rw [hf]
  apply List.map_congr_left
  intro t ht
  have ht := List.mem_range.1 (List.mem_filter.1 ht).1
  exact maxIdx_best ht (hb t ht)

/-- The emitted operators decode: for every number of steps, sequences and classes, all lengths and all logits, whether repetitions are merged or not, if anything is decoded. -/
theorem ctc_decodes {merge : Bool} {T B C : Nat} {len : Nat → Nat} {x : Nat → Nat → Nat → K} {best : Nat → Nat → Nat} (hC : 1 ≤ C) (hl : ∀ b, b < B → len b ≤ T)
    (hb : ∀ b, b < B → ∀ t, t < len b → IsBest C (x t b) (best t b)) :
    ctcGreedyDecoder true merge T B C len x = if (tfDecode merge B C len x best).values = [] then none else some (tfDecode merge B C len x best) := by
  have hk : ∀ b, b < B → ((List.range T).filter (keep merge ((C : Int) - 1) len (maxIdx C len x) b)).map (fun t => maxIdx C len x t b) =
      decode merge (C - 1) none ((List.range (len b)).map (fun t => best t b)) := fun b h => keep_decode (hl b h) (hb b h)
  have hlen : ∀ b, b < B → ((List.range T).filter (keep merge ((C : Int) - 1) len (maxIdx C len x) b)).length =
      (decode merge (C - 1) none ((List.range (len b)).map (fun t => best t b))).length := by
    intro b h
    rw [← hk b h, List.length_map]
  unfold ctcGreedyDecoder tfDecode
  dsimp only
  rw [if_pos ⟨rfl, hC⟩]
  unfold flat
  rw [zip_flat, compress_flat, compress_flat]
  generalize hrows : (List.range B).map (fun b => decode merge (C - 1) none ((List.range (len b)).map (fun t => best t b))) = rows
  have hsp : (List.range B).flatMap (fun b => ((List.range T).filter (keep merge ((C : Int) - 1) len (maxIdx C len x) b)).map
      (fun t => (b, filteredTime (keep merge ((C : Int) - 1) len (maxIdx C len x)) b t))) = sparseRows rows := by
    rw [← hrows, sparseRows_range]
    apply List.flatMap_congr
    intro b h
    have h := List.mem_range.1 h
    rw [← hlen b h, ← (count_before (keep merge ((C : Int) - 1) len (maxIdx C len x) b) T).1, List.map_map]
    rfl
  have hval : (List.range B).flatMap (fun b => ((List.range T).filter (keep merge ((C : Int) - 1) len (maxIdx C len x) b)).map (fun t => maxIdx C len x t b)) = rows.flatten := by
    rw [← hrows, ← List.flatMap_def]
    apply List.flatMap_congr
    intro b h
    exact hk b (List.mem_range.1 h)
  have hneg : (List.range B).map (fun b => -((List.range T).map (fun t => validInp len x t b (maxIdx C len x t b))).sum) =
      (List.range B).map (fun b => -((List.range (len b)).map (fun t => x t b (best t b))).sum) := by
    apply List.map_congr_left
    intro b h
    have h := List.mem_range.1 h
    rw [sum_masked (hl b h) (hb b h)]
  have hsnd : (sparseRows rows).map Prod.snd = rows.flatMap (fun r => List.range r.length) := by
    rw [← hrows, sparseRows_range, List.map_flatMap, List.flatMap_map]
    apply List.flatMap_congr
    intro b _
    rw [List.map_map]
    exact List.map_id'' (fun _ => rfl) _
  rw [hsp, hval, hneg, hsnd, reduceMax_rows]
  by_cases h : rows.flatten = []
  · rw [if_pos h, if_pos h]; rfl
  · rw [if_neg h, if_neg h, Option.map_some]
    have hpos : (rows.map List.length).foldr max 0 - 1 + 1 = (rows.map List.length).foldr max 0 := by
      have : (rows.map List.length).foldr max 0 ≠ 0 := by
        intro h0
        apply h
        clear hrows hsp hval hneg hsnd h
        induction rows with
        | nil => rfl
        | cons r rows ih =>
          rw [List.map_cons, List.foldr_cons] at h0
          have h1 : r.length = 0 := by omega
          rw [List.flatten_cons, List.length_eq_zero_iff.1 h1, ih (by omega)]; rfl
      omega
    rw [hpos]

/-- Logits of another type than that of the mask: the emitted product does not accept them. -/
theorem ctc_type_violated (merge : Bool) (T B C : Nat) (len : Nat → Nat) (x : Nat → Nat → Nat → K) : ctcGreedyDecoder false merge T B C len x = none := by
  unfold ctcGreedyDecoder
  dsimp only
  exact if_neg (fun h => Bool.false_ne_true h.1)

end Verif.Greedy
