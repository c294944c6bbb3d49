import Verif.Props.C82_Nms
import Verif.Props.C81_Greedy
/-!
# C82: selection of boxes of several classes
-/
namespace Verif.Nms
open Verif.Stack

/-! ## Lists -/

theorem find_range' {f : Nat → Nat} : ∀ (P : List Nat) (s j : Nat), P.map f = List.range' s P.length → P.find? (fun p => f p == s + j) = P[j]? := by
  intro P
  induction P with
  | nil => intros; rfl
  | cons a P ih =>
    intro s j h
    rw [List.map_cons, List.length_cons, List.range'_succ] at h
    have h1 := (List.cons.inj h).1
    have h2 := (List.cons.inj h).2
    rw [List.find?_cons]
    cases j with
    | zero =>
      rw [show (f a == s + 0) = true from beq_iff_eq.2 h1]; rfl
    | succ j =>
      rw [show (f a == s + (j + 1)) = false from beq_eq_false_iff_ne.2 (by omega)]
      dsimp only
      rw [List.getElem?_cons_succ, ← ih (s + 1) j h2, show s + 1 + j = s + (j + 1) by omega]

/-- A list in which nothing outside `q` comes before something inside. -/
theorem filter_front {q : Nat → Bool} : ∀ (l : List Nat), l.Pairwise (fun i j => q j = true → q i = true) → l = l.filter q ++ l.filter (fun i => !q i) := by
  intro l
  induction l with
  | nil => intros; rfl
  | cons a l ih =>
    intro h
    have h' := List.pairwise_cons.1 h
    by_cases hq : q a = true
    · rw [List.filter_cons_of_pos hq, List.filter_cons_of_neg (by simp [hq]), List.cons_append, ← ih h'.2]
    · have hall : ∀ b ∈ l, q b = false := fun b hb => Bool.eq_false_iff.2 (fun hb' => hq (h'.1 b hb hb'))
      rw [List.filter_cons_of_neg hq, List.filter_cons_of_pos (by simp [hq]), List.filter_eq_nil_iff.2 (fun b hb => by rw [hall b hb]; exact Bool.false_ne_true), List.nil_append,
        List.filter_eq_self.2 (fun b hb => by rw [hall b hb]; rfl)]

theorem flatMap_only {β : Type} (R : Nat → List β) (b : Nat) : ∀ B, (List.range B).flatMap (fun b' => if b' = b then R b' else []) = if b < B then R b else [] := by
  intro B
  induction B with
  | zero => rfl
  | succ B ih =>
    rw [List.range_succ, List.flatMap_append, ih, List.flatMap_cons, List.flatMap_nil, List.append_nil]
    by_cases h : b < B
    · rw [if_pos h, if_neg (by omega), if_pos (by omega), List.append_nil]
    · rw [if_neg h, List.nil_append]
      by_cases h' : B = b
      · rw [if_pos h', if_pos (by omega), h']
      · rw [if_neg h', if_neg (by omega)]

/-! ## The grid -/

/-- The rows of image `b`. -/
def rowsOf (rows : List (List Nat)) (b : Nat) : List Nat := (List.range rows.length).filter (fun p => comp rows 0 p == b)

theorem within_rowsOf (rows : List (List Nat)) (b : Nat) : (rowsOf rows b).map (within rows) = List.range (rowsOf rows b).length := by
  have h := (Verif.Greedy.count_before (fun p => comp rows 0 p == b) rows.length).1
  unfold rowsOf
  rw [← h]
  apply List.map_congr_left
  intro p hp
  have hp := beq_iff_eq.1 (List.mem_filter.1 hp).2
  unfold within
  rw [hp]

theorem cell_eq (rows : List (List Nat)) (b j : Nat) : cell rows b j = (rowsOf rows b)[j]? := by
  have h := find_range' (f := within rows) (rowsOf rows b) 0 j (by rw [within_rowsOf, List.range_eq_range'])
  rw [Nat.zero_add] at h
  rw [← h]
  unfold cell rowsOf
  rw [List.find?_filter]
  congr 1
  funext p
  rw [Bool.eq_iff_iff]
  simp

theorem rowsOf_rows (rows : List (List Nat)) (b : Nat) : (rowsOf rows b).map (fun p => rows.getD p []) = rows.filter (fun r => r.getD 0 0 == b) := by
  have h : rows = (List.range rows.length).map (fun p => rows.getD p []) := by
    apply List.ext_getElem
    · simp
    · intro i h1 h2
      simp [h1]
  conv_rhs => rw [h, List.filter_map]
  rfl

/-! ## The best of the grid -/

variable {K : Type} [Field K] [LinearOrder K]

/-- The largest elements of a line with `e` positive elements and zeros behind them: the best of the `e` elements, and then zeros. -/
theorem topk_padded {e width total : Nat} {g : Nat → K} (he : e ≤ width) (hpos : ∀ j, j < e → 0 < g j) (hz : ∀ j, e ≤ j → g j = 0) :
    ∃ p r, topk width (min total width) g = p ++ r ∧ TakesBest e total g p ∧ (∀ j ∈ r, e ≤ j) := by
  have ht := topk_is (Nat.min_le_right total width) g
  generalize topk width (min total width) g = t at ht
  have hnd : t.Nodup := ht.sorted.imp (by
    rintro i j hij rfl
    exact before_asymm hij hij)
  have hfront : t.Pairwise (fun i j => decide (j < e) = true → decide (i < e) = true) := by
    refine ht.sorted.imp ?_
    intro i j hij hj
    have hj := of_decide_eq_true hj
    refine decide_eq_true ?_
    by_contra hi
    rcases hij with h | ⟨h, _⟩
    · rw [hz i (by omega)] at h
      exact lt_asymm h (hpos j hj)
    · rw [hz i (by omega)] at h
      exact absurd (hpos j hj) (by rw [← h]; exact lt_irrefl _)
  have hsplit := filter_front t hfront
  have hle : ∀ {i j : Nat}, Before g i j → g j ≤ g i := by
    intro i j h
    rcases h with h | ⟨h, _⟩
    · exact le_of_lt h
    · exact le_of_eq h.symm
  have hmemp : ∀ {i : Nat}, i ∈ t.filter (fun i => decide (i < e)) ↔ i ∈ t ∧ i < e := by
    intro i
    rw [List.mem_filter, decide_eq_true_eq]
  have hndp : (t.filter (fun i => decide (i < e))).Nodup := hnd.sublist List.filter_sublist
  have hlep : (t.filter (fun i => decide (i < e))).length ≤ e := by
    have := (hndp.subperm (l₂ := List.range e) (fun i hi => List.mem_range.2 (hmemp.1 hi).2)).length_le
    rwa [List.length_range] at this
  have hlet : (t.filter (fun i => decide (i < e))).length ≤ min total width := by
    rw [← ht.length]
    exact List.length_filter_le _ _
  refine ⟨_, _, hsplit, ⟨?_, fun i hi => (hmemp.1 hi).2, hndp, (ht.sorted.sublist List.filter_sublist).imp hle, ?_⟩, ?_⟩
  · by_cases hall : ∀ j, j < e → j ∈ t
    · have : e ≤ (t.filter (fun i => decide (i < e))).length := by
        have := (List.nodup_range.subperm (l₁ := List.range e) (l₂ := t.filter (fun i => decide (i < e))) (fun i hi => hmemp.2 ⟨hall i (List.mem_range.1 hi), List.mem_range.1 hi⟩)).length_le
        rwa [List.length_range] at this
      omega
    · obtain ⟨j, hj⟩ := not_forall.1 hall
      obtain ⟨hj, hjt⟩ := Classical.not_imp.1 hj
      have hin : ∀ i ∈ t, i < e := by
        intro i hi
        by_contra hie
        have := hle (ht.others i hi j (by omega) hjt)
        rw [hz i (by omega)] at this
        exact absurd (hpos j hj) (not_lt.2 this)
      have heq : t.filter (fun i => decide (i < e)) = t := List.filter_eq_self.2 (fun i hi => decide_eq_true (hin i hi))
      rw [heq, ht.length] at hlep ⊢
      omega
  · intro i hi j hj hjp
    exact hle (ht.others i (hmemp.1 hi).1 j (by omega) (fun hjt => hjp (hmemp.2 ⟨hjt, hj⟩)))
  · intro j hj
    have := (List.mem_filter.1 hj).2
    by_contra hje
    rw [decide_eq_true (by omega)] at this
    exact absurd this (by decide)

/-! ## The handler -/

/-- The rows of `NonMaxSuppression` with image `b`: class by class. -/
theorem nms_rows {B C n k : Nat} {box : Nat → Nat → Box K} {score : Nat → Nat → Nat → K} {iou : K} {least : Option K} {b : Nat} (hb : b < B) :
    (onnxNms B C n k box score iou least).filter (fun r => r.getD 0 0 == b) = (List.range C).flatMap (fun c =>
      (column (onnxNms 1 1 n k (fun _ => box b) (fun _ _ => score b c) iou least)).map (fun i => [b, c, i])) := by
  have e : ∀ c, column (onnxNms 1 1 n k (fun _ => box b) (fun _ _ => score b c) iou least) =
      greedy (fun j i => onnxSupp iou (box b j) (box b i)) k ((topk n n (score b c)).filter (fun i => least.all (fun t => decide (t < score b c i)))) [] := by
    intro c
    unfold onnxNms
    rw [show List.range 1 = [0] from rfl, List.flatMap_cons, List.flatMap_cons, List.flatMap_nil, List.flatMap_nil, List.append_nil, List.append_nil, column_rows]
  simp only [e]
  unfold onnxNms
  rw [List.filter_flatMap]
  generalize hR : (fun b' => (List.range C).flatMap (fun c => (greedy (fun j i => onnxSupp iou (box b' j) (box b' i)) k
    ((topk n n (score b' c)).filter (fun i => least.all (fun t => decide (t < score b' c i)))) []).map (fun i => [b', c, i]))) = R
  have hR' : ∀ b', (List.range C).flatMap (fun c => (greedy (fun j i => onnxSupp iou (box b' j) (box b' i)) k
    ((topk n n (score b' c)).filter (fun i => least.all (fun t => decide (t < score b' c i)))) []).map (fun i => [b', c, i])) = R b' := fun b' => by rw [← hR]
  have hmem : ∀ b' r, r ∈ R b' → r.getD 0 0 = b' := by
    intro b' r hr
    rw [← hR'] at hr
    obtain ⟨c, _, hr⟩ := List.mem_flatMap.1 hr
    obtain ⟨i, _, rfl⟩ := List.mem_map.1 hr
    rfl
  have hf : ∀ b', (R b').filter (fun r => r.getD 0 0 == b) = if b' = b then R b' else [] := by
    intro b'
    by_cases h : b' = b
    · rw [if_pos h]
      exact List.filter_eq_self.2 (fun r hr => beq_iff_eq.2 ((hmem b' r hr).trans h))
    · rw [if_neg h]
      exact List.filter_eq_nil_iff.2 (fun r hr hr' => h ((hmem b' r hr).symm.trans (beq_iff_eq.1 hr')))
  simp only [hR', hf]
  rw [flatMap_only, if_pos hb]

variable [IsStrictOrderedRing K]

theorem flatMap_length_le {β : Type} (f : Nat → List β) (k : Nat) : ∀ C, (∀ c, c < C → (f c).length ≤ k) → ((List.range C).flatMap f).length ≤ k * C := by
  intro C
  induction C with
  | zero => intros; exact Nat.zero_le _
  | succ C ih =>
    intro h
    rw [List.range_succ, List.flatMap_append, List.length_append, List.flatMap_cons, List.flatMap_nil, List.append_nil, Nat.mul_succ]
    have := ih (fun c hc => h c (by omega))
    have := h C (by omega)
    omega

/-- What the rows of an image are, for the image alone: there are `entries`, class by class, none too many, and the grid holds their scores and numbers. -/
theorem image_entries {B C n k : Nat} {box : Nat → Nat → Box K} {score : Nat → Nat → Nat → K} {iou : K} {least : Option K} {b : Nat} (h : 0 ≤ iou) (hb : b < B) {rows : List (List Nat)}
    (hrows : rows = onnxNms B C n k box (fun b c i => score b i c) iou least) :
    ∃ (sel : Nat → List Nat) (entries : List (Nat × Nat)), (∀ c, c < C → TfNms n k (box b) (fun i => score b i c) iou least (sel c)) ∧
      entries = (List.range C).flatMap (fun c => (sel c).map (fun i => (c, i))) ∧ entries.length ≤ k * C ∧ (rowsOf rows b).length = entries.length ∧
      ∀ j, j < entries.length → ∃ p, (rowsOf rows b)[j]? = some p ∧ p < rows.length ∧ rows.getD p [] = [b, (entries.getD j (0, 0)).1, (entries.getD j (0, 0)).2] := by
  refine ⟨fun c => column (onnxNms 1 1 n k (fun _ => box b) (fun _ _ i => score b i c) iou least), _, fun c _ => nms_selects h, rfl, ?_, ?_⟩
  · apply flatMap_length_le
    intro c _
    rw [List.length_map]
    exact (nms_selects (n := n) (k := k) (box := box b) (score := fun i => score b i c) (least := least) h).short
  generalize hE : (List.range C).flatMap (fun c => (column (onnxNms 1 1 n k (fun _ => box b) (fun _ _ i => score b i c) iou least)).map (fun i => (c, i))) = E
  have hmap : (rowsOf rows b).map (fun p => rows.getD p []) = E.map (fun q => [b, q.1, q.2]) := by
    rw [rowsOf_rows, hrows, nms_rows hb, ← hE, List.map_flatMap]
    simp only [List.map_map]
    rfl
  have hlen : (rowsOf rows b).length = E.length := by
    have := congrArg List.length hmap
    rwa [List.length_map, List.length_map] at this
  refine ⟨hlen, ?_⟩
  intro j hj
  have hj' : j < (rowsOf rows b).length := by omega
  refine ⟨(rowsOf rows b)[j], List.getElem?_eq_getElem hj', ?_, ?_⟩
  · exact List.mem_range.1 (List.mem_filter.1 (List.getElem_mem hj')).1
  · have := congrArg (fun l => l[j]?) hmap
    simp only [List.getElem?_map, List.getElem?_eq_getElem hj', List.getElem?_eq_getElem hj, Option.map_some] at this
    rw [Option.some.inj this]
    rw [List.getD_eq_getElem?_getD, List.getElem?_eq_getElem hj]; rfl

/-- The results for an image are TensorFlow's, if all scores that count are positive. -/
theorem combined_image {B C n k total : Nat} {clipBoxes perClass : Bool} {box : Nat → Nat → Box K} {score : Nat → Nat → Nat → K} {iou : K} {least : Option K} {b : Nat} (h : 0 ≤ iou) (hb : b < B)
    (hpos : ∀ i, i < n → ∀ c, c < C → (∀ t, least = some t → t < score b i c) → 0 < score b i c) {rows : List (List Nat)}
    (hrows : rows = onnxNms B C n k box (fun b c i => score b i c) iou least) :
    TfCombined C n k total clipBoxes perClass (box b) (score b) iou least
      (combinedImage clipBoxes rows box score (k * C) (min total (k * C)) (if perClass then min total (k * C) else total) b) := by
  obtain ⟨sel, E, hsel, hE, hle, hlen, hat⟩ := image_entries (box := box) (score := score) h hb hrows
  have hcell : ∀ j, E.length ≤ j → cell rows b j = none := by
    intro j hj
    rw [cell_eq]
    exact List.getElem?_eq_none (by omega)
  have hg : ∀ j, j < E.length → gridScore rows score b j = score b (E.getD j (0, 0)).2 (E.getD j (0, 0)).1 := by
    intro j hj
    obtain ⟨p, hp, _, hr⟩ := hat j hj
    unfold gridScore comp
    rw [cell_eq, hp]
    dsimp only
    rw [hr]; rfl
  have hg0 : ∀ j, E.length ≤ j → gridScore rows score b j = 0 := by
    intro j hj
    unfold gridScore
    rw [hcell j hj]
  have hEpos : ∀ j, j < E.length → 0 < gridScore rows score b j := by
    intro j hj
    rw [hg j hj]
    have hm : E.getD j (0, 0) ∈ E := by
      rw [List.getD_eq_getElem?_getD, List.getElem?_eq_getElem hj]
      exact List.getElem_mem hj
    generalize E.getD j (0, 0) = q at hm
    rw [hE] at hm
    obtain ⟨c, hc, hm⟩ := List.mem_flatMap.1 hm
    obtain ⟨i, hi, rfl⟩ := List.mem_map.1 hm
    have hc := List.mem_range.1 hc
    have := (hsel c hc).cands i hi
    exact hpos i this.1 c hc this.2
  obtain ⟨p, r, ht, hbest, hr⟩ := topk_padded (total := total) hle hEpos hg0
  have hkv : (p ++ r).length = min total (k * C) := by
    rw [← ht]
    exact (topk_is (Nat.min_le_right total (k * C)) _).length
  rw [List.length_append] at hkv
  have hbest' : TakesBest E.length total (fun j => score b (E.getD j (0, 0)).2 (E.getD j (0, 0)).1) p := by
    refine ⟨hbest.length, hbest.range, hbest.nodup, ?_, ?_⟩
    · refine List.Pairwise.imp_of_mem ?_ hbest.sorted
      intro i j hi hj hij
      rwa [hg i (hbest.range i hi), hg j (hbest.range j hj)] at hij
    · intro i hi j hj hjp
      have := hbest.others i hi j hj hjp
      rwa [hg i (hbest.range i hi), hg j hj] at this
  have hrow : ∀ j ∈ p, ∃ q : Nat, gridRow rows b j = (q : Int) ∧ q < rows.length ∧ rows.getD q [] = [b, (E.getD j (0, 0)).1, (E.getD j (0, 0)).2] := by
    intro j hj
    obtain ⟨q, hq, hql, hqr⟩ := hat j (hbest.range j hj)
    refine ⟨q, ?_, hql, hqr⟩
    unfold gridRow
    rw [cell_eq, hq]
  have hrow0 : ∀ j ∈ r, gridRow rows b j = -1 := by
    intro j hj
    unfold gridRow
    rw [hcell j (hr j hj)]
  refine ⟨sel, p, hsel, E, hE, hbest', _, rfl, ?_⟩
  generalize htg : (if perClass then min total (k * C) else total) = target
  have htk : min total (k * C) ≤ target := by
    rw [← htg]
    split
    · exact le_refl _
    · exact Nat.min_le_left _ _
  have hrep : r.length + (target - min total (k * C)) = target - p.length := by omega
  have hidx : ∀ {β : Type} (F : Int → β), (((p ++ r).map (gridRow rows b) ++ List.replicate (target - min total (k * C)) (-1)).map F) =
      p.map (fun j => F (gridRow rows b j)) ++ List.replicate (target - p.length) (F (-1)) := by
    intro β F
    have h1 : r.map (gridRow rows b) = List.replicate r.length (-1) := List.eq_replicate_iff.2 ⟨List.length_map _, fun v hv => by
      obtain ⟨j, hj, rfl⟩ := List.mem_map.1 hv
      exact hrow0 j hj⟩
    rw [List.map_append (f := gridRow rows b), h1, List.append_assoc, List.replicate_append_replicate, hrep, List.map_append, List.map_map, List.map_replicate]
    rfl
  have hget : ∀ {β : Type} (d z : β) (F : List Nat → β) (j : Nat), j ∈ p →
      (z :: rows.map F).getD (gridRow rows b j + 1).toNat d = F [b, (E.getD j (0, 0)).1, (E.getD j (0, 0)).2] := by
    intro β d z F j hj
    obtain ⟨q, hq, hql, hqr⟩ := hrow j hj
    rw [hq, show ((q : Int) + 1).toNat = q + 1 by omega, List.getD_cons_succ, List.getD_eq_getElem?_getD, List.getElem?_map, List.getElem?_eq_getElem hql, Option.map_some, ← hqr,
      List.getD_eq_getElem?_getD, List.getElem?_eq_getElem hql]
    rfl
  unfold combinedImage
  dsimp only
  rw [ht, hidx, hidx]
  have e1 : ((-1 : Int) + 1).toNat = 0 := rfl
  rw [e1, List.getD_cons_zero, List.getD_cons_zero]
  congr 1
  · congr 1
    apply List.map_congr_left
    intro j hj
    rw [hget _ _ _ j hj]; rfl
  · have h1 : r.map (gridScore rows score b) = List.replicate r.length 0 := List.eq_replicate_iff.2 ⟨List.length_map _, fun v hv => by
      obtain ⟨j, hj, rfl⟩ := List.mem_map.1 hv
      exact hg0 j (hr j hj)⟩
    rw [List.map_append, h1, List.append_assoc, List.replicate_append_replicate, hrep]
    congr 1
    apply List.map_congr_left
    intro j hj
    exact hg j (hbest.range j hj)
  · congr 1
    apply List.map_congr_left
    intro j hj
    rw [hget _ _ _ j hj]; rfl
  · rw [List.map_append, List.sum_append]
    have h1 : p.map (fun j => if -1 < gridRow rows b j then 1 else 0) = List.replicate p.length 1 := List.eq_replicate_iff.2 ⟨List.length_map _, fun v hv => by
      obtain ⟨j, hj, rfl⟩ := List.mem_map.1 hv
      obtain ⟨q, hq, _⟩ := hrow j hj
      rw [hq]
      exact if_pos (by omega)⟩
    have h2 : r.map (fun j => if -1 < gridRow rows b j then 1 else 0) = List.replicate r.length 0 := List.eq_replicate_iff.2 ⟨List.length_map _, fun v hv => by
      obtain ⟨j, hj, rfl⟩ := List.mem_map.1 hv
      rw [hrow0 j hj]
      exact if_neg (by omega)⟩
    rw [h1, h2, List.sum_replicate, List.sum_replicate]
    simp

/-- The converted `CombinedNonMaxSuppression` gives TensorFlow's results for every image, if all scores that count are positive. -/
theorem combined_converts {B C n k total : Nat} {clipBoxes perClass : Bool} {box : Nat → Nat → Box K} {score : Nat → Nat → Nat → K} {iou : K} {least : Option K} (h : 0 ≤ iou)
    (hpos : ∀ b, b < B → ∀ i, i < n → ∀ c, c < C → (∀ t, least = some t → t < score b i c) → 0 < score b i c) :
    ∃ f, combinedNms true clipBoxes perClass B C n k total box score iou least = .ok (some f) ∧
      ∀ b, b < B → TfCombined C n k total clipBoxes perClass (box b) (score b) iou least (f b) := by
  unfold combinedNms
  dsimp only
  generalize hrows : onnxNms B C n k box (fun b c i => score b i c) iou least = rows
  have hw : ∀ p, p < rows.length → within rows p < k * C := by
    intro p hp
    have hb : comp rows 0 p < B := by
      have hm : rows.getD p [] ∈ rows := by
        rw [List.getD_eq_getElem?_getD, List.getElem?_eq_getElem hp]
        exact List.getElem_mem hp
      unfold comp
      generalize rows.getD p [] = r at hm
      rw [← hrows] at hm
      obtain ⟨b, hb, hm⟩ := List.mem_flatMap.1 hm
      obtain ⟨c, _, hm⟩ := List.mem_flatMap.1 hm
      obtain ⟨i, _, rfl⟩ := List.mem_map.1 hm
      exact List.mem_range.1 hb
    obtain ⟨_, E, _, _, hle, hlen, _⟩ := image_entries (box := box) (score := score) h hb hrows.symm
    have hm : within rows p ∈ (rowsOf rows (comp rows 0 p)).map (within rows) := List.mem_map.2 ⟨p, List.mem_filter.2 ⟨List.mem_range.2 hp, beq_self_eq_true _⟩, rfl⟩
    rw [within_rowsOf] at hm
    have := List.mem_range.1 hm
    omega
  rw [if_neg (by decide), if_pos hw]
  exact ⟨_, rfl, fun b hb => combined_image h hb (hpos b hb) hrows.symm⟩

omit [IsStrictOrderedRing K] in
/-- Boxes of their own for every class are refused. -/
theorem combined_refused {clipBoxes perClass : Bool} {B C n k total : Nat} {box : Nat → Nat → Box K} {score : Nat → Nat → Nat → K} {iou : K} {least : Option K} :
    combinedNms false clipBoxes perClass B C n k total box score iou least = .error "CombinedNonMaxSuppression only currently implemented for boxes shared across classes." := rfl

end Verif.Nms
