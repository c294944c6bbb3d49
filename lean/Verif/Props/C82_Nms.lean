import Verif.Model.Nms
import Verif.Props.C78_TopK
import Mathlib.Algebra.Order.Field.Basic
import Mathlib.Tactic.NormNum
/-!
# C82: selection of boxes
-/
namespace Verif.Nms
open Verif.Stack

/-! ## Selecting one after the other -/

section Greedy
variable {K : Type} [LinearOrder K]

theorem greedy_spec {score : Nat → K} {supp : Nat → Nat → Bool} {k : Nat} : ∀ (l s : List Nat), (s ++ l).Pairwise (Before score) → s.Pairwise (fun j i => ¬ supp j i = true) → s.length ≤ k →
    (greedy supp k l s).length ≤ k ∧ (∀ i ∈ greedy supp k l s, i ∈ s ++ l) ∧ (∀ i ∈ s, i ∈ greedy supp k l s) ∧ (greedy supp k l s).Pairwise (Before score) ∧
      (greedy supp k l s).Pairwise (fun j i => ¬ supp j i = true) ∧
      (∀ i ∈ l, i ∉ greedy supp k l s → (∃ j ∈ greedy supp k l s, Before score j i ∧ supp j i = true) ∨ ((greedy supp k l s).length = k ∧ ∀ j ∈ greedy supp k l s, Before score j i)) := by
  intro l
  induction l with
  | nil =>
    intro s hs ha hk
    rw [List.append_nil] at hs
    exact ⟨hk, fun i hi => by rw [List.append_nil]; exact hi, fun i hi => hi, hs, ha, fun i hi => absurd hi List.not_mem_nil⟩
  | cons a l ih =>
    intro s hs ha hk
    have hcross : ∀ j ∈ s, ∀ i ∈ a :: l, Before score j i := (List.pairwise_append.1 hs).2.2
    rw [greedy]
    by_cases hf : k ≤ s.length
    · rw [if_pos hf]
      refine ⟨hk, fun i hi => List.mem_append_left _ hi, fun i hi => hi, (List.pairwise_append.1 hs).1, ha, fun i hi _ => .inr ⟨by omega, fun j hj => hcross j hj i hi⟩⟩
    · rw [if_neg hf]
      by_cases hany : s.any (fun j => supp j a) = true
      · rw [if_pos hany]
        have hs' : (s ++ l).Pairwise (Before score) := hs.sublist ((List.sublist_cons_self a l).append_left s)
        obtain ⟨h1, h2, h3, h4, h5, h6⟩ := ih s hs' ha hk
        refine ⟨h1, ?_, h3, h4, h5, ?_⟩
        · intro i hi
          rcases List.mem_append.1 (h2 i hi) with h | h
          · exact List.mem_append_left _ h
          · exact List.mem_append_right _ (List.mem_cons_of_mem _ h)
        · intro i hi hn
          rcases List.mem_cons.1 hi with rfl | hi
          · obtain ⟨j, hj, hji⟩ := List.any_eq_true.1 hany
            exact .inl ⟨j, h3 j hj, hcross j hj _ (List.mem_cons_self ..), hji⟩
          · exact h6 i hi hn
      · rw [if_neg hany]
        have hna : ∀ j ∈ s, ¬ supp j a = true := fun j hj h => hany (List.any_eq_true.2 ⟨j, hj, h⟩)
        have hs' : ((s ++ [a]) ++ l).Pairwise (Before score) := by rw [List.append_assoc]; exact hs
        have ha' : (s ++ [a]).Pairwise (fun j i => ¬ supp j i = true) := by
          rw [List.pairwise_append]
          exact ⟨ha, List.pairwise_singleton _ _, fun j hj i hi => by rw [List.mem_singleton.1 hi]; exact hna j hj⟩
        obtain ⟨h1, h2, h3, h4, h5, h6⟩ := ih (s ++ [a]) hs' ha' (by rw [List.length_append, List.length_singleton]; omega)
        refine ⟨h1, ?_, fun i hi => h3 i (List.mem_append_left _ hi), h4, h5, ?_⟩
        · intro i hi
          have := h2 i hi
          rwa [List.append_assoc] at this
        · intro i hi hn
          rcases List.mem_cons.1 hi with rfl | hi
          · exact absurd (h3 i (List.mem_append_right _ (List.mem_singleton.2 rfl))) hn
          · exact h6 i hi hn

end Greedy

variable {K : Type} [Field K] [LinearOrder K]

/-- Going through the sorted candidates one after the other selects what is to be selected. -/
theorem greedy_selects {n k : Nat} {score : Nat → K} {cand : Nat → Bool} {supp : Nat → Nat → Bool} :
    IsSelected n k score (fun i => cand i = true) (fun j i => supp j i = true) (greedy supp k ((topk n n score).filter cand) []) := by
  have ht := topk_is (le_refl n) score
  have hmem : ∀ i, i < n → i ∈ topk n n score := by
    intro i hi
    by_contra hn
    have hnd : (topk n n score).Nodup := ht.sorted.imp (by
      rintro i j hij rfl
      exact before_asymm hij hij)
    have hsub : i :: topk n n score ⊆ List.range n := by
      intro j hj
      rcases List.mem_cons.1 hj with rfl | hj
      · exact List.mem_range.2 hi
      · exact List.mem_range.2 (ht.range j hj)
    have := ((List.nodup_cons.2 ⟨hn, hnd⟩).subperm hsub).length_le
    rw [List.length_cons, ht.length, List.length_range] at this
    omega
  have hs : ([] ++ (topk n n score).filter cand).Pairwise (Before score) := ht.sorted.sublist List.filter_sublist
  obtain ⟨h1, h2, _, h4, h5, h6⟩ := greedy_spec (supp := supp) (k := k) _ [] hs List.Pairwise.nil (Nat.zero_le _)
  refine ⟨h1, ?_, h4, h5, ?_⟩
  · intro i hi
    have := List.mem_filter.1 (h2 i hi)
    exact ⟨ht.range i this.1, this.2⟩
  · intro i hi hc hn
    exact h6 i (List.mem_filter.2 ⟨hmem i hi, hc⟩) hn

/-- There is only one way to select. -/
theorem selected_unique {n k : Nat} {score : Nat → K} {cand : Nat → Prop} {supp : Nat → Nat → Prop} {s s' : List Nat} (h : IsSelected n k score cand supp s)
    (h' : IsSelected n k score cand supp s') : s = s' := by
  have irr : ∀ i, ¬ Before score i i := fun i hi => before_asymm hi hi
  -- one of the two goes on with `a`, the other one does not or with something behind it
  have key : ∀ (p r r' : List Nat) (a : Nat), IsSelected n k score cand supp (p ++ a :: r) → IsSelected n k score cand supp (p ++ r') → (∀ b ∈ r', Before score a b) → False := by
    intro p r r' a hs hs' hb
    have hpa : ∀ j ∈ p, Before score j a := fun j hj => (List.pairwise_append.1 hs.sorted).2.2 j hj a (List.mem_cons_self ..)
    have hca := hs.cands a (List.mem_append_right _ (List.mem_cons_self ..))
    have hn : a ∉ p ++ r' := by
      intro hm
      rcases List.mem_append.1 hm with hm | hm
      · exact irr a (hpa a hm)
      · exact irr a (hb a hm)
    rcases hs'.complete a hca.1 hca.2 hn with ⟨j, hj, hja, hsup⟩ | ⟨hlen, hall⟩
    · rcases List.mem_append.1 hj with hj | hj
      · exact (List.pairwise_append.1 hs.apart).2.2 j hj a (List.mem_cons_self ..) hsup
      · exact before_asymm hja (hb j hj)
    · cases r' with
      | nil =>
        have := hs.short
        rw [List.length_append, List.length_cons] at this
        rw [List.append_nil] at hlen
        omega
      | cons b r' => exact before_asymm (hall b (List.mem_append_right _ (List.mem_cons_self ..))) (hb b (List.mem_cons_self ..))
  have tail : ∀ (p r : List Nat) (a : Nat), IsSelected n k score cand supp (p ++ a :: r) → ∀ b ∈ r, Before score a b := by
    intro p r a hs b hb
    exact (List.pairwise_cons.1 (List.pairwise_append.1 hs.sorted).2.1).1 b hb
  have main : ∀ (r r' p : List Nat), IsSelected n k score cand supp (p ++ r) → IsSelected n k score cand supp (p ++ r') → r = r' := by
    intro r
    induction r with
    | nil =>
      intro r' p hs hs'
      cases r' with
      | nil => rfl
      | cons b r' => exact (key p r' [] b hs' hs (fun _ hb => absurd hb List.not_mem_nil)).elim
    | cons a r ih =>
      intro r' p hs hs'
      cases r' with
      | nil => exact (key p r [] a hs hs' (fun _ hb => absurd hb List.not_mem_nil)).elim
      | cons b r' =>
        have hab : a = b := by
          have tri : Before score a b ∨ a = b ∨ Before score b a := by
            unfold Before
            rcases lt_trichotomy (score a) (score b) with h | h | h
            · exact .inr (.inr (.inl h))
            · rcases Nat.lt_trichotomy a b with h1 | h1 | h1
              · exact .inl (.inr ⟨h, h1⟩)
              · exact .inr (.inl h1)
              · exact .inr (.inr (.inr ⟨h.symm, h1⟩))
            · exact .inl (.inl h)
          have trans : ∀ {i j l : Nat}, Before score i j → Before score j l → Before score i l := by
            intro i j l h1 h2
            rcases h1 with h1 | ⟨h1, h1'⟩ <;> rcases h2 with h2 | ⟨h2, h2'⟩
            · exact .inl (lt_trans h2 h1)
            · exact .inl (h2 ▸ h1)
            · exact .inl (h1.symm ▸ h2)
            · exact .inr ⟨h1.trans h2, by omega⟩
          rcases tri with h1 | h1 | h1
          · refine (key p r (b :: r') a hs hs' ?_).elim
            intro c hc
            rcases List.mem_cons.1 hc with rfl | hc
            · exact h1
            · exact trans h1 (tail p r' b hs' c hc)
          · exact h1
          · refine (key p r' (a :: r) b hs' hs ?_).elim
            intro c hc
            rcases List.mem_cons.1 hc with rfl | hc
            · exact h1
            · exact trans h1 (tail p r a hs c hc)
        subst hab
        rw [ih r' (p ++ [a]) (by rw [List.append_assoc]; exact hs) (by rw [List.append_assoc]; exact hs')]
  exact main s s' [] h h'

/-! ## Overlaps -/

section Overlap
variable [IsStrictOrderedRing K]

theorem inter_nonneg (a b : Box K) : 0 ≤ inter a b := mul_nonneg (le_max_right _ _) (le_max_right _ _)

/-- What two boxes have in common is not larger than the first. -/
theorem inter_le_left (a b : Box K) : inter a b ≤ area a := by
  unfold inter area
  have hy : (0 : K) ≤ max a.y1 a.y2 - min a.y1 a.y2 := sub_nonneg.2 min_le_max
  have hx : (0 : K) ≤ max a.x1 a.x2 - min a.x1 a.x2 := sub_nonneg.2 min_le_max
  refine mul_le_mul (max_le (sub_le_sub (min_le_left _ _) (le_max_left _ _)) hy) (max_le (sub_le_sub (min_le_left _ _) (le_max_left _ _)) hx) (le_max_right _ _) hy

/-- ONNX suppresses what TensorFlow suppresses: empty boxes and boxes that only touch make no difference for a threshold that is not negative. -/
theorem onnxSupp_iff {iou : K} (h : 0 ≤ iou) (a b : Box K) : onnxSupp iou a b = true ↔ iou < tfIou a b := by
  unfold onnxSupp tfIou
  by_cases hd : area a ≤ 0 ∨ area b ≤ 0
  · rw [if_pos hd, decide_eq_true (show area a ≤ 0 ∨ area b ≤ 0 ∨ area a + area b - inter a b ≤ 0 from hd.imp_right Or.inl)]
    simp [not_lt.2 h]
  · rw [if_neg hd]
    have hd' := not_or.1 hd
    have hu : ¬ area a + area b - inter a b ≤ 0 := by
      have h1 := inter_le_left a b
      have h2 : 0 < area b := not_le.1 hd'.2
      rw [not_le, sub_pos]
      exact lt_of_le_of_lt h1 (lt_add_of_pos_right _ h2)
    have he : ¬ (area a ≤ 0 ∨ area b ≤ 0 ∨ area a + area b - inter a b ≤ 0) := by
      rintro (h1 | h1 | h1)
      · exact hd'.1 h1
      · exact hd'.2 h1
      · exact hu h1
    rw [decide_eq_false he]
    by_cases hi : inter a b ≤ 0
    · have h0 : inter a b = 0 := le_antisymm hi (inter_nonneg a b)
      rw [h0, zero_div]
      simp [not_lt.2 h]
    · rw [decide_eq_false hi]
      simp

end Overlap

/-! ## The handler -/

variable [IsStrictOrderedRing K]

theorem column_rows (l : List Nat) (b c : Nat) : column (l.map (fun i => [b, c, i])) = l := by
  unfold column
  induction l with
  | nil => rfl
  | cons i l ih => rw [List.map_cons, List.flatMap_cons, ih]; rfl

/-- The emitted `NonMaxSuppression` selects TensorFlow's boxes, in TensorFlow's order. -/
theorem nms_selects {n k : Nat} {box : Nat → Box K} {score : Nat → K} {iou : K} {least : Option K} (h : 0 ≤ iou) :
    TfNms n k box score iou least (column (onnxNms 1 1 n k (fun _ => box) (fun _ _ => score) iou least)) := by
  have e : column (onnxNms 1 1 n k (fun _ => box) (fun _ _ => score) iou least) =
      greedy (fun j i => onnxSupp iou (box j) (box i)) k ((topk n n score).filter (fun i => least.all (fun t => decide (t < score i)))) [] := by
    unfold onnxNms
    rw [show List.range 1 = [0] from rfl, List.flatMap_cons, List.flatMap_cons, List.flatMap_nil, List.flatMap_nil, List.append_nil, List.append_nil, column_rows]
  rw [e]
  have hg := greedy_selects (n := n) (k := k) (score := score) (cand := fun i => least.all (fun t => decide (t < score i))) (supp := fun j i => onnxSupp iou (box j) (box i))
  have hc : ∀ i, least.all (fun t => decide (t < score i)) = true ↔ ∀ t, least = some t → t < score i := by
    intro i
    cases least with
    | none => simp
    | some t => simp
  have hsup : ∀ j i, onnxSupp iou (box j) (box i) = true ↔ iou < tfIou (box j) (box i) := fun j i => onnxSupp_iff h _ _
  unfold TfNms
  simp only [hc, hsup] at hg
  exact hg

theorem padTo_tf {β : Type} {viaFloat : Int → Int} {k : Nat} (hv : ∀ z : Int, 0 ≤ z → z ≤ k → viaFloat z = z) {m : Nat} (hm : m ≤ k) (z : β) {s : List β} (hs : s.length = m) :
    padTo (padAmt viaFloat k m) z s = s ++ List.replicate (k - s.length) z := by
  unfold padTo padAmt
  rw [hv _ (by omega) (by omega), hs]
  congr 2
  omega

/-- The converted node gives TensorFlow's results: the selected boxes, padded or not, their scores and their number, in all four versions. -/
theorem nms_converts {viaFloat : Int → Int} {nd : NmsNode} {n k : Nat} {box : Nat → Box K} {score : Nat → K} {iou : K} {least : Option K} (h : 0 ≤ iou) (hf : nd.float = true)
    (hv : nd.pad = true → ∀ z : Int, 0 ≤ z → z ≤ k → viaFloat z = z) (hsig : nd.sigma = none ∨ nd.sigma = some (some 0)) (hpad : nd.pad = true → 4 ≤ nd.version)
    (hop : nd.pad = true → nd.version = 5 → 11 ≤ nd.opset) :
    ∃ s, TfNms n k box score iou least s ∧ nonMaxSuppression viaFloat nd n k box score iou least =
      .ok (some ⟨tfPad nd.pad k 0 s, if nd.version = 5 then some (tfPad nd.pad k 0 (s.map score)) else none, if 4 ≤ nd.version then some s.length else none⟩) := by
  have hsel := nms_selects (n := n) (k := k) (box := box) (score := score) (least := least) h
  unfold nonMaxSuppression
  dsimp only
  generalize column (onnxNms 1 1 n k (fun _ => box) (fun _ _ => score) iou least) = s at hsel ⊢
  refine ⟨s, hsel, ?_⟩
  have hsg : sigmaOk nd = true := by
    unfold sigmaOk
    rcases hsig with h1 | h1 <;> rw [h1]
    exact decide_eq_true ⟨by norm_num, by norm_num⟩
  have h2 : ¬ (nd.pad && decide (nd.version < 4)) = true := by
    rw [Bool.and_eq_true, decide_eq_true_eq]
    rintro ⟨h1, h2⟩
    have := hpad h1
    omega
  have h3 : ¬ (nd.pad && decide (nd.version = 5) && decide (nd.opset ≤ 10)) = true := by
    rw [Bool.and_eq_true, Bool.and_eq_true, decide_eq_true_eq, decide_eq_true_eq]
    rintro ⟨⟨h1, h2⟩, h3⟩
    have := hop h1 h2
    omega
  rw [hsg, hf, if_neg (by decide), if_neg h2, if_neg h3, if_neg (by decide)]
  have hp : ∀ {β : Type} (z : β) (t : List β), t.length = s.length → (if nd.pad = true then padTo (padAmt viaFloat k s.length) z t else t) = tfPad nd.pad k z t := by
    intro β z t ht
    unfold tfPad
    by_cases hb : nd.pad = true
    · rw [if_pos hb, if_pos hb]
      exact padTo_tf (hv hb) hsel.short z ht
    · rw [if_neg hb, if_neg hb]
  have hsc : scoresOut viaFloat nd n k score s = some (if nd.version = 5 then some (tfPad nd.pad k 0 (s.map score)) else none) := by
    unfold scoresOut gatherScores
    by_cases h5 : nd.version = 5
    · rw [if_pos h5, if_pos h5, if_pos (fun i hi => (hsel.cands i hi).1), Option.map_some, hp 0 (s.map score) (by rw [List.length_map])]
    · rw [if_neg h5, if_neg h5]
  rw [hsc, Option.map_some, hp 0 s rfl]

omit [IsStrictOrderedRing K] in
/-- A decay of the scores of 1 or more is refused. -/
theorem sigma_refused {viaFloat : Int → Int} {nd : NmsNode} {n k : Nat} {box : Nat → Box K} {score : Nat → K} {iou : K} {least : Option K} {v : ℚ} (hs : nd.sigma = some (some v)) (hv : 1 ≤ v) :
    nonMaxSuppression viaFloat nd n k box score iou least = .error "soft_nms_sigma must be 0" := by
  have : sigmaOk nd = false := by
    unfold sigmaOk
    rw [hs]
    exact decide_eq_false (fun h => absurd h.2 (not_lt.2 hv))
  unfold nonMaxSuppression
  rw [this]; rfl

omit [IsStrictOrderedRing K] in
/-- A decay between 0 and 1 is not refused: `int` makes it 0, and the node is converted as if there were none. -/
theorem sigma_violated {viaFloat : Int → Int} {nd : NmsNode} {n k : Nat} {box : Nat → Box K} {score : Nat → K} {iou : K} {least : Option K} {v : ℚ} (hs : nd.sigma = some (some v)) (h0 : 0 < v) (h1 : v < 1) :
    nonMaxSuppression viaFloat nd n k box score iou least = nonMaxSuppression viaFloat { nd with sigma := some (some 0) } n k box score iou least := by
  have e1 : sigmaOk nd = true := by
    unfold sigmaOk
    rw [hs]
    exact decide_eq_true ⟨lt_trans (by norm_num) h0, h1⟩
  have e2 : sigmaOk { nd with sigma := some (some 0) } = true := by
    unfold sigmaOk
    exact decide_eq_true ⟨by norm_num, by norm_num⟩
  unfold nonMaxSuppression scoresOut
  rw [e1, e2]

end Verif.Nms
