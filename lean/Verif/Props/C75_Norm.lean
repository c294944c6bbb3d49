import Verif.Props.C75_Stretch
import Verif.Props.C64_Cells
import Verif.Props.C61_Pool
/-!
# C75: batch normalisation
-/
namespace Verif.Channels
open Verif.Tensor Verif.Conv Verif.Einsum Verif.Emit

theorem mk_inj {last : Bool} {n n' c c' : Nat} {sp sp' : List Nat} (hl : sp'.length = sp.length) (h : mk last n sp c = mk last n' sp' c') : n = n' ∧ sp = sp' ∧ c = c' := by
  cases last
  · simp only [mk, Bool.false_eq_true, if_false, List.cons.injEq] at h
    exact ⟨h.1, h.2.2, h.2.1⟩
  · simp only [mk, if_true, List.cons.injEq] at h
    obtain ⟨h1, h2⟩ := h
    obtain ⟨h3, h4⟩ := List.append_inj h2 hl.symm
    exact ⟨h1, h3, by simpa using h4⟩

/-- The values of a channel, one for every image and every pixel, in both layouts. -/
theorem channelValues_eq {last : Bool} {m N C c : Nat} {sp : List Nat} (hsp : sp.length = m) {x : T ℝ} (hx : x.shape = mk last N sp C) (hc : c < C) :
    channelValues last m x c = (((allIdx (N :: sp)).map (fun i => x.get (mk last (nth i 0) i.tail c)) : List ℝ) : Multiset ℝ) := by
  have e : (allIdx (N :: sp)).map (fun i => x.get (mk last (nth i 0) i.tail c)) = ((allIdx (N :: sp)).map (fun i => mk last (nth i 0) i.tail c)).map x.get := by
    rw [List.map_map]
    rfl
  rw [e]
  unfold channelValues
  rw [Multiset.map_coe, Multiset.coe_eq_coe]
  apply List.Perm.map
  have hform : ∀ i ∈ allIdx (N :: sp), ∃ n t, i = n :: t ∧ t.length = m ∧ n < N ∧ InB sp t := by
    intro i hi
    rw [TransposeOpt.mem_allIdx] at hi
    match i, hi with
    | [], hi => exact absurd hi.1 (by simp)
    | n :: t, hi =>
      obtain ⟨h1, h2⟩ := inB_cons.1 hi
      exact ⟨n, t, rfl, by rw [h2.1, hsp], h1, h2⟩
  rw [List.perm_ext_iff_of_nodup ((TransposeOpt.nodup_allIdx _).filter _)]
  · intro p
    rw [List.mem_filter, TransposeOpt.mem_allIdx, List.mem_map, hx, decide_eq_true_eq]
    constructor
    · rintro ⟨h1, h2⟩
      obtain ⟨n, t, k, ht, rfl⟩ := exists_mk last (m := m) (idx := p) (by rw [h1.1, mk_length, hsp])
      have h3 := (inB_mk (by rw [ht, hsp])).1 h1
      rw [← ht, chOf_mk] at h2
      exact ⟨n :: t, (TransposeOpt.mem_allIdx _ _).2 (inB_cons.2 ⟨h3.1, h3.2.1⟩), by rw [← h2]; rfl⟩
    · rintro ⟨i, hi, rfl⟩
      obtain ⟨n, t, rfl, ht, hn, htb⟩ := hform i hi
      refine ⟨(inB_mk (show t.length = sp.length by rw [ht, hsp])).2 ⟨hn, htb, hc⟩, ?_⟩
      show chOf last m (mk last n t c) = c
      rw [← ht, chOf_mk]
  · refine List.Nodup.map_on ?_ (TransposeOpt.nodup_allIdx _)
    intro i hi j hj h
    obtain ⟨n, t, rfl, ht, -, -⟩ := hform i hi
    obtain ⟨n', t', rfl, ht', -, -⟩ := hform j hj
    obtain ⟨h1, h2, -⟩ := mk_inj (show t'.length = t.length by rw [ht, ht']) h
    show n :: t = n' :: t'
    have h1 : n = n' := h1
    have h2 : t = t' := h2
    rw [h1, h2]

/-- The layout does not matter. -/
theorem channelValues_toOnnx {last : Bool} {m N C c : Nat} {sp : List Nat} (hsp : sp.length = m) {x : T ℝ} (hx : x.shape = mk last N sp C) (hc : c < C) :
    channelValues false m (toOnnx last m x) c = channelValues last m x c := by
  rw [channelValues_eq hsp hx hc, channelValues_eq hsp (toOnnx_shape last x hsp hx) hc]
  congr 1
  apply List.map_congr_left
  intro i hi
  rw [TransposeOpt.mem_allIdx] at hi
  exact toOnnx_get last x _ _ (by rw [List.length_tail, hi.1, List.length_cons, hsp, Nat.add_sub_cancel])

theorem length_allIdx (s : List Nat) : (allIdx s).length = size s := by
  induction s with
  | nil => rfl
  | cons d s ih =>
    simp [allIdx, size, ih]

theorem card_channelValues {last : Bool} {m N C c : Nat} {sp : List Nat} (hsp : sp.length = m) {x : T ℝ} (hx : x.shape = mk last N sp C) (hc : c < C) :
    Multiset.card (channelValues last m x c) = size (N :: sp) := by
  rw [channelValues_eq hsp hx hc, Multiset.coe_card, List.length_map, length_allIdx]

theorem mem_statAxes {m k : Nat} (hk : k < m + 2) : (statAxes (m + 2)).contains k = true ↔ k ≠ 1 := by
  rw [List.contains_iff_mem]
  unfold statAxes
  rw [List.mem_cons, List.mem_map]
  constructor
  · rintro (h | ⟨a, _, h⟩) <;> omega
  · intro h
    by_cases h0 : k = 0
    · exact Or.inl h0
    · exact Or.inr ⟨k - 2, List.mem_range.2 (by omega), by omega⟩

/-- The reduction takes the values of a channel. -/
theorem group_channel {m : Nat} {x : T ℝ} (hr : x.shape.length = m + 2) (i : List Nat) :
    group (fun k => (statAxes (m + 2)).contains k) x i = channelValues false m x (nth i 1) := by
  unfold group channelValues
  have e : ∀ p, ((List.range x.shape.length).all fun k => (statAxes (m + 2)).contains k || decide (nth p k = nth i k)) = decide (chOf false m p = nth i 1) := by
    intro p
    apply Bool.eq_iff_iff.2
    rw [List.all_eq_true, decide_eq_true_eq, hr]
    show _ ↔ nth p 1 = nth i 1
    constructor
    · intro h
      have h1 := h 1 (List.mem_range.2 (by omega))
      rw [Bool.or_eq_true, decide_eq_true_eq] at h1
      rcases h1 with h1 | h1
      · exact absurd rfl ((mem_statAxes (by omega)).1 h1)
      · exact h1
    · intro h k hk
      rw [Bool.or_eq_true, decide_eq_true_eq]
      by_cases hk1 : k = 1
      · exact Or.inr (by rw [hk1]; exact h)
      · exact Or.inl ((mem_statAxes (List.mem_range.1 hk)).2 hk1)
  simp only [e]

theorem keptAxes_stat (m : Nat) : keptAxes (m + 2) (fun k => (statAxes (m + 2)).contains k) = [1] := by
  have e : keptAxes (m + 2) (fun k => (statAxes (m + 2)).contains k) = (List.range (m + 2)).filter (fun k => decide (k = 1)) := by
    unfold keptAxes
    apply List.filter_congr
    intro k hk
    have := mem_statAxes (m := m) (List.mem_range.1 hk)
    by_cases h : k = 1
    · rw [h]
      have : (statAxes (m + 2)).contains 1 = false := by
        rw [← Bool.not_eq_true, mem_statAxes (by omega)]
        simp
      simp only [this]
      rfl
    · have h2 := this.2 h
      simp only [h2, h]
      rfl
  rw [e, Nat.add_comm, List.range_add, List.filter_append]
  have : (List.map (fun x => 2 + x) (List.range m)).filter (fun k => decide (k = 1)) = [] := by
    rw [List.filter_eq_nil_iff]
    intro a ha
    obtain ⟨b, _, rfl⟩ := List.mem_map.1 ha
    simp
    omega
  rw [this]
  rfl

/-- Dropping all axes but the second. -/
theorem drop_stat {m : Nat} (f : Multiset ℝ → ℝ) {x : T ℝ} {N C : Nat} {sp : List Nat} (hsp : sp.length = m) (hx : x.shape = mk false N sp C) :
    (reduceDrop f (fun k => (statAxes (m + 2)).contains k) x).shape = [C] ∧
      ∀ c, (reduceDrop f (fun k => (statAxes (m + 2)).contains k) x).get [c] = f (channelValues false m x c) := by
  have hr : x.shape.length = m + 2 := by rw [hx, mk_length, hsp]
  have hl : (reduceKeep f (fun k => (statAxes (m + 2)).contains k) x).shape.length = m + 2 := by rw [(reduceKeep_fits f _ x).1, hr]
  have h1 : (statAxes (m + 2)).contains 1 = false := by
    rw [← Bool.not_eq_true, mem_statAxes (by omega)]
    simp
  constructor
  · show (keptAxes _ _).map _ = _
    rw [hl, keptAxes_stat, List.map_singleton]
    show [nth ((List.range x.shape.length).map _) 1] = _
    rw [nth_map_range, if_pos (by omega)]
    simp only [h1, hx]
    rfl
  · intro c
    show f (group (fun k => (statAxes (m + 2)).contains k) x _) = _
    rw [group_channel hr]
    congr 2
    rw [hl, nth_map_range, if_pos (by omega)]
    simp only [h1, keptAxes_stat]
    rfl

end Verif.Channels
