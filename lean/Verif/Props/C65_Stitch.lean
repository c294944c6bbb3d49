import Verif.Props.C65_Count
/-!
# C65: DynamicPartition and DynamicStitch
-/
namespace Verif.Index
open Verif.Tensor Verif.Emit Verif.Seg Verif.Vec Verif.Ragged

variable {β : Type}

/-- The positions of true conditions. -/
def kept (b : List Bool) : List Nat := (List.range b.length).filter (fun k => b.getD k false)

theorem kept_take {b : List Bool} {j : Nat} (hj : j ≤ b.length) :
    ((List.range j).filter (fun k => b.getD k false)).length = (b.take j).count true := by
  induction j with
  | zero => simp
  | succ j ih =>
    have hj' : j < b.length := by omega
    rw [List.range_succ, List.filter_append, List.length_append, ih (by omega), List.take_succ_eq_append_getElem hj', List.count_append]
    congr 1
    cases h : b[j] <;> simp [List.getD, hj', h]

theorem kept_length (b : List Bool) : (kept b).length = b.count true := by
  unfold kept
  rw [kept_take (le_refl _), List.take_length]

theorem kept_at {b : List Bool} {j : Nat} (h : b[j]? = some true) : nth (kept b) ((b.take j).count true) = j := by
  obtain ⟨hj, e⟩ := List.getElem?_eq_some_iff.1 h
  have hsplit : List.range b.length = List.range j ++ j :: (List.range (b.length - j - 1)).map (fun k => j + 1 + k) := by
    rw [show b.length = j + 1 + (b.length - j - 1) by omega, List.range_add, List.range_succ]
    simp [show j + 1 + (b.length - j - 1) - j - 1 = b.length - j - 1 by omega]
  unfold kept
  rw [hsplit, List.filter_append, List.filter_cons, if_pos (by simp [List.getD, h]), ← kept_take (by omega)]
  simp [nth]

theorem count_map_eq {part : List Int} (i : Int) : (part.map (fun p => decide (p = i))).count true = part.count i := by
  rw [List.count, List.countP_map, List.count]
  refine List.countP_congr (fun a _ => ?_)
  simp

/-- **DynamicPartition.** -/
theorem dynamicPartition_ok (data : T β) (part : List Int) (num : Nat) {u : List Nat} (hs : data.shape = part.length :: u) :
    ∃ outs, dynamicPartition data part num = some outs ∧ outs.length = num ∧
      ∀ i (hi : i < outs.length), TfIndex.IsPartition data part (i : Int) outs[i] := by
  have hc : ∀ b : List Bool, b.length = part.length →
      compressT data b = some ⟨(kept b).length :: data.shape.tail, fun i => data.get (nth (kept b) (nth i 0) :: i.tail)⟩ := by
    intro b hb
    unfold compressT
    rw [if_pos (by rw [hs]; simp [nth, hb])]
    rfl
  refine ⟨(List.range num).map (fun i : Nat => ⟨(kept (part.map (fun p => decide (p = (i : Int))))).length :: data.shape.tail,
      fun j => data.get (nth (kept (part.map (fun p => decide (p = (i : Int))))) (nth j 0) :: j.tail)⟩), ?_, by simp, ?_⟩
  · unfold dynamicPartition
    rw [List.mapM_map]
    exact mapM_some (fun i _ => hc (part.map (fun p => decide (p = (i : Int)))) (by simp))
  · intro i hi
    simp only [List.getElem_map, List.getElem_range]
    refine ⟨by simp only [kept_length, count_map_eq], fun j hj r _ => ?_⟩
    have hb : (part.map (fun p => decide (p = (i : Int))))[j]? = some true := by simp [hj]
    have := kept_at hb
    rw [← List.map_take, count_map_eq] at this
    show data.get (nth (kept _) _ :: r) = _
    simp only [nth, List.getD_cons_zero] at this ⊢
    rw [this]

theorem concat_at {parts : List (List Int × T β)} {u : List Nat} (zero : β) (hs : ∀ p ∈ parts, p.2.shape = p.1.length :: u) {p : List Int × T β} (hp : p ∈ parts)
    {k : Nat} (hk : k < p.1.length) :
    ∃ q, (parts.map Prod.fst).flatten[q]? = some p.1[k] ∧ ∀ r, concatGet zero 0 (parts.map Prod.snd) (q :: r) = p.2.get (k :: r) := by
  induction parts with
  | nil => cases hp
  | cons a parts ih =>
    have ha := hs a (by simp)
    rcases List.mem_cons.1 hp with rfl | hp
    · refine ⟨k, ?_, fun r => ?_⟩
      · simp [List.getElem?_append_left hk, hk]
      · simp [concatGet, ha, nth, hk]
    · obtain ⟨q, h1, h2⟩ := ih (fun p hp => hs p (by simp [hp])) hp
      refine ⟨a.1.length + q, ?_, fun r => ?_⟩
      · rw [List.map_cons, List.flatten_cons, List.getElem?_append_right (by omega), Nat.add_sub_cancel_left]
        exact h1
      · rw [← h2 r]
        simp [concatGet, ha, nth, setAt]

theorem concat_shape {parts : List (List Int × T β)} {u : List Nat} (zero : β) (hs : ∀ p ∈ parts, p.2.shape = p.1.length :: u) (hne : parts ≠ []) :
    concatAll zero (parts.map Prod.snd) = some ⟨(parts.map Prod.fst).flatten.length :: u, concatGet zero 0 (parts.map Prod.snd)⟩ := by
  have hlen : ∀ l : List (List Int × T β), (∀ p ∈ l, p.2.shape = p.1.length :: u) →
      ((l.map Prod.snd).map (fun x => nth x.shape 0)).sum = (l.map Prod.fst).flatten.length := by
    intro l hl
    induction l with
    | nil => rfl
    | cons a l ih => simp only [List.map_cons, List.sum_cons, List.flatten_cons, List.length_append, ih (fun p hp => hl p (by simp [hp])), hl a (by simp)]; simp [nth]
  cases parts with
  | nil => exact absurd rfl hne
  | cons a parts =>
    have ha := hs a (by simp)
    unfold concatAll
    rw [if_pos]
    · unfold concat
      have := hlen _ hs
      simp only [List.map_cons] at this ⊢
      rw [this]
      simp [ha, setAt]
    · simp only [List.map_cons, ConcatOk]
      refine ⟨by simp [ha], fun y hy => ?_⟩
      obtain ⟨p, hp, rfl⟩ := List.mem_map.1 hy
      have hp := hs p (by simp [hp])
      refine ⟨by simp [ha, hp], fun i hi h0 => ?_⟩
      obtain ⟨j, rfl⟩ : ∃ j, i = j + 1 := ⟨i - 1, by omega⟩
      simp [ha, hp, nth]

/-- **DynamicStitch** for indices that are the numbers below their number, each once. -/
theorem dynamicStitch_ok (zero : β) (parts : List (List Int × T β)) {u : List Nat} (hne : parts ≠ []) (hs : ∀ p ∈ parts, p.2.shape = p.1.length :: u) {n : Nat}
    (hperm : (parts.map Prod.fst).flatten.Perm ((List.range n).map Int.ofNat)) :
    ∃ out, dynamicStitch zero parts = some out ∧ TfIndex.IsStitch parts n u out := by
  set I := (parts.map Prod.fst).flatten with hI
  have hn : I.length = n := by simpa using hperm.length_eq
  have hnd : I.Nodup := by
    rw [hperm.nodup_iff]
    exact (List.nodup_map_iff_inj_on List.nodup_range).2 (fun a _ b _ h => Int.ofNat.inj h)
  have hb : ∀ v ∈ I, 0 ≤ v ∧ v < n := by
    intro v hv
    obtain ⟨k, hk, rfl⟩ := List.mem_map.1 (hperm.mem_iff.1 hv)
    have : k < n := by simpa using hk
    simp only [Int.ofNat_eq_natCast]
    omega
  have hg : ∀ k, k < n → I.getD k 0 ∈ I := by
    intro k hk
    rw [List.getD_eq_getElem?_getD, List.getElem?_eq_getElem (by omega)]
    exact List.getElem_mem _
  have hpos : ∀ k, k < n → ((posOf n (I.getD k 0) : Nat) : Int) = I.getD k 0 := by
    intro k hk
    have := hb _ (hg k hk)
    unfold posOf
    rw [if_neg (by omega)]
    omega
  have hinj : ∀ j k, j < n → k < n → I.getD j 0 = I.getD k 0 → j = k := by
    intro j k hj hk h
    rw [List.getD_eq_getElem?_getD, List.getD_eq_getElem?_getD, List.getElem?_eq_getElem (by omega), List.getElem?_eq_getElem (by omega)] at h
    exact (List.Nodup.getElem_inj_iff hnd).1 h
  refine ⟨⟨n :: u, fun i => match (List.range n).find? (fun k => decide (posOf n (I.getD k 0) = nth i 0)) with
      | some k => concatGet zero 0 (parts.map Prod.snd) (k :: i.tail)
      | none => zero⟩, ?_, rfl, ?_⟩
  · unfold dynamicStitch
    simp only [concat_shape zero hs hne, Option.bind_eq_bind, Option.bind_some]
    rw [← hI]
    unfold expandIndices
    rw [if_pos (by simp [nth])]
    simp only [Option.bind_some]
    unfold scatterElems0
    rw [hn, if_pos]
    · rfl
    · refine ⟨rfl, by simp, by simp, rfl, ?_, ?_⟩
      · intro i hi
        obtain ⟨k, j, rfl, hk, _⟩ := inB_cons' (mem_allIdx hi)
        have := hb _ (hg k hk)
        simp only [nth, List.getD_cons_zero]
        omega
      · intro i hi j hj ht h
        obtain ⟨k, i', rfl, hk, _⟩ := inB_cons' (mem_allIdx hi)
        obtain ⟨l, j', rfl, hl, _⟩ := inB_cons' (mem_allIdx hj)
        simp only [nth, List.getD_cons_zero, List.tail_cons] at h ht
        have h1 := hpos k hk; have h2 := hpos l hl
        rw [h] at h1
        rw [ht, hinj k l hk hl (by omega)]
  · intro p hp k v hv r hr
    obtain ⟨hk, hv⟩ := List.getElem?_eq_some_iff.1 hv
    obtain ⟨q, h1, h2⟩ := concat_at zero hs hp hk
    rw [← hI, hv] at h1
    obtain ⟨hq, hqe⟩ := List.getElem?_eq_some_iff.1 h1
    have hqd : I.getD q 0 = (v : Int) := by simp [List.getD, h1]
    have hf : (List.range n).find? (fun k => decide (posOf n (I.getD k 0) = v)) = some q := by
      have hpq : posOf n (I.getD q 0) = v := by have := hpos q (by omega); omega
      cases h : (List.range n).find? (fun k => decide (posOf n (I.getD k 0) = v)) with
      | none =>
        rw [List.find?_eq_none] at h
        exact absurd (by simpa using hpq) (h q (by simp; omega))
      | some k' =>
        have h3 := List.find?_some h
        have h4 : k' < n := by simpa using List.mem_of_find?_eq_some h
        have h5 : posOf n (I.getD k' 0) = v := by simpa using h3
        rw [hinj k' q h4 (by omega) (by have := hpos k' h4; have := hpos q (by omega); omega)]
    simp only [nth, List.getD_cons_zero, List.tail_cons]
    rw [hf]
    exact h2 r

end Verif.Index
