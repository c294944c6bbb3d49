import Verif.Model.IndexOps
import Verif.Props.C64_RowIds
import Verif.Props.C64_Dense
/-!
# C65: counting values
-/
namespace Verif.Index
open Verif.Tensor Verif.Emit Verif.Seg Verif.Vec Verif.Ragged

theorem mem_uniqueRows {l : List (List Int)} {a : List Int} : a ∈ uniqueRows l ↔ a ∈ l := by
  unfold uniqueRows
  rw [List.mem_mergeSort, List.mem_dedup]

theorem uniqueRows_nodup (l : List (List Int)) : (uniqueRows l).Nodup := by
  unfold uniqueRows
  exact (List.mergeSort_perm _ _).nodup_iff.2 (List.nodup_dedup l)

theorem fill_nat {β : Type} (c : β) (n : Nat) : fill c (n : Int) = some (List.replicate n c) := by
  unfold fill
  rw [if_pos (by omega)]
  simp

/-- `ScatterElements` of a function of the values at the values. -/
theorem scatter_fun (n : Nat) (l : List Int) (hn : l.Nodup) (hb : ∀ v ∈ l, 0 ≤ v ∧ v < n) (f : Int → Int) :
    scatter (List.replicate n 0) l (l.map f) = some ((List.range n).map (fun v : Nat => if (v : Int) ∈ l then f v else 0)) := by
  have hp : ∀ v ∈ l, posOf n v = v.toNat := by
    intro v hv
    have := hb v hv
    unfold posOf
    rw [if_neg (by omega)]
  have hinj : (l.map (posOf n)).Nodup := by
    refine (List.nodup_map_iff_inj_on hn).2 (fun a ha b hb' h => ?_)
    rw [hp a ha, hp b hb'] at h
    have := hb a ha; have := hb b hb'
    omega
  unfold scatter
  simp only [List.length_replicate, List.length_map, true_and]
  rw [if_pos ⟨fun i hi => by have := hb i hi; omega, hinj⟩]
  congr 1
  apply List.ext_getElem (by simp)
  intro v h1 h2
  simp only [List.getElem_mapIdx, List.getElem_map, List.getElem_range]
  have hv : v < n := by simpa using h2
  by_cases hm : (v : Int) ∈ l
  · rw [if_pos hm]
    have hmem : v ∈ l.map (posOf n) := List.mem_map.2 ⟨v, hm, by rw [hp _ hm]; simp⟩
    have hlt : (l.map (posOf n)).idxOf v < l.length := by simpa using List.idxOf_lt_length_of_mem hmem
    rw [List.getElem?_eq_getElem (by simpa using hlt), Option.getD_some, List.getElem_map]
    have e : posOf n l[(l.map (posOf n)).idxOf v] = v := by
      have := List.getElem_idxOf (List.idxOf_lt_length_of_mem hmem)
      rwa [List.getElem_map] at this
    rw [hp _ (List.getElem_mem hlt)] at e
    have := hb _ (List.getElem_mem hlt)
    congr 1
    omega
  · rw [if_neg hm]
    have hmem : v ∉ l.map (posOf n) := by
      intro h
      obtain ⟨a, ha, e⟩ := List.mem_map.1 h
      rw [hp a ha] at e
      have := hb a ha
      exact hm (by rw [← e, Int.toNat_of_nonneg this.1]; exact ha)
    have e : (l.map (posOf n)).idxOf v = l.length := by
      have := List.idxOf_eq_length hmem
      simpa using this
    rw [List.getElem?_eq_none (by simp [e])]
    simp

/-- The values that are kept. -/
def inRange (size : Nat) (v : Int) : Bool := decide (-1 < v) && decide (v < (size : Int))

theorem placed_eq {γ : Type} (binary : Bool) (l : List γ) (cnt : γ → Int) (keep : γ → Bool) :
    placed binary (l.map cnt) (l.map keep) ((l.filter keep).map id).length = some ((l.filter keep).map (fun v => if binary then 1 else cnt v)) := by
  unfold placed
  cases binary with
  | true =>
    rw [if_pos rfl, fill_nat]
    congr 1
    simp
  | false =>
    rw [if_neg (by simp), compress_map]
    rfl

/-- **Bincount** of a vector. -/
theorem bincount1_ok (arr : List Int) (size : Nat) :
    bincount1 false arr size = some (TfIndex.bincount size arr) ∧ bincount1 true arr size = some (TfIndex.bincountBinary size arr) := by
  have key : ∀ binary, bincount1 binary arr size =
      some ((List.range size).map (fun v : Nat => if (v : Int) ∈ (uniqueVal arr).filter (inRange size) then (if binary then 1 else (arr.count (v : Int) : Int)) else 0)) := by
    intro binary
    have e1 := compress_map (uniqueVal arr) id (inRange size)
    have e2 := placed_eq binary (uniqueVal arr) (fun a => (arr.count a : Int)) (inRange size)
    have e3 := scatter_fun size ((uniqueVal arr).filter (inRange size)) ((uniqueVal_nodup arr).filter _)
      (by intro v hv; have := (List.mem_filter.1 hv).2; simp [inRange] at this; omega) (fun v => if binary then 1 else (arr.count v : Int))
    rw [List.map_id] at e1
    unfold bincount1
    simp only [Option.bind_eq_bind]
    have hk : validVals (uniqueVal arr) size = (uniqueVal arr).map (inRange size) := rfl
    rw [hk, e1]
    simp only [Option.bind_some, uniqueCnt]
    rw [e2]
    simp only [Option.bind_some]
    rw [fill_nat]
    simp only [Option.bind_some, List.map_id]
    rw [e3]
  have hmem : ∀ v ∈ List.range size, ((v : Int) ∈ (uniqueVal arr).filter (inRange size) ↔ (v : Int) ∈ arr) := by
    intro v hv
    have hv : v < size := by simpa using hv
    rw [List.mem_filter, mem_uniqueVal]
    simp only [inRange, and_iff_left_iff_imp]
    intro _
    simp
    omega
  constructor
  · rw [key]
    unfold TfIndex.bincount
    congr 1
    refine List.map_congr_left (fun v hv => ?_)
    simp only [hmem v hv]
    split
    · rfl
    · next h => simp [List.count_eq_zero.2 h]
  · rw [key]
    unfold TfIndex.bincountBinary
    congr 1
    refine List.map_congr_left (fun v hv => ?_)
    simp only [hmem v hv]
    rfl

/-- `ScatterND` of a function of the index pairs at the pairs. -/
theorem scatterND_fun (m n : Nat) (l : List (List Int)) (hn : l.Nodup) (hb : ∀ p ∈ l, ∃ a b : Nat, p = [(a : Int), (b : Int)] ∧ a < m ∧ b < n) (f : List Int → Int) :
    ∃ r, scatterND ⟨[m, n], fun _ => (0 : Int)⟩ l (l.map f) = some r ∧ r.shape = [m, n] ∧
      ∀ a b, r.get [a, b] = if [(a : Int), (b : Int)] ∈ l then f [(a : Int), (b : Int)] else 0 := by
  have hps : l.mapM (placeOf [m, n]) = some (l.map (fun p => p.map Int.toNat)) := by
    refine mapM_some (fun p hp => ?_)
    obtain ⟨a, b, rfl, ha, hb⟩ := hb p hp
    rw [placeOf_pair ha hb]
    simp
  have hinj : ∀ p ∈ l, ∀ q ∈ l, p.map Int.toNat = q.map Int.toNat → p = q := by
    intro p hp q hq h
    obtain ⟨a, b, rfl, _⟩ := hb p hp
    obtain ⟨c, d, rfl, _⟩ := hb q hq
    simp at h
    rw [h.1, h.2]
  refine ⟨⟨[m, n], fun i => ((l.map f)[(l.map (fun p => p.map Int.toNat)).idxOf i]?).getD 0⟩, ?_, rfl, ?_⟩
  · unfold scatterND
    simp only [hps]
    rw [if_pos]
    exact ⟨by simp, (List.nodup_map_iff_inj_on hn).2 hinj⟩
  · intro a b
    simp only
    by_cases hm : [(a : Int), (b : Int)] ∈ l
    · rw [if_pos hm]
      have hmem : [a, b] ∈ l.map (fun p => p.map Int.toNat) := List.mem_map.2 ⟨_, hm, by simp⟩
      have hlt := List.idxOf_lt_length_of_mem hmem
      have hlt' : (l.map (fun p => p.map Int.toNat)).idxOf [a, b] < l.length := by simpa using hlt
      rw [List.getElem?_eq_getElem (by simpa using hlt'), Option.getD_some, List.getElem_map]
      have e := List.getElem_idxOf hlt
      rw [List.getElem_map] at e
      congr 1
      refine hinj _ (List.getElem_mem hlt') _ hm ?_
      rw [e]; simp
    · rw [if_neg hm]
      have hmem : [a, b] ∉ l.map (fun p => p.map Int.toNat) := by
        intro h
        obtain ⟨p, hp, e⟩ := List.mem_map.1 h
        obtain ⟨c, d, rfl, _⟩ := hb p hp
        simp at e
        obtain ⟨rfl, rfl⟩ := e
        exact hm hp
      have e := List.idxOf_eq_length hmem
      rw [List.getElem?_eq_none (by simp [e])]
      rfl

theorem count_pairs (rows : List (List Int)) (i : Nat) (v : Int) : (rowPairs rows).count [(i : Int), v] = (rows.getD i []).count v := by
  unfold rowPairs
  have key : ∀ (rows : List (List Int)) (o : Nat), ((rows.zipIdx o).flatMap (fun p => p.1.map (fun v => [(p.2 : Int), v]))).count [((o + i : Nat) : Int), v] = (rows.getD i []).count v ∧
      ∀ j, j < o → [(j : Int), v] ∉ (rows.zipIdx o).flatMap (fun p => p.1.map (fun v => [(p.2 : Int), v])) := by
    intro rows o
    have hnot : ∀ (rows : List (List Int)) (o j : Nat), j < o → [(j : Int), v] ∉ (rows.zipIdx o).flatMap (fun p => p.1.map (fun v => [(p.2 : Int), v])) := by
      intro rows o j hj h
      obtain ⟨p, hp, h⟩ := List.mem_flatMap.1 h
      obtain ⟨w, _, e⟩ := List.mem_map.1 h
      have := List.mem_zipIdx hp
      simp at e
      omega
    refine ⟨?_, hnot rows o⟩
    induction rows generalizing o i with
    | nil => simp
    | cons r rows ih =>
      rw [List.zipIdx_cons, List.flatMap_cons, List.count_append]
      cases i with
      | zero =>
        have hz := List.count_eq_zero.2 (hnot rows (o + 1) o (by omega))
        simp only [Nat.add_zero]
        rw [hz, Nat.add_zero]
        have := List.count_map_of_injective r (fun v : Int => [(o : Int), v]) (fun a b h => by simpa using h) v
        simpa using this
      | succ i =>
        have h0 : (r.map (fun v => [(o : Int), v])).count [((o + (i + 1) : Nat) : Int), v] = 0 := by
          rw [List.count_eq_zero]
          intro h
          obtain ⟨w, _, e⟩ := List.mem_map.1 h
          simp at e
          omega
        have := ih i (o + 1)
        rw [show o + 1 + i = o + (i + 1) by omega] at this
        rw [h0, Nat.zero_add, this]
        simp
  have := (key rows 0).1
  simpa using this

/-- **Bincount** of a matrix: each row by itself. -/
theorem bincount2_ok (rows : List (List Int)) (size : Nat) (binary : Bool) :
    ∃ r, bincount2 binary rows size = some r ∧ r.shape = [rows.length, size] ∧
      ∀ i (hi : i < rows.length) v, v < size → some (r.get [i, v]) = (if binary then TfIndex.bincountBinary size rows[i] else TfIndex.bincount size rows[i])[v]? := by
  let P := rowPairs rows
  let keep : List Int → Bool := fun r => inRange size (r.getD 1 0)
  have hrow : ∀ p ∈ (uniqueRows P).filter keep, ∃ a b : Nat, p = [(a : Int), (b : Int)] ∧ a < rows.length ∧ b < size := by
    intro p hp
    obtain ⟨hp, hk⟩ := List.mem_filter.1 hp
    rw [mem_uniqueRows] at hp
    obtain ⟨q, hq, h⟩ := List.mem_flatMap.1 hp
    obtain ⟨w, _, rfl⟩ := List.mem_map.1 h
    have := List.mem_zipIdx hq
    simp [keep, inRange] at hk
    exact ⟨q.2, w.toNat, by simp; omega, by omega, by omega⟩
  obtain ⟨r, h1, h2, h3⟩ := scatterND_fun rows.length size ((uniqueRows P).filter keep) ((uniqueRows_nodup P).filter _) hrow
    (fun p => if binary then 1 else (P.count p : Int))
  refine ⟨r, ?_, h2, ?_⟩
  · have e1 := compress_map (uniqueRows P) id keep
    have e2 := placed_eq binary (uniqueRows P) (fun a => (P.count a : Int)) keep
    rw [List.map_id] at e1
    unfold bincount2
    simp only [Option.bind_eq_bind]
    have hk : validVals ((uniqueRows (rowPairs rows)).map (fun r => r.getD 1 0)) size = (uniqueRows P).map keep := by
      unfold validVals
      rw [List.map_map]
      rfl
    rw [hk, e1]
    simp only [Option.bind_some, uniqueRowsCnt]
    rw [e2]
    simp only [Option.bind_some]
    have := constOfShape_nat (0 : Int) [rows.length, size]
    simp only [List.map_cons, List.map_nil] at this
    rw [this]
    simp only [Option.bind_some, List.map_id]
    exact h1
  · intro i hi v hv
    rw [h3]
    have hc := count_pairs rows i (v : Int)
    have hg : rows.getD i [] = rows[i] := by simp [List.getD, hi]
    rw [hg] at hc
    have hm : [(i : Int), (v : Int)] ∈ (uniqueRows P).filter keep ↔ (v : Int) ∈ rows[i] := by
      rw [List.mem_filter, mem_uniqueRows, ← List.count_pos_iff, ← List.count_pos_iff (a := (v : Int)), hc]
      simp only [and_iff_left_iff_imp]
      intro _
      simp [keep, inRange]
      omega
    simp only [hm]
    cases binary with
    | true => simp [TfIndex.bincountBinary, hv]
    | false =>
      simp only [TfIndex.bincount, Bool.false_eq_true, if_false, List.getElem?_map, List.getElem?_range hv, Option.map_some, Option.some.injEq]
      split
      · exact congrArg Int.ofNat hc
      · next h => simp [List.count_eq_zero.2 h]

end Verif.Index
