import Verif.Props.C65_Count
/-!
# C65: set operations: rows in lexicographic order
-/
namespace Verif.Index
open Verif.Tensor Verif.Emit Verif.Seg Verif.Vec Verif.Ragged

theorem lt_asymm' {a b : List Int} (h : a < b) : ¬ b ≤ a := by
  rw [List.not_le]; exact h

theorem uniqueRows_sorted (l : List (List Int)) : (uniqueRows l).Pairwise (· < ·) := by
  have h : (uniqueRows l).Pairwise (fun a b => decide (a ≤ b) = true) := by
    refine List.pairwise_mergeSort (fun a b c => ?_) (fun a b => ?_) _
    · simp only [decide_eq_true_eq]; exact List.le_trans
    · simp only [Bool.or_eq_true, decide_eq_true_eq]; exact List.le_total a b
  have hn : (uniqueRows l).Pairwise (· ≠ ·) := uniqueRows_nodup l
  refine (List.Pairwise.and h hn).imp (fun {a b} ⟨h1, h2⟩ => ?_)
  have h1 : a ≤ b := by simpa using h1
  by_contra h3
  exact h2 (List.le_antisymm h1 (List.not_lt.1 h3))

theorem sorted_nodup {l : List (List Int)} (h : l.Pairwise (· < ·)) : l.Nodup := by
  refine List.Pairwise.imp (S := fun a b => a ≠ b) (fun {a b} h e => ?_) h
  rw [e] at h
  exact List.lt_irrefl _ h

/-- Lists in increasing order with the same members are equal. -/
theorem sorted_ext {l m : List (List Int)} (hl : l.Pairwise (· < ·)) (hm : m.Pairwise (· < ·)) (h : ∀ a, a ∈ l ↔ a ∈ m) : l = m := by
  have hln : l.Nodup := sorted_nodup hl
  have hmn : m.Nodup := sorted_nodup hm
  exact ((List.perm_ext_iff_of_nodup hln hmn).2 h).eq_of_pairwise
    (fun a b _ _ h1 h2 => absurd (List.le_of_lt h2) (lt_asymm' h1)) hl hm

theorem uniqueRows_of {l m : List (List Int)} (hm : m.Pairwise (· < ·)) (h : ∀ a, a ∈ m ↔ a ∈ l) : uniqueRows l = m :=
  sorted_ext (uniqueRows_sorted l) hm (fun a => by rw [mem_uniqueRows, h])

/-! ## Blocks of equal rows -/

/-- Each row as often as the number says. -/
def rowBlocks (bs : List (Nat × List Int)) : List (List Int) := bs.flatMap (fun p => List.replicate p.1 p.2)

theorem mem_rowBlocks {bs : List (Nat × List Int)} (h : ∀ b ∈ bs, 0 < b.1) {a : List Int} : a ∈ bs.map Prod.snd ↔ a ∈ rowBlocks bs := by
  simp only [rowBlocks, List.mem_flatMap, List.mem_replicate, List.mem_map]
  constructor
  · rintro ⟨p, hp, rfl⟩; exact ⟨p, hp, by have := h p hp; omega, rfl⟩
  · rintro ⟨p, hp, _, rfl⟩; exact ⟨p, hp, rfl⟩

theorem uniqueRows_blocks {bs : List (Nat × List Int)} (h : ∀ b ∈ bs, 0 < b.1) (hs : bs.Pairwise (fun a b => a.2 < b.2)) :
    uniqueRows (rowBlocks bs) = bs.map Prod.snd :=
  uniqueRows_of (by rw [List.pairwise_map]; exact hs) (fun _ => mem_rowBlocks h)

theorem not_mem_blocks {b : Nat × List Int} {bs : List (Nat × List Int)} (h : ∀ c ∈ bs, b.2 < c.2) : b.2 ∉ rowBlocks bs := by
  simp only [rowBlocks, List.mem_flatMap, List.mem_replicate, not_exists, not_and]
  intro p hp _ e
  have := h p hp
  rw [← e] at this
  exact List.lt_irrefl _ this

theorem uniqueRowsCnt_blocks {bs : List (Nat × List Int)} (h : ∀ b ∈ bs, 0 < b.1) (hs : bs.Pairwise (fun a b => a.2 < b.2)) :
    uniqueRowsCnt (rowBlocks bs) = bs.map (fun p => (p.1 : Int)) := by
  unfold uniqueRowsCnt
  rw [uniqueRows_blocks h hs, List.map_map]
  clear h
  induction bs with
  | nil => rfl
  | cons b bs ih =>
    rw [List.pairwise_cons] at hs
    have e : rowBlocks (b :: bs) = List.replicate b.1 b.2 ++ rowBlocks bs := rfl
    rw [List.map_cons, List.map_cons]
    congr 1
    · simp only [Function.comp]
      rw [e, List.count_append, List.count_replicate_self, List.count_eq_zero_of_not_mem (not_mem_blocks hs.1)]
      simp
    · rw [← ih hs.2]
      refine List.map_congr_left (fun p hp => ?_)
      simp only [Function.comp]
      rw [e, List.count_append, List.count_replicate, if_neg]
      · simp
      · have := hs.1 p hp
        simp only [beq_iff_eq]
        intro e
        rw [e] at this
        exact List.lt_irrefl _ this

theorem uniqueRowsFirst_blocks {bs : List (Nat × List Int)} (h : ∀ b ∈ bs, 0 < b.1) (hs : bs.Pairwise (fun a b => a.2 < b.2)) :
    uniqueRowsFirst (rowBlocks bs) = blockStarts 0 (bs.map (fun p => ((0 : Int), p.1))) := by
  unfold uniqueRowsFirst
  rw [uniqueRows_blocks h hs, List.map_map]
  have key : ∀ (bs : List (Nat × List Int)) (o : Nat), (∀ b ∈ bs, 0 < b.1) → bs.Pairwise (fun a b => a.2 < b.2) →
      bs.map (fun p => ((o + (rowBlocks bs).idxOf p.2 : Nat) : Int)) = blockStarts o (bs.map (fun p => ((0 : Int), p.1))) := by
    intro bs
    induction bs with
    | nil => intro o _ _; rfl
    | cons b bs ih =>
      intro o h hs
      rw [List.pairwise_cons] at hs
      have hb := h b (by simp)
      have e : rowBlocks (b :: bs) = List.replicate b.1 b.2 ++ rowBlocks bs := rfl
      rw [List.map_cons, List.map_cons, blockStarts]
      congr 1
      · obtain ⟨c, hc⟩ : ∃ c, b.1 = c + 1 := ⟨b.1 - 1, by omega⟩
        rw [e, hc, List.replicate_succ, List.cons_append, List.idxOf_cons_self]
        rfl
      · rw [← ih (o + b.1) (fun c hc => h c (by simp [hc])) hs.2]
        refine List.map_congr_left (fun p hp => ?_)
        rw [e, List.idxOf_append_of_notMem]
        · simp only [List.length_replicate]
          push_cast
          omega
        · have := hs.1 p hp
          rw [List.mem_replicate]
          rintro ⟨_, e⟩
          rw [e] at this
          exact List.lt_irrefl _ this
  have := key bs 0 h hs
  simpa [Function.comp_def] using this

/-- The last index counts within each block. -/
theorem lastIndex_blocks {bs : List (Nat × List Int)} (hne : bs ≠ []) (h : ∀ b ∈ bs, 0 < b.1) (hs : bs.Pairwise (fun a b => a.2 < b.2)) :
    lastIndex (rowBlocks bs) = some (bs.flatMap (fun b => (List.range b.1).map (fun j : Nat => (j : Int)))) := by
  have hlen : (rowBlocks bs).length = total (bs.map (fun p => ((0 : Int), p.1))) := by
    simp [rowBlocks, List.length_flatMap, total, Function.comp_def]
  have hd : (0 : Int) :: ((bs.map (fun p => (p.1 : Int))).map (fun c => 1 - c)).dropLast = blockDeltas 0 (bs.map (fun p => ((0 : Int), p.1))) := by
    have := deltas_ids 0 (bs.map (fun p => (p.1, 0)))
    simp only [List.map_map, Function.comp_def, Int.neg_zero] at this ⊢
    rw [this]
    cases bs with
    | nil => exact absurd rfl hne
    | cons b bs => rw [List.map_cons, List.dropLast_cons_cons]
  have hr := running_index (bs.map (fun p => ((0 : Int), p.1))) (by intro b hb; obtain ⟨p, hp, rfl⟩ := List.mem_map.1 hb; exact h p hp)
  unfold lastIndex
  simp only [Option.bind_eq_bind]
  rw [fill_nat, uniqueRowsCnt_blocks h hs, uniqueRowsFirst_blocks h hs, hd, hlen]
  simp only [Option.bind_some]
  cases e : scatterVec (List.replicate (total (bs.map (fun p => ((0 : Int), p.1)))) 1) (blockStarts 0 (bs.map (fun p => ((0 : Int), p.1))))
      (blockDeltas 0 (bs.map (fun p => ((0 : Int), p.1)))) with
  | none => rw [e] at hr; cases hr
  | some w =>
    rw [e] at hr
    simp only [Option.map_some, Option.some.injEq] at hr
    simp only [Option.bind_some, hr, blockNums, List.flatMap_map, Int.zero_add]

/-! ## The rows of a tensor -/

theorem allIdx_last (s : List Nat) (d : Nat) : allIdx (s ++ [d]) = (allIdx s).flatMap (fun p => (List.range d).map (fun k => p ++ [k])) := by
  induction s with
  | nil => simp [allIdx, ← List.map_eq_flatMap]
  | cons c s ih =>
    simp only [List.cons_append, allIdx, ih, List.map_flatMap, List.flatMap_assoc, List.flatMap_map, List.map_map]
    rfl

theorem append_lt {a b c d : List Int} (h : a < b) (hl : a.length = b.length) : a ++ c < b ++ d := by
  induction a generalizing b with
  | nil =>
    cases b with
    | nil => exact absurd h (List.lt_irrefl _)
    | cons _ _ => simp at hl
  | cons x a ih =>
    cases b with
    | nil => simp at hl
    | cons y b =>
      rw [List.cons_append, List.cons_append, List.cons_lt_cons_iff]
      rw [List.cons_lt_cons_iff] at h
      rcases h with h | ⟨h1, h2⟩
      · exact Or.inl h
      · exact Or.inr ⟨h1, ih h2 (by simpa using hl)⟩

theorem append_lt_right (a : List Int) {c d : List Int} (h : c < d) : a ++ c < a ++ d := by
  induction a with
  | nil => exact h
  | cons x a ih =>
    rw [List.cons_append, List.cons_append, List.cons_lt_cons_iff]
    exact Or.inr ⟨rfl, ih⟩

theorem pairwise_flatMap {γ δ : Type} {R : δ → δ → Prop} {l : List γ} {f : γ → List δ} {Q : γ → γ → Prop} (hl : l.Pairwise Q) (h1 : ∀ a ∈ l, (f a).Pairwise R)
    (h2 : ∀ a ∈ l, ∀ b ∈ l, Q a b → ∀ x ∈ f a, ∀ y ∈ f b, R x y) : (l.flatMap f).Pairwise R := by
  induction l with
  | nil => simp
  | cons a l ih =>
    rw [List.pairwise_cons] at hl
    rw [List.flatMap_cons, List.pairwise_append]
    refine ⟨h1 a (by simp), ih hl.2 (fun b hb => h1 b (by simp [hb])) (fun b hb c hc => h2 b (by simp [hb]) c (by simp [hc])), fun x hx y hy => ?_⟩
    obtain ⟨b, hb, hy⟩ := List.mem_flatMap.1 hy
    exact h2 a (by simp) b (by simp [hb]) (hl.1 b hb) x hx y hy

theorem allIdx_sorted (s : List Nat) : (allIdx s).Pairwise (fun p q => p.map Int.ofNat < q.map Int.ofNat) := by
  induction s with
  | nil => simp [allIdx]
  | cons d s ih =>
    refine pairwise_flatMap (Q := (· < ·)) List.pairwise_lt_range (fun k _ => ?_) (fun j _ k _ hjk x hx y hy => ?_)
    · rw [List.pairwise_map]
      exact ih.imp (fun h => by rw [List.map_cons, List.map_cons, List.cons_lt_cons_iff]; exact Or.inr ⟨rfl, h⟩)
    · obtain ⟨p, _, rfl⟩ := List.mem_map.1 hx
      obtain ⟨q, _, rfl⟩ := List.mem_map.1 hy
      rw [List.map_cons, List.map_cons, List.cons_lt_cons_iff]
      exact Or.inl (Int.ofNat_lt.2 hjk)

theorem allIdx_mem_iff {s p : List Nat} : p ∈ allIdx s ↔ InB s p := by
  refine ⟨mem_allIdx, fun h => ?_⟩
  induction s generalizing p with
  | nil => rw [inB_nil.1 h]; simp [allIdx]
  | cons d s ih =>
    obtain ⟨k, j, rfl, hk, hj⟩ := inB_cons' h
    exact List.mem_flatMap.2 ⟨k, by simpa using hk, List.mem_map.2 ⟨j, ih hj, rfl⟩⟩

theorem cast_inj {p q : List Nat} (h : p.map Int.ofNat = q.map Int.ofNat) : p = q :=
  List.map_injective_iff.2 (fun _ _ h => Int.ofNat.inj h) h

/-- The rows of the result: the sets `S`. -/
def setList (s : List Nat) (S : List Nat → List Int) : List (List Int) := (allIdx s).flatMap (fun p => (S p).map (fun v => p.map Int.ofNat ++ [v]))

theorem mem_setList {s : List Nat} {S : List Nat → List Int} {r : List Int} : r ∈ setList s S ↔ ∃ p v, InB s p ∧ v ∈ S p ∧ r = p.map Int.ofNat ++ [v] := by
  simp only [setList, List.mem_flatMap, List.mem_map, allIdx_mem_iff]
  constructor
  · rintro ⟨p, hp, v, hv, rfl⟩; exact ⟨p, v, hp, hv, rfl⟩
  · rintro ⟨p, v, hp, hv, rfl⟩; exact ⟨p, hp, v, hv, rfl⟩

theorem mem_setList' {s : List Nat} {S : List Nat → List Int} {p : List Nat} {v : Int} (hp : InB s p) : p.map Int.ofNat ++ [v] ∈ setList s S ↔ v ∈ S p := by
  rw [mem_setList]
  constructor
  · rintro ⟨q, w, hq, hw, e⟩
    have e' := List.append_inj' e rfl
    rw [cast_inj e'.1]
    have : v = w := by simpa using e'.2
    rw [this]
    exact hw
  · intro h; exact ⟨p, v, hp, h, rfl⟩

theorem setList_sorted {s : List Nat} {S : List Nat → List Int} (h : ∀ p, (S p).Pairwise (· < ·)) : (setList s S).Pairwise (· < ·) := by
  refine pairwise_flatMap (allIdx_sorted s) (fun p _ => ?_) (fun p hp q hq hpq x hx y hy => ?_)
  · rw [List.pairwise_map]
    refine (h p).imp (fun hab => append_lt_right _ ?_)
    rw [List.cons_lt_cons_iff]
    exact Or.inl hab
  · obtain ⟨v, _, rfl⟩ := List.mem_map.1 hx
    obtain ⟨w, _, rfl⟩ := List.mem_map.1 hy
    refine append_lt hpq ?_
    rw [List.length_map, List.length_map, (mem_allIdx hp).1, (mem_allIdx hq).1]

theorem mem_indexRows {x : T Int} {s : List Nat} {d : Nat} (hs : x.shape = s ++ [d]) {r : List Int} :
    r ∈ indexRows x ↔ ∃ p v, InB s p ∧ TfIndex.InSet x p v ∧ r = p.map Int.ofNat ++ [v] := by
  unfold indexRows TfIndex.InSet
  rw [hs, allIdx_last]
  simp only [List.mem_map, List.mem_flatMap, List.mem_range, allIdx_mem_iff, List.getLastD_concat]
  constructor
  · rintro ⟨i, ⟨p, hp, k, hk, rfl⟩, rfl⟩
    exact ⟨p, _, hp, ⟨k, hk, rfl⟩, by simp⟩
  · rintro ⟨p, v, hp, ⟨k, hk, rfl⟩, rfl⟩
    exact ⟨p ++ [k], ⟨p, hp, k, hk, rfl⟩, by simp⟩

theorem mem_indexRows' {x : T Int} {s : List Nat} {d : Nat} (hs : x.shape = s ++ [d]) {p : List Nat} (hp : InB s p) {v : Int} :
    p.map Int.ofNat ++ [v] ∈ indexRows x ↔ TfIndex.InSet x p v := by
  rw [mem_indexRows hs]
  constructor
  · rintro ⟨q, w, hq, hw, e⟩
    have e' := List.append_inj' e rfl
    rw [cast_inj e'.1]
    have : v = w := by simpa using e'.2
    rw [this]
    exact hw
  · intro h; exact ⟨p, v, hp, h, rfl⟩

end Verif.Index
