import Verif.Props.EmitVec
/-!
# C55: the permutations of blocks
-/
namespace Verif.Emit
open Verif.Tensor

variable {α β : Type} {v : Nat} {zero : α} {env : Nat → Option (Value α)}

/-- Elements of two lists in turn. -/
def interleave : List β → List β → List β
  | a :: as, b :: bs => a :: b :: interleave as bs
  | _, _ => []

theorem interleave_length {a b : List β} (h : a.length = b.length) : (interleave a b).length = 2 * a.length := by
  induction a generalizing b with
  | nil => simp [interleave]
  | cons x a ih =>
    cases b with
    | nil => simp at h
    | cons y b => simp [interleave, ih (by simpa using h)]; omega

theorem interleave_map {γ : Type} (f : β → γ) (a b : List β) : interleave (a.map f) (b.map f) = (interleave a b).map f := by
  induction a generalizing b with
  | nil => simp [interleave]
  | cons x a ih =>
    cases b with
    | nil => simp [interleave]
    | cons y b => simp [interleave, ih]

theorem interleave_getD {a b : List β} (h : a.length = b.length) (z : β) (k : Nat) :
    (interleave a b).getD (2 * k) z = a.getD k z ∧ (interleave a b).getD (2 * k + 1) z = b.getD k z := by
  induction a generalizing b k with
  | nil =>
    have : b = [] := by simpa using h.symm
    subst this
    simp [interleave]
  | cons x a ih =>
    cases b with
    | nil => simp at h
    | cons y b =>
      cases k with
      | zero => simp [interleave]
      | succ k =>
        have := ih (b := b) (by simpa using h) k
        have e1 : 2 * (k + 1) = (2 * k) + 1 + 1 := by omega
        have e2 : 2 * (k + 1) + 1 = (2 * k + 1) + 1 + 1 := by omega
        rw [e1, interleave]
        simpa [List.getD_cons_succ] using this

theorem getD_append_left {l m : List β} {k : Nat} (z : β) (h : k < l.length) : (l ++ m).getD k z = l.getD k z := by
  rw [List.getD, List.getD, List.getElem?_append_left h]

theorem getD_append_right {l m : List β} {k : Nat} (z : β) (h : l.length ≤ k) : (l ++ m).getD k z = m.getD (k - l.length) z := by
  rw [List.getD, List.getD, List.getElem?_append_right h]

theorem map_getD_range {l : List β} (z : β) : (List.range l.length).map (fun k => l.getD k z) = l := by
  apply List.ext_getElem (by simp)
  intro k h1 h2
  simp [List.getD, h2]

/-- Bringing the block sizes to the front. -/
theorem blocksFirst_map {s b d : List β} {m rank : Nat} (hs : s.length = m) (hb : b.length = m) (hd : rank = 1 + m + d.length) (a z : β) :
    (blocksFirst m rank).map (fun k => (a :: interleave s b ++ d).getD k z) = b ++ [a] ++ s ++ d := by
  have hil : (interleave s b).length = 2 * m := by rw [interleave_length (by omega), hs]
  have h := fun k => interleave_getD (a := s) (b := b) (by omega) z k
  have e : (List.range (rank + m)).drop (1 + 2 * m) = (List.range d.length).map (fun k => k + (1 + 2 * m)) := by
    have h1 : rank + m = (1 + 2 * m) + d.length := by omega
    rw [h1, List.range_add, List.drop_left' (by simp)]
    apply List.map_congr_left
    intro k _
    omega
  unfold blocksFirst
  rw [e, List.map_append, List.map_append, List.map_append, List.map_map, List.map_map, List.map_map, List.map_singleton]
  congr 1
  · congr 1
    · congr 1
      · conv_rhs => rw [← map_getD_range (l := b) z, hb]
        apply List.map_congr_left
        intro k hk
        have hk' : k < m := by simpa using hk
        simp only [Function.comp, List.cons_append, List.getD_cons_succ, show 2 * k + 2 = (2 * k + 1) + 1 by omega]
        rw [getD_append_left _ (by omega), (h k).2]
    · conv_rhs => rw [← map_getD_range (l := s) z, hs]
      apply List.map_congr_left
      intro k hk
      have hk' : k < m := by simpa using hk
      simp only [Function.comp, List.cons_append, List.getD_cons_succ]
      rw [getD_append_left _ (by omega), (h k).1]
  · conv_rhs => rw [← map_getD_range (l := d) z]
    apply List.map_congr_left
    intro k hk
    simp only [Function.comp, List.cons_append, show k + (1 + 2 * m) = (k + 2 * m) + 1 by omega, List.getD_cons_succ]
    rw [getD_append_right _ (by omega), hil]
    congr 1
    omega

theorem blocksFirst_length {m rank : Nat} (h : 1 + m ≤ rank) : (blocksFirst m rank).length = rank + m := by
  simp [blocksFirst]
  omega

theorem blocksFirst_isPerm {m rank : Nat} (h : 1 + m ≤ rank) : IsPerm (blocksFirst m rank) := by
  apply isPerm_of_nodup
  · have hmem : ∀ k, k ∈ (List.range (rank + m)).drop (1 + 2 * m) → 1 + 2 * m ≤ k := by
      intro k hk
      obtain ⟨i, hi, rfl⟩ := List.getElem_of_mem hk
      simp
    unfold blocksFirst
    refine List.nodup_append.2 ⟨List.nodup_append.2 ⟨List.nodup_append.2 ⟨?_, by simp, ?_⟩, ?_, ?_⟩, ?_, ?_⟩
    · exact List.Nodup.map (fun i j e => by simpa using e) List.nodup_range
    · intro a ha b hb
      obtain ⟨k, -, rfl⟩ := List.mem_map.1 ha
      simp at hb
      omega
    · exact List.Nodup.map (fun i j e => by simpa using e) List.nodup_range
    · intro a ha b hb
      obtain ⟨j, -, rfl⟩ := List.mem_map.1 hb
      rcases List.mem_append.1 ha with ha | ha
      · obtain ⟨k, -, rfl⟩ := List.mem_map.1 ha
        omega
      · simp at ha
        omega
    · exact List.Nodup.sublist (List.drop_sublist _ _) List.nodup_range
    · intro a ha b hb
      have := hmem b hb
      rcases List.mem_append.1 ha with ha | ha
      · rcases List.mem_append.1 ha with ha | ha
        · obtain ⟨k, hk, rfl⟩ := List.mem_map.1 ha
          simp at hk
          omega
        · simp at ha
          omega
      · obtain ⟨k, hk, rfl⟩ := List.mem_map.1 ha
        simp at hk
        omega
  · intro k hk
    rw [blocksFirst_length h]
    unfold blocksFirst at hk
    rcases List.mem_append.1 hk with hk | hk
    · rcases List.mem_append.1 hk with hk | hk
      · rcases List.mem_append.1 hk with hk | hk
        · obtain ⟨j, hj, rfl⟩ := List.mem_map.1 hk
          simp at hj
          omega
        · simp at hk
          omega
      · obtain ⟨j, hj, rfl⟩ := List.mem_map.1 hk
        simp at hj
        omega
    · exact List.mem_range.1 (List.mem_of_mem_drop hk)

/-- Entry `j` of the permutation of `BatchToSpace`. -/
def backAt (m j : Nat) : Nat := if j = 0 then m else if 2 * m < j then j else if j % 2 = 1 then m + (j + 1) / 2 else j / 2 - 1

theorem nth_set' {l : List Nat} {i j k : Nat} (hi : i < l.length) : nth (l.set i k) j = if j = i then k else nth l j := by
  unfold nth
  by_cases h : j = i
  · subst h; simp [List.getD, hi]
  · have h' : ¬ i = j := fun e => h e.symm
    simp [List.getD, h, h']

theorem back_loop {m n : Nat} (hm : 1 ≤ m) (hn : 2 * m < n) (t : Nat) (ht : t ≤ 2 * m - 2) (j : Nat) (hj : j < n) :
    (((List.range' 3 t).foldl (fun p i => p.set i (nth p (i - 2) + 1)) ((((List.range n).set 0 m).set 1 (m + 1)).set 2 0)).length = n) ∧
    nth ((List.range' 3 t).foldl (fun p i => p.set i (nth p (i - 2) + 1)) ((((List.range n).set 0 m).set 1 (m + 1)).set 2 0)) j =
      if j < 3 + t then backAt m j else j := by
  induction t generalizing j with
  | zero =>
    refine ⟨by simp, ?_⟩
    simp only [List.range'_zero, List.foldl_nil]
    rw [nth_set' (by simp; omega), nth_set' (by simp; omega), nth_set' (by simp; omega), nth_range hj]
    unfold backAt
    split_ifs <;> omega
  | succ t ih =>
    rw [List.range'_concat, List.foldl_append]
    simp only [List.foldl_cons, List.foldl_nil]
    obtain ⟨hl, hj'⟩ := ih (by omega) j hj
    obtain ⟨-, h2⟩ := ih (by omega) (3 + 1 * t - 2) (by omega)
    refine ⟨by simpa using hl, ?_⟩
    rw [nth_set' (by rw [hl]; omega), h2, hj']
    unfold backAt
    split_ifs <;> omega

theorem blocksBack_eq {m rank : Nat} (hm : 1 ≤ m) (h : 1 + m ≤ rank) : blocksBack m rank = (List.range (rank + m)).map (backAt m) := by
  have hl : (blocksBack m rank).length = rank + m := (back_loop hm (n := rank + m) (by omega) _ (Nat.le_refl _) 0 (by omega)).1
  apply ext_nth (by simpa using hl)
  intro j hj
  rw [hl] at hj
  rw [nth_map _ _ _ (by simpa using hj), nth_range hj]
  have := (back_loop hm (n := rank + m) (by omega) _ (Nat.le_refl _) j hj).2
  rw [blocksBack, this]
  unfold backAt
  split_ifs <;> omega

theorem blocksBack_isPerm {m rank : Nat} (hm : 1 ≤ m) (h : 1 + m ≤ rank) : IsPerm (blocksBack m rank) := by
  rw [blocksBack_eq hm h]
  apply isPerm_of_nodup
  · apply List.Nodup.map _ List.nodup_range
    intro i j hij
    unfold backAt at hij
    split_ifs at hij <;> omega
  · intro k hk
    obtain ⟨j, hj, rfl⟩ := List.mem_map.1 hk
    have : j < rank + m := by simpa using hj
    simp only [List.length_map, List.length_range]
    unfold backAt
    split_ifs <;> omega

/-- Putting the blocks behind the dimensions they belong to. -/
theorem blocksBack_map {s b d : List β} {m rank : Nat} (hm : 1 ≤ m) (hs : s.length = m) (hb : b.length = m) (hd : rank = 1 + m + d.length) (a z : β) :
    (blocksBack m rank).map (fun k => (b ++ [a] ++ s ++ d).getD k z) = a :: interleave s b ++ d := by
  have hil : (interleave s b).length = 2 * m := by rw [interleave_length (by omega), hs]
  rw [blocksBack_eq hm (by omega), List.map_map]
  have hlen : rank + m = (a :: interleave s b ++ d).length := by simp; omega
  conv_rhs => rw [← map_getD_range (l := a :: interleave s b ++ d) z, ← hlen]
  apply List.map_congr_left
  intro j hj
  have hj' : j < rank + m := by simpa using hj
  have h := fun k => interleave_getD (a := s) (b := b) (by omega) z k
  simp only [Function.comp, backAt]
  rcases Nat.eq_zero_or_pos j with rfl | h0
  · rw [if_pos rfl, getD_append_left _ (by simp; omega), getD_append_left _ (by simp; omega), getD_append_right _ (by omega)]
    simp [hb]
  · rw [if_neg (by omega)]
    obtain ⟨i, rfl⟩ : ∃ i, j = i + 1 := ⟨j - 1, by omega⟩
    rw [List.cons_append, List.getD_cons_succ]
    by_cases h1 : 2 * m < i + 1
    · rw [if_pos h1, getD_append_right _ (by simp; omega), getD_append_right _ (by omega)]
      congr 1
      simp
      omega
    · rw [if_neg h1, getD_append_left (l := interleave s b) _ (by omega)]
      by_cases h2 : (i + 1) % 2 = 1
      · rw [if_pos h2]
        obtain ⟨k, rfl⟩ : ∃ k, i = 2 * k := ⟨i / 2, by omega⟩
        rw [(h k).1, getD_append_left _ (by simp; omega), getD_append_right _ (by simp; omega)]
        congr 1
        simp
        omega
      · rw [if_neg h2]
        obtain ⟨k, rfl⟩ : ∃ k, i = 2 * k + 1 := ⟨i / 2, by omega⟩
        rw [(h k).2, getD_append_left _ (by simp; omega), getD_append_left _ (by simp; omega), getD_append_left _ (by omega)]
        congr 1
        omega

/-- Positions: splitting every dimension into blocks does not move anything. -/
theorem lin_interleave {s b y d e : List Nat} (hs : s.length = b.length) (hy : y.length = b.length) :
    lin (interleave s b ++ d) (interleave (List.zipWith (· / ·) y b) (List.zipWith (· % ·) y b) ++ e) =
      lin (List.zipWith (· * ·) s b ++ d) (y ++ e) ∧ size (interleave s b) = size (List.zipWith (· * ·) s b) := by
  induction b generalizing s y with
  | nil =>
    have h1 : s = [] := by simpa using hs
    have h2 : y = [] := by simpa using hy
    subst h1 h2
    simp [interleave]
  | cons c b ih =>
    cases s with
    | nil => simp at hs
    | cons a s =>
      cases y with
      | nil => simp at hy
      | cons k y =>
        obtain ⟨h1, h2⟩ := ih (s := s) (y := y) (by simpa using hs) (by simpa using hy)
        simp only [interleave, List.zipWith_cons_cons, List.cons_append, lin, size_cons, size_append, h1, h2]
        refine ⟨?_, by ring⟩
        have := Nat.div_add_mod k c
        generalize lin (List.zipWith (· * ·) s b ++ d) (y ++ e) = r
        generalize size (List.zipWith (· * ·) s b) * size d = q
        conv_rhs => rw [← this]
        ring

theorem inB_interleave {s b y : List Nat} (hs : s.length = b.length) (h : InB (List.zipWith (· * ·) s b) y) :
    InB (interleave s b) (interleave (List.zipWith (· / ·) y b) (List.zipWith (· % ·) y b)) ∧
    InB s (List.zipWith (· / ·) y b) ∧ InB b (List.zipWith (· % ·) y b) := by
  induction b generalizing s y with
  | nil =>
    have h1 : s = [] := by simpa using hs
    subst h1
    simp [interleave, inB_nil]
  | cons c b ih =>
    cases s with
    | nil => simp at hs
    | cons a s =>
      simp only [List.zipWith_cons_cons] at h
      obtain ⟨k, j, rfl, hk, hj⟩ := inB_cons' h
      obtain ⟨h1, h2, h3⟩ := ih (by simpa using hs) hj
      simp only [interleave, List.zipWith_cons_cons, inB_cons]
      have hc : 0 < c := by
        rcases Nat.eq_zero_or_pos c with rfl | h
        · simp at hk
        · exact h
      have hd : k / c < a := Nat.div_lt_of_lt_mul (by rw [Nat.mul_comm]; exact hk)
      have hm : k % c < c := Nat.mod_lt _ hc
      exact ⟨⟨hd, hm, h1⟩, ⟨hd, h2⟩, hm, h3⟩

end Verif.Emit
