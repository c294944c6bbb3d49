import Verif.Props.C55_Fast
/-!
# C55: `tf.batch_to_space`, `tf.space_to_batch`
-/
namespace Verif.Emit
open Verif.Tensor TransposeOpt

variable {α β : Type} {v : Nat} {zero : α} {env : Nat → Option (Value α)}

/-- Operands TensorFlow accepts for `batch_to_space`: positive block sizes for the axes behind the first one, a batch that can be split into blocks, and
crops that leave something or nothing; every axis but the first has elements and sizes are what a runtime can represent. -/
structure BatchToSpaceArgs (x : T α) (b : List Nat) (c : List (Nat × Nat)) : Prop where
  some_block : 1 ≤ b.length
  rank : b.length + 1 ≤ x.shape.length
  block_pos : ∀ k ∈ b, 0 < k
  batch : size b ∣ nth x.shape 0
  crops : c.length = b.length
  fit : ∀ k, k < b.length → (c.getD k (0, 0)).1 + (c.getD k (0, 0)).2 ≤ nth x.shape (k + 1) * nth b k
  nonempty : ∀ k ∈ x.shape.drop 1, 0 < k
  small_rank : (x.shape.length : Int) ≤ int64Max
  small : ∀ k, k < b.length → ((nth x.shape (k + 1) * nth b k : Nat) : Int) ≤ int32Max

/-- Operands TensorFlow accepts for `space_to_batch`. -/
structure SpaceToBatchArgs (x : T α) (b : List Nat) (p : List (Nat × Nat)) : Prop where
  some_block : 1 ≤ b.length
  rank : b.length + 1 ≤ x.shape.length
  block_pos : ∀ k ∈ b, 0 < k
  pads : p.length = b.length
  divides : ∀ k, k < b.length → nth b k ∣ nth x.shape (k + 1) + (p.getD k (0, 0)).1 + (p.getD k (0, 0)).2
  nonempty : ∀ k ∈ x.shape.drop 1, 0 < k
  small_rank : (x.shape.length : Int) ≤ int64Max

/-- Pairs as the handler sees them if they are a constant. -/
def toInts (c : List (Nat × Nat)) : List (Int × Int) := c.map (fun p => ((p.1 : Int), (p.2 : Int)))

/-- The image is two-dimensional with a square block: operator sets before 11 support only this. -/
def Square (rank : Nat) (b : List Nat) : Prop := (rank = 3 ∨ rank = 4) ∧ ∃ k, b = [k, k]

theorem squareBlock_map {b : List Nat} : squareBlock (b.map Int.ofNat) = match b with | [k, j] => if k = j then some (k : Int) else none | _ => none := by
  match b with
  | [] => rfl
  | [_] => rfl
  | [k, j] =>
    simp only [List.map_cons, List.map_nil, squareBlock]
    by_cases h : k = j
    · subst h; simp
    · have : ¬ ((Int.ofNat k) = Int.ofNat j) := by simpa using h
      rw [if_neg this, if_neg h]
  | _ :: _ :: _ :: _ => rfl

theorem squareBlock_none {b : List Nat} (h : ¬ ∃ k, b = [k, k]) : squareBlock (b.map Int.ofNat) = none := by
  rw [squareBlock_map]
  match b, h with
  | [], _ => rfl
  | [_], _ => rfl
  | [k, j], h =>
    have : ¬ k = j := fun e => h ⟨k, by rw [e]⟩
    simp [this]
  | _ :: _ :: _ :: _, _ => rfl

theorem splitShape {s : List Nat} {m : Nat} (h : m + 1 ≤ s.length) : ∃ n t d, s = n :: t ++ d ∧ t.length = m := by
  cases s with
  | nil => simp at h
  | cons n s =>
    refine ⟨n, s.take m, s.drop m, by simp, ?_⟩
    simp at h
    simp
    omega

/-- **C55: `tf.batch_to_space`.** From operator set 11 on, and before it for square blocks of images if the crops are a constant, the emitted operators are
accepted and give TensorFlow's tensor: the blocks interleaved back into the image, with the crops cut off. -/
theorem batchToSpace_converts (x : T α) (b : List Nat) (c : List (Nat × Nat)) (h : BatchToSpaceArgs x b c) (crops : Option (List (Int × Int)))
    (hc : crops = none ∨ crops = some (toInts c)) (hv : 11 ≤ v ∨ Square x.shape.length b ∧ (crops.isSome ∨ 10 ≤ v)) :
    ∃ e, batchToSpace v (some x.shape.length) (some (b.map Int.ofNat)) crops = .ok e ∧
      ∃ y, e.eval v zero (blockInputs x b c) = some (.data y) ∧ Same y (tfBatchToSpace b c x) := by
  by_cases hsq : Square x.shape.length b
  · obtain ⟨hr, k, rfl⟩ := hsq
    have hfast : batchToSpace v (some x.shape.length) (some ([k, k].map Int.ofNat)) crops = batchToSpaceFast v x.shape.length k crops := by
      unfold batchToSpace
      simp only [if_pos hr, squareBlock_map, if_true]
    rw [hfast]
    obtain ⟨N, t, d, hs, ht⟩ := splitShape h.rank
    obtain ⟨h0, w0, rfl⟩ : ∃ a b, t = [a, b] := by
      match t, ht with
      | [a, b], _ => exact ⟨a, b, rfl⟩
    obtain ⟨p, q, rfl⟩ : ∃ p q, c = [p, q] := by
      have := h.crops
      match c, this with
      | [a, b], _ => exact ⟨a, b, rfl⟩
    obtain ⟨n, hn⟩ := h.batch
    rw [hs] at hn
    have hk : 0 < k := h.block_pos k (by simp)
    have hsz : size [k, k] = k * k := by simp [size]
    have hN : N = k * k * n := by rw [← hsz]; exact hn
    have f0 := h.fit 0 (by simp)
    have f1 := h.fit 1 (by simp)
    have s0 := h.small 0 (by simp)
    have s1 := h.small 1 (by simp)
    rw [hs] at f0 f1 s0 s1
    refine batchToSpaceFast_eval (c0 := p.1) (e0 := p.2) (c1 := q.1) (e1 := q.2) hk (n := n) (h := h0) (w := w0) (d := d) (by rw [hs, hN]; rfl) ?_ f0 f1 s0 s1 crops ?_
    · rw [hs] at hr
      simp only [List.length_append, List.length_cons, List.length_nil] at hr
      omega
    · rcases hc with rfl | rfl
      · refine .inr ⟨rfl, ?_⟩
        rcases hv with h | ⟨-, h | h⟩
        · omega
        · simp at h
        · exact h
      · exact .inl rfl
  · have hv' : 11 ≤ v := by
      rcases hv with h | ⟨h, -⟩
      · exact h
      · exact absurd h hsq
    have hgen : batchToSpace v (some x.shape.length) (some (b.map Int.ofNat)) crops = .ok (batchToSpaceGen v x.shape.length (b.map Int.ofNat)) := by
      unfold batchToSpace
      by_cases hr : x.shape.length = 3 ∨ x.shape.length = 4
      · have : ¬ ∃ k, b = [k, k] := fun hk => hsq ⟨hr, hk⟩
        simp only [if_pos hr, squareBlock_none this, if_pos hv']
      · simp only [if_neg hr, if_pos hv']
    obtain ⟨N, t, d, hs, ht⟩ := splitShape h.rank
    obtain ⟨n, hn⟩ := h.batch
    rw [hs] at hn
    have hN : N = size b * n := hn
    have hnth : ∀ k, k < b.length → nth x.shape (k + 1) = nth t k := by
      intro k hk
      rw [hs, nth_split ht, if_pos hk]
    have hne := h.nonempty
    rw [hs] at hne
    exact ⟨_, hgen, batchToSpaceGen_eval (by omega) (by rw [hs, hN]) ht h.some_block h.crops h.block_pos
      (fun k hk => hne k (by simp [hk])) (fun k hk => hne k (by simp [hk]))
      (fun k hk => by rw [← hnth k hk]; exact h.fit k hk) h.small_rank⟩

/-- **C55: `tf.space_to_batch`.** Likewise. -/
theorem spaceToBatch_converts (x : T α) (b : List Nat) (p : List (Nat × Nat)) (h : SpaceToBatchArgs x b p) (pads : Option (List (Int × Int)))
    (hp : pads = none ∨ pads = some (toInts p)) (hv : 11 ≤ v ∨ Square x.shape.length b ∧ pads.isSome) :
    ∃ e, spaceToBatch v (some x.shape.length) (some (b.map Int.ofNat)) pads = .ok e ∧
      ∃ y, e.eval v zero (blockInputs x b p) = some (.data y) ∧ Same y (tfSpaceToBatch zero b p x) := by
  by_cases hsq : Square x.shape.length b
  · obtain ⟨hr, k, rfl⟩ := hsq
    have hfc : pads.isSome = true ∨ 11 ≤ v := by
      rcases hv with h | ⟨-, h⟩
      · exact .inr h
      · exact .inl h
    have hfast : spaceToBatch v (some x.shape.length) (some ([k, k].map Int.ofNat)) pads = spaceToBatchFast v x.shape.length k pads := by
      unfold spaceToBatch
      simp only [if_pos (show (x.shape.length = 3 ∨ x.shape.length = 4) ∧ (pads.isSome = true ∨ 11 ≤ v) from ⟨hr, hfc⟩), squareBlock_map, if_true]
    rw [hfast]
    obtain ⟨n, t, d, hs, ht⟩ := splitShape h.rank
    obtain ⟨h0, w0, rfl⟩ : ∃ a b, t = [a, b] := by
      match t, ht with
      | [a, b], _ => exact ⟨a, b, rfl⟩
    obtain ⟨a, c, rfl⟩ : ∃ a c, p = [a, c] := by
      have := h.pads
      match p, this with
      | [a, b], _ => exact ⟨a, b, rfl⟩
    have hk : 0 < k := h.block_pos k (by simp)
    have f0 := h.divides 0 (by simp)
    have f1 := h.divides 1 (by simp)
    rw [hs] at f0 f1
    refine spaceToBatchFast_eval (p0 := a.1) (q0 := a.2) (p1 := c.1) (q1 := c.2) hk (n := n) (h := h0) (w := w0) (d := d) (by rw [hs]; rfl) ?_ f0 f1 pads ?_
    · rw [hs] at hr
      simp only [List.length_append, List.length_cons, List.length_nil] at hr
      omega
    · rcases hp with rfl | rfl
      · refine .inr ⟨rfl, ?_⟩
        rcases hfc with h | h
        · simp at h
        · exact h
      · exact .inl rfl
  · have hv' : 11 ≤ v := by
      rcases hv with h | ⟨h, -⟩
      · exact h
      · exact absurd h hsq
    have hgen : spaceToBatch v (some x.shape.length) (some (b.map Int.ofNat)) pads = .ok (spaceToBatchGen x.shape.length (b.map Int.ofNat)) := by
      unfold spaceToBatch
      by_cases hr : (x.shape.length = 3 ∨ x.shape.length = 4) ∧ (pads.isSome = true ∨ 11 ≤ v)
      · have : ¬ ∃ k, b = [k, k] := fun hk => hsq ⟨hr.1, hk⟩
        simp only [if_pos hr, squareBlock_none this, if_pos hv']
      · simp only [if_neg hr, if_pos hv']
    obtain ⟨n, t, d, hs, ht⟩ := splitShape h.rank
    have hnth : ∀ k, k < b.length → nth x.shape (k + 1) = nth t k := by
      intro k hk
      rw [hs, nth_split ht, if_pos hk]
    have hne := h.nonempty
    rw [hs] at hne
    exact ⟨_, hgen, spaceToBatchGen_eval hv' hs ht h.some_block h.pads h.block_pos
      (fun k hk => hne k (by simp [hk])) (fun k hk => hne k (by simp [hk]))
      (fun k hk => by rw [← hnth k hk]; exact h.divides k hk) h.small_rank⟩

/-- Otherwise nothing is converted: before operator set 11 everything else raises. -/
theorem batchToSpace_raises (rank : Nat) (b : List Nat) (crops : Option (List (Int × Int))) (hv : v < 11) (h : ¬ Square rank b) :
    ∃ m, batchToSpace v (some rank) (some (b.map Int.ofNat)) crops = .error m := by
  unfold batchToSpace
  by_cases hr : rank = 3 ∨ rank = 4
  · have : ¬ ∃ k, b = [k, k] := fun hk => h ⟨hr, hk⟩
    simp only [if_pos hr, squareBlock_none this, if_neg (show ¬ 11 ≤ v by omega)]
    exact ⟨_, rfl⟩
  · simp only [if_neg hr, if_neg (show ¬ 11 ≤ v by omega)]
    exact ⟨_, rfl⟩

/-! ## Cases of the theorems -/

/-- Rank 5, three block sizes, one of them 1, with crops. -/
example : BatchToSpaceArgs (⟨[12, 2, 3, 4, 5], fun i => i⟩ : T (List Nat)) [2, 3, 1] [(1, 0), (0, 2), (1, 1)] := by
  constructor <;> decide

/-- An image with channels. -/
example : BatchToSpaceArgs (⟨[8, 5, 6, 3], fun i => i⟩ : T (List Nat)) [2, 2] [(1, 1), (0, 3)] := by
  constructor <;> decide

example : SpaceToBatchArgs (⟨[2, 5, 7, 3], fun i => i⟩ : T (List Nat)) [2, 4] [(1, 0), (0, 1)] := by
  constructor <;> decide

/-- TensorFlow's documentation, third example of `batch_to_space`: `[[[[1], [3]], [[9], [11]]], ...]` of shape 4, 2, 2, 1 becomes the 4 by 4 image of the
numbers 1 to 16. -/
example : (allIdx [1, 4, 4, 1]).map (tfBatchToSpace [2, 2] [(0, 0), (0, 0)]
    (⟨[4, 2, 2, 1], fun i => [1, 3, 9, 11, 2, 4, 10, 12, 5, 7, 13, 15, 6, 8, 14, 16].getD (lin [4, 2, 2, 1] i) 0⟩ : T Nat)).get = List.range' 1 16 := by decide

/-- And the fourth of `space_to_batch`: two images of two rows and four columns, a block of 2 by 2, two columns of padding in front. -/
example : (tfSpaceToBatch 0 [2, 2] [(0, 0), (2, 0)] (⟨[2, 2, 4, 1], fun i => lin [2, 2, 4, 1] i + 1⟩ : T Nat)).shape = [8, 1, 3, 1] ∧
    (allIdx [8, 1, 3, 1]).map (tfSpaceToBatch 0 [2, 2] [(0, 0), (2, 0)] (⟨[2, 2, 4, 1], fun i => lin [2, 2, 4, 1] i + 1⟩ : T Nat)).get =
      [0, 1, 3, 0, 9, 11, 0, 2, 4, 0, 10, 12, 0, 5, 7, 0, 13, 15, 0, 6, 8, 0, 14, 16] := by decide

end Verif.Emit
