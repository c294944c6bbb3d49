import Verif.Props.EmitKit
import Verif.Spec.TfRearrange
import Mathlib.Data.List.Sort
/-!
# C54: reversing axes
-/
namespace Verif.Emit
open Verif.Tensor Verif.TransposeOpt

variable {α : Type} {v : Nat} {zero : α} {env : Nat → Option (Value α)}

/-! ## Permutations -/

/-- Exchange 0 and `a`. -/
def sw (a j : Nat) : Nat := if j = 0 then a else if j = a then 0 else j

theorem sw_sw (a j : Nat) : sw a (sw a j) = j := by
  unfold sw
  split_ifs <;> omega

theorem sw_lt {a j n : Nat} (ha : a < n) (hj : j < n) : sw a j < n := by
  unfold sw
  split_ifs <;> omega

@[simp] theorem swap0_length (l : List Nat) (a : Nat) : (swap0 l a).length = l.length := by simp [swap0]

theorem nth_set {l : List Nat} {i j k : Nat} (hi : i < l.length) : nth (l.set i k) j = if j = i then k else nth l j := by
  unfold nth
  by_cases h : j = i
  · subst h; simp [List.getD, hi]
  · have h' : ¬ i = j := fun e => h e.symm
    simp [List.getD, h, h']

theorem nth_swap0 {l : List Nat} {a j : Nat} (ha : a < l.length) : nth (swap0 l a) j = nth l (sw a j) := by
  unfold swap0 sw
  rw [nth_set (by simp; omega), nth_set ha]
  split_ifs with h1 h2 <;> simp_all

/-- All exchanges, the last one first. -/
def swaps : List Nat → Nat → Nat
  | [], j => j
  | a :: as, j => sw a (swaps as j)

theorem nth_foldl_swap0 {as l : List Nat} (h : ∀ a ∈ as, a < l.length) (j : Nat) : nth (as.foldl swap0 l) j = nth l (swaps as j) := by
  induction as generalizing l with
  | nil => rfl
  | cons a as ih =>
    have ha := h a (by simp)
    rw [List.foldl_cons, ih (by simpa using fun b hb => h b (by simp [hb])), nth_swap0 ha]
    rfl

@[simp] theorem foldl_swap0_length (as l : List Nat) : (as.foldl swap0 l).length = l.length := by
  induction as generalizing l with
  | nil => rfl
  | cons a as ih => rw [List.foldl_cons, ih, swap0_length]

theorem swaps_append (as bs : List Nat) (j : Nat) : swaps (as ++ bs) j = swaps as (swaps bs j) := by
  induction as with
  | nil => rfl
  | cons a as ih => simp [swaps, ih]

theorem swaps_reverse (as : List Nat) (j : Nat) : swaps as (swaps as.reverse j) = j := by
  induction as generalizing j with
  | nil => rfl
  | cons a as ih =>
    rw [List.reverse_cons, swaps_append]
    simp only [swaps]
    rw [ih, sw_sw]

theorem swaps_lt {as : List Nat} {n j : Nat} (h : ∀ a ∈ as, a < n) (hj : j < n) : swaps as j < n := by
  induction as with
  | nil => exact hj
  | cons a as ih => exact sw_lt (h a (by simp)) (ih fun b hb => h b (by simp [hb]))

theorem swaps_other {as : List Nat} {j : Nat} (h0 : j ≠ 0) (h : j ∉ as) : swaps as j = j := by
  induction as with
  | nil => rfl
  | cons a as ih =>
    simp only [List.mem_cons, not_or] at h
    simp [swaps, ih h.2, sw, h0, h.1]

/-- The permutation after exchanging several axes with the first one. -/
def swapPerm (n : Nat) (as : List Nat) : List Nat := as.foldl swap0 (List.range n)

@[simp] theorem swapPerm_length (n : Nat) (as : List Nat) : (swapPerm n as).length = n := by simp [swapPerm]

theorem nth_swapPerm {n : Nat} {as : List Nat} (h : ∀ a ∈ as, a < n) {j : Nat} (hj : j < n) : nth (swapPerm n as) j = swaps as j := by
  rw [swapPerm, nth_foldl_swap0 (by simpa using h), nth_range (swaps_lt h hj)]

theorem swapPerm_isPerm {n : Nat} {as : List Nat} (h : ∀ a ∈ as, a < n) : IsPerm (swapPerm n as) := by
  have e : swapPerm n as = (List.range n).map (swaps as) := by
    apply ext_nth (by simp)
    intro j hj
    have hj' : j < n := by simpa using hj
    rw [nth_swapPerm h hj', nth_map _ _ _ (by simpa using hj'), nth_range hj']
  apply isPerm_of_nodup
  · rw [e]
    apply List.Nodup.map _ List.nodup_range
    intro i j hij
    have := congrArg (swaps as.reverse) hij
    have r := fun k => swaps_reverse as.reverse k
    simp only [List.reverse_reverse] at r
    simpa [r] using this
  · intro x hx
    rw [swapPerm_length]
    rw [e] at hx
    obtain ⟨j, hj, rfl⟩ := List.mem_map.1 hx
    exact swaps_lt h (List.mem_range.1 hj)

/-! ## Transposes and reversals -/

theorem same_transpose_fuse {p q : List Nat} {x : T α} (hp : IsPerm p) (hq : IsPerm q) (hl : q.length = p.length) :
    Same (transpose q (transpose p x)) (transpose (fusePerm p q) x) := by
  refine ⟨?_, fun idx _ => ?_⟩
  · simp only [transpose, fusePerm, List.map_map]
    apply List.map_congr_left
    intro i hi
    rw [Function.comp, nth_map _ _ _ (hl ▸ hq.mem.1 hi)]
  · simp only [transpose]
    rw [permIdx_fuse hp hq hl]

theorem same_transpose_range {x : T α} : Same (transpose (List.range x.shape.length) x) x :=
  useless_transpose _ _ (by simp) (by simp [isUseless])

theorem fuse_swaps {n : Nat} {as bs : List Nat} (ha : ∀ a ∈ as, a < n) (hb : ∀ b ∈ bs, b < n) :
    fusePerm (swapPerm n as) (swapPerm n bs) = swapPerm n (as ++ bs) := by
  apply ext_nth (by simp [fusePerm])
  intro j hj
  have hj' : j < n := by simpa [fusePerm] using hj
  rw [fusePerm, nth_map _ _ _ (by simpa using hj'), nth_swapPerm hb hj', nth_swapPerm ha (swaps_lt hb hj'),
    nth_swapPerm (by intro c hc; rcases List.mem_append.1 hc with h | h; exacts [ha c h, hb c h]) hj', swaps_append]

/-- Reversing the first axis of a transposed tensor reverses the axis that is now first. -/
theorem reverse_first {p : List Nat} {x y : T α} {A : Nat → Bool} {a : Nat} {lens : List Int} (hp : IsPerm p) (hl : p.length = x.shape.length)
    (h2 : 2 ≤ p.length) (h0 : nth p 0 = a) (ha : A a = false) (hy : Same y (transpose p (tfReverse A x)))
    (hlens : lens = List.replicate (nth y.shape 1) (nth x.shape a : Int)) :
    Same (reverseSeq 1 0 lens y) (transpose p (tfReverse (fun i => A i || i = a) x)) := by
  have hsh : y.shape = p.map (nth x.shape) := hy.1
  refine ⟨hsh, fun idx hi => ?_⟩
  have hi : InB y.shape idx := hi
  have hil : idx.length = p.length := by rw [hi.1, hsh]; simp
  have h1 : nth idx 1 < nth y.shape 1 := hi.2 1 (by rw [hsh]; simp; omega)
  have h00 : nth y.shape 0 = nth x.shape a := by rw [hsh, nth_map _ _ _ (by omega), h0]
  have hlt : nth idx 0 < nth x.shape a := h00 ▸ hi.2 0 (by rw [hsh]; simp; omega)
  have hn : (lens.getD (nth idx 1) 0).toNat = nth x.shape a := by
    rw [hlens]
    simp [List.getD, h1]
  have hset : InB y.shape (setAt idx 0 (nth x.shape a - 1 - nth idx 0)) := by
    refine ⟨by simpa [setAt] using hi.1, fun i hi' => ?_⟩
    unfold setAt
    rw [nth_set (by omega)]
    split
    · rename_i e; subst e; rw [h00]; omega
    · exact hi.2 i hi'
  simp only [reverseSeq]
  rw [hn, if_pos hlt, hy.2 _ hset]
  simp only [transpose, tfReverse]
  congr 1
  apply List.map_congr_left
  intro i hir
  have hir' : i < p.length := by rw [hl]; exact List.mem_range.1 hir
  have e1 : nth (setAt idx 0 (nth x.shape a - 1 - nth idx 0)) (p.idxOf i) =
      if p.idxOf i = 0 then nth x.shape a - 1 - nth idx 0 else nth idx (p.idxOf i) := by
    unfold setAt
    rw [nth_set (by omega)]
  rw [nth_permIdx hir', nth_permIdx hir', e1]
  have e0 : p.idxOf i = 0 ↔ i = a := by
    constructor
    · intro e
      have := hp.nth_idxOf hir'
      rw [e] at this
      omega
    · rintro rfl
      have := hp.idxOf_nth (i := 0) (by omega)
      rwa [h0] at this
  by_cases e : i = a
  · subst e
    have := e0.2 rfl
    simp [this, ha]
  · have : p.idxOf i ≠ 0 := fun h => e (e0.1 h)
    simp [this, e]

/-- What a round of the loop does. -/
theorem round_eval {rank : Nat} {x0 cur : Expr} {x y : T α} {a : Nat} {as : List Nat} (hv : 10 ≤ v) (hr : x.shape.length = rank) (h2 : 2 ≤ rank)
    (ha : a < rank) (has : ∀ b ∈ as, b < rank) (hnew : a ∉ as) (hfirst : a = 0 → as = []) (hx : x0.eval v zero env = some (.data x))
    (hc : cur.eval v zero env = some (.data y)) (hy : Same y (transpose (swapPerm rank as) (tfReverse (fun i => as.contains i) x))) :
    ∃ z, (reverseRound rank x0 cur a).eval v zero env = some (.data z) ∧
      Same z (transpose (swapPerm rank (as ++ [a])) (tfReverse (fun i => (as ++ [a]).contains i) x)) := by
  have hone : ∀ b ∈ [a], b < rank := by simpa using ha
  have hall : ∀ b ∈ as ++ [a], b < rank := by
    intro b hb
    rcases List.mem_append.1 hb with h | h
    exacts [has b h, hone b h]
  -- the transpose
  obtain ⟨w, hw, hws⟩ : ∃ w : T α, (if a ≠ 0 then Expr.app (.transpose (some (swap0 (List.range rank) a))) [cur] else cur).eval v zero env =
      some (.data w) ∧ Same w (transpose (swapPerm rank (as ++ [a])) (tfReverse (fun i => as.contains i) x)) := by
    by_cases h0 : a = 0
    · have has' : as = [] := hfirst h0
      subst h0 has'
      refine ⟨y, by simpa using hc, ?_⟩
      have : swapPerm rank ([] ++ [0]) = swapPerm rank [] := by
        apply ext_nth (by simp)
        intro j hj
        have hj' : j < rank := by simpa using hj
        rw [nth_swapPerm hall hj', nth_swapPerm (by simp) hj']
        simp only [List.nil_append, swaps, sw]
        split_ifs <;> simp_all
      rw [this]
      exact hy
    · have hp : IsPerm (swapPerm rank [a]) := swapPerm_isPerm hone
      have hys : y.shape.length = rank := by rw [hy.1]; simp [transpose]
      have hp' : swap0 (List.range rank) a = swapPerm rank [a] := rfl
      refine ⟨transpose (swapPerm rank [a]) y, ?_, ?_⟩
      · rw [if_pos h0, eval_app1 hc, hp']
        exact if_pos ⟨hp, by simp [hys]⟩
      · have := (Same.transpose hp hy (by simp [hys])).trans (same_transpose_fuse (x := tfReverse (fun i => as.contains i) x)
          (swapPerm_isPerm has) hp (by simp))
        rwa [fuse_swaps has hone] at this
  have hwl : w.shape.length = rank := by rw [hws.1]; simp [transpose]
  have hfront : nth (swapPerm rank (as ++ [a])) 0 = a := by
    rw [nth_swapPerm hall (by omega), swaps_append]
    show swaps as (sw a 0) = a
    have : sw a 0 = a := by simp [sw]
    rw [this]
    by_cases h0 : a = 0
    · rw [hfirst h0, h0]; rfl
    · exact swaps_other h0 hnew
  have h0a : (fun i => as.contains i) a = false := by simpa using hnew
  refine ⟨reverseSeq 1 0 (List.replicate (nth w.shape 1) (nth x.shape a : Int)) w, ?_, ?_⟩
  · unfold reverseRound
    have e1 : ∀ {e : Expr} {z : T α} {k : Nat}, e.eval v zero env = some (.data z) → k < z.shape.length →
        (Expr.app (.gather 0) [.app .shape [e], .const (vecT [(k : Int)])]).eval v zero env = some (.ints (vecT [(nth z.shape k : Int)])) := by
      intro e z k he hk
      rw [eval_app2 ((eval_app1 he).trans shape_eval) (eval_const _)]
      have := gather_vec (α := α) (v := v) (zero := zero) (l := z.shape.map Int.ofNat) (ix := [k]) (by simpa using hk)
      simp only [List.map_cons, List.map_nil] at this
      simp only [dims_data]
      refine this.trans ?_
      simp [nth, List.getD, hk]
    dsimp only
    have hb : (Expr.app (.gather 0) [.app .shape [_], .const (vecT [1])]).eval v zero env = _ := e1 (k := 1) hw (by omega)
    rw [eval_app2 hw ((eval_app2 (e1 hx (hr ▸ ha)) hb).trans expand_vec)]
    have hc1 : ∀ z ∈ List.replicate (nth w.shape 1) (nth x.shape a : Int), 0 ≤ z ∧ z ≤ (nth w.shape 0 : Int) := by
      intro z hz
      obtain ⟨-, rfl⟩ := List.mem_replicate.1 hz
      have : nth w.shape 0 = nth x.shape a := by
        rw [hws.1]
        simp only [transpose]
        rw [nth_map _ _ _ (by simp; omega), hfront]
        rfl
      omega
    have hl1 : ((Value.ints (vecT (List.replicate (nth w.shape 1) (nth x.shape a : Int)))) : Value α).vec = some (List.replicate (nth w.shape 1) (nth x.shape a : Int)) :=
      vec_ints _
    simp only [Op.eval, hl1, Option.bind_eq_bind, Option.bind_some, dims_data]
    exact if_pos ⟨hv, by omega, Or.inr ⟨trivial, trivial⟩, by simp, hc1⟩
  · have := reverse_first (x := x) (A := fun i => as.contains i) (swapPerm_isPerm hall) (by simp [hr]) (by simpa using h2) hfront h0a hws rfl
    have e : (fun i => as.contains i || decide (i = a)) = fun i => (as ++ [a]).contains i := by
      funext i
      by_cases e : i = a <;> simp [e]
    rwa [e] at this

/-- All rounds. -/
theorem rounds_eval {rank : Nat} {x0 cur : Expr} {x y : T α} {bs as : List Nat} (hv : 10 ≤ v) (hr : x.shape.length = rank) (h2 : 2 ≤ rank)
    (hx : x0.eval v zero env = some (.data x)) (hb : ∀ b ∈ as ++ bs, b < rank) (hs : (as ++ bs).Pairwise (· < ·))
    (hc : cur.eval v zero env = some (.data y)) (hy : Same y (transpose (swapPerm rank as) (tfReverse (fun i => as.contains i) x))) :
    ∃ z, (bs.foldl (reverseRound rank x0) cur).eval v zero env = some (.data z) ∧
      Same z (transpose (swapPerm rank (as ++ bs)) (tfReverse (fun i => (as ++ bs).contains i) x)) := by
  induction bs generalizing as cur y with
  | nil => exact ⟨y, hc, by simpa using hy⟩
  | cons a bs ih =>
    have e : as ++ a :: bs = (as ++ [a]) ++ bs := by simp
    have hlt : ∀ b ∈ as, b < a := fun b hb' => (List.pairwise_append.1 hs).2.2 b hb' a (by simp)
    obtain ⟨z, hz, hzs⟩ := round_eval (zero := zero) hv hr h2 (hb a (by simp)) (fun b hb' => hb b (by simp [hb'])) (fun h => Nat.lt_irrefl _ (hlt a h))
      (fun h0 => by
        cases as with
        | nil => rfl
        | cons b as => have := hlt b (by simp); omega) hx hc hy
    rw [e] at hb hs ⊢
    exact ih hb hs hz hzs

/-- The rounds and the last transpose. -/
theorem reverseRounds_eval {rank : Nat} {x0 : Expr} {x : T α} {axes : List Nat} (hv : 10 ≤ v) (hr : x.shape.length = rank) (h2 : 2 ≤ rank)
    (hx : x0.eval v zero env = some (.data x)) (hb : ∀ b ∈ axes, b < rank) (hs : axes.Pairwise (· < ·)) (hne : axes ≠ []) :
    ∃ z, (reverseRounds rank x0 axes).eval v zero env = some (.data z) ∧ Same z (tfReverse (fun i => axes.contains i) x) := by
  have hr0 : Same x (transpose (swapPerm rank []) (tfReverse (fun i => ([] : List Nat).contains i) x)) := by
    have h1 : Same x (tfReverse (fun i => ([] : List Nat).contains i) x) := by
      refine ⟨rfl, fun idx hi => ?_⟩
      simp only [tfReverse, List.contains_nil, Bool.false_eq_true, if_false]
      congr 1
      apply ext_nth (by simp [hi.1])
      intro i hi'
      have : i < x.shape.length := hi.1 ▸ hi'
      simp [this]
    refine h1.trans ?_
    have := (same_transpose_range (x := tfReverse (fun i => ([] : List Nat).contains i) x)).symm
    have e : (tfReverse (fun i => ([] : List Nat).contains i) x).shape.length = rank := hr
    rw [e] at this
    exact this
  obtain ⟨y, hy, hys⟩ := rounds_eval (zero := zero) (as := []) (bs := axes) hv hr h2 hx (by simpa using hb) (by simpa using hs) hx hr0
  simp only [List.nil_append] at hys
  have hyl : y.shape.length = rank := by rw [hys.1]; simp [transpose]
  have hl : axes.getLastD 0 = axes.getLast hne := by
    rw [List.getLastD_eq_getLast?, List.getLast?_eq_some_getLast hne]
    rfl
  have hlm : axes.getLast hne ∈ axes := List.getLast_mem hne
  have hlast := hb _ hlm
  have hsplit := List.dropLast_append_getLast hne
  by_cases h0 : axes.getLast hne = 0
  · have hz : axes = [0] := by
      have hd : axes.dropLast = [] := by
        by_contra hd
        obtain ⟨b, l, e⟩ := List.exists_cons_of_ne_nil hd
        rw [← hsplit, e] at hs
        have := (List.pairwise_append.1 hs).2.2 b (by simp) (axes.getLast hne) (by simp)
        omega
      rw [← hsplit, hd, h0]
      rfl
    have hcur : swap0 (List.range rank) 0 = List.range rank := by
      apply ext_nth (by simp)
      intro j hj
      have hj' : j < rank := by simpa using hj
      rw [nth_swap0 (by simp; omega)]
      congr 1
      unfold sw
      split_ifs <;> simp_all
    refine ⟨y, ?_, ?_⟩
    · unfold reverseRounds
      simp only [hl, h0, hcur, ne_eq, not_true_eq_false, if_false]
      exact hy
    · refine hys.trans ?_
      have : swapPerm rank axes = List.range rank := by rw [hz]; exact hcur
      rw [this]
      have := same_transpose_range (x := tfReverse (fun i => axes.contains i) x)
      have e : (tfReverse (fun i => axes.contains i) x).shape.length = rank := hr
      rw [e] at this
      exact this
  · have hcur : swap0 (List.range rank) (axes.getLast hne) ≠ List.range rank := by
      intro e
      have := congrArg (fun l => nth l 0) e
      rw [nth_swap0 (by simpa using hlast)] at this
      have h1 : sw (axes.getLast hne) 0 = axes.getLast hne := by simp [sw]
      rw [h1, nth_range hlast, nth_range (by omega)] at this
      exact h0 this
    have hperm : axes.dropLast.reverse.foldl swap0 (swap0 (List.range rank) (axes.getLast hne)) = swapPerm rank axes.reverse := by
      have : axes.reverse = axes.getLast hne :: axes.dropLast.reverse := by
        conv_lhs => rw [← hsplit]
        simp
      rw [this]
      rfl
    have hbr : ∀ b ∈ axes.reverse, b < rank := fun b hb' => hb b (List.mem_reverse.1 hb')
    have hp := swapPerm_isPerm hbr
    refine ⟨transpose (swapPerm rank axes.reverse) y, ?_, ?_⟩
    · unfold reverseRounds
      simp only [hl, ne_eq, hcur, not_false_eq_true, if_true, hperm]
      rw [eval_app1 hy]
      exact if_pos ⟨hp, by simp [hyl]⟩
    · refine ((Same.transpose hp hys (by simp [hyl])).trans (same_transpose_fuse (swapPerm_isPerm hb) hp (by simp))).trans ?_
      rw [fuse_swaps hb hbr]
      have : swapPerm rank (axes ++ axes.reverse) = List.range rank := by
        have hall : ∀ b ∈ axes ++ axes.reverse, b < rank := by
          intro b hb'
          rcases List.mem_append.1 hb' with h | h
          exacts [hb b h, hbr b h]
        apply ext_nth (by simp)
        intro j hj
        have hj' : j < rank := by simpa using hj
        rw [nth_swapPerm hall hj', swaps_append, swaps_reverse, nth_range hj']
      rw [this]
      have := same_transpose_range (x := tfReverse (fun i => axes.contains i) x)
      have e : (tfReverse (fun i => axes.contains i) x).shape.length = rank := hr
      rw [e] at this
      exact this

/-- The input of a node with one tensor. -/
def oneInput (x : T α) : Nat → Option (Value α) := fun i => if i = 0 then some (.data x) else none

theorem tfReverse_congr {A B : Nat → Bool} {x : T α} (h : ∀ i, i < x.shape.length → A i = B i) : tfReverse A x = tfReverse B x := by
  unfold tfReverse
  congr 1
  funext idx
  congr 1
  apply List.map_congr_left
  intro i hi
  rw [h i (List.mem_range.1 hi)]

/-- **C54: `tf.reverse`.** For every operator set from 10 on, every tensor of any rank and shape and every list of axes TensorFlow accepts (in any order,
counted from the front or from the back, no axis twice), the handler succeeds, and the operators it emits run and give the tensor reversed along exactly
those axes. -/
theorem reverseV2_converts (hv : 10 ≤ v) (x : T α) (axes : List Int) (ha : AxesOk x.shape.length axes) :
    ∃ e, reverseV2 v (some x.shape.length) axes = .ok e ∧
      ∃ y, e.eval v zero (oneInput x) = some (.data y) ∧ Same y (tfReverse (axSet x.shape.length axes) x) := by
  by_cases h0 : axes = []
  · subst h0
    refine ⟨_, rfl, x, ?_, rfl, fun idx hi => ?_⟩
    · rw [eval_app1 (x := .data x) (by simp [oneInput])]
      simp [Op.eval]
    · simp only [tfReverse, axSet, List.map_nil, List.contains_nil, Bool.false_eq_true, if_false]
      congr 1
      apply ext_nth (by simp [hi.1])
      intro i hi'
      have : i < x.shape.length := hi.1 ▸ hi'
      simp [this]
  by_cases h1 : x.shape.length = 1
  · obtain ⟨n, hn⟩ := List.length_eq_one_iff.1 h1
    have hax : axes = [-1] ∨ axes = [0] := by
      have hz : ∀ a ∈ axes, a = -1 ∨ a = 0 := fun a h => by have := ha.1 a h; omega
      have hnorm : ∀ a ∈ axes, normAxis x.shape.length a = 0 := by
        intro a h
        rcases hz a h with rfl | rfl <;> simp [normAxis, h1]
      cases axes with
      | nil => exact absurd rfl h0
      | cons a l =>
        cases l with
        | nil => rcases hz a (by simp) with rfl | rfl <;> simp
        | cons b l =>
          have := ha.2
          simp [hnorm a (by simp), hnorm b (by simp)] at this
    have hset : ∀ i, i < x.shape.length → axSet x.shape.length axes i = true := by
      intro i hi
      have : i = 0 := by omega
      subst this
      rcases hax with rfl | rfl <;> simp [axSet, h1, normAxis]
    have hu : (mkUnsqueeze v [0] (.inp 0)).eval v zero (oneInput x) = some (.data (unsqueeze 2 (axSet 2 [0]) x)) := by
      have h2 : AxesOk 2 [0] := by decide
      unfold mkUnsqueeze
      split
      · rename_i hlt
        rw [eval_app1 (x := .data x) (by simp [oneInput])]
        simp only [Op.eval, dims_data, h1]
        exact if_pos ⟨hlt, h2, by simp⟩
      · rename_i hlt
        rw [eval_app2 (x := .data x) (by simp [oneInput]) (eval_const _)]
        simp only [Op.eval, vec_ints, Option.bind_eq_bind, Option.bind_some, dims_data, h1]
        exact if_pos ⟨by omega, h2⟩
    have hush : (unsqueeze 2 (axSet 2 [0]) x).shape = [1, n] := by
      simp [unsqueeze, hn, keptAxes, List.range_succ, axSet, normAxis, nth, List.idxOf_cons]
    obtain ⟨z, hz, hzs⟩ := reverseRounds_eval (zero := zero) (axes := [1]) hv (by rw [hush]; rfl) (Nat.le_refl 2) hu (by simp) (by simp) (by simp)
    have hzsh : z.shape = [1, n] := hzs.1.trans hush
    refine ⟨_, by simp only [reverseV2]; rw [if_neg h0, if_pos h1, if_pos hax], squeeze (axSet 2 [0]) z, ?_, ?_⟩
    · have h2 : AxesOk 2 [0] := by decide
      unfold mkSqueeze
      split
      · rename_i hlt
        rw [eval_app1 hz]
        simp only [Op.eval, dims_data, hzsh]
        exact if_pos ⟨hlt, h2, by simp, by simp [normAxis, nth]⟩
      · rename_i hlt
        rw [eval_app2 hz (eval_const _)]
        simp only [Op.eval, vec_ints, Option.bind_eq_bind, Option.bind_some, dims_data, hzsh]
        exact if_pos ⟨by omega, h2, by simp [normAxis, nth]⟩
    · have hsq : (squeeze (axSet 2 [0]) z).shape = [n] := by
        simp [squeeze, hzsh, keptAxes, List.range_succ, axSet, normAxis, nth]
      refine ⟨by rw [hsq]; exact hn.symm, fun idx hi => ?_⟩
      rw [hsq] at hi
      obtain ⟨k, j, rfl, hk, hj⟩ := inB_cons' hi
      rw [inB_nil] at hj
      subst hj
      have e1 : (squeeze (axSet 2 [0]) z).get [k] = z.get [0, k] := by
        simp [squeeze, hzsh, keptAxes, List.range_succ, axSet, normAxis, nth]
      rw [e1, hzs.2 [0, k] (by rw [hzsh]; exact inB_cons.2 ⟨by omega, inB_one.2 hk⟩)]
      simp only [tfReverse, hush, hn]
      have hs0 := hset 0 (by omega)
      rw [hn] at hs0
      simp only [List.length_cons, List.length_nil] at hs0
      simp [unsqueeze, keptAxes, List.range_succ, axSet, normAxis, nth]
      simp [axSet, normAxis] at hs0
      simp [hs0]
  have h2 : 2 ≤ x.shape.length := by
    cases axes with
    | nil => exact absurd rfl h0
    | cons a l => have := ha.1 a (by simp); omega
  have hmap : ((axes.map (fun a => if a < 0 then a + (x.shape.length : Int) else a)).map Int.toNat) = axes.map (normAxis x.shape.length) := by
    rw [List.map_map]
    rfl
  have hperm := List.perm_insertionSort (· ≤ ·) (axes.map (normAxis x.shape.length))
  have hlt : ∀ b ∈ (axes.map (normAxis x.shape.length)).insertionSort (· ≤ ·), b < x.shape.length := by
    intro b hb
    obtain ⟨a, h, rfl⟩ := List.mem_map.1 (hperm.mem_iff.1 hb)
    have := ha.1 a h
    unfold normAxis
    split <;> omega
  have hs : ((axes.map (normAxis x.shape.length)).insertionSort (· ≤ ·)).Pairwise (· < ·) := by
    have h3 := List.pairwise_insertionSort (· ≤ ·) (axes.map (normAxis x.shape.length))
    have h4 : ((axes.map (normAxis x.shape.length)).insertionSort (· ≤ ·)).Nodup := hperm.nodup_iff.2 ha.2
    exact (h3.and h4).imp fun ⟨p, q⟩ => Nat.lt_of_le_of_ne p q
  obtain ⟨y, hy, hys⟩ := reverseRounds_eval (zero := zero) (x0 := .inp 0) (env := oneInput x) hv rfl h2 (by simp [oneInput]) hlt hs (by
    intro e
    have := hperm.length_eq
    rw [e] at this
    simp at this
    exact h0 (List.length_eq_zero_iff.1 this.symm))
  refine ⟨_, ?_, y, hy, ?_⟩
  · simp only [reverseV2]
    rw [if_neg h0, if_neg h1, if_pos ?_, hmap]
    intro b hb
    obtain ⟨a, h, rfl⟩ := List.mem_map.1 hb
    have := ha.1 a h
    split <;> omega
  · have e := tfReverse_congr (x := x) (A := fun i => ((axes.map (normAxis x.shape.length)).insertionSort (· ≤ ·)).contains i)
      (B := axSet x.shape.length axes) (fun i _ => by
        unfold axSet
        rw [Bool.eq_iff_iff]
        simp only [List.contains_iff_mem]
        exact hperm.mem_iff)
    rw [← e]
    exact hys

/-- A case of the theorem: rank 3, the last and the first axis. -/
example : AxesOk (⟨[2, 3, 4], fun i => i⟩ : T (List Nat)).shape.length [-1, 0] := by decide

/-- What is emitted for it: the first axis is reversed in place, then the last one is brought to the front, reversed and brought back. -/
example : ∃ x1 : Expr, reverseV2 13 (some 3) [-1, 0] = .ok (.app (.transpose (some [2, 1, 0])) [reverseRound 3 (.inp 0) x1 2]) ∧
    x1 = reverseRound 3 (.inp 0) (.inp 0) 0 := ⟨_, rfl, rfl⟩

/-! ## Sequences -/

/-- The inputs of `ReverseSequence`: a tensor and the lengths. -/
def seqInputs (x : T α) (lens : List Int) : Nat → Option (Value α) :=
  fun i => if i = 0 then some (.data x) else if i = 1 then some (.ints (vecT lens)) else none

/-- **C54: `tf.reverse_sequence`.** From operator set 10 on, if the sequence axis and the batch axis are the first two axes, in one order or the other, and
the lengths fit, the handler's operator gives TensorFlow's tensor. (Other axes: `reverseSequence_rejected`.) -/
theorem reverseSequence_converts_partial (hv : 10 ≤ v) (x : T α) (lens : List Nat) (known : Bool) {batch seq : Nat}
    (hax : batch = 0 ∧ seq = 1 ∨ batch = 1 ∧ seq = 0) (hr : 2 ≤ x.shape.length) (hl : lens.length = nth x.shape batch)
    (hle : ∀ n ∈ lens, n ≤ nth x.shape seq) :
    ∃ e, reverseSequence10 (some known) (some (seq : Int)) (batch : Int) = .ok e ∧
      ∃ y, e.eval v zero (seqInputs x (lens.map Int.ofNat)) = some (.data y) ∧ Same y (tfReverseSequence batch seq lens x) := by
  have hcond : ∀ z ∈ lens.map Int.ofNat, 0 ≤ z ∧ z ≤ (nth x.shape (seq : Int).toNat : Int) := by
    intro z hz
    obtain ⟨n, hn, rfl⟩ := List.mem_map.1 hz
    have := hle n hn
    simpa using this
  have hop : Op.eval v zero (.reverseSequence batch seq) [.data x, .ints (vecT (lens.map Int.ofNat))] =
      some (.data (reverseSeq batch seq (lens.map Int.ofNat) x)) := by
    simp only [Op.eval, vec_ints, Option.bind_eq_bind, Option.bind_some, dims_data]
    exact if_pos ⟨hv, hr, by omega, by simpa using hl, hcond⟩
  refine ⟨_, rfl, reverseSeq batch seq (lens.map Int.ofNat) x, ?_, rfl, fun idx hi => ?_⟩
  · cases known with
    | true =>
      simp only [if_true]
      rw [eval_app2 (x := .data x) (y := .ints (vecT (lens.map Int.ofNat))) (by simp [seqInputs]) (by simp [seqInputs])]
      exact hop
    | false =>
      simp only [Bool.false_eq_true, if_false]
      rw [eval_app2 (x := .data x) (y := .ints (vecT (lens.map Int.ofNat))) (by simp [seqInputs])]
      · exact hop
      · rw [eval_app1 (x := .ints (vecT (lens.map Int.ofNat))) (by simp [seqInputs])]
        rfl
  · have hb : nth idx batch < lens.length := by
      rw [hl]
      exact hi.2 batch (by show batch < x.shape.length; omega)
    have : ((lens.map Int.ofNat).getD (nth idx batch) 0).toNat = nth lens (nth idx batch) := by
      generalize nth idx batch = k at hb
      simp [nth, List.getD, hb]
    simp only [reverseSeq, tfReverseSequence, this]

/-- Any other pair of axes is written into the node, which no operator set accepts. -/
theorem reverseSequence_rejected (x : T α) (lens : List Int) (known : Bool) {batch seq : Nat}
    (hax : ¬ (batch = 0 ∧ seq = 1 ∨ batch = 1 ∧ seq = 0)) :
    ∃ e, reverseSequence10 (some known) (some (seq : Int)) (batch : Int) = .ok e ∧ ∀ v, e.eval v zero (seqInputs x lens) = none := by
  refine ⟨_, rfl, fun v => ?_⟩
  have hop : Op.eval v zero (.reverseSequence batch seq) [.data x, .ints (vecT lens)] = none := by
    simp only [Op.eval, vec_ints, Option.bind_eq_bind, Option.bind_some, dims_data]
    refine if_neg fun h => hax ?_
    have := h.2.2.1
    omega
  cases known with
  | true =>
    simp only [if_true]
    rw [eval_app2 (x := .data x) (y := .ints (vecT lens)) (by simp [seqInputs]) (by simp [seqInputs])]
    exact hop
  | false =>
    simp only [Bool.false_eq_true, if_false]
    rw [eval_app2 (x := .data x) (y := .ints (vecT lens)) (by simp [seqInputs])]
    · exact hop
    · rw [eval_app1 (x := .ints (vecT lens)) (by simp [seqInputs])]
      rfl

/-- A case TensorFlow accepts: sequences along the third axis of a tensor of shape 2, 3, 4. -/
example : ¬ (0 = 0 ∧ 2 = 1 ∨ 0 = 1 ∧ 2 = 0) := by decide

end Verif.Emit
