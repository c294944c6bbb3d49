import Verif.Model.Stack
import Verif.Props.C57_Kit
import Verif.Props.C55_Kit
import Verif.Props.C19_Push2
/-!
# C78: stacking and unstacking
-/
namespace Verif.Stack
open Verif.Tensor Verif.Emit Verif.Einsum Verif.Conv

variable {α : Type}

/-! ## One axis more, one axis less -/

/-- The axes without axis `a`. -/
theorem kept_single (a b : Nat) : keptAxes (a + (b + 1)) (fun i => [a].contains i) = List.range a ++ (List.range b).map (fun k => a + 1 + k) := by
  unfold keptAxes
  have h1 : (List.range a).filter (fun i => !([a].contains i)) = List.range a := by
    rw [List.filter_eq_self]
    intro i hi
    have : i < a := List.mem_range.1 hi
    simp; omega
  have h2 : ((List.range b).map (fun k => a + 1 + k)).filter (fun i => !([a].contains i)) = (List.range b).map (fun k => a + 1 + k) := by
    rw [List.filter_eq_self]
    intro i hi
    obtain ⟨k, _, rfl⟩ := List.mem_map.1 hi
    simp; omega
  have e : List.range (a + (b + 1)) = List.range a ++ a :: (List.range b).map (fun k => a + 1 + k) := by
    rw [List.range_add, List.range_succ_eq_map]
    simp [Function.comp_def, Nat.add_assoc, Nat.add_comm 1]
  rw [e, List.filter_append, List.filter_cons, h1, h2]
  simp

/-- The components of an index without component `a`. -/
theorem drop_map (i j : List Nat) (v : Nat) : (keptAxes (i.length + (j.length + 1)) (fun t => [i.length].contains t)).map (nth (i ++ v :: j)) = i ++ j := by
  rw [kept_single, List.map_append, List.map_map]
  congr 1
  · have h : ∀ t ∈ List.range i.length, nth (i ++ v :: j) t = nth i t := fun t ht => nth_append_left (List.mem_range.1 ht)
    rw [List.map_congr_left h]
    exact nth_range_self i
  · have h : ∀ t ∈ List.range j.length, (nth (i ++ v :: j) ∘ fun k => i.length + 1 + k) t = nth j t := by
      intro t _
      show nth (i ++ v :: j) (i.length + 1 + t) = nth j t
      rw [nth_append_right (by omega)]
      have : i.length + 1 + t - i.length = t + 1 := by omega
      rw [this]
      rfl
    rw [List.map_congr_left h]
    exact nth_range_self j

theorem idx_kept {a b k : Nat} (h : k < a + b) : (keptAxes (a + (b + 1)) (fun i => [a].contains i)).idxOf (if k < a then k else k + 1) = k := by
  have hn := TransposeOpt.nodup_keptAxes (a + (b + 1)) (fun i => [a].contains i)
  rw [kept_single] at hn ⊢
  have hl : k < (List.range a ++ (List.range b).map (fun k => a + 1 + k)).length := by simp; omega
  have e : (List.range a ++ (List.range b).map (fun k => a + 1 + k))[k] = if k < a then k else k + 1 := by
    by_cases hk : k < a
    · rw [List.getElem_append_left (by simpa using hk), if_pos hk]
      simp
    · rw [List.getElem_append_right (by simp; omega), if_neg hk]
      simp
      omega
  rw [← e]
  exact List.Nodup.idxOf_getElem hn k hl

/-- An index with one more component. -/
theorem insert_map (i j : List Nat) (v : Nat) : (List.range (i.length + (j.length + 1))).map (fun t => if [i.length].contains t then v else
    nth (i ++ j) ((keptAxes (i.length + (j.length + 1)) (fun t => [i.length].contains t)).idxOf t)) = i ++ v :: j := by
  apply List.ext_getElem
  · simp
  · intro t h1 h2
    rw [List.getElem_map, List.getElem_range]
    have ht : t < i.length + (j.length + 1) := by simpa using h1
    rcases Nat.lt_trichotomy t i.length with h | h | h
    · have hc : [i.length].contains t = false := by simp; omega
      rw [hc]
      have := idx_kept (a := i.length) (b := j.length) (k := t) (by omega)
      rw [if_pos h] at this
      simp only [Bool.false_eq_true, if_false]
      rw [this, nth_append_left h, List.getElem_append_left h]
      simp [nth, h]
    · subst h
      simp
    · have hc : [i.length].contains t = false := by simp; omega
      rw [hc]
      have := idx_kept (a := i.length) (b := j.length) (k := t - 1) (by omega)
      rw [if_neg (by omega), show t - 1 + 1 = t by omega] at this
      simp only [Bool.false_eq_true, if_false]
      rw [this, nth_append_right (by omega), List.getElem_append_right (by omega)]
      have e : t - i.length = (t - 1 - i.length) + 1 := by omega
      simp only [e, List.getElem_cons_succ, nth]
      rw [List.getD_eq_getElem?_getD, List.getElem?_eq_getElem (by omega), Option.getD_some]

/-- `Unsqueeze` with one axis. -/
theorem unsqueeze_one {x : T α} {p q : List Nat} (hx : x.shape = p ++ q) :
    ∃ z, unsqueezeT [p.length] x = some z ∧ z.shape = p ++ 1 :: q ∧ ∀ i v j, i.length = p.length → j.length = q.length → z.get (i ++ v :: j) = x.get (i ++ j) := by
  have hl : x.shape.length + [p.length].length = p.length + (q.length + 1) := by rw [hx]; simp; omega
  have hfit : [p.length].Nodup ∧ ∀ a ∈ [p.length], a < x.shape.length + [p.length].length := by
    refine ⟨by simp, ?_⟩
    intro a ha
    rw [hl, List.mem_singleton.1 ha]
    omega
  refine ⟨_, if_pos hfit, ?_, ?_⟩
  · rw [hl]
    show (List.range (p.length + (q.length + 1))).map (fun t => if [p.length].contains t then 1 else nth x.shape ((keptAxes (p.length + (q.length + 1)) (fun t => [p.length].contains t)).idxOf t)) = _
    rw [hx]
    exact insert_map p q 1
  · intro i v j hi hj
    rw [hl]
    show x.get ((keptAxes (p.length + (q.length + 1)) (fun t => [p.length].contains t)).map (nth (i ++ v :: j))) = _
    rw [← hi, ← hj, drop_map]

/-- `Squeeze` with one axis. -/
theorem squeeze_one {x : T α} {p q : List Nat} (hx : x.shape = p ++ 1 :: q) :
    ∃ z, squeezeT [p.length] x = some z ∧ z.shape = p ++ q ∧ ∀ i j, i.length = p.length → j.length = q.length → z.get (i ++ j) = x.get (i ++ 0 :: j) := by
  have hl : x.shape.length = p.length + (q.length + 1) := by rw [hx]; simp
  have hfit : [p.length].Nodup ∧ ∀ a ∈ [p.length], a < x.shape.length ∧ nth x.shape a = 1 := by
    refine ⟨by simp, ?_⟩
    intro a ha
    rw [hl, List.mem_singleton.1 ha, hx]
    refine ⟨by omega, ?_⟩
    rw [nth_append_right (Nat.le_refl _), Nat.sub_self]
    rfl
  refine ⟨_, if_pos hfit, ?_, ?_⟩
  · show (keptAxes x.shape.length (fun t => [p.length].contains t)).map (nth x.shape) = _
    rw [hl, hx]
    exact drop_map p q 1
  · intro i j hi hj
    show x.get ((List.range x.shape.length).map (fun t => if [p.length].contains t then 0 else nth (i ++ j) ((keptAxes x.shape.length (fun t => [p.length].contains t)).idxOf t))) = _
    rw [hl, ← hi, ← hj, insert_map]

theorem put_append {p q : List Nat} {v : Nat} : put (p ++ q) p.length v = p ++ v :: q := by
  unfold put; simp

/-- An index whose component `a` is `v`. -/
theorem split_idx {idx p q : List Nat} {v : Nat} (h : InB (p ++ v :: q) idx) : ∃ i u j, idx = i ++ u :: j ∧ i.length = p.length ∧ j.length = q.length ∧ u < v ∧ InB (p ++ q) (i ++ j) := by
  have hl : idx.length = p.length + (q.length + 1) := by rw [h.1]; simp
  refine ⟨idx.take p.length, nth idx p.length, idx.drop (p.length + 1), ?_, by simp; omega, by simp; omega, ?_, ?_⟩
  · have e : idx.drop p.length = nth idx p.length :: idx.drop (p.length + 1) := by
      rw [List.drop_eq_getElem_cons (by omega)]
      congr 1
      unfold nth
      rw [List.getD_eq_getElem?_getD, List.getElem?_eq_getElem (by omega), Option.getD_some]
    rw [← e, List.take_append_drop]
  · have := h.2 p.length (by simp)
    rwa [nth_append_right (Nat.le_refl _), Nat.sub_self] at this
  · refine ⟨by simp; omega, ?_⟩
    intro t ht
    have ht' : t < p.length + q.length := by simpa using ht
    by_cases hlt : t < p.length
    · have := h.2 t (by simp; omega)
      rw [nth_append_left hlt] at this ⊢
      rw [nth_append_left (by simp; omega)]
      unfold nth at this ⊢
      rw [List.getD_eq_getElem?_getD, List.getElem?_take, if_pos hlt, ← List.getD_eq_getElem?_getD]
      exact this
    · have := h.2 (t + 1) (by simp; omega)
      have g1 : nth (p ++ q) t = nth q (t - p.length) := nth_append_right (by omega)
      have g2 : nth (idx.take p.length ++ idx.drop (p.length + 1)) t = nth (idx.drop (p.length + 1)) (t - p.length) := by
        have hlen : (idx.take p.length).length = p.length := by simp; omega
        rw [nth_append_right (by omega), hlen]
      have g3 : nth (p ++ v :: q) (t + 1) = nth q (t - p.length) := by
        rw [nth_append_right (by omega), show t + 1 - p.length = (t - p.length) + 1 by omega]
        rfl
      rw [g3] at this
      rw [g1, g2]
      unfold nth at this ⊢
      rw [List.getD_eq_getElem?_getD, List.getElem?_drop, ← List.getD_eq_getElem?_getD, show p.length + 1 + (t - p.length) = t + 1 by omega]
      exact this

/-! ## Stacking -/

theorem concatGet_ones (fill : α) {p q : List Nat} : ∀ (ys : List (T α)) (i : List Nat) (v : Nat) (j : List Nat) (hv : v < ys.length), (∀ y ∈ ys, y.shape = p ++ 1 :: q) → i.length = p.length →
    concatGet fill p.length ys (i ++ v :: j) = (ys[v]).get (i ++ 0 :: j)
  | [], _, _, _, hv, _, _ => absurd hv (Nat.not_lt_zero _)
  | y :: ys, i, v, j, hv, hs, hi => by
    have hy : nth y.shape p.length = 1 := by
      rw [hs y (by simp), nth_append_right (Nat.le_refl _), Nat.sub_self]
      rfl
    have hn : nth (i ++ v :: j) p.length = v := by
      rw [← hi, nth_append_right (Nat.le_refl _), Nat.sub_self]
      rfl
    have hset : setAt (i ++ v :: j) p.length (v - 1) = i ++ (v - 1) :: j := by
      unfold setAt
      rw [← hi, List.set_append_right _ _ (Nat.le_refl _), Nat.sub_self]
      rfl
    show (if nth (i ++ v :: j) p.length < nth y.shape p.length then y.get (i ++ v :: j) else
      concatGet fill p.length ys (setAt (i ++ v :: j) p.length (nth (i ++ v :: j) p.length - nth y.shape p.length))) = _
    rw [hn, hy]
    cases v with
    | zero => rw [if_pos (by omega)]; rfl
    | succ v =>
      rw [if_neg (by omega), hset]
      exact concatGet_ones fill ys i v j (by simpa using hv) (fun y hy => hs y (by simp [hy])) hi

theorem mapM_list {β γ : Type} {f : β → Option γ} {P : β → γ → Prop} : ∀ (l : List β), (∀ x ∈ l, ∃ z, f x = some z ∧ P x z) → ∃ zs, l.mapM f = some zs ∧ List.Forall₂ P l zs
  | [], _ => ⟨[], rfl, .nil⟩
  | x :: l, h => by
    obtain ⟨z, h1, h2⟩ := h x (by simp)
    obtain ⟨zs, h3, h4⟩ := mapM_list l (fun y hy => h y (by simp [hy]))
    exact ⟨z :: zs, by simp [List.mapM_cons, h1, h3], .cons h2 h4⟩

theorem forall₂_get {β γ : Type} {P : β → γ → Prop} {l : List β} {zs : List γ} (h : List.Forall₂ P l zs) : l.length = zs.length ∧ ∀ k (h1 : k < l.length) (h2 : k < zs.length), P l[k] zs[k] := by
  induction h with
  | nil => exact ⟨rfl, fun k h1 _ => absurd h1 (Nat.not_lt_zero _)⟩
  | cons h _ ih =>
    refine ⟨by simp [ih.1], ?_⟩
    intro k h1 h2
    cases k with
    | zero => exact h
    | succ k => exact ih.2 k (by simpa using h1) (by simpa using h2)

/-- The emitted operators of `Pack`, for an axis that is not negative. -/
theorem pack_ops {fill : α} {xs : List (T α)} {p q : List Nat} (hne : xs ≠ []) (hs : ∀ x ∈ xs, x.shape = p ++ q) (d : T α) :
    ∃ z, (xs.mapM (unsqueezeT [p.length])).bind (concatT fill p.length) = some z ∧ Same z (tfStack d (p ++ q) p.length xs) := by
  obtain ⟨ys, h1, h2⟩ := mapM_list (f := unsqueezeT [p.length]) (P := fun (x z : T α) => z.shape = p ++ 1 :: q ∧
    ∀ i v j, i.length = p.length → j.length = q.length → z.get (i ++ v :: j) = x.get (i ++ j)) xs (fun x hx => unsqueeze_one (hs x hx))
  obtain ⟨hl, hg⟩ := forall₂_get h2
  have hys : ∀ y ∈ ys, y.shape = p ++ 1 :: q := by
    intro y hy
    obtain ⟨k, hk, rfl⟩ := List.getElem_of_mem hy
    exact (hg k (by omega) hk).1
  have hsum : (ys.map (fun x => nth x.shape p.length)).sum = xs.length := by
    have : ∀ y ∈ ys, nth y.shape p.length = 1 := by
      intro y hy
      rw [hys y hy, nth_append_right (Nat.le_refl _), Nat.sub_self]
      rfl
    rw [List.map_congr_left this, List.map_const', List.sum_replicate, hl]
    simp
  cases ys with
  | nil => exact absurd (List.eq_nil_of_length_eq_zero hl) hne
  | cons y yt =>
    have hy : y.shape = p ++ 1 :: q := hys y (by simp)
    have hok : ConcatOk p.length (y :: yt) := by
      refine ⟨by rw [hy]; simp, fun u hu => ?_⟩
      rw [hys u (by simp [hu]), hy]
      exact ⟨rfl, fun _ _ _ => rfl⟩
    have hc : concatT fill p.length (y :: yt) = some (concat fill p.length (y :: yt)) := if_pos hok
    have hzs : (concat fill p.length (y :: yt)).shape = p ++ xs.length :: q := by
      show setAt y.shape p.length (((y :: yt).map (fun x => nth x.shape p.length)).sum) = _
      rw [hsum, hy]
      unfold setAt
      rw [List.set_append_right _ _ (Nat.le_refl _), Nat.sub_self]
      rfl
    refine ⟨concat fill p.length (y :: yt), by rw [h1, Option.bind_some, hc], ?_, ?_⟩
    · rw [hzs]
      exact put_append.symm
    · intro idx hidx
      rw [hzs] at hidx
      obtain ⟨i, v, j, rfl, hi, hj, hv, _⟩ := split_idx hidx
      have hv' : v < (y :: yt).length := by omega
      show concatGet fill p.length (y :: yt) (i ++ v :: j) = ((xs.getD (nth (i ++ v :: j) p.length) d)).get ((i ++ v :: j).eraseIdx p.length)
      rw [concatGet_ones fill (y :: yt) i v j hv' hys hi, (hg v (by omega) hv').2 i 0 j hi hj]
      have e1 : nth (i ++ v :: j) p.length = v := by
        rw [← hi, nth_append_right (Nat.le_refl _), Nat.sub_self]
        rfl
      have e2 : (i ++ v :: j).eraseIdx p.length = i ++ j := by
        rw [← hi, List.eraseIdx_append_of_length_le (Nat.le_refl _), Nat.sub_self]
        rfl
      rw [e1, e2, List.getD_eq_getElem?_getD, List.getElem?_eq_getElem (by omega), Option.getD_some]

/-- The axis counted from the front. -/
def front (n : Nat) (axis : Int) : Nat := (if axis < 0 then axis + n else axis).toNat

theorem axisOf_ok {rank : Option Nat} {r more : Nat} {axis : Int} (hr : ∀ m, rank = some m → m = r) (hn : axis < 0 → rank ≠ none) (ha : -((r + more : Nat) : Int) ≤ axis) :
    ∃ a, axisOf rank more axis = .ok a ∧ 0 ≤ a ∧ a.toNat = front (r + more) axis := by
  unfold axisOf front
  by_cases h : axis < 0
  · rw [if_pos h, if_pos h]
    match rank, hr, hn h with
    | some m, hr, _ =>
      rw [hr m rfl]
      exact ⟨_, rfl, by omega, rfl⟩
  · rw [if_neg h, if_neg h]
    exact ⟨_, rfl, by omega, rfl⟩

/-- **C78.** The converted `Pack` is TensorFlow's, for every number of tensors of one shape, of every rank, and every axis; negative axes need a recorded rank. -/
theorem pack_sound {fill : α} {rank : Option Nat} {axis : Int} {s : List Nat} {xs : List (T α)} (d : T α) (hne : xs ≠ []) (hs : ∀ x ∈ xs, x.shape = s)
    (hr : ∀ m, rank = some m → m = s.length) (hn : axis < 0 → rank ≠ none) (ha : -((s.length + 1 : Nat) : Int) ≤ axis ∧ axis ≤ s.length) :
    ∃ z, pack fill rank axis xs = .ok (some z) ∧ Same z (tfStack d s (front (s.length + 1) axis) xs) := by
  obtain ⟨a, h1, h2, h3⟩ := axisOf_ok (more := 1) hr hn ha.1
  have hle : front (s.length + 1) axis ≤ s.length := by unfold front; split <;> omega
  generalize front (s.length + 1) axis = k at h3 hle ⊢
  obtain ⟨z, z1, z2⟩ := pack_ops (fill := fill) (p := s.take k) (q := s.drop k) hne (fun x hx => by rw [List.take_append_drop]; exact hs x hx) d
  have hk : (s.take k).length = k := by simp; omega
  rw [List.take_append_drop, hk] at z2
  rw [hk] at z1
  refine ⟨z, ?_, z2⟩
  unfold pack
  rw [h1]
  dsimp only
  rw [if_neg (by omega), h3, z1]

/-- A negative axis without a recorded rank raises. -/
theorem pack_needs_rank {fill : α} {axis : Int} {xs : List (T α)} (h : axis < 0) : ∃ e, pack fill none axis xs = .error e := by
  refine ⟨"the rank is not known", ?_⟩
  unfold pack axisOf
  rw [if_pos h]

/-! ## Unstacking -/

/-- The emitted operators of `Unpack`. -/
theorem unpack_ops {x : T α} {p q : List Nat} {n : Nat} (hx : x.shape = p ++ n :: q) (hn : 0 < n) :
    ∃ zs, (splitT p.length n x).bind (fun l => l.mapM (squeezeT [p.length])) = some zs ∧ zs.length = n ∧
      ∀ j (hj : j < zs.length), Same zs[j] (tfUnstack p.length j x) := by
  have hd : nth x.shape p.length = n := by
    rw [hx, nth_append_right (Nat.le_refl _), Nat.sub_self]
    rfl
  have hfit : p.length < x.shape.length ∧ 0 < n ∧ nth x.shape p.length % n = 0 := ⟨by rw [hx]; simp, hn, by rw [hd]; exact Nat.mod_self n⟩
  have hsp : splitT p.length n x = some ((List.range n).map (fun j => splitChunk p.length (List.replicate n 1) j x)) := by
    unfold splitT
    rw [if_pos hfit, hd, Nat.div_self hn]
  have hshape : ∀ j, j < n → (splitChunk p.length (List.replicate n 1) j x).shape = p ++ 1 :: q := by
    intro j hj
    show setAt x.shape p.length (nth (List.replicate n 1) j) = _
    have : nth (List.replicate n 1) j = 1 := by
      unfold nth
      rw [List.getD_eq_getElem?_getD, List.getElem?_replicate, if_pos hj, Option.getD_some]
    rw [this, hx]
    unfold setAt
    rw [List.set_append_right _ _ (Nat.le_refl _), Nat.sub_self]
    rfl
  obtain ⟨zs, h1, h2⟩ := mapM_list (f := squeezeT [p.length]) (P := fun (y z : T α) => z.shape = p ++ q ∧
    ∀ i j, i.length = p.length → j.length = q.length → z.get (i ++ j) = y.get (i ++ 0 :: j)) ((List.range n).map (fun j => splitChunk p.length (List.replicate n 1) j x)) (by
      intro y hy
      obtain ⟨j, hj, rfl⟩ := List.mem_map.1 hy
      exact squeeze_one (hshape j (List.mem_range.1 hj)))
  obtain ⟨hl, hg⟩ := forall₂_get h2
  have hl' : zs.length = n := by rw [← hl]; simp
  refine ⟨zs, by rw [hsp, Option.bind_some, h1], hl', ?_⟩
  intro j hj
  have hj' : j < n := by omega
  obtain ⟨g1, g2⟩ := hg j (by simp; omega) hj
  refine ⟨?_, ?_⟩
  · show zs[j].shape = x.shape.eraseIdx p.length
    rw [g1, hx, List.eraseIdx_append_of_length_le (Nat.le_refl _), Nat.sub_self]
    rfl
  · intro idx hidx
    rw [g1] at hidx
    have hlen : idx.length = p.length + q.length := by rw [hidx.1]; simp
    have e : idx = idx.take p.length ++ idx.drop p.length := (List.take_append_drop _ _).symm
    have hp : (idx.take p.length).length = p.length := by simp; omega
    have hq : (idx.drop p.length).length = q.length := by simp; omega
    show zs[j].get idx = x.get (put idx p.length j)
    unfold put
    generalize idx.take p.length = a at e hp ⊢
    generalize idx.drop p.length = b at e hq ⊢
    rw [e, g2 a b hp hq]
    simp only [List.getElem_map, List.getElem_range]
    show x.get (setAt (a ++ 0 :: b) p.length (nth (a ++ 0 :: b) p.length + ((List.replicate n 1).take j).sum)) = _
    have e1 : nth (a ++ 0 :: b) p.length = 0 := by
      rw [← hp, nth_append_right (Nat.le_refl _), Nat.sub_self]
      rfl
    have e2 : ((List.replicate n 1).take j).sum = j := by
      rw [List.take_replicate, List.sum_replicate]
      simp; omega
    rw [e1, e2, Nat.zero_add]
    unfold setAt
    rw [← hp, List.set_append_right _ _ (Nat.le_refl _), Nat.sub_self]
    rfl

/-- **C78.** The converted `Unpack` is TensorFlow's, for tensors of every rank, every axis and every number of outputs (at least one). -/
theorem unpack_sound {rank : Option Nat} {axis : Int} {x : T α} {n : Nat} (hr : ∀ m, rank = some m → m = x.shape.length) (hn : axis < 0 → rank ≠ none)
    (ha : -(x.shape.length : Int) ≤ axis ∧ axis < x.shape.length) (hd : nth x.shape (front x.shape.length axis) = n) (hpos : 0 < n) :
    ∃ zs, unpack rank axis n x = .ok (some zs) ∧ zs.length = n ∧ ∀ j (hj : j < zs.length), Same zs[j] (tfUnstack (front x.shape.length axis) j x) := by
  obtain ⟨a, h1, h2, h3⟩ := axisOf_ok (more := 0) (r := x.shape.length) hr hn (by omega)
  have hlt : front x.shape.length axis < x.shape.length := by unfold front; split <;> omega
  rw [Nat.add_zero] at h3
  generalize front x.shape.length axis = k at h3 hlt hd ⊢
  have hx : x.shape = x.shape.take k ++ n :: x.shape.drop (k + 1) := by
    have e : x.shape.drop k = n :: x.shape.drop (k + 1) := by
      rw [List.drop_eq_getElem_cons hlt]
      congr 1
      rw [← hd]
      unfold nth
      rw [List.getD_eq_getElem?_getD, List.getElem?_eq_getElem hlt, Option.getD_some]
    rw [← e, List.take_append_drop]
  have hk : (x.shape.take k).length = k := by simp; omega
  obtain ⟨zs, z1, z2, z3⟩ := unpack_ops hx hpos
  rw [hk] at z1
  refine ⟨zs, ?_, z2, ?_⟩
  · unfold unpack
    rw [h1]
    dsimp only
    rw [if_neg (by omega), h3, z1]
  · intro j hj
    have := z3 j hj
    rwa [hk] at this

theorem erase_put {l : List Nat} {a v : Nat} (h : a ≤ l.length) : (put l a v).eraseIdx a = l := by
  have hk : (l.take a).length = a := by simp; omega
  unfold put
  rw [List.eraseIdx_append_of_length_le (by omega), hk, Nat.sub_self, List.eraseIdx_cons_zero, List.take_append_drop]

/-- What `tf.unstack` takes from `tf.stack` is the operand. -/
theorem unstack_stack {d : T α} {s : List Nat} {a j : Nat} {xs : List (T α)} (ha : a ≤ s.length) (hj : j < xs.length) (hs : ∀ x ∈ xs, x.shape = s) :
    Same (tfUnstack a j (tfStack d s a xs)) xs[j] := by
  have hk : (s.take a).length = a := by simp; omega
  refine ⟨?_, ?_⟩
  · rw [hs _ (List.getElem_mem hj)]
    show (put s a xs.length).eraseIdx a = s
    exact erase_put ha
  · intro idx hidx
    have hsh : (tfUnstack a j (tfStack d s a xs)).shape = s := by
      show (put s a xs.length).eraseIdx a = s
      exact erase_put ha
    rw [hsh] at hidx
    have hi : (idx.take a).length = a := by
      have := hidx.1
      simp; omega
    show (xs.getD (nth (put idx a j) a) d).get ((put idx a j).eraseIdx a) = _
    have e1 : nth (put idx a j) a = j := by
      unfold put
      rw [nth_append_right (by omega), hi, Nat.sub_self]
      rfl
    have e2 : (put idx a j).eraseIdx a = idx := by
      unfold put
      rw [List.eraseIdx_append_of_length_le (by omega), hi, Nat.sub_self, List.eraseIdx_cons_zero, List.take_append_drop]
    rw [e1, e2, List.getD_eq_getElem?_getD, List.getElem?_eq_getElem hj, Option.getD_some]

end Verif.Stack
