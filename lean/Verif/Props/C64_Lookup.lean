import Verif.Props.C64_Paths
/-!
# C64: ragged tensors: leaves and their places
-/
namespace Verif.Ragged
open Verif.Tensor Verif.Emit Verif.Seg Verif.Vec

theorem leaves_append {α : Type} (k : Nat) (a b : List (Nest α k)) : leaves k (a ++ b) = leaves k a ++ leaves k b := by
  induction k with
  | zero => rfl
  | succ k ih =>
    show leaves k (List.flatten (a ++ b)) = leaves k (List.flatten a) ++ leaves k (List.flatten b)
    rw [List.flatten_append, ih]

theorem leaves_nil {α : Type} (k : Nat) : leaves (α := α) k [] = [] := by
  induction k with
  | zero => rfl
  | succ k ih => exact ih

theorem leaves_flatMap {α : Type} (k : Nat) (l : List (Nest α k)) : leaves k l = l.flatMap (fun t => leaves k [t]) := by
  induction l with
  | nil => exact leaves_nil k
  | cons t l ih =>
    rw [List.flatMap_cons, ← ih, ← leaves_append]
    rfl

/-- Every leaf is looked up at its place. -/
theorem lookup_paths {α : Type} (k : Nat) (t : Nest α k) : (paths k t).map (lookup k t) = (leaves k [t]).map some := by
  induction k with
  | zero => rfl
  | succ k ih =>
    have e1 : leaves (k + 1) [t] = leaves k t := by
      show leaves k (List.flatten [t]) = _
      simp
    rw [e1]
    show (List.flatMap (fun p => (paths k p.1).map (p.2 :: ·)) (List.zipIdx t)).map (lookup (k + 1) t) = _
    rw [List.map_flatMap]
    have e2 : ∀ p ∈ List.zipIdx t, ((paths k p.1).map (p.2 :: ·)).map (lookup (k + 1) t) = (leaves k [p.1]).map some := by
      intro p hp
      rw [← ih, List.map_map]
      refine List.map_congr_left (fun q _ => ?_)
      have hp' := List.mem_zipIdx_iff_getElem?.1 hp
      show (t[p.2]?).bind (fun r => lookup k r q) = _
      rw [hp']
      rfl
    rw [List.flatMap_congr e2, leaves_flatMap k t, List.map_flatMap]
    have e3 : t = (List.zipIdx t).map Prod.fst := by simp
    conv => rhs; rw [e3]
    rw [List.flatMap_map]

theorem lookup_paths_top {α : Type} (k : Nat) (t : List (Nest α k)) : (paths (k + 1) t).map (lookup (k + 1) t) = (leaves k t).map some := by
  rw [lookup_paths]
  show (leaves k (List.flatten [t])).map some = _
  simp

theorem paths_length {α : Type} (k : Nat) (t : List (Nest α k)) : (paths (k + 1) t).length = (leaves k t).length := by
  have := congrArg List.length (lookup_paths_top k t)
  simpa using this

/-- What can be looked up is at a place. -/
theorem mem_paths_of_lookup {α : Type} (k : Nat) (t : Nest α k) (p : List Nat) {a : α} (h : lookup k t p = some a) : p ∈ paths k t := by
  induction k generalizing p with
  | zero =>
    cases p with
    | nil => simp [paths]
    | cons i p => simp [lookup] at h
  | succ k ih =>
    cases p with
    | nil => simp [lookup] at h
    | cons i p =>
      have h' : (t[i]?).bind (fun r => lookup k r p) = some a := h
      obtain ⟨r, hr, hl⟩ := Option.bind_eq_some_iff.1 h'
      show _ ∈ List.flatMap (fun p => (paths k p.1).map (p.2 :: ·)) (List.zipIdx t)
      rw [List.mem_flatMap]
      exact ⟨(r, i), List.mem_zipIdx_iff_getElem?.2 hr, List.mem_map.2 ⟨p, ih r p hl, rfl⟩⟩

/-- The places are different. -/
theorem paths_nodup {α : Type} (k : Nat) (t : Nest α k) : (paths k t).Nodup := by
  induction k with
  | zero => simp [paths]
  | succ k ih =>
    show (List.flatMap (fun p => (paths k p.1).map (p.2 :: ·)) (List.zipIdx t)).Nodup
    rw [List.nodup_flatMap]
    constructor
    · intro p _
      exact (ih p.1).map (fun a b h => by simpa using h)
    · have : (List.zipIdx t).Pairwise (fun a b => a.2 ≠ b.2) := by
        rw [List.pairwise_iff_getElem]
        intro i j hi hj hij
        simp
        omega
      refine this.imp (fun {a b} hne => ?_)
      intro x hx hy
      obtain ⟨q, _, rfl⟩ := List.mem_map.1 hx
      obtain ⟨q', _, e⟩ := List.mem_map.1 hy
      simp at e
      exact hne e.1.symm

/-- The places have one index for each level. -/
theorem length_of_mem_paths {α : Type} (k : Nat) (t : Nest α k) {p : List Nat} (h : p ∈ paths k t) : p.length = k := by
  induction k generalizing p with
  | zero => simp [paths] at h; simp [h]
  | succ k ih =>
    have h' : p ∈ List.flatMap (fun p => (paths k p.1).map (p.2 :: ·)) (List.zipIdx t) := h
    rw [List.mem_flatMap] at h'
    obtain ⟨q, _, hp⟩ := h'
    obtain ⟨r, hr, rfl⟩ := List.mem_map.1 hp
    simp [ih q.1 hr]

/-- The places are inside of the box. -/
theorem paths_in_box {α : Type} (k : Nat) (t : List (Nest α k)) {p : List Nat} (h : p ∈ paths (k + 1) t) :
    List.Forall₂ (· < ·) p (box k t) := by
  have hmono : ∀ (k : Nat) (t : List (Nest α k)) (r : Nest α k), r ∈ t → ∀ p ∈ paths k r, List.Forall₂ (· < ·) p ((lens k t).map (fun r => r.foldr max 0)) := by
    intro k
    induction k with
    | zero => intro t r _ p hp; simp [paths] at hp; subst hp; exact List.Forall₂.nil
    | succ k ih =>
      intro t r hr p hp
      have hp' : p ∈ List.flatMap (fun p => (paths k p.1).map (p.2 :: ·)) (List.zipIdx r) := hp
      rw [List.mem_flatMap] at hp'
      obtain ⟨⟨q, i⟩, hq, hp'⟩ := hp'
      obtain ⟨s, hs, rfl⟩ := List.mem_map.1 hp'
      have hq' := List.mem_zipIdx_iff_getElem?.1 hq
      simp only at hq'
      have hi : i < r.length := by
        by_contra hc
        rw [List.getElem?_eq_none (by omega)] at hq'
        cases hq'
      have hmem : q ∈ r := List.mem_of_getElem? hq'
      show List.Forall₂ _ (i :: s) ((List.map List.length t).foldr max 0 :: (lens k (List.flatten t)).map (fun r => r.foldr max 0))
      refine List.Forall₂.cons ?_ (ih _ q (List.mem_flatten.2 ⟨r, hr, hmem⟩) s hs)
      have := le_foldr_max (lens := List.map List.length t) (a := r.length) (List.mem_map.2 ⟨r, hr, rfl⟩)
      omega
  have h' : p ∈ List.flatMap (fun p => (paths k p.1).map (p.2 :: ·)) (List.zipIdx t) := h
  rw [List.mem_flatMap] at h'
  obtain ⟨⟨q, i⟩, hq, hp⟩ := h'
  obtain ⟨s, hs, rfl⟩ := List.mem_map.1 hp
  have hq' := List.mem_zipIdx_iff_getElem?.1 hq
  simp only at hq'
  have hi : i < t.length := by
    by_contra hc
    rw [List.getElem?_eq_none (by omega)] at hq'
    cases hq'
  exact List.Forall₂.cons hi (hmono k t q (List.mem_of_getElem? hq') s hs)

end Verif.Ragged
