import Verif.Model.CondRewriter
import Mathlib.Data.List.Nodup
import Mathlib.Data.List.Perm.Subperm
/-!
# C69: what is collected
-/
namespace Verif.Cond

theorem pushAll_mem (res : List String) (xs p : List String) : ∀ r, r ∈ pushAll res xs p ↔ r ∈ p ∨ (r ∉ res ∧ r ∈ xs) := by
  induction xs generalizing p with
  | nil => simp [pushAll]
  | cons x xs ih =>
    intro r
    simp only [pushAll]
    split
    · rename_i h
      rw [ih, List.mem_cons]
      constructor
      · rintro (h1 | ⟨h1, h2⟩)
        · exact Or.inl h1
        · exact Or.inr ⟨h1, Or.inr h2⟩
      · rintro (h1 | ⟨h1, rfl | h2⟩)
        · exact Or.inl h1
        · exact Or.inl (h.resolve_left h1)
        · exact Or.inr ⟨h1, h2⟩
    · rename_i h
      rw [ih, List.mem_cons, List.mem_cons]
      constructor
      · rintro ((rfl | h1) | ⟨h1, h2⟩)
        · exact Or.inr ⟨fun h' => h (Or.inl h'), Or.inl rfl⟩
        · exact Or.inl h1
        · exact Or.inr ⟨h1, Or.inr h2⟩
      · rintro (h1 | ⟨h1, rfl | h2⟩)
        · exact Or.inl (Or.inr h1)
        · exact Or.inl (Or.inl rfl)
        · exact Or.inr ⟨h1, h2⟩

theorem pushAll_nodup (res : List String) (xs p : List String) (h : p.Nodup) : (pushAll res xs p).Nodup := by
  induction xs generalizing p with
  | nil => exact h
  | cons x xs ih =>
    simp only [pushAll]
    split
    · exact ih p h
    · rename_i hx
      exact ih _ (List.nodup_cons.2 ⟨fun h' => hx (Or.inr h'), h⟩)

/-- The loop ends with the smallest set that contains the start and is closed: everything in it satisfies whatever is passed on. -/
theorem closeLoop_spec (succ : String → List String) (U : List String) (Q : String → Prop) (hQ : ∀ x, Q x → ∀ y ∈ succ x, Q y) (hU : ∀ x, Q x → x ∈ U)
    (fuel : Nat) (p res : List String) (hp : p.Nodup) (hr : res.Nodup) (hd : ∀ x ∈ p, x ∉ res) (hall : ∀ x, x ∈ p ∨ x ∈ res → Q x)
    (hc : ∀ x ∈ res, ∀ y ∈ succ x, y ∈ p ∨ y ∈ res) (hf : U.length < fuel + res.length) :
    (∀ x, x ∈ p ∨ x ∈ res → x ∈ closeLoop succ fuel p res) ∧ (∀ x ∈ closeLoop succ fuel p res, Q x) ∧
      ∀ x ∈ closeLoop succ fuel p res, ∀ y ∈ succ x, y ∈ closeLoop succ fuel p res := by
  induction fuel generalizing p res with
  | zero =>
    exfalso
    have := (List.subperm_of_subset hr (fun x hx => hU x (hall x (Or.inr hx)))).length_le
    omega
  | succ fuel ih =>
    cases p with
    | nil =>
      simp only [closeLoop]
      exact ⟨fun x hx => hx.resolve_left (by simp), fun x hx => hall x (Or.inr hx), fun x hx y hy => (hc x hx y hy).resolve_left (by simp)⟩
    | cons t ps =>
      simp only [closeLoop]
      have ht : t ∉ res := hd t (by simp)
      have hpn := List.nodup_cons.1 hp
      have hm := pushAll_mem (t :: res) (succ t) ps
      obtain ⟨h1, h2, h3⟩ := ih (pushAll (t :: res) (succ t) ps) (t :: res) (pushAll_nodup _ _ _ hpn.2) (List.nodup_cons.2 ⟨ht, hr⟩)
        (by
          intro x hx
          rcases (hm x).1 hx with h | h
          · intro hx'
            rcases List.mem_cons.1 hx' with rfl | hx'
            · exact hpn.1 h
            · exact hd x (by simp [h]) hx'
          · exact h.1)
        (by
          rintro x (hx | hx)
          · rcases (hm x).1 hx with h | h
            · exact hall x (Or.inl (by simp [h]))
            · exact hQ t (hall t (Or.inl (by simp))) x h.2
          · rcases List.mem_cons.1 hx with rfl | hx
            · exact hall x (Or.inl (by simp))
            · exact hall x (Or.inr hx))
        (by
          intro x hx y hy
          rcases List.mem_cons.1 hx with rfl | hx
          · by_cases hy' : y ∈ x :: res
            · exact Or.inr hy'
            · exact Or.inl ((hm y).2 (Or.inr ⟨hy', hy⟩))
          · rcases hc x hx y hy with h | h
            · rcases List.mem_cons.1 h with rfl | h
              · exact Or.inr (by simp)
              · exact Or.inl ((hm y).2 (Or.inl h))
            · exact Or.inr (by simp [h]))
        (by simp only [List.length_cons]; omega)
      refine ⟨fun x hx => ?_, h2, h3⟩
      rcases hx with hx | hx
      · rcases List.mem_cons.1 hx with rfl | hx
        · exact h1 x (Or.inr (by simp))
        · exact h1 x (Or.inl ((hm x).2 (Or.inl hx)))
      · exact h1 x (Or.inr (by simp [hx]))

variable {V : Type}

/-! ## Producers -/

/-- Something in the list produces the tensor. -/
def Produced (G : List (Node V)) (x : String) : Prop := ∃ n ∈ G, x ∈ n.outs

theorem producer_mem {G : List (Node V)} {x : String} {n : Node V} (h : producer G x = some n) : n ∈ G ∧ x ∈ n.outs :=
  ⟨List.mem_of_find?_eq_some h, by simpa using List.find?_some h⟩

theorem producer_none {G : List (Node V)} {x : String} (h : ¬ Produced G x) : producer G x = none := by
  unfold producer
  rw [List.find?_eq_none]
  intro n hn
  simpa using fun hx => h ⟨n, hn, hx⟩

/-- Two nodes that produce the same tensor are the same. -/
theorem unique_out {G : List (Node V)} (hu : (G.flatMap Node.outs).Nodup) {n m : Node V} (hn : n ∈ G) (hm : m ∈ G) {x : String} (hx : x ∈ n.outs) (hx' : x ∈ m.outs) : n = m := by
  induction G with
  | nil => cases hn
  | cons a G ih =>
    rw [List.flatMap_cons, List.nodup_append] at hu
    rcases List.mem_cons.1 hn with hn1 | hn1 <;> rcases List.mem_cons.1 hm with hm1 | hm1
    · rw [hn1, hm1]
    · subst hn1
      exact absurd rfl (hu.2.2 x hx x (List.mem_flatMap.2 ⟨m, hm1, hx'⟩))
    · subst hm1
      exact absurd rfl (hu.2.2 x hx' x (List.mem_flatMap.2 ⟨n, hn1, hx⟩))
    · exact ih hu.2.1 hn1 hm1

theorem producer_eq {G : List (Node V)} (hu : (G.flatMap Node.outs).Nodup) {n : Node V} (hn : n ∈ G) {x : String} (hx : x ∈ n.outs) : producer G x = some n := by
  cases h : producer G x with
  | none =>
    unfold producer at h
    rw [List.find?_eq_none] at h
    exact absurd hx (by simpa using h n hn)
  | some m =>
    obtain ⟨h1, h2⟩ := producer_mem h
    rw [unique_out hu h1 hn h2 hx]

theorem outs_nodup {G : List (Node V)} (hu : (G.flatMap Node.outs).Nodup) {n : Node V} (hn : n ∈ G) : n.outs.Nodup :=
  (List.nodup_flatMap.1 hu).1 n hn

theorem key_mem {n : Node V} {x : String} (h : x ∈ n.outs) : n.key ∈ n.outs := by
  unfold Node.key
  cases hn : n.outs with
  | nil => rw [hn] at h; cases h
  | cons a l => simp

end Verif.Cond
