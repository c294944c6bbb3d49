import Verif.Model.LoopRewriter
import Verif.Props.C69_Worklist
/-!
# C70: graphs with loops, the search for the nodes of a loop
-/
namespace Verif.While
open Verif.Cond (closeLoop closeLoop_spec)
variable {V : Type}

/-- Some node produces the tensor. -/
def Produced (G : List (Node V)) (x : String) : Prop := ∃ n ∈ G, x ∈ n.outs

theorem producer_mem {G : List (Node V)} {x : String} {n : Node V} (h : producer G x = some n) : n ∈ G ∧ x ∈ n.outs :=
  ⟨List.mem_of_find?_eq_some h, by simpa using List.find?_some h⟩

theorem producer_none {G : List (Node V)} {x : String} (h : ¬ Produced G x) : producer G x = none := by
  unfold producer
  rw [List.find?_eq_none]
  intro n hn
  simpa using fun hx => h ⟨n, hn, hx⟩

theorem producer_some {G : List (Node V)} {x : String} (h : Produced G x) : ∃ n, producer G x = some n := by
  cases hp : producer G x with
  | some n => exact ⟨n, rfl⟩
  | none =>
    exfalso
    obtain ⟨n, hn, hx⟩ := h
    unfold producer at hp
    rw [List.find?_eq_none] at hp
    exact absurd hx (by simpa using hp n hn)

/-- Two nodes that produce the same tensor are the same. -/
theorem unique_out {G : List (Node V)} (hu : (G.flatMap Node.outs).Nodup) {n m : Node V} (hn : n ∈ G) (hm : m ∈ G) {x : String} (hx : x ∈ n.outs) (hx' : x ∈ m.outs) : n = m := by
  induction G with
  | nil => cases hn
  | cons a G ih =>
    rw [List.flatMap_cons, List.nodup_append] at hu
    rcases List.mem_cons.1 hn with hn1 | hn1 <;> rcases List.mem_cons.1 hm with hm1 | hm1
    · rw [hn1, hm1]
    · subst hn1
      exact absurd rfl (hu.2.2 x hx x (List.mem_flatMap.2 ⟨m, hm1, hx'⟩))
    · subst hm1
      exact absurd rfl (hu.2.2 x hx' x (List.mem_flatMap.2 ⟨n, hn1, hx⟩))
    · exact ih hu.2.1 hn1 hm1

theorem producer_eq {G : List (Node V)} (hu : (G.flatMap Node.outs).Nodup) {n : Node V} (hn : n ∈ G) {x : String} (hx : x ∈ n.outs) : producer G x = some n := by
  obtain ⟨m, hm⟩ := producer_some ⟨n, hn, hx⟩
  obtain ⟨h1, h2⟩ := producer_mem hm
  rw [hm, unique_out hu h1 hn h2 hx]

theorem outs_nodup {G : List (Node V)} (hu : (G.flatMap Node.outs).Nodup) {n : Node V} (hn : n ∈ G) : n.outs.Nodup :=
  (List.nodup_flatMap.1 hu).1 n hn

theorem key_mem {n : Node V} {x : String} (h : x ∈ n.outs) : n.key ∈ n.outs := by
  unfold Node.key
  cases hn : n.outs with
  | nil => rw [hn] at h; cases h
  | cons a l => simp

theorem sublist_flatMap {A B : Type} {l l' : List A} (h : l.Sublist l') (f : A → List B) : (l.flatMap f).Sublist (l'.flatMap f) := by
  induction h with
  | slnil => simp
  | cons a _ ih => rw [List.flatMap_cons]; exact ih.trans (List.sublist_append_right _ _)
  | cons_cons a _ ih => rw [List.flatMap_cons, List.flatMap_cons]; exact ih.append_left _

theorem filter_nodup {G : List (Node V)} (hu : (G.flatMap Node.outs).Nodup) (p : Node V → Bool) : ((G.filter p).flatMap Node.outs).Nodup :=
  (sublist_flatMap List.filter_sublist _).nodup hu

/-- The search finds good nodes only, and is closed. -/
theorem subgraph_spec {H : List (Node V)} (hu : (H.flatMap Node.outs).Nodup) (m : Bool) (outs : List String) (Good : Node V → Prop)
    (start : ∀ x ∈ outs, ∀ n, producer H x = some n → stops m n = false → Good n)
    (step : ∀ n ∈ H, Good n → ∀ x ∈ n.ins, ∀ n', producer H x = some n' → stops m n' = false → Good n') :
    (∀ n ∈ subgraph H m outs, n ∈ H ∧ Good n ∧ stops m n = false ∧ ∃ o, o ∈ n.outs) ∧
    (∀ x ∈ outs, ∀ n, producer H x = some n → stops m n = false → n ∈ subgraph H m outs) ∧
    (∀ n ∈ subgraph H m outs, ∀ x ∈ n.ins, ∀ n', producer H x = some n' → stops m n' = false → n' ∈ subgraph H m outs) := by
  let Q : String → Prop := fun k => ∃ n, producer H k = some n ∧ n.key = k ∧ Good n ∧ stops m n = false
  have hQ : ∀ k, Q k → ∀ y ∈ succs H m k, Q y := by
    rintro k ⟨n, hp, -, hg, -⟩ y hy
    unfold succs at hy
    rw [hp] at hy
    simp only [List.mem_filterMap] at hy
    obtain ⟨x, hx, hy⟩ := hy
    cases hpx : producer H x with
    | none => rw [hpx] at hy; cases hy
    | some n' =>
      rw [hpx] at hy
      simp only [Option.bind_some] at hy
      split at hy
      · cases hy
      · rename_i hs
        cases hy
        obtain ⟨hm', hx'⟩ := producer_mem hpx
        have hs : stops m n' = false := by simpa using hs
        exact ⟨n', producer_eq hu hm' (key_mem hx'), rfl, step n (producer_mem hp).1 hg x hx n' hpx hs, hs⟩
  have hU : ∀ k, Q k → k ∈ H.map Node.key := by
    rintro k ⟨n, hp, hk, -⟩
    exact List.mem_map.2 ⟨n, (producer_mem hp).1, hk⟩
  have reachSpec : ∀ x n, producer H x = some n → stops m n = false → Good n →
      n.key ∈ reach H m x ∧ (∀ k ∈ reach H m x, Q k) ∧ ∀ k ∈ reach H m x, ∀ y ∈ succs H m k, y ∈ reach H m x := by
    intro x n hp hs hg
    have hk : Q n.key := ⟨n, producer_eq hu (producer_mem hp).1 (key_mem (producer_mem hp).2), rfl, hg, hs⟩
    have := closeLoop_spec (succs H m) (H.map Node.key) Q hQ hU (H.length + 1) [n.key] [] (by simp) (by simp) (by simp)
      (by intro k h; rcases h with h | h <;> simp at h; rw [h]; exact hk) (by simp) (by simp)
    have e : reach H m x = closeLoop (succs H m) (H.length + 1) [n.key] [] := by
      unfold reach
      rw [hp]
      simp only [hs, Bool.false_eq_true, if_false]
    rw [e]
    exact ⟨this.1 _ (by simp), this.2⟩
  have mem_of : ∀ k n, (∃ x ∈ outs, k ∈ reach H m x) → producer H k = some n → n ∈ subgraph H m outs := by
    rintro k n ⟨x, hx, hk⟩ hp
    unfold subgraph
    exact List.mem_filterMap.2 ⟨k, List.mem_eraseDups.2 (List.mem_flatMap.2 ⟨x, hx, hk⟩), hp⟩
  have of_mem : ∀ n ∈ subgraph H m outs, ∃ x ∈ outs, ∃ k ∈ reach H m x, producer H k = some n ∧ ∃ n0, producer H x = some n0 ∧ stops m n0 = false := by
    intro n hn
    unfold subgraph at hn
    obtain ⟨k, hk, hp⟩ := List.mem_filterMap.1 hn
    obtain ⟨x, hx, hk⟩ := List.mem_flatMap.1 (List.mem_eraseDups.1 hk)
    refine ⟨x, hx, k, hk, hp, ?_⟩
    unfold reach at hk
    split at hk
    · cases hk
    · rename_i n0 hn0
      split at hk
      · cases hk
      · rename_i hs
        exact ⟨n0, hn0, by simpa using hs⟩
  refine ⟨fun n hn => ?_, fun x hx n hp hs => ?_, fun n hn y hy n' hp' hs' => ?_⟩
  · obtain ⟨x, hx, k, hk, hp, n0, hn0, hs0⟩ := of_mem n hn
    obtain ⟨-, h2, -⟩ := reachSpec x n0 hn0 hs0 (start x hx n0 hn0 hs0)
    obtain ⟨n1, hp1, hk1, hg, hs⟩ := h2 k hk
    rw [hp] at hp1
    cases hp1
    exact ⟨(producer_mem hp).1, hg, hs, k, (producer_mem hp).2⟩
  · obtain ⟨h1, -, -⟩ := reachSpec x n hp hs (start x hx n hp hs)
    exact mem_of _ n ⟨x, hx, h1⟩ (producer_eq hu (producer_mem hp).1 (key_mem (producer_mem hp).2))
  · obtain ⟨x, hx, k, hk, hp, n0, hn0, hs0⟩ := of_mem n hn
    obtain ⟨-, -, h3⟩ := reachSpec x n0 hn0 hs0 (start x hx n0 hn0 hs0)
    have hsucc : n'.key ∈ succs H m k := by
      unfold succs
      rw [hp]
      exact List.mem_filterMap.2 ⟨y, hy, by rw [hp']; simp [hs']⟩
    exact mem_of _ n' ⟨x, hx, h3 k hk _ hsucc⟩ (producer_eq hu (producer_mem hp').1 (key_mem (producer_mem hp').2))

theorem mapM_ok {A B : Type} {f : A → Except String B} {l : List A} {r : List B} (h : l.mapM f = .ok r) : List.Forall₂ (fun a b => f a = .ok b) l r := by
  induction l generalizing r with
  | nil =>
    cases h
    exact .nil
  | cons a l ih =>
    rw [List.mapM_cons] at h
    cases ha : f a with
    | error e => rw [ha] at h; cases h
    | ok b =>
      rw [ha] at h
      cases hl : l.mapM f with
      | error e =>
        rw [hl] at h
        cases h
      | ok r' =>
        rw [hl] at h
        cases h
        exact .cons ha (ih hl)

/-- Values found by other means under other names. -/
theorem mapM_other {f g : String → Option V} {σ : String → String} {l : List String} {vs : List V} (h : l.mapM f = some vs)
    (hg : ∀ x ∈ l, ∀ w, f x = some w → g (σ x) = some w) : (l.map σ).mapM g = some vs := by
  induction l generalizing vs with
  | nil =>
    simp only [List.mapM_nil, Option.pure_def, Option.some.injEq] at h
    subst h
    rfl
  | cons x l ih =>
    rw [List.mapM_cons] at h
    cases hx : f x with
    | none => rw [hx] at h; cases h
    | some w =>
      rw [hx] at h
      cases hl : l.mapM f with
      | none => rw [hl] at h; cases h
      | some ws =>
        rw [hl] at h
        cases h
        rw [List.map_cons, List.mapM_cons, hg x (by simp) w hx, ih hl (fun y hy => hg y (by simp [hy]))]
        rfl

end Verif.While
