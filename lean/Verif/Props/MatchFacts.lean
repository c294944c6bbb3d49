import Verif.Props.RewriteDup
import Verif.Props.C21_Matcher
/-!
# Reading off what a match of a small pattern says about the graph (used by C44, C45)
-/
namespace Verif.Graph
open Verif Matcher

theorem gr_wellFormed (g : G) : WellFormed g.gr := fun o => by simp [G.gr]

/-- A pattern without inputs. -/
theorem matches_leaf {g : G} {allow : Bool} {e : Entry Ref} {l : List (Entry Ref)} (h : Matches g.gr allow e l)
    {ts : List String} (ht : e.pat.types = some ts) (hi : e.pat.inputs = []) : l = [e] ∧ TypeOk g.gr e.op ts := by
  cases h with
  | anything _ h1 => rw [ht] at h1; cases h1
  | leaf _ ts' h1 h2 _ =>
    rw [ht] at h1; cases h1
    exact ⟨rfl, h2⟩
  | node _ _ _ _ _ _ _ _ h4 => exact (h4 hi).elim

/-- A pattern with one input. -/
theorem matches_one {g : G} {allow : Bool} {e : Entry Ref} {l : List (Entry Ref)} (h : Matches g.gr allow e l)
    {ts : List String} (ht : e.pat.types = some ts) {p : Pat} (hi : e.pat.inputs = [p]) :
    ∃ o s l1, e.op = some o ∧ TypeOk g.gr e.op ts ∧ (g.node o).input = [s] ∧
      Matches g.gr allow ⟨p, g.getNodeByOutput s, some s⟩ l1 ∧ ∀ x, x ∈ l ↔ x = e ∨ x ∈ l1 := by
  cases h with
  | anything _ h1 => rw [ht] at h1; cases h1
  | leaf _ ts' h1 h2 h3 => rw [hi] at h3; cases h3
  | node _ ts' o ps ls h1 h2 h3 h4 h5 h6 h7 h8 =>
    rw [ht] at h1; cases h1
    have hps : ps = [p] := by
      rcases h5 with rfl | ⟨_, hp⟩
      · exact hi
      · rw [hi] at hp; exact List.perm_singleton.1 hp
    subst hps
    have hlen : (g.node o).input.length = 1 := by simpa [G.gr] using h6
    obtain ⟨s, hs⟩ := List.length_eq_one_iff.1 hlen
    obtain ⟨l1, hl1⟩ := List.length_eq_one_iff.1 h7
    subst hl1
    refine ⟨o, s, l1, h3, h2, hs, ?_, by simp⟩
    exact h8 0 p (g.getNodeByOutput s) s l1 rfl (by simp [G.gr, hs]) (by simp [G.gr, hs]) rfl

theorem perm_pair {α : Type} {l : List α} {a b : α} (h : l.Perm [a, b]) : l = [a, b] ∨ l = [b, a] := by
  have hl := h.length_eq
  match l, hl with
  | [x, y], _ =>
    have hx : x = a ∨ x = b := by simpa using h.mem_iff.1 (show x ∈ [x, y] by simp)
    rcases hx with rfl | rfl
    · left
      have := (List.perm_cons x).1 h
      simpa using this
    · right
      have h2 : [x, y].Perm [x, a] := h.trans (.swap _ _ _)
      have := (List.perm_cons x).1 h2
      simpa using this

/-- A pattern with two inputs, in either order if reordering is allowed. -/
theorem matches_two {g : G} {allow : Bool} {e : Entry Ref} {l : List (Entry Ref)} (h : Matches g.gr allow e l)
    {ts : List String} (ht : e.pat.types = some ts) {p q : Pat} (hi : e.pat.inputs = [p, q]) :
    ∃ o s t l1 l2, e.op = some o ∧ TypeOk g.gr e.op ts ∧
      ((g.node o).input = [s, t] ∨ e.pat.reorder.getD allow = true ∧ (g.node o).input = [t, s]) ∧
      Matches g.gr allow ⟨p, g.getNodeByOutput s, some s⟩ l1 ∧ Matches g.gr allow ⟨q, g.getNodeByOutput t, some t⟩ l2 ∧
      ∀ x, x ∈ l ↔ x = e ∨ x ∈ l1 ∨ x ∈ l2 := by
  cases h with
  | anything _ h1 => rw [ht] at h1; cases h1
  | leaf _ ts' h1 h2 h3 => rw [hi] at h3; cases h3
  | node _ ts' o ps ls h1 h2 h3 h4 h5 h6 h7 h8 =>
    rw [ht] at h1; cases h1
    have hps : ps = [p, q] ∨ e.pat.reorder.getD allow = true ∧ ps = [q, p] := by
      rcases h5 with rfl | ⟨hr, hp⟩
      · exact Or.inl hi
      · rw [hi] at hp
        rcases perm_pair hp with h | h
        · exact Or.inl h
        · exact Or.inr ⟨hr, h⟩
    have hlen : (g.node o).input.length = ps.length := by simpa [G.gr] using h6
    have hl2 : ps.length = 2 := by rcases hps with rfl | ⟨_, rfl⟩ <;> rfl
    rw [hl2] at hlen h7
    obtain ⟨s, t, hst⟩ := List.length_eq_two.1 hlen
    obtain ⟨l1, l2, hl⟩ := List.length_eq_two.1 h7
    subst hl
    have k0 := fun p' hp' => h8 0 p' (g.getNodeByOutput s) s l1 hp' (by simp [G.gr, hst]) (by simp [G.gr, hst]) rfl
    have k1 := fun p' hp' => h8 1 p' (g.getNodeByOutput t) t l2 hp' (by simp [G.gr, hst]) (by simp [G.gr, hst]) rfl
    rcases hps with rfl | ⟨hr, rfl⟩
    · exact ⟨o, s, t, l1, l2, h3, h2, Or.inl hst, k0 p rfl, k1 q rfl, by simp⟩
    · refine ⟨o, t, s, l2, l1, h3, h2, Or.inr ⟨hr, hst⟩, k1 p rfl, k0 q rfl, ?_⟩
      intro x
      simp only [List.flatten_cons, List.flatten_nil, List.mem_cons, List.mem_append, List.append_nil]
      tauto

theorem typeOk_node {g : G} {op : Option Ref} {ts : List String} (h : TypeOk g.gr op ts) (hs : ts ≠ ["*"]) :
    ∃ r, op = some r ∧ (g.node r).op ∈ ts := by
  rcases h with h | ⟨o, h1, h2⟩
  · exact (hs h).elim
  · exact ⟨o, h1, h2⟩

end Verif.Graph
