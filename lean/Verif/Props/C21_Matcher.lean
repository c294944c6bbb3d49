import Verif.Model.Matcher
import Mathlib.Data.List.Perm.Subperm
/-!
# C21: the pattern matcher is sound and complete
-/
namespace Verif.Matcher
open Verif

/-! ## Specification -/

/-- The op has one of the pattern's types (`*` stands for any op, even a missing one). -/
def TypeOk {Op : Type} (g : Gr Op) (op : Option Op) (types : List String) : Prop :=
  types = ["*"] ∨ ∃ o, op = some o ∧ (g o).type ∈ types

/-- `Matches g allow e l`: the region rooted at `e.op` is an instance of `e.pat`, and `l` lists which op (and through which
tensor) stands at each position of the pattern. -/
inductive Matches {Op : Type} (g : Gr Op) (allow : Bool) : Entry Op → List (Entry Op) → Prop where
  /-- a pattern without type is always matched, and binds nothing -/
  | anything (e : Entry Op) : e.pat.types = none → Matches g allow e []
  /-- a pattern without inputs accepts any inputs -/
  | leaf (e : Entry Op) (ts : List String) : e.pat.types = some ts → TypeOk g e.op ts → e.pat.inputs = [] → Matches g allow e [e]
  /-- otherwise each input is matched by an input pattern, in order or, if reordering is allowed, in some order -/
  | node (e : Entry Op) (ts : List String) (o : Op) (ps : List Pat) (ls : List (List (Entry Op))) :
      e.pat.types = some ts → TypeOk g e.op ts → e.op = some o → e.pat.inputs ≠ [] →
      (ps = e.pat.inputs ∨ e.pat.reorder.getD allow = true ∧ ps.Perm e.pat.inputs) →
      (g o).inputs.length = ps.length → ls.length = ps.length →
      (∀ (k : Nat) (p : Pat) (i : Option Op) (s : String) (l : List (Entry Op)),
        ps[k]? = some p → (g o).inputs[k]? = some i → (g o).input[k]? = some s → ls[k]? = some l → Matches g allow ⟨p, i, some s⟩ l) →
      Matches g allow e (e :: ls.flatten)

/-- Graphs as the matcher sees them: one op per input name. -/
def WellFormed {Op : Type} (g : Gr Op) : Prop := ∀ o, (g o).input.length = (g o).inputs.length

/-- No op has a missing input. -/
def NoMissing {Op : Type} (g : Gr Op) : Prop := ∀ o, none ∉ (g o).inputs

mutual
/-- Nesting depth of a pattern. -/
def Pat.depth : Pat → Nat
  | .mk _ _ _ _ l => 1 + depths l
/-- Largest depth in a list of patterns. -/
def depths : List Pat → Nat
  | [] => 0
  | p :: ps => max p.depth (depths ps)
end

mutual
/-- A pattern and all patterns below it. -/
def Pat.subs : Pat → List Pat
  | .mk i t n r l => .mk i t n r l :: subss l
/-- All patterns in a list of patterns. -/
def subss : List Pat → List Pat
  | [] => []
  | p :: ps => p.subs ++ subss ps
end

/-! ## Permutations -/

theorem picks_perm {α : Type} {l : List α} {a : α} {l' : List α} (h : (a, l') ∈ picks l) : (a :: l').Perm l := by
  induction l generalizing l' with
  | nil => cases h
  | cons b l ih =>
    simp only [picks, List.mem_cons, List.mem_map, Prod.mk.injEq] at h
    rcases h with ⟨rfl, rfl⟩ | ⟨p, hp, rfl, rfl⟩
    · exact List.Perm.refl _
    · exact (List.Perm.swap b p.1 p.2).trans ((ih hp).cons b)

theorem mem_picks {α : Type} {l : List α} {a : α} (h : a ∈ l) : ∃ l', (a, l') ∈ picks l := by
  induction l with
  | nil => cases h
  | cons b l ih =>
    rcases List.mem_cons.1 h with rfl | h
    · exact ⟨l, by simp [picks]⟩
    · obtain ⟨l', hl'⟩ := ih h
      exact ⟨b :: l', by simp only [picks, List.mem_cons, List.mem_map]; exact Or.inr ⟨_, hl', rfl⟩⟩

theorem mem_permutations {α : Type} (n : Nat) (l ps : List α) (hn : l.length = n) : ps ∈ permutations n l ↔ ps.Perm l := by
  induction n generalizing l ps with
  | zero =>
    have : l = [] := List.eq_nil_of_length_eq_zero hn
    subst this
    simp [permutations]
  | succ n ih =>
    simp only [permutations, List.mem_flatMap, List.mem_map]
    constructor
    · rintro ⟨p, hp, q, hq, rfl⟩
      have hperm := picks_perm (a := p.1) (l' := p.2) hp
      have hl : p.2.length = n := by have := hperm.length_eq; simp at this; omega
      exact (((ih p.2 q hl).1 hq).cons p.1).trans hperm
    · intro h
      cases ps with
      | nil => have := h.length_eq; simp at this; omega
      | cons a q =>
        obtain ⟨l', hl'⟩ := mem_picks (l := l) (a := a) (h.subset (List.mem_cons_self ..))
        have hperm := picks_perm hl'
        have hl : l'.length = n := by have := hperm.length_eq; simp at this; omega
        refine ⟨(a, l'), hl', q, (ih l' q hl).2 ?_, rfl⟩
        exact List.Perm.cons_inv (h.trans hperm.symm)

/-! ## Soundness -/

theorem isOpTypeSame_true {Op : Type} {g : Gr Op} {op : Option Op} {ts : List String} :
    isOpTypeSame g op ts = .ok true ↔ TypeOk g op ts := by
  unfold isOpTypeSame TypeOk
  by_cases h : ts = ["*"]
  · simp [h]
  · rw [if_neg h]
    cases op with
    | none => simp [h]
    | some o => simp [h]

theorem zip3_get {Op : Type} (ss : List String) (os : List (Option Op)) (ps : List Pat) (h1 : ss.length = os.length)
    (h2 : os.length = ps.length) (k : Nat) (p : Pat) (i : Option Op) (s : String) (hp : ps[k]? = some p) (hi : os[k]? = some i)
    (hs : ss[k]? = some s) : (zip3 ss os ps)[k]? = some ⟨p, i, some s⟩ := by
  induction ss generalizing os ps k with
  | nil => simp at hs
  | cons s0 ss ih =>
    cases os with
    | nil => simp at h1
    | cons o0 os =>
      cases ps with
      | nil => simp at h2
      | cons p0 ps =>
        cases k with
        | zero => simp at hp hi hs; subst hp hi hs; simp [zip3]
        | succ k =>
          simp only [zip3, List.getElem?_cons_succ] at hp hi hs ⊢
          exact ih os ps (by simpa using h1) (by simpa using h2) k hp hi hs

theorem zip3_length {Op : Type} (ss : List String) (os : List (Option Op)) (ps : List Pat) (h1 : ss.length = os.length)
    (h2 : os.length = ps.length) : (zip3 ss os ps).length = ps.length := by
  induction ss generalizing os ps with
  | nil =>
    cases os with
    | nil => cases ps with | nil => rfl | cons _ _ => simp at h2
    | cons _ _ => simp at h1
  | cons s0 ss ih =>
    cases os with
    | nil => simp at h1
    | cons o0 os =>
      cases ps with
      | nil => simp at h2
      | cons p0 ps => simp only [zip3, List.length_cons]; rw [ih os ps (by simpa using h1) (by simpa using h2)]

theorem matchAll_true {Op : Type} (rec : Entry Op → Except String (Bool × List (Entry Op))) (es : List (Entry Op)) (l : List (Entry Op))
    (h : matchAll rec es = .ok (true, l)) :
    ∃ ls : List (List (Entry Op)), ls.length = es.length ∧ l = ls.flatten ∧
      ∀ (k : Nat) (e : Entry Op) (l' : List (Entry Op)), es[k]? = some e → ls[k]? = some l' → rec e = .ok (true, l') := by
  induction es generalizing l with
  | nil =>
    simp only [matchAll, Except.ok.injEq, Prod.mk.injEq, true_and] at h
    exact ⟨[], rfl, by simp [← h], by simp⟩
  | cons e es ih =>
    simp only [matchAll, bind, Except.bind] at h
    cases hr : rec e with
    | error x => rw [hr] at h; cases h
    | ok r =>
      obtain ⟨b, l1⟩ := r
      rw [hr] at h
      simp only at h
      cases hm : matchAll rec es with
      | error x => rw [hm] at h; cases h
      | ok r' =>
        obtain ⟨b', l2⟩ := r'
        rw [hm] at h
        simp only [Except.ok.injEq, Prod.mk.injEq, Bool.and_eq_true] at h
        obtain ⟨⟨rfl, rfl⟩, rfl⟩ := h
        obtain ⟨ls, h1, h2, h3⟩ := ih l2 hm
        refine ⟨l1 :: ls, by simp [h1], by simp [h2], fun k e' l' hk hl' => ?_⟩
        cases k with
        | zero => simp at hk hl'; subst hk hl'; exact hr
        | succ k => exact h3 k e' l' (by simpa using hk) (by simpa using hl')

theorem tryOrders_true {Op : Type} (rec : Entry Op → Except String (Bool × List (Entry Op))) (self : Entry Op)
    (input : List String) (inputs : List (Option Op)) (pss : List (List Pat)) (l : List (Entry Op))
    (h : tryOrders rec self input inputs pss = .ok (true, l)) :
    ∃ ps ∈ pss, ∃ l', matchAll rec (zip3 input inputs ps) = .ok (true, l') ∧ l = self :: l' := by
  induction pss with
  | nil => simp [tryOrders] at h
  | cons ps pss ih =>
    simp only [tryOrders, bind, Except.bind] at h
    cases hm : matchAll rec (zip3 input inputs ps) with
    | error x => rw [hm] at h; cases h
    | ok r =>
      obtain ⟨b, l1⟩ := r
      rw [hm] at h
      simp only at h
      cases b with
      | true =>
        simp only [if_true, Except.ok.injEq, Prod.mk.injEq, true_and] at h
        exact ⟨ps, List.mem_cons_self .., l1, hm, h.symm⟩
      | false =>
        simp only [Bool.false_eq_true, if_false] at h
        obtain ⟨ps', h1, h2⟩ := ih h
        exact ⟨ps', List.mem_cons_of_mem _ h1, h2⟩

/-- A reported match is one: with the reported op at each position. -/
theorem matchPattern_sound {Op : Type} (g : Gr Op) (hw : WellFormed g) (allow : Bool) (fuel : Nat) (e : Entry Op) (l : List (Entry Op))
    (h : matchPattern g allow fuel e = .ok (true, l)) : Matches g allow e l := by
  induction fuel generalizing e l with
  | zero => cases h
  | succ fuel ih =>
    unfold matchPattern at h
    cases ht : e.pat.types with
    | none =>
      rw [ht] at h
      simp only [Except.ok.injEq, Prod.mk.injEq, true_and] at h
      subst h
      exact .anything e ht
    | some ts =>
      rw [ht] at h
      simp only [bind, Except.bind] at h
      cases hs : isOpTypeSame g e.op ts with
      | error x => rw [hs] at h; cases h
      | ok same =>
        rw [hs] at h
        cases same with
        | false => simp at h
        | true =>
          have hto := isOpTypeSame_true.1 hs
          simp only [Bool.not_true, Bool.false_eq_true, if_false] at h
          by_cases hi : e.pat.inputs = []
          · rw [if_pos (by simp [hi])] at h
            simp only [Except.ok.injEq, Prod.mk.injEq, true_and] at h
            subst h
            exact .leaf e ts ht hto hi
          · rw [if_neg (by simp [hi])] at h
            cases ho : e.op with
            | none => rw [ho] at h; simp at h
            | some o =>
              rw [ho] at h
              simp only at h
              by_cases hl : (g o).inputs.length = e.pat.inputs.length
              · rw [if_neg (by simp [hl])] at h
                obtain ⟨ps, hps, l', hm, rfl⟩ := tryOrders_true _ _ _ _ _ _ h
                have hps' : ps = e.pat.inputs ∨ e.pat.reorder.getD allow = true ∧ ps.Perm e.pat.inputs := by
                  split at hps
                  · rename_i hr; exact Or.inr ⟨hr, (mem_permutations _ _ _ rfl).1 hps⟩
                  · exact Or.inl (by simpa using hps)
                have hpl : ps.length = e.pat.inputs.length := by
                  rcases hps' with h | h
                  · rw [h]
                  · exact h.2.length_eq
                obtain ⟨ls, h1, rfl, h3⟩ := matchAll_true _ _ _ hm
                have hzl := zip3_length (g o).input (g o).inputs ps (hw o) (by omega)
                refine .node e ts o ps ls ht hto ho hi hps' (by omega) (by omega) ?_
                intro k p i s l hp hin hs' hl'
                exact ih _ _ (h3 k _ l (zip3_get _ _ _ (hw o) (by omega) k p i s hp hin hs') hl')
              · rw [if_pos hl] at h; simp at h

/-! ## Completeness -/

theorem depth_inputs {p q : Pat} (h : q ∈ p.inputs) : q.depth < p.depth := by
  obtain ⟨i, t, n, r, l⟩ := p
  have key : ∀ l : List Pat, q ∈ l → q.depth ≤ depths l := by
    intro l
    induction l with
    | nil => intro h; cases h
    | cons a l ih =>
      intro h
      simp only [depths]
      rcases List.mem_cons.1 h with rfl | h
      · omega
      · have := ih h; omega
  have := key l h
  simp only [Pat.depth]
  omega

theorem matchAll_complete {Op : Type} (rec : Entry Op → Except String (Bool × List (Entry Op))) (es : List (Entry Op))
    (h : ∀ e ∈ es, (∃ l, rec e = .ok (true, l)) ∨ ∃ x, rec e = .error x) :
    (∃ l, matchAll rec es = .ok (true, l)) ∨ ∃ x, matchAll rec es = .error x := by
  induction es with
  | nil => exact Or.inl ⟨[], rfl⟩
  | cons e es ih =>
    simp only [matchAll, bind, Except.bind]
    rcases h e (List.mem_cons_self ..) with ⟨l, hl⟩ | ⟨x, hx⟩
    · rw [hl]
      simp only
      rcases ih (fun e' he' => h e' (List.mem_cons_of_mem _ he')) with ⟨l', hl'⟩ | ⟨x, hx⟩
      · rw [hl']; exact Or.inl ⟨l ++ l', rfl⟩
      · rw [hx]; exact Or.inr ⟨x, rfl⟩
    · rw [hx]; exact Or.inr ⟨x, rfl⟩

theorem tryOrders_complete {Op : Type} (rec : Entry Op → Except String (Bool × List (Entry Op))) (self : Entry Op)
    (input : List String) (inputs : List (Option Op)) (pss : List (List Pat))
    (h : ∃ ps ∈ pss, (∃ l, matchAll rec (zip3 input inputs ps) = .ok (true, l)) ∨ ∃ x, matchAll rec (zip3 input inputs ps) = .error x) :
    (∃ l, tryOrders rec self input inputs pss = .ok (true, l)) ∨ ∃ x, tryOrders rec self input inputs pss = .error x := by
  induction pss with
  | nil => obtain ⟨ps, hps, _⟩ := h; cases hps
  | cons ps0 pss ih =>
    obtain ⟨ps, hps, hm⟩ := h
    simp only [tryOrders, bind, Except.bind]
    cases hm0 : matchAll rec (zip3 input inputs ps0) with
    | error x => exact Or.inr ⟨x, rfl⟩
    | ok r =>
      obtain ⟨b, l⟩ := r
      cases b with
      | true => exact Or.inl ⟨_, rfl⟩
      | false =>
        simp only [Bool.false_eq_true, if_false]
        apply ih
        rcases List.mem_cons.1 hps with rfl | hps
        · rw [hm0] at hm; rcases hm with ⟨l', hl'⟩ | ⟨x, hx⟩
          · cases hl'
          · cases hx
        · exact ⟨ps, hps, hm⟩

theorem zip3_mem {Op : Type} (ss : List String) (os : List (Option Op)) (ps : List Pat) (h1 : ss.length = os.length)
    (h2 : os.length = ps.length) (e : Entry Op) (he : e ∈ zip3 ss os ps) :
    ∃ (k : Nat) (p : Pat) (i : Option Op) (s : String), ps[k]? = some p ∧ os[k]? = some i ∧ ss[k]? = some s ∧ e = ⟨p, i, some s⟩ := by
  induction ss generalizing os ps with
  | nil => simp [zip3] at he
  | cons s0 ss ih =>
    cases os with
    | nil => simp at h1
    | cons o0 os =>
      cases ps with
      | nil => simp at h2
      | cons p0 ps =>
        simp only [zip3, List.mem_cons] at he
        rcases he with rfl | he
        · exact ⟨0, p0, o0, s0, rfl, rfl, rfl, rfl⟩
        · obtain ⟨k, p, i, s, hh⟩ := ih os ps (by simpa using h1) (by simpa using h2) he
          exact ⟨k + 1, p, i, s, by simpa using hh⟩

/-- An instance of the pattern is never rejected: it is matched, unless looking at a missing input raises. -/
theorem matchPattern_complete {Op : Type} (g : Gr Op) (hw : WellFormed g) (allow : Bool) (fuel : Nat) (e : Entry Op) (l : List (Entry Op))
    (hf : e.pat.depth < fuel) (h : Matches g allow e l) :
    (∃ l', matchPattern g allow fuel e = .ok (true, l')) ∨ ∃ x, matchPattern g allow fuel e = .error x := by
  induction fuel generalizing e l with
  | zero => omega
  | succ fuel ih =>
    unfold matchPattern
    cases h with
    | anything _ ht => rw [ht]; exact Or.inl ⟨_, rfl⟩
    | leaf _ ts ht hto hi =>
      rw [ht]
      simp only [bind, Except.bind, isOpTypeSame_true.2 hto]
      simp [hi]
    | node _ ts o ps ls ht hto ho hi hps hlen hls hsub =>
      rw [ht]
      simp only [bind, Except.bind, isOpTypeSame_true.2 hto, Bool.not_true, Bool.false_eq_true, if_false]
      rw [if_neg (by simp [hi])]
      simp only [ho]
      have hpl : ps.length = e.pat.inputs.length := by
        rcases hps with h | h
        · rw [h]
        · exact h.2.length_eq
      rw [if_neg (by simp; omega)]
      apply tryOrders_complete
      refine ⟨ps, ?_, ?_⟩
      · rcases hps with h | h
        · subst h
          split
          · exact (mem_permutations _ _ _ rfl).2 (List.Perm.refl _)
          · simp
        · rw [if_pos h.1]; exact (mem_permutations _ _ _ rfl).2 h.2
      · apply matchAll_complete
        intro e' he'
        obtain ⟨k, p, i, s, hp, hin, hs, rfl⟩ := zip3_mem _ _ _ (hw o) (by omega) e' he'
        have hk : k < ls.length := by
          have := (List.getElem?_eq_some_iff.1 hp).1; omega
        have hmem : p ∈ e.pat.inputs := by
          rcases hps with h | h
          · rw [← h]; exact List.mem_of_getElem? hp
          · exact h.2.subset (List.mem_of_getElem? hp)
        refine ih _ ls[k] ?_ (hsub k p i s ls[k] hp hin hs (by simp [hk]))
        have := depth_inputs hmem
        show p.depth < fuel
        omega

/-- Nothing raises if no input is missing. -/
theorem matchPattern_total {Op : Type} (g : Gr Op) (hw : WellFormed g) (hn : NoMissing g) (allow : Bool) (fuel : Nat) (e : Entry Op)
    (hf : e.pat.depth < fuel) (he : e.op ≠ none) : ∃ r, matchPattern g allow fuel e = .ok r := by
  induction fuel generalizing e with
  | zero => omega
  | succ fuel ih =>
    unfold matchPattern
    cases ht : e.pat.types with
    | none => exact ⟨_, rfl⟩
    | some ts =>
      obtain ⟨o, ho⟩ := Option.ne_none_iff_exists'.1 he
      have hs : ∃ b, isOpTypeSame g e.op ts = .ok b := by
        unfold isOpTypeSame
        split
        · exact ⟨_, rfl⟩
        · rw [ho]; exact ⟨_, rfl⟩
      obtain ⟨b, hb⟩ := hs
      simp only [bind, Except.bind, hb]
      split
      · exact ⟨_, rfl⟩
      · split
        · exact ⟨_, rfl⟩
        · rw [ho]
          simp only
          split
          · exact ⟨_, rfl⟩
          · rename_i hlen
            have hlen : (g o).inputs.length = e.pat.inputs.length := by simpa using hlen
            have key : ∀ pss : List (List Pat), (∀ ps ∈ pss, ps.Perm e.pat.inputs) →
                ∃ r, tryOrders (matchPattern g allow fuel) e (g o).input (g o).inputs pss = .ok r := by
              intro pss
              induction pss with
              | nil => intro _; exact ⟨_, rfl⟩
              | cons ps pss ih2 =>
                intro hp
                have hperm := hp ps (List.mem_cons_self ..)
                have hall : ∀ es : List (Entry Op), (∀ e' ∈ es, ∃ r, matchPattern g allow fuel e' = .ok r) →
                    ∃ r, matchAll (matchPattern g allow fuel) es = .ok r := by
                  intro es
                  induction es with
                  | nil => intro _; exact ⟨_, rfl⟩
                  | cons e1 es ih3 =>
                    intro h
                    obtain ⟨r1, hr1⟩ := h e1 (List.mem_cons_self ..)
                    obtain ⟨r2, hr2⟩ := ih3 (fun e' he' => h e' (List.mem_cons_of_mem _ he'))
                    simp only [matchAll, bind, Except.bind, hr1, hr2]
                    exact ⟨_, rfl⟩
                obtain ⟨r, hr⟩ := hall (zip3 (g o).input (g o).inputs ps) (by
                  intro e' he'
                  obtain ⟨k, p, i, s, h1, h2, h3, rfl⟩ := zip3_mem _ _ _ (hw o) (by rw [hperm.length_eq]; exact hlen) e' he'
                  have := depth_inputs (hperm.subset (List.mem_of_getElem? h1))
                  refine ih _ (show p.depth < fuel by omega) ?_
                  intro (hi : i = none)
                  exact hn o (hi ▸ List.mem_of_getElem? h2))
                simp only [tryOrders, bind, Except.bind, hr]
                split
                · exact ⟨_, rfl⟩
                · exact ih2 (fun q hq => hp q (List.mem_cons_of_mem _ hq))
            apply key
            intro ps hps
            split at hps
            · exact (mem_permutations _ _ _ rfl).1 hps
            · rw [List.mem_singleton.1 hps]

/-! ## What the result records -/

theorem subss_eq (l : List Pat) : subss l = l.flatMap Pat.subs := by
  induction l with
  | nil => rfl
  | cons a l ih => simp [subss, ih]

theorem subss_perm {l l' : List Pat} (h : l.Perm l') : (subss l).Perm (subss l') := by
  rw [subss_eq, subss_eq]; exact h.flatMap_right _

theorem flatten_subperm {Op : Type} (ls : List (List (Entry Op))) (ps : List Pat) (hl : ls.length = ps.length)
    (h : ∀ (k : Nat) (l : List (Entry Op)) (p : Pat), ls[k]? = some l → ps[k]? = some p → (l.map (·.pat)).Subperm p.subs) :
    (ls.flatten.map (·.pat)).Subperm (subss ps) := by
  induction ls generalizing ps with
  | nil => simp
  | cons l ls ih =>
    cases ps with
    | nil => simp at hl
    | cons p ps =>
      simp only [List.flatten_cons, List.map_append, subss]
      exact (h 0 l p rfl rfl).append (ih ps (by simpa using hl) (fun k l' p' h1 h2 => h (k + 1) l' p' (by simpa using h1) (by simpa using h2)))

/-- The patterns at the recorded positions are patterns of the tree, each at most as often as it occurs there. -/
theorem matches_subs {Op : Type} {g : Gr Op} (hw : WellFormed g) {allow : Bool} {e : Entry Op} {l : List (Entry Op)}
    (h : Matches g allow e l) : (l.map (·.pat)).Subperm e.pat.subs := by
  induction h with
  | anything e ht => exact List.nil_subperm
  | leaf e ts ht hto hi =>
    obtain ⟨p, op, t⟩ := e
    obtain ⟨i, t, n, r, l⟩ := p
    simp only [Pat.subs, List.map_cons, List.map_nil]
    exact (List.subperm_cons _).2 List.nil_subperm
  | node e ts o ps ls ht hto ho hi hps hlen hls hsub ih =>
    have hflat : (ls.flatten.map (·.pat)).Subperm (subss ps) := by
      apply flatten_subperm ls ps hls
      intro k l p hl hp
      have hk := (List.getElem?_eq_some_iff.1 hp).1
      have hk1 : k < (g o).inputs.length := by omega
      have hk2 : k < (g o).input.length := by rw [hw o]; exact hk1
      exact ih k p _ _ l hp (List.getElem?_eq_getElem hk1) (List.getElem?_eq_getElem hk2) hl
    have hperm : (subss ps).Perm (subss e.pat.inputs) := by
      rcases hps with h | h
      · rw [h]
      · exact subss_perm h.2
    have : e.pat.subs = e.pat :: subss e.pat.inputs := by
      obtain ⟨p, op, t⟩ := e
      obtain ⟨i, t, n, r, l⟩ := p
      rfl
    rw [this, List.map_cons]
    exact (List.subperm_cons _).2 (hflat.trans hperm.subperm)

theorem nodup_of_subperm {α : Type} {l l' : List α} (h : l.Subperm l') (hn : l'.Nodup) : l.Nodup := by
  obtain ⟨l0, hp, hs⟩ := h
  exact hp.nodup_iff.1 (hs.nodup hn)

theorem foldl_add {Op : Type} (l : List (Entry Op)) (r : Result Op) (hid : (l.map (·.pat.ident)).Nodup)
    (hnm : (l.filterMap (·.pat.name)).Nodup) :
    (∀ e ∈ l, (l.foldl Result.add r).ops.get e.pat.ident = some (e.op, e.tensor)) ∧
    (∀ e ∈ l, ∀ n, e.pat.name = some n → (l.foldl Result.add r).names.get n = some e.pat.ident) ∧
    (∀ i, i ∉ l.map (·.pat.ident) → (l.foldl Result.add r).ops.get i = r.ops.get i) ∧
    (∀ n, n ∉ l.filterMap (·.pat.name) → (l.foldl Result.add r).names.get n = r.names.get n) := by
  induction l generalizing r with
  | nil => simp
  | cons a l ih =>
    have hid' := List.nodup_cons.1 (by simpa using hid : (a.pat.ident :: l.map (·.pat.ident)).Nodup)
    have hnm' : (l.filterMap (·.pat.name)).Nodup := by
      cases hn : a.pat.name with
      | none => rw [List.filterMap_cons_none (f := fun (x : Entry Op) => x.pat.name) hn] at hnm; exact hnm
      | some n => rw [List.filterMap_cons_some (f := fun (x : Entry Op) => x.pat.name) hn] at hnm; exact (List.nodup_cons.1 hnm).2
    obtain ⟨h1, h2, h3, h4⟩ := ih (r.add a) hid'.2 hnm'
    simp only [List.foldl_cons]
    refine ⟨?_, ?_, ?_, ?_⟩
    · intro e he
      rcases List.mem_cons.1 he with rfl | he
      · rw [h3 _ hid'.1]; simp [Result.add]
      · exact h1 e he
    · intro e he n hn
      rcases List.mem_cons.1 he with rfl | he
      · rw [List.filterMap_cons_some (f := fun (x : Entry Op) => x.pat.name) hn] at hnm
        rw [h4 n (List.nodup_cons.1 hnm).1]
        simp [Result.add, hn]
      · exact h2 e he n hn
    · intro i hi
      simp only [List.map_cons, List.mem_cons, not_or] at hi
      rw [h3 i hi.2]
      simp only [Result.add, Dict.get_set]
      rw [if_neg (fun h => hi.1 h.symm)]
    · intro n hn
      cases hna : a.pat.name with
      | none =>
        rw [List.filterMap_cons_none (f := fun (x : Entry Op) => x.pat.name) hna] at hn
        rw [h4 n hn]; simp [Result.add, hna]
      | some m =>
        rw [List.filterMap_cons_some (f := fun (x : Entry Op) => x.pat.name) hna] at hn
        simp only [List.mem_cons, not_or] at hn
        rw [h4 n hn.2]
        simp only [Result.add, hna, Dict.get_set]
        rw [if_neg (fun h => hn.1 h.symm)]

/-! ## C21 -/

/-- **C21** (completeness and soundness of the verdict): `match_op` returns a match exactly when the region rooted at the op is an
instance of the pattern, for all patterns and graphs without missing inputs. `fuel`: the recursion limit exceeds the depth of
the pattern. -/
theorem match_op_iff {Op : Type} (g : Gr Op) (hw : WellFormed g) (hn : NoMissing g) (allow : Bool) (fuel : Nat) (p : Pat)
    (hf : p.depth < fuel) (op : Op) :
    ∃ r, matchOp g allow fuel p op = .ok r ∧ (r.isSome ↔ ∃ l, Matches g allow ⟨p, some op, none⟩ l) := by
  obtain ⟨⟨b, l⟩, hr⟩ := matchPattern_total g hw hn allow fuel ⟨p, some op, none⟩ hf (by simp)
  unfold matchOp
  simp only [bind, Except.bind, hr]
  cases b with
  | true => exact ⟨_, rfl, by simp; exact ⟨l, matchPattern_sound g hw allow fuel _ _ hr⟩⟩
  | false =>
    refine ⟨_, rfl, ?_⟩
    simp only [Bool.false_eq_true, Option.isSome_none, false_iff]
    rintro ⟨l', hl'⟩
    rcases matchPattern_complete g hw allow fuel _ l' hf hl' with ⟨l'', h⟩ | ⟨x, h⟩
    · rw [hr] at h; cases h
    · rw [hr] at h; cases h

/-- **C21** (what is recorded): when `match_op` returns a match, the region is an instance of the pattern such that, if the patterns
of the tree are distinct objects with distinct names, `get_op(name)` and `get_tensor(name)` are the op and the tensor at the
position of the pattern with that name. Holds for all graphs, also with missing inputs. -/
theorem match_op_recorded {Op : Type} (g : Gr Op) (hw : WellFormed g) (allow : Bool) (fuel : Nat) (p : Pat) (op : Op) (r : Result Op)
    (h : matchOp g allow fuel p op = .ok (some r)) :
    ∃ l, Matches g allow ⟨p, some op, none⟩ l ∧
      ((p.subs.map Pat.ident).Nodup → (p.subs.filterMap Pat.name).Nodup →
        ∀ e ∈ l, ∀ n, e.pat.name = some n → r.getOp n = e.op ∧ r.getTensor n = e.tensor) := by
  unfold matchOp at h
  simp only [bind, Except.bind] at h
  cases hr : matchPattern g allow fuel ⟨p, some op, none⟩ with
  | error x => rw [hr] at h; cases h
  | ok res =>
    obtain ⟨b, l⟩ := res
    rw [hr] at h
    cases b with
    | false => simp at h
    | true =>
      simp only [if_true, Except.ok.injEq, Option.some.injEq] at h
      subst h
      have hm := matchPattern_sound g hw allow fuel _ _ hr
      refine ⟨l, hm, fun hid hnm e he n hn => ?_⟩
      have hsub := matches_subs hw hm
      have h1 : (l.map (·.pat.ident)).Nodup := by
        have : ((l.map (·.pat)).map Pat.ident).Subperm (p.subs.map Pat.ident) := by
          obtain ⟨l0, hp, hs⟩ := hsub
          exact ⟨l0.map Pat.ident, hp.map _, hs.map _⟩
        rw [List.map_map] at this
        exact nodup_of_subperm this hid
      have h2 : (l.filterMap (·.pat.name)).Nodup := by
        have : ((l.map (·.pat)).filterMap Pat.name).Subperm (p.subs.filterMap Pat.name) := by
          obtain ⟨l0, hp, hs⟩ := hsub
          exact ⟨l0.filterMap Pat.name, hp.filterMap _, hs.filterMap _⟩
        rw [List.filterMap_map] at this
        exact nodup_of_subperm this hnm
      obtain ⟨h3, h4, _, _⟩ := foldl_add l ({} : Result Op) h1 h2
      unfold Result.getOp Result.getTensor
      rw [h4 e he n hn]
      simp only [h3 e he]
      exact ⟨trivial, trivial⟩

/-! ### Instances and counterexample -/

/-- `Add(Mul(x, y), c)` as ops 0..4. -/
def exGr : Gr Nat
  | 0 => ⟨"Add", ["m:0", "c:0"], [some 1, some 4]⟩
  | 1 => ⟨"Mul", ["x:0", "y:0"], [some 2, some 3]⟩
  | 2 => ⟨"Placeholder", [], []⟩
  | 3 => ⟨"Placeholder", [], []⟩
  | _ => ⟨"Const", [], []⟩

/-- `OpTypePattern('Add', name='add', inputs=['Const', OpTypePattern('Mul|Div', name='mul')])`. -/
def exPat : Pat := .mk 0 (some ["Add"]) (some "add") none
  [.mk 1 (some ["Const"]) (some "c") none [], .mk 2 (some ["Mul", "Div"]) (some "mul") none []]

theorem exGr_wf : WellFormed exGr := by intro o; unfold exGr; split <;> rfl
theorem exGr_full : NoMissing exGr := by intro o; unfold exGr; split <;> simp

/-- With reordering the pattern is found and its names resolved; without it is not. -/
example : (matchOp exGr true 5 exPat 0).toOption.bind (fun r => r.map (fun r => (r.getOp "add", r.getOp "c", r.getOp "mul", r.getTensor "mul"))) =
      some (some 0, some 4, some 1, some "m:0") ∧
    (matchOp exGr false 5 exPat 0).toOption.map Option.isSome = some false := by decide

example : ∃ r, matchOp exGr true 5 exPat 0 = .ok r ∧ (r.isSome ↔ ∃ l, Matches exGr true ⟨exPat, some 0, none⟩ l) :=
  match_op_iff exGr exGr_wf exGr_full true 5 exPat (by decide) 0

example : (exPat.subs.map Pat.ident).Nodup ∧ (exPat.subs.filterMap Pat.name).Nodup := by decide

/-- With a missing (optional) input, a pattern that asks for an op type at that position does not fail to match: the matcher raises
`AttributeError`, even if another order of the inputs would match. -/
theorem match_op_missing_input_violated :
    let g : Gr Nat := fun o => if o = 0 then ⟨"Clip", ["", "x:0"], [none, some 1]⟩ else ⟨"Const", [], []⟩
    let p : Pat := .mk 0 (some ["Clip"]) none (some true) [.mk 1 (some ["Const"]) none none [], .mk 2 (some ["*"]) none none []]
    (∃ l, Matches g false ⟨p, some 0, none⟩ l) ∧ matchOp g false 5 p 0 = .error "AttributeError: 'NoneType' object has no attribute 'type'" := by
  refine ⟨⟨_, .node _ ["Clip"] 0 [.mk 2 (some ["*"]) none none [], .mk 1 (some ["Const"]) none none []]
    [[⟨.mk 2 (some ["*"]) none none [], none, some ""⟩], [⟨.mk 1 (some ["Const"]) none none [], some 1, some "x:0"⟩]]
    rfl (Or.inr ⟨0, rfl, by simp⟩) rfl (by simp [Pat.inputs]) (Or.inr ⟨rfl, List.Perm.swap _ _ _⟩) rfl rfl ?_⟩, rfl⟩
  intro k p i s l h1 h2 h3 h4
  match k with
  | 0 =>
    simp at h1 h2 h3 h4
    subst h1 h2 h3 h4
    exact .leaf _ ["*"] rfl (Or.inl rfl) rfl
  | 1 =>
    simp at h1 h2 h3 h4
    subst h1 h2 h3 h4
    exact .leaf _ ["Const"] rfl (Or.inr ⟨1, rfl, by simp⟩) rfl
  | k + 2 => simp at h1

end Verif.Matcher
