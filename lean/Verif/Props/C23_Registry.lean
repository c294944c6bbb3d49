import Verif.Model.Registry
import Mathlib.Data.List.Nodup
import Mathlib.Data.List.Induction
/-!
# C23: the right converter version is selected
-/
namespace Verif.Registry
open Verif

/-! ## Specification -/

/-- What is registered for an operator in a domain at a version: the last call that names it. -/
def At {H : Type} (hist : List (Call H)) (domain : String) (version : Nat) (name : String) (h : H) : Prop :=
  ∃ pre c post, hist = pre ++ c :: post ∧ c.domain = domain ∧ c.version = version ∧ name ∈ c.names ∧ c.handler = h ∧
    ∀ c' ∈ post, ¬ (c'.domain = domain ∧ c'.version = version ∧ name ∈ c'.names)

/-- Nothing is registered. -/
def NoneAt {H : Type} (hist : List (Call H)) (domain : String) (version : Nat) (name : String) : Prop :=
  ∀ c ∈ hist, ¬ (c.domain = domain ∧ c.version = version ∧ name ∈ c.names)

/-- The converter of a domain for a requested version: the largest version not above it. -/
def Selected {H : Type} (hist : List (Call H)) (domain : String) (m : Nat) (name : String) (h : H) : Prop :=
  ∃ v ≤ m, At hist domain v name h ∧ ∀ v', v < v' → v' ≤ m → NoneAt hist domain v' name

/-- The version the user asked for in a domain, if any (0 counts as not asked for): the last extra opset naming the
domain, or the ONNX opset for the default domain. -/
def Asked (onnxVersion : Nat) (extra : List (String × Nat)) (domain : String) (m : Nat) : Prop :=
  m ≠ 0 ∧ ((∃ pre post, extra = pre ++ (domain, m) :: post ∧ ∀ p ∈ post, p.1 ≠ domain) ∨
    (domain = "" ∧ m = onnxVersion ∧ ∀ p ∈ extra, p.1 ≠ domain))

/-- `d` was first registered before `d'`. -/
def Before {H : Type} (hist : List (Call H)) (d d' : String) : Prop :=
  ∃ pre c post, hist = pre ++ c :: post ∧ c.domain = d ∧ (∀ x ∈ pre, x.domain ≠ d') ∧ d ≠ d' ∧ ∃ c' ∈ post, c'.domain = d'

/-! ## Lemmas about dictionaries -/

theorem keys_set {β : Type} {κ : Type} [DecidableEq κ] (d : Dict κ β) (x : κ) (b : β) :
    (d.set x b).keys = if x ∈ d.keys then d.keys else d.keys ++ [x] := by
  induction d with
  | nil => simp [Dict.set, Dict.keys]
  | cons p d ih =>
    obtain ⟨k, v⟩ := p
    simp only [Dict.set]
    by_cases hk : k = x
    · subst hk; simp [Dict.keys]
    · have hk' : x ≠ k := fun c => hk c.symm
      rw [if_neg hk]
      have e1 : ∀ X : Dict κ β, Dict.keys ((k, v) :: X) = k :: X.keys := fun _ => rfl
      rw [e1, e1, ih]
      by_cases hx : x ∈ Dict.keys d
      · rw [if_pos hx, if_pos (List.mem_cons_of_mem _ hx)]
      · have hx' : x ∉ k :: Dict.keys d := by simp [hk', hx]
        rw [if_neg hx, if_neg hx']; rfl

theorem keys_set_nodup {β : Type} {κ : Type} [DecidableEq κ] {d : Dict κ β} (h : d.keys.Nodup) (x : κ) (b : β) :
    (d.set x b).keys.Nodup := by
  rw [keys_set]
  split
  · exact h
  · rename_i hx
    rw [List.nodup_append]
    refine ⟨h, by simp, ?_⟩
    intro a ha b hb
    simp only [List.mem_singleton] at hb
    subst hb
    exact fun c => hx (c ▸ ha)

theorem get_update {β : Type} {κ : Type} [DecidableEq κ] (a b : Dict κ β) (hb : b.keys.Nodup) (x : κ) :
    (update a b).get x = (b.get x).or (a.get x) := by
  induction b generalizing a with
  | nil => simp [update]
  | cons p b ih =>
    obtain ⟨k, v⟩ := p
    simp only [Dict.keys, List.map_cons, List.nodup_cons] at hb
    simp only [update]
    rw [ih _ hb.2, Dict.get_set]
    simp only [Dict.get]
    by_cases hk : k = x
    · subst hk
      have : Dict.get b k = none := Dict.get_eq_none_iff.2 hb.1
      simp [this]
    · simp [hk]

/-- Last matching entry of a list of pairs. -/
theorem get_update_list {β : Type} {κ : Type} [DecidableEq κ] (a b : Dict κ β) (x : κ) (v : β) :
    (update a b).get x = some v ↔
      (∃ pre post, b = pre ++ (x, v) :: post ∧ ∀ p ∈ post, p.1 ≠ x) ∨ (a.get x = some v ∧ ∀ p ∈ b, p.1 ≠ x) := by
  induction b generalizing a with
  | nil => simp [update]
  | cons p b ih =>
    obtain ⟨k, w⟩ := p
    simp only [update]
    rw [ih, Dict.get_set]
    constructor
    · rintro (⟨pre, post, rfl, h⟩ | ⟨h1, h2⟩)
      · exact Or.inl ⟨(k, w) :: pre, post, rfl, h⟩
      · by_cases hk : k = x
        · subst hk
          rw [if_pos rfl] at h1
          cases h1
          exact Or.inl ⟨[], b, rfl, h2⟩
        · rw [if_neg hk] at h1
          refine Or.inr ⟨h1, ?_⟩
          intro q hq
          rcases List.mem_cons.1 hq with rfl | hq
          · exact hk
          · exact h2 q hq
    · rintro (⟨pre, post, he, h⟩ | ⟨h1, h2⟩)
      · cases pre with
        | nil =>
          simp only [List.nil_append, List.cons.injEq, Prod.mk.injEq] at he
          obtain ⟨⟨rfl, rfl⟩, rfl⟩ := he
          exact Or.inr ⟨by simp, h⟩
        | cons q pre =>
          simp only [List.cons_append, List.cons.injEq] at he
          obtain ⟨-, rfl⟩ := he
          exact Or.inl ⟨pre, post, rfl, h⟩
      · refine Or.inr ⟨?_, fun q hq => h2 q (List.mem_cons_of_mem _ hq)⟩
        rw [if_neg (h2 (k, w) (List.mem_cons_self))]
        exact h1

theorem requested_iff (onnxVersion : Nat) (extra : List (String × Nat)) (domain : String) (m : Nat) (hm : m ≠ 0) :
    (requested onnxVersion extra).get domain = some m ↔ Asked onnxVersion extra domain m := by
  unfold requested Asked
  rw [get_update_list]
  simp only [Dict.get]
  constructor
  · rintro (h | ⟨h1, h2⟩)
    · exact ⟨hm, Or.inl h⟩
    · split at h1
      · rename_i e
        cases h1
        exact ⟨hm, Or.inr ⟨e.symm, rfl, h2⟩⟩
      · cases h1
  · rintro ⟨-, h | ⟨rfl, rfl, h⟩⟩
    · exact Or.inl h
    · exact Or.inr ⟨by simp, h⟩

/-! ## The registry after any history -/

theorem get_setAll {H : Type} (d : Dict String H) (names : List String) (h : H) (x : String) :
    (setAll d names h).get x = if x ∈ names then some h else d.get x := by
  unfold setAll
  induction names generalizing d with
  | nil => simp
  | cons n names ih =>
    simp only [List.foldl_cons]
    rw [ih, Dict.get_set]
    by_cases h1 : x ∈ names
    · simp [h1]
    · by_cases h2 : n = x
      · simp [h2]
      · have : x ≠ n := fun c => h2 c.symm
        simp [h1, h2, this]

theorem setAll_nodup {H : Type} {d : Dict String H} (hd : d.keys.Nodup) (names : List String) (h : H) :
    (setAll d names h).keys.Nodup := by
  unfold setAll
  induction names generalizing d with
  | nil => exact hd
  | cons n names ih => exact ih (keys_set_nodup hd n h)

/-- Everything the registry holds. -/
structure RegInv {H : Type} (hist : List (Call H)) (o : Opsets H) : Prop where
  nodup : o.keys.Nodup
  keys : ∀ d, d ∈ o.keys ↔ ∃ c ∈ hist, c.domain = d
  order : ∀ d d', Before hist d d' → ∃ l1 l2, o.keys = l1 ++ l2 ∧ d ∈ l1 ∧ d' ∈ l2
  val : ∀ d l, o.get d = some l → ∀ v name h, (l.getD v []).get name = some h ↔ At hist d v name h
  names : ∀ d l, o.get d = some l → ∀ v, (l.getD v []).keys.Nodup

theorem at_snoc {H : Type} (hist : List (Call H)) (c : Call H) (d : String) (v : Nat) (name : String) (h : H) :
    At (hist ++ [c]) d v name h ↔
      if c.domain = d ∧ c.version = v ∧ name ∈ c.names then c.handler = h else At hist d v name h := by
  constructor
  · rintro ⟨pre, c', post, he, h1, h2, h3, h4, h5⟩
    rcases List.eq_nil_or_concat post with rfl | ⟨post', q, rfl⟩
    · have := List.append_inj' he (by simp)
      simp only [List.cons.injEq, and_true] at this
      obtain ⟨rfl, rfl⟩ := this
      rw [if_pos ⟨h1, h2, h3⟩]; exact h4
    · rw [List.concat_eq_append, ← List.cons_append, ← List.append_assoc] at he
      have := List.append_inj' he (by simp)
      simp only [List.cons.injEq, and_true] at this
      obtain ⟨rfl, rfl⟩ := this
      rw [if_neg (h5 c (by simp))]
      exact ⟨pre, c', post', rfl, h1, h2, h3, h4, fun x hx => h5 x (by simp [hx])⟩
  · intro hh
    split at hh
    · rename_i hc
      exact ⟨hist, c, [], rfl, hc.1, hc.2.1, hc.2.2, hh, by simp⟩
    · rename_i hc
      obtain ⟨pre, c', post, rfl, h1, h2, h3, h4, h5⟩ := hh
      refine ⟨pre, c', post ++ [c], by simp, h1, h2, h3, h4, ?_⟩
      intro x hx
      rcases List.mem_append.1 hx with hx | hx
      · exact h5 x hx
      · simp only [List.mem_singleton] at hx
        subst hx; exact hc

theorem before_snoc {H : Type} (hist : List (Call H)) (c : Call H) (d d' : String) (h : Before (hist ++ [c]) d d') :
    Before hist d d' ∨ (d' = c.domain ∧ (∀ x ∈ hist, x.domain ≠ d') ∧ ∃ x ∈ hist, x.domain = d) := by
  obtain ⟨pre, c', post, he, h1, h2, h3, h4⟩ := h
  rcases List.eq_nil_or_concat post with rfl | ⟨post', q, rfl⟩
  · obtain ⟨x, hx, _⟩ := h4; simp at hx
  · rw [List.concat_eq_append, ← List.cons_append, ← List.append_assoc] at he
    have := List.append_inj' he (by simp)
    simp only [List.cons.injEq, and_true] at this
    obtain ⟨rfl, rfl⟩ := this
    by_cases hp : ∃ x ∈ post', x.domain = d'
    · exact Or.inl ⟨pre, c', post', rfl, h1, h2, h3, hp⟩
    · right
      obtain ⟨x, hx, hxd⟩ := h4
      rw [List.concat_eq_append] at hx
      rcases List.mem_append.1 hx with hx | hx
      · exact absurd ⟨x, hx, hxd⟩ hp
      · simp only [List.mem_singleton] at hx
        subst hx
        refine ⟨hxd.symm, ?_, c', by simp, h1⟩
        intro y hy
        rcases List.mem_append.1 hy with hy | hy
        · exact h2 y hy
        · rcases List.mem_cons.1 hy with rfl | hy
          · rw [h1]; exact h3
          · exact fun e => hp ⟨y, hy, e⟩

theorem getD_extend {H : Type} (l : List (Dict String H)) (version v : Nat) :
    (extend l version).getD v [] = l.getD v [] := by
  unfold extend
  simp only [List.getD_eq_getElem?_getD]
  by_cases h : v < l.length
  · rw [List.getElem?_append_left h]
  · rw [List.getElem?_append_right (by omega), List.getElem?_eq_none (by omega : l.length ≤ v),
      List.getElem?_replicate]
    split <;> rfl

theorem length_extend {H : Type} (l : List (Dict String H)) (version : Nat) : version < (extend l version).length := by
  unfold extend; simp; omega

theorem getD_register_list {H : Type} (l : List (Dict String H)) (c : Call H) (v : Nat) :
    ((extend l c.version).set c.version (setAll ((extend l c.version).getD c.version []) c.names c.handler)).getD v [] =
      if v = c.version then setAll (l.getD c.version []) c.names c.handler else l.getD v [] := by
  rw [getD_extend]
  by_cases h : v = c.version
  · subst h
    simp [List.getD_eq_getElem?_getD, List.getElem?_set_self (length_extend l c.version)]
  · rw [if_neg h, ← getD_extend l c.version v]
    simp only [List.getD_eq_getElem?_getD]
    rw [List.getElem?_set_ne (fun e => h e.symm)]

theorem regInv {H : Type} (hist : List (Call H)) : RegInv hist (registered hist) := by
  induction hist using List.reverseRecOn with
  | nil =>
    refine ⟨by simp [registered, Dict.keys], by simp [registered, Dict.keys], ?_, ?_, ?_⟩
    · rintro d d' ⟨pre, c, post, he, _⟩; simp at he
    · intro d l h; simp [registered] at h
    · intro d l h; simp [registered] at h
  | append_singleton hist c ih =>
    have hr : registered (hist ++ [c]) = register (registered hist) c := by simp [registered, List.foldl_append]
    rw [hr]
    generalize registered hist = o at ih
    have hkeys : (register o c).keys = if c.domain ∈ o.keys then o.keys else o.keys ++ [c.domain] := keys_set _ _ _
    have hget : ∀ d, (register o c).get d = if c.domain = d then
        some ((extend ((o.get c.domain).getD []) c.version).set c.version
          (setAll ((extend ((o.get c.domain).getD []) c.version).getD c.version []) c.names c.handler))
        else o.get d := by intro d; exact Dict.get_set _ _ _ _
    have hval : ∀ v name h, (((o.get c.domain).getD []).getD v []).get name = some h ↔ At hist c.domain v name h := by
      intro v name h
      cases ho : o.get c.domain with
      | some l => simpa using ih.val c.domain l ho v name h
      | none =>
        simp only [Option.getD_none, List.getD_nil, Dict.get_nil]
        constructor
        · intro h; cases h
        · rintro ⟨pre, c', post, rfl, h1, -⟩
          exact absurd ((ih.keys _).2 ⟨c', by simp, h1⟩) (Dict.get_eq_none_iff.1 ho)
    have hnames : ∀ v, (((o.get c.domain).getD []).getD v []).keys.Nodup := by
      intro v
      cases ho : o.get c.domain with
      | some l => simpa using ih.names c.domain l ho v
      | none => simp [Dict.keys]
    refine ⟨keys_set_nodup ih.nodup _ _, ?_, ?_, ?_, ?_⟩
    · intro d
      rw [hkeys]
      simp only [List.mem_append, List.mem_singleton]
      constructor
      · intro h
        split at h
        · obtain ⟨x, hx, e⟩ := (ih.keys d).1 h
          exact ⟨x, Or.inl hx, e⟩
        · rcases List.mem_append.1 h with h | h
          · obtain ⟨x, hx, e⟩ := (ih.keys d).1 h
            exact ⟨x, Or.inl hx, e⟩
          · have h' : d = c.domain := by simpa using h
            exact ⟨c, Or.inr rfl, h'.symm⟩
      · rintro ⟨x, hx | rfl, rfl⟩
        · have := (ih.keys _).2 ⟨x, hx, rfl⟩
          split
          · exact this
          · exact List.mem_append_left _ this
        · split
          · assumption
          · simp
    · intro d d' hb
      rw [hkeys]
      rcases before_snoc hist c d d' hb with hb | ⟨rfl, hno, x, hx, rfl⟩
      · obtain ⟨l1, l2, e, h1, h2⟩ := ih.order d d' hb
        split
        · exact ⟨l1, l2, e, h1, h2⟩
        · exact ⟨l1, l2 ++ [c.domain], by rw [e, List.append_assoc], h1, List.mem_append_left _ h2⟩
      · have hnk : c.domain ∉ o.keys := by
          intro hm
          obtain ⟨y, hy, e⟩ := (ih.keys _).1 hm
          exact hno y hy e
        rw [if_neg hnk]
        exact ⟨o.keys, [c.domain], rfl, (ih.keys _).2 ⟨x, hx, rfl⟩, by simp⟩
    · intro d l hl v name h
      rw [hget] at hl
      rw [at_snoc]
      by_cases hd : c.domain = d
      · subst hd
        rw [if_pos rfl] at hl
        simp only [Option.some.injEq] at hl
        subst hl
        rw [getD_register_list]
        by_cases hv : v = c.version
        · subst hv
          rw [if_pos rfl, get_setAll]
          by_cases hn : name ∈ c.names
          · simp [hn]
          · rw [if_neg hn, hval, if_neg (fun e => hn e.2.2)]
        · rw [if_neg hv, hval, if_neg (fun e => hv e.2.1.symm)]
      · rw [if_neg hd] at hl
        rw [ih.val d l hl, if_neg (fun e => hd e.1)]
    · intro d l hl v
      rw [hget] at hl
      by_cases hd : c.domain = d
      · rw [if_pos hd] at hl
        simp only [Option.some.injEq] at hl
        subst hl
        rw [getD_register_list]
        split
        · exact setAll_nodup (hnames _) _ _
        · exact hnames v
      · rw [if_neg hd] at hl
        exact ih.names d l hl v

theorem noneAt_iff {H : Type} (hist : List (Call H)) (d : String) (v : Nat) (name : String) :
    NoneAt hist d v name ↔ ∀ h, ¬ At hist d v name h := by
  constructor
  · rintro hn h ⟨pre, c, post, rfl, h1, h2, h3, -⟩
    exact hn c (by simp) ⟨h1, h2, h3⟩
  · intro h
    induction hist using List.reverseRecOn with
    | nil => intro c hc; simp at hc
    | append_singleton hist c ih =>
      have hc : ¬ (c.domain = d ∧ c.version = v ∧ name ∈ c.names) := by
        intro hc
        exact h c.handler ((at_snoc _ _ _ _ _ _).2 (by rw [if_pos hc]))
      have := ih (fun h' hh => h h' ((at_snoc _ _ _ _ _ _).2 (by rw [if_neg hc]; exact hh)))
      intro x hx
      rcases List.mem_append.1 hx with hx | hx
      · exact this x hx
      · simp only [List.mem_singleton] at hx; subst hx; exact hc

/-! ## Stacking -/

/-- What a domain's list of dictionaries contributes: the entry of the largest version in `[target, m]`. -/
theorem stackDomain_ops {H : Type} (m : Nat) (hm : m ≠ 0) (domain name : String) (h : H) (l : List (Dict String H))
    (target : Nat) (st : St H) (hn : ∀ d ∈ l, d.keys.Nodup) :
    ((stackDomain (some m) domain target l st).ops.get name = some h ↔
      (∃ i, i < l.length ∧ target + i ≤ m ∧ (l.getD i []).get name = some h ∧
        ∀ j, i < j → target + j ≤ m → (l.getD j []).get name = none) ∨
      (st.ops.get name = some h ∧ ∀ j, target + j ≤ m → (l.getD j []).get name = none)) := by
  induction l generalizing target st with
  | nil => simp [stackDomain]
  | cons d l ih =>
    simp only [stackDomain]
    rw [ih (target + 1) _ (fun x hx => hn x (List.mem_cons_of_mem _ hx))]
    have hd := hn d (List.mem_cons_self)
    have hops : (stackOne (some m) domain st target d).ops.get name =
        if target ≤ m then (d.get name).or (st.ops.get name) else st.ops.get name := by
      simp only [stackOne]
      by_cases ht : target ≤ m
      · by_cases he : d = []
        · subst he; simp [ht, hm]
        · rw [if_pos ⟨hm, ht, he⟩, if_pos ht]; exact get_update _ _ hd _
      · rw [if_neg (fun c => ht c.2.1), if_neg ht]
    rw [hops]
    constructor
    · rintro (⟨i, hi, him, hg, hj⟩ | ⟨hs, hj⟩)
      · refine Or.inl ⟨i + 1, by simpa using hi, by omega, by simpa using hg, ?_⟩
        intro j hij hjm
        cases j with
        | zero => omega
        | succ j => simpa using hj j (by omega) (by omega)
      · by_cases ht : target ≤ m
        · rw [if_pos ht] at hs
          cases hdn : d.get name with
          | some h' =>
            rw [hdn] at hs
            simp only [Option.some_or, Option.some.injEq] at hs
            subst hs
            refine Or.inl ⟨0, by simp, by omega, by simpa using hdn, ?_⟩
            intro j hj0 hjm
            cases j with
            | zero => omega
            | succ j => simpa using hj j (by omega)
          | none =>
            rw [hdn] at hs
            simp only [Option.none_or] at hs
            refine Or.inr ⟨hs, ?_⟩
            intro j hjm
            cases j with
            | zero => simpa using hdn
            | succ j => simpa using hj j (by omega)
        · rw [if_neg ht] at hs
          exact Or.inr ⟨hs, fun j hjm => absurd (by omega : target ≤ m) ht⟩
    · rintro (⟨i, hi, him, hg, hj⟩ | ⟨hs, hj⟩)
      · cases i with
        | zero =>
          refine Or.inr ⟨?_, fun j hjm => by simpa using hj (j + 1) (by omega) (by omega)⟩
          rw [if_pos (by omega)]
          simp only [List.getD_cons_zero] at hg
          rw [hg]; rfl
        | succ i =>
          exact Or.inl ⟨i, by simpa using hi, by omega, by simpa using hg,
            fun j hij hjm => by simpa using hj (j + 1) (by omega) (by omega)⟩
      · refine Or.inr ⟨?_, fun j hjm => by simpa using hj (j + 1) (by omega)⟩
        by_cases ht : target ≤ m
        · have h0 := hj 0 (by omega)
          simp only [List.getD_cons_zero] at h0
          rw [if_pos ht, h0]; simpa using hs
        · rw [if_neg ht]; exact hs

theorem stackDomain_skip {H : Type} (m : Option Nat) (hm : ∀ k, m = some k → k = 0) (domain : String)
    (l : List (Dict String H)) (target : Nat) (st : St H) : stackDomain m domain target l st = st := by
  induction l generalizing target with
  | nil => rfl
  | cons d l ih =>
    simp only [stackDomain]
    have : stackOne m domain st target d = st := by
      unfold stackOne
      cases m with
      | none => rfl
      | some k => simp [hm k rfl]
    rw [this, ih]

/-- The whole stacking, over a list of domains with distinct names. -/
theorem fold_ops {H : Type} (req : Dict String Nat) (name : String) (h : H) (o : Opsets H) (st : St H)
    (hn : ∀ p ∈ o, ∀ d ∈ p.2, d.keys.Nodup) :
    (o.foldl (fun st p => stackDomain (req.get p.1) p.1 0 p.2 st) st).ops.get name = some h ↔
      (∃ o1 p o2 m, o = o1 ++ p :: o2 ∧ req.get p.1 = some m ∧ m ≠ 0 ∧
        (∃ i ≤ m, (p.2.getD i []).get name = some h ∧ ∀ j, i < j → j ≤ m → (p.2.getD j []).get name = none) ∧
        ∀ q ∈ o2, ∀ m', req.get q.1 = some m' → m' ≠ 0 → ∀ j ≤ m', (q.2.getD j []).get name = none) ∨
      (st.ops.get name = some h ∧
        ∀ q ∈ o, ∀ m', req.get q.1 = some m' → m' ≠ 0 → ∀ j ≤ m', (q.2.getD j []).get name = none) := by
  induction o generalizing st with
  | nil => simp
  | cons p o ih =>
    simp only [List.foldl_cons]
    rw [ih _ (fun q hq => hn q (List.mem_cons_of_mem _ hq))]
    have hcase : (stackDomain (req.get p.1) p.1 0 p.2 st).ops.get name = some h ↔
        (∃ m, req.get p.1 = some m ∧ m ≠ 0 ∧ ∃ i ≤ m, (p.2.getD i []).get name = some h ∧
          ∀ j, i < j → j ≤ m → (p.2.getD j []).get name = none) ∨
        (st.ops.get name = some h ∧ ∀ m', req.get p.1 = some m' → m' ≠ 0 → ∀ j ≤ m', (p.2.getD j []).get name = none) := by
      by_cases hm : ∃ m, req.get p.1 = some m ∧ m ≠ 0
      · obtain ⟨m, hr, hm0⟩ := hm
        rw [hr, stackDomain_ops m hm0 p.1 name h p.2 0 st (hn p (List.mem_cons_self))]
        constructor
        · rintro (⟨i, hi, him, hg, hj⟩ | ⟨hs, hj⟩)
          · exact Or.inl ⟨m, rfl, hm0, i, by omega, hg, fun j h1 h2 => hj j h1 (by omega)⟩
          · refine Or.inr ⟨hs, ?_⟩
            intro m' hm' _ j hjm
            cases hm'
            exact hj j (by omega)
        · rintro (⟨m', hm', _, i, him, hg, hj⟩ | ⟨hs, hj⟩)
          · cases hm'
            refine Or.inl ⟨i, ?_, by omega, hg, fun j h1 h2 => hj j h1 (by omega)⟩
            by_contra hlt
            rw [List.getD_eq_getElem?_getD, List.getElem?_eq_none (by omega)] at hg
            simp at hg
          · exact Or.inr ⟨hs, fun j hjm => hj m rfl hm0 j (by omega)⟩
      · have hz : ∀ k, req.get p.1 = some k → k = 0 := by
          intro k hk
          by_contra hk0
          exact hm ⟨k, hk, hk0⟩
        rw [stackDomain_skip _ hz]
        constructor
        · exact fun hs => Or.inr ⟨hs, fun m' hm' h0 => absurd (hz m' hm') h0⟩
        · rintro (⟨m, hr, hm0, -⟩ | ⟨hs, -⟩)
          · exact absurd (hz m hr) hm0
          · exact hs
    rw [hcase]
    constructor
    · rintro (⟨o1, q, o2, m, rfl, hrest⟩ | ⟨⟨m, h1, h2, h3⟩ | ⟨hs, hp⟩, hj⟩)
      · exact Or.inl ⟨p :: o1, q, o2, m, rfl, hrest⟩
      · exact Or.inl ⟨[], p, o, m, rfl, h1, h2, h3, hj⟩
      · refine Or.inr ⟨hs, ?_⟩
        intro q hq
        rcases List.mem_cons.1 hq with rfl | hq
        · exact hp
        · exact hj q hq
    · rintro (⟨o1, q, o2, m, he, h1, h2, h3, h4⟩ | ⟨hs, hj⟩)
      · cases o1 with
        | nil =>
          simp only [List.nil_append, List.cons.injEq] at he
          obtain ⟨rfl, rfl⟩ := he
          exact Or.inr ⟨Or.inl ⟨m, h1, h2, h3⟩, h4⟩
        | cons x o1 =>
          simp only [List.cons_append, List.cons.injEq] at he
          obtain ⟨rfl, rfl⟩ := he
          exact Or.inl ⟨o1, q, o2, m, rfl, h1, h2, h3, h4⟩
      · exact Or.inr ⟨Or.inr ⟨hs, hj p (List.mem_cons_self)⟩, fun q hq => hj q (List.mem_cons_of_mem _ hq)⟩

/-- **C23.** For every history of registrations, every requested opset and every extra opsets, `create_mapping` gives
an operator the converter `h` exactly when some requested domain selects `h` (largest version not above the requested
one, last registration) and no requested domain first registered after it has any converter for the operator within its
requested version. -/
theorem create_mapping_selects {H : Type} (hist : List (Call H)) (onnxVersion : Nat) (extra : List (String × Nat))
    (name : String) (h : H) :
    (createMapping (registered hist) onnxVersion extra).ops.get name = some h ↔
      ∃ d m, Asked onnxVersion extra d m ∧ Selected hist d m name h ∧
        ∀ d' m' v, Asked onnxVersion extra d' m' → Before hist d d' → v ≤ m' → NoneAt hist d' v name := by
  have inv := regInv hist
  have hg : ∀ p ∈ registered hist, (registered hist).get p.1 = some p.2 := by
    intro p hp
    have hnd := inv.nodup
    generalize registered hist = o at hp hnd
    induction o with
    | nil => simp at hp
    | cons q o ih =>
      obtain ⟨k, w⟩ := q
      simp only [Dict.keys, List.map_cons, List.nodup_cons] at hnd
      simp only [Dict.get]
      rcases List.mem_cons.1 hp with rfl | hp
      · simp
      · have hne : k ≠ p.1 := fun e => hnd.1 (e ▸ List.mem_map_of_mem hp)
        rw [if_neg hne]
        exact ih hp hnd.2
  have hn : ∀ p ∈ registered hist, ∀ d ∈ p.2, d.keys.Nodup := by
    intro p hp d hd
    obtain ⟨i, hi, rfl⟩ := List.getElem_of_mem hd
    have := inv.names p.1 p.2 (hg p hp) i
    rwa [List.getD_eq_getElem?_getD, List.getElem?_eq_getElem hi, Option.getD_some] at this
  have hnone : ∀ p ∈ registered hist, ∀ j, (p.2.getD j []).get name = none ↔ NoneAt hist p.1 j name := by
    intro p hp j
    rw [noneAt_iff, Option.eq_none_iff_forall_ne_some]
    constructor
    · intro h1 h' h2; exact h1 h' ((inv.val p.1 p.2 (hg p hp) j name h').2 h2)
    · intro h1 h' h2; exact h1 h' ((inv.val p.1 p.2 (hg p hp) j name h').1 h2)
  unfold createMapping
  rw [fold_ops _ _ _ _ _ hn]
  simp only [Dict.get_nil, reduceCtorEq, false_and, or_false]
  constructor
  · rintro ⟨o1, p, o2, m, he, hreq, hm, ⟨i, him, hgi, hj⟩, hlater⟩
    have hp : p ∈ registered hist := by rw [he]; simp
    refine ⟨p.1, m, (requested_iff _ _ _ _ hm).1 hreq,
      ⟨i, him, (inv.val _ _ (hg p hp) _ _ _).1 hgi, fun v h1 h2 => (hnone p hp v).1 (hj v h1 h2)⟩, ?_⟩
    intro d' m' v hask hbef hv
    obtain ⟨l1, l2, hk, hd1, hd2⟩ := inv.order _ _ hbef
    -- d' is among the later domains
    have hkeys : (registered hist).keys = Dict.keys o1 ++ p.1 :: Dict.keys o2 := by rw [he]; simp [Dict.keys]
    have hd' : d' ∈ Dict.keys o2 := by
      have hmem : d' ∈ (registered hist).keys := by rw [hk]; exact List.mem_append_right _ hd2
      rw [hkeys] at hmem
      rcases List.mem_append.1 hmem with hmem | hmem
      · -- then d' comes before p.1, against the order
        exfalso
        have hnd := inv.nodup
        have hpw := hk ▸ hnd
        obtain ⟨a, b, hab⟩ := List.append_of_mem hmem
        have e2 : l1 ++ l2 = a ++ d' :: (b ++ p.1 :: Dict.keys o2) := by rw [← hk, hkeys, hab]; simp
        rw [List.nodup_append] at hpw
        obtain ⟨h1n, h2n, hdis⟩ := hpw
        rcases List.append_eq_append_iff.1 e2 with ⟨w, hw1, hw2⟩ | ⟨w, hw1, hw2⟩
        · have hpl2 : p.1 ∈ l2 := by
            rw [hw2]
            have : p.1 ∈ d' :: (b ++ p.1 :: Dict.keys o2) := by simp
            exact List.mem_append_right _ this
          exact hdis _ hd1 _ hpl2 rfl
        · have hw3 : w ≠ [] ∨ w = [] := by cases w <;> simp
          rcases hw3 with hw3 | rfl
          · cases w with
            | nil => exact hw3 rfl
            | cons x w =>
              simp only [List.cons_append, List.cons.injEq] at hw2
              obtain ⟨rfl, _⟩ := hw2
              exact hdis d' (by rw [hw1]; simp) d' hd2 rfl
          · simp only [List.append_nil, List.nil_append] at hw1 hw2
            have hpl2 : p.1 ∈ l2 := by rw [← hw2]; simp
            exact hdis _ hd1 _ hpl2 rfl
      · rcases List.mem_cons.1 hmem with rfl | hmem
        · obtain ⟨_, _, _, _, _, _, hne, _⟩ := hbef
          exact absurd rfl hne
        · exact hmem
    obtain ⟨q, hq, rfl⟩ := List.mem_map.1 hd'
    have hqr : q ∈ registered hist := by rw [he]; simp [hq]
    exact (hnone q hqr v).1 (hlater q hq m' ((requested_iff _ _ _ _ hask.1).2 hask) hask.1 v hv)
  · rintro ⟨d, m, hask, ⟨v, hvm, hat, hmax⟩, hlater⟩
    have hdk : d ∈ (registered hist).keys := by
      obtain ⟨pre, c, post, rfl, h1, -⟩ := hat
      exact (inv.keys d).2 ⟨c, by simp, h1⟩
    obtain ⟨p, hp, rfl⟩ := List.mem_map.1 hdk
    obtain ⟨o1, o2, he⟩ := List.append_of_mem hp
    refine ⟨o1, p, o2, m, he, (requested_iff _ _ _ _ hask.1).2 hask, hask.1,
      ⟨v, hvm, (inv.val _ _ (hg p hp) _ _ _).2 hat, fun j h1 h2 => (hnone p hp j).2 (hmax j h1 h2)⟩, ?_⟩
    intro q hq m' hreq hm' j hj
    have hqr : q ∈ registered hist := by rw [he]; simp [hq]
    rw [hnone q hqr]
    have hne : p.1 ≠ q.1 := by
      have hnd := inv.nodup
      rw [he] at hnd
      simp only [Dict.keys, List.map_append, List.map_cons] at hnd
      have := (List.nodup_append.1 hnd).2.1
      rw [List.nodup_cons] at this
      exact fun e => this.1 (e ▸ List.mem_map_of_mem hq)
    -- q.1 was registered, and first after p.1
    have hbef : Before hist p.1 q.1 := by
      have hrev : ¬ Before hist q.1 p.1 := by
        intro hb
        obtain ⟨l1, l2, hk, hd1, hd2⟩ := inv.order _ _ hb
        have hkeys : (registered hist).keys = Dict.keys o1 ++ p.1 :: Dict.keys o2 := by rw [he]; simp [Dict.keys]
        have hnd := inv.nodup
        have hq2 : q.1 ∈ Dict.keys o2 := List.mem_map_of_mem hq
        rw [hkeys] at hk
        have hl : l1 ++ l2 = Dict.keys o1 ++ (p.1 :: Dict.keys o2) := hk.symm
        have hnd' : (l1 ++ l2).Nodup := by rw [hl, ← hkeys]; exact hnd
        have hdis := (List.nodup_append.1 hnd').2.2
        rcases List.append_eq_append_iff.1 hl with ⟨w, hw1, hw2⟩ | ⟨w, hw1, hw2⟩
        · have hq3 : q.1 ∈ l2 := by
            rw [hw2]
            exact List.mem_append_right _ (List.mem_cons_of_mem _ hq2)
          exact hdis _ hd1 _ hq3 rfl
        · have hpw : p.1 ∈ l1 ∨ w = [] := by
            cases w with
            | nil => right; rfl
            | cons x w =>
              left
              simp only [List.cons_append, List.cons.injEq] at hw2
              rw [hw1, hw2.1]; simp
          rcases hpw with hpw | rfl
          · exact hdis _ hpw _ hd2 rfl
          · simp only [List.nil_append] at hw2
            have hq3 : q.1 ∈ l2 := by rw [← hw2]; exact List.mem_cons_of_mem _ hq2
            exact hdis _ hd1 _ hq3 rfl
      -- both domains occur; compare their first calls
      have occ : ∀ a b : String, a ≠ b → (∃ c ∈ hist, c.domain = a) → (∃ c ∈ hist, c.domain = b) →
          Before hist a b ∨ Before hist b a := by
        intro a b hab
        clear hlater hmax hat inv hg hn hnone he hp hdk hq hqr hrev hreq
        generalize hist = l
        induction l with
        | nil => rintro ⟨c, hc, _⟩; simp at hc
        | cons c l ih =>
          rintro ⟨x, hx, hxa⟩ ⟨y, hy, hyb⟩
          by_cases h1 : c.domain = a
          · left
            have hy' : y ∈ l := by
              rcases List.mem_cons.1 hy with rfl | hy
              · exact absurd (h1.symm.trans hyb) hab
              · exact hy
            exact ⟨[], c, l, rfl, h1, by simp, hab, y, hy', hyb⟩
          · by_cases h2 : c.domain = b
            · right
              have hx' : x ∈ l := by
                rcases List.mem_cons.1 hx with rfl | hx
                · exact absurd hxa h1
                · exact hx
              exact ⟨[], c, l, rfl, h2, by simp, fun e => hab e.symm, x, hx', hxa⟩
            · have hx' : x ∈ l := by
                rcases List.mem_cons.1 hx with rfl | hx
                · exact absurd hxa h1
                · exact hx
              have hy' : y ∈ l := by
                rcases List.mem_cons.1 hy with rfl | hy
                · exact absurd hyb h2
                · exact hy
              rcases ih ⟨x, hx', hxa⟩ ⟨y, hy', hyb⟩ with ⟨pre, c', post, rfl, e1, e2, e3, e4⟩ | ⟨pre, c', post, rfl, e1, e2, e3, e4⟩
              · refine Or.inl ⟨c :: pre, c', post, rfl, e1, ?_, e3, e4⟩
                intro z hz
                rcases List.mem_cons.1 hz with rfl | hz
                · exact h2
                · exact e2 z hz
              · refine Or.inr ⟨c :: pre, c', post, rfl, e1, ?_, e3, e4⟩
                intro z hz
                rcases List.mem_cons.1 hz with rfl | hz
                · exact h1
                · exact e2 z hz
      exact (occ p.1 q.1 hne ((inv.keys _).1 (List.mem_map_of_mem hp)) ((inv.keys _).1 (List.mem_map_of_mem hqr))).resolve_right hrev
    exact hlater q.1 m' j ((requested_iff _ _ _ _ hm').1 hreq) hbef hj

/-- The plain case: an operator registered in one domain only. -/
theorem create_mapping_one_domain {H : Type} (hist : List (Call H)) (onnxVersion : Nat) (extra : List (String × Nat))
    (name domain : String) (h : H) (honly : ∀ c ∈ hist, name ∈ c.names → c.domain = domain) :
    (createMapping (registered hist) onnxVersion extra).ops.get name = some h ↔
      ∃ m, Asked onnxVersion extra domain m ∧ Selected hist domain m name h := by
  rw [create_mapping_selects]
  constructor
  · rintro ⟨d, m, hask, hsel, -⟩
    have : d = domain := by
      obtain ⟨v, _, ⟨pre, c, post, rfl, h1, _, h3, -⟩, -⟩ := hsel
      rw [← h1]; exact honly c (by simp) h3
    subst this
    exact ⟨m, hask, hsel⟩
  · rintro ⟨m, hask, hsel⟩
    refine ⟨domain, m, hask, hsel, ?_⟩
    rintro d' m' v - ⟨_, _, _, _, _, _, hne, _⟩ _ c hc ⟨e1, _, e3⟩
    exact hne ((honly c hc e3).symm.trans e1)

/-- Instance: `Equal` with versions 1, 7 and 11, requested opset 9. -/
example : (createMapping (registered [⟨"v1", 1, ["Equal"], ""⟩, ⟨"v7", 7, ["Equal", "Less"], ""⟩, ⟨"v11", 11, ["Equal"], ""⟩])
    9 []).ops.get "Equal" = some "v7" := by decide

/-- **`find_effective_op` with a domain is wrong for the newest version**: with `Equal` registered at 7 and 11 and opset
11 requested, the converter in use is version 11, but asking for the default domain's converter gives version 7 (the
per-domain table is filled before the newest version is added, tf2onnx/handler.py:94-95). -/
theorem find_effective_op_domain_violated :
    let st := createMapping (registered [⟨"v7", 7, ["Equal"], ""⟩, ⟨"v11", 11, ["Equal"], ""⟩]) 11 []
    findEffectiveOp st "Equal" none = some "v11" ∧ findEffectiveOp st "Equal" (some "") = some "v7" := by decide

/-! ## Schemas -/

theorem mem_insertDesc {S : Type} (p q : Nat × S) (l : List (Nat × S)) : q ∈ insertDesc p l ↔ q = p ∨ q ∈ l := by
  induction l with
  | nil => simp [insertDesc]
  | cons r l ih =>
    simp only [insertDesc]
    split
    · simp
    · simp only [List.mem_cons, ih]
      constructor
      · rintro (h | h | h) <;> simp [h]
      · rintro (h | h | h) <;> simp [h]

theorem mem_sortDesc {S : Type} (q : Nat × S) (l : List (Nat × S)) : q ∈ sortDesc l ↔ q ∈ l := by
  induction l with
  | nil => simp [sortDesc]
  | cons p l ih => simp [sortDesc, mem_insertDesc, ih]

theorem sortDesc_sorted {S : Type} (l : List (Nat × S)) : (sortDesc l).Pairwise (fun a b => b.1 ≤ a.1) := by
  have key : ∀ (p : Nat × S) (l : List (Nat × S)), l.Pairwise (fun a b => b.1 ≤ a.1) →
      (insertDesc p l).Pairwise (fun a b => b.1 ≤ a.1) := by
    intro p l h
    induction l with
    | nil => simp [insertDesc]
    | cons q l ih =>
      rw [List.pairwise_cons] at h
      simp only [insertDesc]
      split
      · rename_i hle
        rw [List.pairwise_cons, List.pairwise_cons]
        refine ⟨?_, h⟩
        intro a ha
        rcases List.mem_cons.1 ha with rfl | ha
        · exact hle
        · exact Nat.le_trans (h.1 a ha) hle
      · rename_i hle
        rw [List.pairwise_cons]
        refine ⟨?_, ih h.2⟩
        intro a ha
        rcases (mem_insertDesc _ _ _).1 ha with rfl | ha
        · omega
        · exact h.1 a ha
  induction l with
  | nil => simp [sortDesc]
  | cons p l ih => exact key p _ ih

/-- The schema listed last for a name, domain and version. -/
def SchemaAt {S : Type} (all : List (Schema S)) (name domain : String) (version : Nat) (s : Schema S) : Prop :=
  ∃ pre post, all = pre ++ s :: post ∧ s.name = name ∧ s.domain = domain ∧ s.since = version ∧
    ∀ s' ∈ post, ¬ (s'.name = name ∧ s'.domain = domain ∧ s'.since = version)

theorem versionMap_spec {S : Type} (all : List (Schema S)) (name domain : String) (v : Nat) (s : Schema S) :
    (versionMap all name domain).keys.Nodup ∧
    ((versionMap all name domain).get v = some s ↔ SchemaAt all name domain v s) ∧
    ((versionMap all name domain).get v = none ↔ ∀ s ∈ all, ¬ (s.name = name ∧ s.domain = domain ∧ s.since = v)) := by
  induction all using List.reverseRecOn generalizing s with
  | nil => simp [versionMap, Dict.keys, SchemaAt]
  | append_singleton all x ih =>
    obtain ⟨ih1, ih2, ih3⟩ := ih s
    have hv : versionMap (all ++ [x]) name domain =
        if x.name = name ∧ x.domain = domain then (versionMap all name domain).set x.since x
        else versionMap all name domain := by simp [versionMap, List.foldl_append]
    have snoc : SchemaAt (all ++ [x]) name domain v s ↔
        if x.name = name ∧ x.domain = domain ∧ x.since = v then x = s else SchemaAt all name domain v s := by
      constructor
      · rintro ⟨pre, post, he, h1, h2, h3, h4⟩
        rcases List.eq_nil_or_concat post with rfl | ⟨post', q, rfl⟩
        · have := List.append_inj' he (by simp)
          simp only [List.cons.injEq, and_true] at this
          obtain ⟨rfl, rfl⟩ := this
          rw [if_pos ⟨h1, h2, h3⟩]
        · rw [List.concat_eq_append] at he h4
          rw [← List.cons_append, ← List.append_assoc] at he
          have := List.append_inj' he (by simp)
          simp only [List.cons.injEq, and_true] at this
          obtain ⟨rfl, rfl⟩ := this
          rw [if_neg (h4 x (by simp))]
          exact ⟨pre, post', rfl, h1, h2, h3, fun y hy => h4 y (by simp [hy])⟩
      · intro hh
        split at hh
        · rename_i hc
          subst hh
          exact ⟨all, [], rfl, hc.1, hc.2.1, hc.2.2, by simp⟩
        · rename_i hc
          obtain ⟨pre, post, rfl, h1, h2, h3, h4⟩ := hh
          refine ⟨pre, post ++ [x], by simp, h1, h2, h3, ?_⟩
          intro y hy
          rcases List.mem_append.1 hy with hy | hy
          · exact h4 y hy
          · simp only [List.mem_singleton] at hy; subst hy; exact hc
    rw [hv, snoc]
    by_cases hx : x.name = name ∧ x.domain = domain
    · rw [if_pos hx]
      refine ⟨keys_set_nodup ih1 _ _, ?_, ?_⟩
      · rw [Dict.get_set]
        by_cases hs : x.since = v
        · rw [if_pos hs, if_pos ⟨hx.1, hx.2, hs⟩]; simp
        · rw [if_neg hs, if_neg (fun c => hs c.2.2)]; exact ih2
      · rw [Dict.get_set]
        by_cases hs : x.since = v
        · rw [if_pos hs]
          constructor
          · intro h; cases h
          · intro h; exact absurd ⟨hx.1, hx.2, hs⟩ (h x (by simp))
        · rw [if_neg hs, ih3]
          constructor
          · intro h y hy
            rcases List.mem_append.1 hy with hy | hy
            · exact h y hy
            · simp only [List.mem_singleton] at hy; subst hy; exact fun c => hs c.2.2
          · intro h y hy; exact h y (List.mem_append_left _ hy)
    · rw [if_neg hx, if_neg (fun c => hx ⟨c.1, c.2.1⟩)]
      refine ⟨ih1, ih2, ?_⟩
      rw [ih3]
      constructor
      · intro h y hy
        rcases List.mem_append.1 hy with hy | hy
        · exact h y hy
        · simp only [List.mem_singleton] at hy; subst hy; exact fun c => hx ⟨c.1, c.2.1⟩
      · intro h y hy; exact h y (List.mem_append_left _ hy)

/-- **C23, schemas.** `get_schema` returns the schema of the largest version not above the limit, and `None` exactly when
there is none. -/
theorem get_schema_selects {S : Type} (all : List (Schema S)) (name : String) (maxVersion : Nat) (domain : Option String)
    (s : Schema S) :
    (getSchema all name maxVersion domain = some s ↔
      ∃ v ≤ maxVersion, SchemaAt all name (domain.getD "") v s ∧
        ∀ t ∈ all, t.name = name → t.domain = domain.getD "" → t.since ≤ maxVersion → t.since ≤ v) ∧
    (getSchema all name maxVersion domain = none ↔
      ∀ t ∈ all, t.name = name → t.domain = domain.getD "" → maxVersion < t.since) := by
  generalize hd : domain.getD "" = dom
  have hspec := fun v s => versionMap_spec all name dom v s
  have hmem : ∀ v t, (v, t) ∈ versionMap all name dom ↔ SchemaAt all name dom v t := by
    intro v t
    rw [← (hspec v t).2.1]
    constructor
    · intro hp
      have hnd := (hspec v t).1
      generalize versionMap all name dom = o at hp hnd
      induction o with
      | nil => simp at hp
      | cons q o ih =>
        obtain ⟨k, w⟩ := q
        simp only [Dict.keys, List.map_cons, List.nodup_cons] at hnd
        simp only [Dict.get]
        rcases List.mem_cons.1 hp with hp | hp
        · cases hp; simp
        · have hne : k ≠ v := fun e => hnd.1 (e ▸ List.mem_map_of_mem (f := (·.1)) hp)
          rw [if_neg hne]
          exact ih hp hnd.2
    · exact Dict.get_eq_some_mem
  have hex : ∀ t ∈ all, t.name = name → t.domain = dom → ∃ u, SchemaAt all name dom t.since u := by
    intro t ht h1 h2
    cases hg : (versionMap all name dom).get t.since with
    | some u => exact ⟨u, ((hspec _ _).2.1).1 hg⟩
    | none => exact absurd ⟨h1, h2, rfl⟩ (((hspec t.since t).2.2).1 hg t ht)
  unfold getSchema
  rw [hd]
  have hsorted := sortDesc_sorted (versionMap all name dom)
  have key : ∀ l : List (Nat × Schema S), l.Pairwise (fun a b => b.1 ≤ a.1) →
      ∀ p, l.find? (fun p => p.1 ≤ maxVersion) = some p → ∀ q ∈ l, q.1 ≤ maxVersion → q.1 ≤ p.1 := by
    intro l hl p hf q hq hqm
    induction l with
    | nil => simp at hq
    | cons r l ih =>
      rw [List.pairwise_cons] at hl
      by_cases hr : r.1 ≤ maxVersion
      · rw [List.find?_cons_of_pos (by simpa using hr)] at hf
        cases hf
        rcases List.mem_cons.1 hq with rfl | hq
        · exact Nat.le_refl _
        · exact hl.1 q hq
      · rw [List.find?_cons_of_neg (by simpa using hr)] at hf
        rcases List.mem_cons.1 hq with rfl | hq
        · exact absurd hqm hr
        · exact ih hl.2 hf hq
  constructor
  · rw [Option.map_eq_some_iff]
    constructor
    · rintro ⟨⟨v, t⟩, hf, rfl⟩
      have hm := List.mem_of_find?_eq_some hf
      rw [mem_sortDesc, hmem] at hm
      refine ⟨v, by simpa using List.find?_some hf, hm, ?_⟩
      intro t' ht' h1 h2 h3
      obtain ⟨u, hu⟩ := hex t' ht' h1 h2
      exact key _ hsorted _ hf (t'.since, u) ((mem_sortDesc _ _).2 ((hmem _ _).2 hu)) h3
    · rintro ⟨v, hv, hat, hmax⟩
      have hin : (v, s) ∈ sortDesc (versionMap all name dom) := (mem_sortDesc _ _).2 ((hmem _ _).2 hat)
      cases hf : (sortDesc (versionMap all name dom)).find? (fun p => p.1 ≤ maxVersion) with
      | none =>
        rw [List.find?_eq_none] at hf
        exact absurd (by simpa using hv) (hf _ hin)
      | some p =>
        obtain ⟨w, t⟩ := p
        have hm := List.mem_of_find?_eq_some hf
        rw [mem_sortDesc, hmem] at hm
        have h1 := key _ hsorted _ hf (v, s) hin hv
        have hw : w ≤ maxVersion := by simpa using List.find?_some hf
        have h2 : w ≤ v := by
          obtain ⟨pre, post, he, e1, e2, e3, -⟩ := hm
          have := hmax t (by rw [he]; simp) e1 e2 (by omega)
          omega
        have hwv : w = v := Nat.le_antisymm h2 h1
        subst hwv
        have := (((hspec w t).2.1).2 hm).symm.trans (((hspec w s).2.1).2 hat)
        simp only [Option.some.injEq] at this
        exact ⟨(w, t), rfl, this⟩
  · rw [Option.map_eq_none_iff, List.find?_eq_none]
    constructor
    · intro h t ht h1 h2
      obtain ⟨u, hu⟩ := hex t ht h1 h2
      have := h (t.since, u) ((mem_sortDesc _ _).2 ((hmem _ _).2 hu))
      simpa using this
    · rintro h ⟨v, t⟩ hm
      rw [mem_sortDesc, hmem] at hm
      obtain ⟨pre, post, he, e1, e2, e3, -⟩ := hm
      have := h t (by rw [he]; simp) e1 e2
      simp
      omega

/-- Instance: `Softmax` since 1, 11 and 13; at most 12. -/
example : (getSchema [⟨"Softmax", "", 1, "a"⟩, ⟨"Softmax", "", 13, "c"⟩, ⟨"Softmax", "", 11, "b"⟩] "Softmax" 12 none).map
    (·.body) = some "b" := by decide

end Verif.Registry
