import Verif.Model.ReshapeOpt
import Verif.Props.C22_Symbolic
/-!
# C41: a reshape to a computed shape and its constant replacement give the same tensor
-/
namespace Verif.ReshapeOpt
open Verif.Tensor Verif.Symbolic Verif.ConstFold Verif.TransposeOpt

/-! ## Specification -/

/-- The list `0, 1, .., k-1` used as axes. -/
def firstAxes (k : Nat) : List Int := (List.range k).map (fun (i : Nat) => (i : Int))

/-- The data operand of the rewritten reshape: unsqueezed in front for a negative shift. -/
def pre {α : Type} (shift : Int) (x : T α) : T α :=
  if shift < 0 then
    unsqueeze (x.shape.length + (firstAxes (-shift).toNat).length)
      (axisSet (x.shape.length + (firstAxes (-shift).toNat).length) (firstAxes (-shift).toNat)) x
  else x

/-- What the consumers of the rewritten reshape read: squeezed in front for a positive shift. -/
def post {α : Type} (shift : Int) (y : T α) : T α :=
  if shift > 0 then squeeze (axisSet y.shape.length (firstAxes shift.toNat)) y else y

/-- The recorded shape is right: every dimension is unknown or the actual one. -/
def ShapeRight (recorded : List Int) (s : List Nat) : Prop :=
  recorded.length = s.length ∧ ∀ i, i < s.length → recorded.getD i 0 = -1 ∨ recorded.getD i 0 = nth s i

/-! ## Axes in front -/

theorem kept_front (k n : Nat) (ax : Nat → Bool) (hax : ∀ i, ax i = decide (i < k)) :
    keptAxes (k + n) ax = (List.range n).map (fun i => k + i) := by
  unfold keptAxes
  rw [List.range_add, List.filter_append]
  have h1 : (List.range k).filter (fun i => !ax i) = [] := by
    rw [List.filter_eq_nil_iff]
    intro i hi
    rw [List.mem_range] at hi
    simp [hax, hi]
  have h2 : ((List.range n).map (fun i => k + i)).filter (fun i => !ax i) = (List.range n).map (fun i => k + i) := by
    rw [List.filter_eq_self]
    intro i hi
    rw [List.mem_map] at hi
    obtain ⟨j, _, rfl⟩ := hi
    simp [hax]
  rw [h1, h2, List.nil_append]

theorem idxOf_front (k n i : Nat) (h : i < n) : ((List.range n).map (fun i => k + i)).idxOf (k + i) = i := by
  have hn : ((List.range n).map (fun i => k + i)).Nodup :=
    (List.nodup_range).map (fun a b h => by omega)
  have := hn.idxOf_getElem i (by simpa using h)
  simpa using this

theorem axisSet_first (k n i : Nat) : axisSet n (firstAxes k) i = decide (i < k) := by
  rw [Bool.eq_iff_iff, axisSet_iff, decide_eq_true_eq]
  unfold firstAxes
  constructor
  · rintro ⟨a, ha, rfl⟩
    rw [List.mem_map] at ha
    obtain ⟨j, hj, rfl⟩ := ha
    rw [normAxis_ofNat]
    exact List.mem_range.1 hj
  · intro h
    exact ⟨(i : Int), List.mem_map.2 ⟨i, List.mem_range.2 h, rfl⟩, normAxis_ofNat _ _⟩

theorem firstAxes_valid {k n : Nat} (h : k ≤ n) :
    (∀ a ∈ firstAxes k, ValidAxis n a) ∧ ((firstAxes k).map (normAxis n)).Nodup := by
  constructor
  · intro a ha
    unfold firstAxes at ha
    rw [List.mem_map] at ha
    obtain ⟨j, hj, rfl⟩ := ha
    rw [List.mem_range] at hj
    unfold ValidAxis
    omega
  · unfold firstAxes
    rw [List.map_map]
    have : (normAxis n ∘ fun (i : Nat) => (i : Int)) = id := by
      funext i; exact normAxis_ofNat n i
    rw [this, List.map_id]
    exact List.nodup_range

/-- Unsqueezing in front is a reshape. -/
theorem unsqueeze_front {α : Type} (k : Nat) (x : T α) :
    Same (unsqueeze (x.shape.length + (firstAxes k).length)
      (axisSet (x.shape.length + (firstAxes k).length) (firstAxes k)) x) (reshape (List.replicate k 1 ++ x.shape) x) := by
  have hl : (firstAxes k).length = k := by simp [firstAxes]
  rw [hl, Nat.add_comm x.shape.length k]
  have hk := kept_front k x.shape.length (axisSet (k + x.shape.length) (firstAxes k)) (fun i => axisSet_first _ _ i)
  have he := reshape_expand (k + x.shape.length) x
  have hs : shapeAfterExpand (k + x.shape.length) x.shape = List.replicate k 1 ++ x.shape := by
    simp [shapeAfterExpand]
  rw [hs] at he
  refine Same.trans ?_ he.symm
  refine ⟨?_, fun idx hi => ?_⟩
  · simp only [unsqueeze, hk, expandRank, Nat.add_sub_cancel]
    apply ext_nth (by simp)
    intro i hi
    simp only [List.length_map, List.length_range] at hi
    rw [nth_map_range, if_pos hi, axisSet_first]
    by_cases c : i < k
    · rw [if_pos (by simpa using c), nth_append_left (by simpa using c)]
      simp [nth, c]
    · rw [if_neg (by simpa using c), nth_append_right (by simpa using c)]
      have := idxOf_front k x.shape.length (i - k) (by omega)
      rw [show k + (i - k) = i by omega] at this
      rw [this]
      simp
  · have hlen : idx.length = k + x.shape.length := by simpa [unsqueeze] using hi.1
    simp only [unsqueeze, hk, expandRank, Nat.add_sub_cancel]
    congr 1
    apply ext_nth (by simp [hlen])
    intro i hi'
    simp only [List.length_map, List.length_range] at hi'
    rw [List.map_map, nth_map_range, if_pos hi', nth_drop]
    rfl

/-- Squeezing in front is a reshape. -/
theorem squeeze_front {α : Type} (k : Nat) (r : List Nat) (y : T α) (hy : y.shape = List.replicate k 1 ++ r) :
    Same (squeeze (axisSet y.shape.length (firstAxes k)) y) (reshape r y) := by
  have hlen : y.shape.length = k + r.length := by rw [hy]; simp
  obtain ⟨v1, v2⟩ := firstAxes_valid (k := k) (n := y.shape.length) (by omega)
  obtain ⟨h1, h2⟩ := squeeze_as_reshape y (firstAxes k) v1 v2 (by
    intro i _ ha
    rw [axisSet_first, decide_eq_true_eq] at ha
    rw [hy, nth_append_left (by simpa using ha)]
    simp [nth, ha])
  have hs : (squeeze (axisSet y.shape.length (firstAxes k)) y).shape = r := by
    simp only [squeeze]
    rw [hlen, kept_front k r.length _ (fun i => axisSet_first _ _ i), List.map_map]
    apply ext_nth (by simp)
    intro i hi
    simp only [List.length_map, List.length_range] at hi
    rw [nth_map_range, if_pos hi]
    simp only [Function.comp]
    rw [hy, nth_append_right (by simp)]
    simp
  rw [hs] at h2
  exact h2.symm

/-! ## What the plan says about every entry -/

theorem enumFrom_getElem {α β : Type} (f : α → Nat → β) (l : List α) (k i : Nat) :
    (enumFrom f l k)[i]? = l[i]?.map (fun a => f a (k + i)) := by
  induction l generalizing k i with
  | nil => simp [enumFrom]
  | cons a l ih =>
    cases i with
    | zero => simp [enumFrom]
    | succ i =>
      simp only [enumFrom, List.getElem?_cons_succ]
      rw [ih]
      congr
      funext a
      congr 1
      omega

theorem enumFrom_length {α β : Type} (f : α → Nat → β) (l : List α) (k : Nat) : (enumFrom f l k).length = l.length := by
  induction l generalizing k with
  | nil => rfl
  | cons a l ih => simp [enumFrom, ih]

theorem getShift_some {v : Sym} {i : Nat} {k : Int} (h : getShift v i = some k) :
    isSingleVar v = true ∧ (v.terms.headD 0 : Int) - i = k := by
  unfold getShift at h
  split at h
  · rename_i hsv
    exact ⟨hsv, by simpa using h⟩
  · cases h

theorem plan_entries {syms : List Sym} {p : List Int × Int} (h : plan syms = some p) :
    p.1.length = syms.length ∧ p.1.count (-1) ≤ 1 ∧
    ∀ (i : Nat) (d : Int), p.1[i]? = some d → ∃ y, syms[i]? = some y ∧
      ((isConst y = true ∧ d = y.const) ∨
       (isSingleVar y = true ∧ (y.terms.headD 0 : Int) - i = p.2 ∧ d = 0) ∨
       (isConst y = false ∧ d = -1)) := by
  unfold plan at h
  split at h
  · cases h
  · split at h
    · cases h
    · rename_i _ hc
      simp only [Option.some.injEq] at h
      rw [h] at hc
      unfold planPair at h
      by_cases hb : (syms.filter isSingleVar).length + (syms.filter hasMultipleTerms).length ≤ 1
      · rw [if_pos hb] at h
        subst h
        refine ⟨by simp, by omega, fun i d hi => ?_⟩
        simp only [List.getElem?_map, Option.map_eq_some_iff] at hi
        obtain ⟨y, hy, hd⟩ := hi
        refine ⟨y, hy, ?_⟩
        cases hk : isConst y with
        | true => left; rw [hk] at hd; exact ⟨rfl, hd.symm⟩
        | false => right; right; rw [hk] at hd; exact ⟨rfl, hd.symm⟩
      · rw [if_neg hb] at h
        subst h
        refine ⟨enumFrom_length _ _ _, by omega, fun i d hi => ?_⟩
        simp only [enumFrom_getElem, Option.map_eq_some_iff] at hi
        obtain ⟨y, hy, hd⟩ := hi
        refine ⟨y, hy, ?_⟩
        unfold getReshapeDim at hd
        cases hk : isConst y with
        | true => left; rw [hk] at hd; exact ⟨rfl, hd.symm⟩
        | false =>
          right
          rw [hk] at hd
          simp only [Bool.false_eq_true, if_false] at hd
          split at hd
          · rename_i hs
            left
            obtain ⟨hsv, hs⟩ := getShift_some hs
            exact ⟨hsv, by simpa using hs, hd.symm⟩
          · exact Or.inr ⟨rfl, hd.symm⟩

theorem count_one {l : List Int} (h : l.count (-1) ≤ 1) (i j : Nat) (hi : l[i]? = some (-1)) (hj : l[j]? = some (-1)) : i = j := by
  induction l generalizing i j with
  | nil => simp at hi
  | cons a l ih =>
    have hmem : ∀ k, l[k]? = some (-1) → 1 ≤ l.count (-1) := fun k hk => List.count_pos_iff.2 (List.mem_of_getElem? hk)
    cases i with
    | zero =>
      cases j with
      | zero => rfl
      | succ j =>
        simp only [List.getElem?_cons_zero, Option.some.injEq] at hi
        simp only [List.getElem?_cons_succ] at hj
        subst hi
        have := hmem j hj
        rw [List.count_cons_self] at h
        omega
    | succ i =>
      cases j with
      | zero =>
        simp only [List.getElem?_cons_zero, Option.some.injEq] at hj
        simp only [List.getElem?_cons_succ] at hi
        subst hj
        have := hmem i hi
        rw [List.count_cons_self] at h
        omega
      | succ j =>
        simp only [List.getElem?_cons_succ] at hi hj
        have : l.count (-1) ≤ (a :: l).count (-1) := List.count_le_count_cons ..
        rw [ih (by omega) i j hi hj]

theorem size_pos_iff (s : List Nat) : 0 < size s ↔ ∀ d ∈ s, 0 < d := by
  induction s with
  | nil => simp [size]
  | cons d s ih =>
    rw [size_cons]
    simp only [List.mem_cons, forall_eq_or_imp, ← ih]
    exact Nat.mul_pos_iff_of_pos_left' d (size s)
where
  Nat.mul_pos_iff_of_pos_left' (a b : Nat) : 0 < a * b ↔ 0 < a ∧ 0 < b := by
    constructor
    · intro h
      exact ⟨Nat.pos_of_mul_pos_right h, Nat.pos_of_mul_pos_left h⟩
    · rintro ⟨h1, h2⟩
      exact Nat.mul_pos h1 h2

/-- The constant shape resolves to the shape the computed one resolves to (with ones in front for a positive shift; the
operand has ones in front for a negative shift). -/
theorem plan_resolves (s r : List Nat) (syms : List Sym) (p : List Int × Int) (hpos : ∀ d ∈ s, 0 < d)
    (hvar : ∀ y ∈ syms, ∀ j ∈ y.terms, j < s.length)
    (h : ReshapesTo false s (syms.map (Sym.value (fun j => (nth s j : Int)))) r)
    (hp : plan syms = some p) (hz : p.2 ≠ 0 → ∀ y ∈ syms, y.const ≠ 0) :
    ReshapesTo false (List.replicate (-p.2).toNat 1 ++ s) (constShape p) (List.replicate p.2.toNat 1 ++ r) := by
  obtain ⟨hlen, hone, hent⟩ := plan_entries hp
  have hcs : constShape p = List.replicate p.2.toNat 1 ++ p.1 := by
    unfold constShape
    split
    · rfl
    · rw [show p.2.toNat = 0 by omega]; rfl
  rw [hcs]
  have hsz : 0 < size s := (size_pos_iff s).2 hpos
  have hrpos : ∀ d ∈ r, 0 < d := (size_pos_iff r).1 (by rw [h.total]; exact hsz)
  have hval : ∀ (i : Nat) (y : Sym), syms[i]? = some y →
      (syms.map (Sym.value (fun j => (nth s j : Int))))[i]? = some (y.value (fun j => (nth s j : Int))) := by
    intro i y hy; rw [List.getElem?_map, hy]; rfl
  have hconst : ∀ y, isConst y = true → y.value (fun j => (nth s j : Int)) = y.const := by
    intro y hy
    unfold isConst at hy
    have : y.terms = [] := by simpa using hy
    unfold Sym.value
    rw [this]; simp
  have split : ∀ (i : Nat) (d : Int), (List.replicate p.2.toNat 1 ++ p.1)[i]? = some d →
      (i < p.2.toNat ∧ d = 1) ∨ (p.2.toNat ≤ i ∧ p.1[i - p.2.toNat]? = some d) := by
    intro i d hi
    by_cases c : i < p.2.toNat
    · left
      rw [List.getElem?_append_left (by simpa using c)] at hi
      simp [c] at hi
      exact ⟨c, hi.symm⟩
    · right
      rw [List.getElem?_append_right (by simpa using c)] at hi
      exact ⟨by omega, by simpa using hi⟩
  have hrr : ∀ i, p.2.toNat ≤ i → nth (List.replicate p.2.toNat 1 ++ r) i = nth r (i - p.2.toNat) := by
    intro i hi
    rw [nth_append_right (by simpa using hi)]
    simp
  refine ⟨?_, ?_, ?_, ?_, ?_, ?_, ?_, ?_⟩
  · have := h.rank
    simp only [List.length_map] at this
    simp [hlen, this]
  · intro i hi _
    rcases split i 0 hi with ⟨_, hc⟩ | ⟨hge, hc⟩
    · omega
    · obtain ⟨y, hy, hcase⟩ := hent _ _ hc
      have hym : y ∈ syms := List.mem_of_getElem? hy
      rcases hcase with ⟨hk, hd⟩ | ⟨hsv, hsh, _⟩ | ⟨_, hd⟩
      · have hp0 : p.2 = 0 := by
          by_contra hne
          exact hz hne y hym hd.symm
        have := hval _ _ hy
        rw [hconst y hk, ← hd] at this
        have := h.copy _ this rfl
        rw [hp0] at this ⊢
        simpa using this
      · unfold isSingleVar at hsv
        simp only [decide_eq_true_eq] at hsv
        obtain ⟨ht, hcc⟩ := hsv
        obtain ⟨j, hj⟩ : ∃ j, y.terms = [j] := List.length_eq_one_iff.1 ht
        have hjlt := hvar y hym j (by rw [hj]; simp)
        have hv : y.value (fun j => (nth s j : Int)) = nth s j := by
          unfold Sym.value; rw [hj, hcc]; simp
        have hsp : 0 < nth s j := hpos _ (nth_mem hjlt)
        have hget := hval _ _ hy
        rw [hv] at hget
        have hr := h.pos _ _ hget (by omega)
        rw [hj] at hsh
        simp only [List.headD_cons] at hsh
        rw [hrr i hge]
        have hi1 : (-p.2).toNat ≤ i := by omega
        refine ⟨by simp; omega, ?_⟩
        rw [nth_append_right (by simpa using hi1)]
        simp only [List.length_replicate]
        have : i - (-p.2).toNat = j := by omega
        rw [this]
        omega
      · omega
  · intro i _ hc; cases hc
  · intro i d hi hd
    rcases split i d hi with ⟨hlt, hc⟩ | ⟨hge, hc⟩
    · rw [nth_append_left (by simpa using hlt)]
      simp [nth, hlt, hc]
    · obtain ⟨y, hy, hcase⟩ := hent _ _ hc
      rcases hcase with ⟨hk, hdd⟩ | ⟨_, _, hdd⟩ | ⟨_, hdd⟩
      · have := hval _ _ hy
        rw [hconst y hk, ← hdd] at this
        rw [hrr i hge]
        exact h.pos _ _ this hd
      · omega
      · omega
  · intro d hd
    rw [List.mem_append] at hd
    rcases hd with hd | hd
    · rw [List.mem_replicate] at hd; omega
    · obtain ⟨i, hi⟩ := List.getElem?_of_mem hd
      obtain ⟨y, hy, hcase⟩ := hent _ _ hi
      rcases hcase with ⟨hk, hdd⟩ | ⟨_, _, hdd⟩ | ⟨_, hdd⟩
      · have := hval _ _ hy
        rw [hconst y hk, ← hdd] at this
        exact h.valid d (List.mem_of_getElem? this)
      · omega
      · omega
  · intro i j hi hj
    rcases split i _ hi with ⟨_, hc⟩ | ⟨hge, hc⟩
    · omega
    · rcases split j _ hj with ⟨_, hc'⟩ | ⟨hge', hc'⟩
      · omega
      · have := count_one hone _ _ hc hc'
        omega
  · rw [size_replicate_one, size_replicate_one]
    exact h.total
  · intro i _
    have : 0 < size ((List.replicate p.2.toNat 1 ++ r).eraseIdx i) := by
      rw [size_pos_iff]
      intro d hd
      have := List.mem_of_mem_eraseIdx hd
      rw [List.mem_append, List.mem_replicate] at this
      rcases this with ⟨_, rfl⟩ | hm
      · omega
      · exact hrpos d hm
    omega

/-- The resolved shape is unique. -/
theorem reshapesTo_unique {s : List Nat} {t : List Int} {r r' : List Nat} (h : ReshapesTo false s t r)
    (h' : ReshapesTo false s t r') : r = r' := by
  have h1 := (fold_reshape_shape s t r).2 h
  have h2 := (fold_reshape_shape s t r').2 h'
  rw [h1] at h2
  cases h2; rfl

/-- The rewritten reshape of a plan computes the original reshape. -/
theorem plan_reshape {α : Type} (x : T α) (r : List Nat) (syms : List Sym) (p : List Int × Int)
    (hpos : ∀ d ∈ x.shape, 0 < d) (hvar : ∀ y ∈ syms, ∀ j ∈ y.terms, j < x.shape.length)
    (h : ReshapesTo false x.shape (syms.map (Sym.value (fun j => (nth x.shape j : Int)))) r)
    (hp : plan syms = some p) (hz : p.2 ≠ 0 → ∀ y ∈ syms, y.const ≠ 0) :
    ∃ r', ReshapesTo false (pre p.2 x).shape (constShape p) r' ∧ Same (post p.2 (reshape r' (pre p.2 x))) (reshape r x) := by
  have hres := plan_resolves x.shape r syms p hpos hvar h hp hz
  have hpre : Same (pre p.2 x) (reshape (List.replicate (-p.2).toNat 1 ++ x.shape) x) := by
    unfold pre
    split
    · exact unsqueeze_front _ x
    · rw [show (-p.2).toNat = 0 by omega]
      exact (reshape_self x).symm
  have hps : (pre p.2 x).shape = List.replicate (-p.2).toNat 1 ++ x.shape := hpre.1
  refine ⟨List.replicate p.2.toNat 1 ++ r, by rw [hps]; exact hres, ?_⟩
  have hs1 : size (List.replicate (-p.2).toNat 1 ++ x.shape) = size x.shape := size_replicate_one _ _
  have hs2 : size (List.replicate p.2.toNat 1 ++ r) = size x.shape := by rw [size_replicate_one]; exact h.total
  have hmid : Same (reshape (List.replicate p.2.toNat 1 ++ r) (pre p.2 x)) (reshape (List.replicate p.2.toNat 1 ++ r) x) :=
    (reshape_congr hpre (by rw [hps, hs1]; exact hs2)).trans (reshape_reshape _ _ x hs1 (by rw [hs1]; exact hs2))
  unfold post
  split
  · refine (squeeze_front p.2.toNat r _ rfl).trans ?_
    refine (reshape_congr hmid ?_).trans ?_
    · show size r = size (List.replicate p.2.toNat 1 ++ r)
      rw [size_replicate_one]
    · exact reshape_reshape _ _ x hs2 (by rw [size_replicate_one])
  · have : p.2.toNat = 0 := by omega
    rw [this] at hmid ⊢
    exact hmid

/-! ## The symbolic shape has variables for axes of the operand only -/

/-- All variables that occur in the array satisfy `P`. -/
def VarsIn (P : Nat → Prop) : Val → Prop
  | .num _ => True
  | .sym t => ∀ i, ∀ j ∈ (t.get i).terms, P j

theorem init_terms {P : Nat → Prop} {l : List Nat} {c : Int} (h : ∀ j ∈ l, P j) : ∀ j ∈ (Sym.init l c).terms, P j := by
  unfold Sym.init
  split
  · intro j hj; cases hj
  · exact h

theorem toSym_vars {P : Nat → Prop} {x : Val} (h : VarsIn P x) : ∀ i, ∀ j ∈ (x.toSym.get i).terms, P j := by
  cases x with
  | sym t => exact h
  | num t =>
    intro i j hj
    simp only [Val.toSym, tmap, Sym.fromConst] at hj
    exact init_terms (P := P) (by simp) j hj

theorem mul_vars {P : Nat → Prop} {a b : Sym} (ha : ∀ j ∈ a.terms, P j) (hb : ∀ j ∈ b.terms, P j) :
    ∀ j ∈ (a.mul b).terms, P j := by
  unfold Sym.mul
  apply init_terms
  intro j hj
  rcases List.mem_append.1 hj with h | h
  · exact ha j h
  · exact hb j h

theorem mapT_vars {P : Nat → Prop} {x : Val} (F : (α : Type) → T α → T α)
    (hF : ∀ (t : T Sym) i, ∃ j, (F Sym t).get i = t.get j) (h : VarsIn P x) : VarsIn P (x.mapT F) := by
  cases x with
  | num t => trivial
  | sym t =>
    intro i
    obtain ⟨j, hj⟩ := hF t i
    show ∀ k ∈ ((F Sym t).get i).terms, P k
    rw [hj]
    exact h j

theorem reshapeVal_vars {P : Nat → Prop} {x r : Val} {s : List Nat} (h : VarsIn P x) (hr : reshapeVal x s = .ok r) : VarsIn P r := by
  unfold reshapeVal at hr
  cases h1 : npReshape x.shape (s.map (fun (d : Nat) => (d : Int))) with
  | error m => rw [h1] at hr; cases hr
  | ok s' =>
    rw [h1] at hr
    cases hr
    exact mapT_vars _ (fun t i => ⟨_, rfl⟩) h

theorem foldl_mul_vars {P : Nat → Prop} (l : List Sym) (a : Sym) (ha : ∀ j ∈ a.terms, P j)
    (hl : ∀ s ∈ l, ∀ j ∈ s.terms, P j) : ∀ j ∈ (l.foldl Sym.mul a).terms, P j := by
  induction l generalizing a with
  | nil => exact ha
  | cons s l ih =>
    exact ih _ (mul_vars ha (hl s (by simp))) (fun s' hs' => hl s' (List.mem_cons_of_mem _ hs'))

theorem concatGet_vars {P : Nat → Prop} (a : Nat) (xs : List (T Sym)) (idx : List Nat)
    (h : ∀ x ∈ xs, ∀ i, ∀ j ∈ (x.get i).terms, P j) : ∀ j ∈ (concatGet (Sym.fromConst 0) a xs idx).terms, P j := by
  induction xs generalizing idx with
  | nil => intro j hj; cases hj
  | cons x xs ih =>
    simp only [concatGet]
    split
    · exact h x (by simp) idx
    · exact ih _ (fun y hy => h y (List.mem_cons_of_mem _ hy))

theorem arg_vars {P : Nat → Prop} {results : Dict String Val} {n : Node} {i : Nat} {x : Val}
    (hg : ∀ name val, results.get name = some val → VarsIn P val) (h : arg results n i = .ok x) : VarsIn P x := by
  unfold arg at h
  split at h
  · cases h
  · split at h
    · cases h
    · rename_i w hw
      cases h
      exact hg _ _ hw

theorem args_vars {P : Nat → Prop} {results : Dict String Val} (hg : ∀ name val, results.get name = some val → VarsIn P val)
    (names : List String) (xs : List Val) (h : args results names = .ok xs) : ∀ x ∈ xs, VarsIn P x := by
  induction names generalizing xs with
  | nil => cases h; simp
  | cons name l ih =>
    unfold args at h
    split at h
    · cases h
    · rename_i w hw
      cases hr : args results l with
      | error m => rw [hr] at h; cases h
      | ok r =>
        rw [hr] at h
        cases h
        intro x hx
        rcases List.mem_cons.1 hx with rfl | hx
        · exact hg _ _ hw
        · exact ih r hr x hx

theorem computeOp_vars {P : Nat → Prop} (castTo : Int → Int → Int) (opset : Nat) (results : Dict String Val) (n : Node) (r : Val)
    (hg : ∀ name val, results.get name = some val → VarsIn P val) (h : computeOp castTo opset results n = .ok r) : VarsIn P r := by
  unfold computeOp at h
  cases hop : n.op with
  | const t => simp only [hop] at h; cases h; trivial
  | other s => simp only [hop] at h; cases h
  | cast dst =>
    simp only [hop] at h
    cases ha : arg results n 0 with
    | error m => rw [ha] at h; cases h
    | ok x =>
      rw [ha] at h
      cases h
      have := arg_vars hg ha
      cases x with
      | num t => trivial
      | sym t => exact this
  | mul =>
    simp only [hop] at h
    cases ha : arg results n 0 with
    | error m => rw [ha] at h; cases h
    | ok x =>
      cases hb : arg results n 1 with
      | error m => rw [ha, hb] at h; cases h
      | ok y =>
        rw [ha, hb] at h
        cases h
        have h1 := arg_vars hg ha
        have h2 := arg_vars hg hb
        have key : ∀ p q : Val, VarsIn P p → VarsIn P q →
            VarsIn P (.sym (foldBinary Sym.mul (Sym.fromConst 0) p.toSym q.toSym)) := by
          intro p q hp hq i
          simp only [foldBinary, elementwise, elementwiseSame, List.map_cons, List.map_nil, List.getD_cons_zero, List.getD_cons_succ]
          exact mul_vars (toSym_vars hp _) (toSym_vars hq _)
        cases x with
        | num t =>
          cases y with
          | num u => trivial
          | sym u => exact key _ _ h1 h2
        | sym t => exact key _ _ h1 h2
  | unsqueeze attr =>
    simp only [hop] at h
    cases ha : arg results n 0 with
    | error m => rw [ha] at h; cases h
    | ok x =>
      cases hb : axesArg 13 opset results n attr with
      | error m => rw [ha, hb] at h; cases h
      | ok axes =>
        rw [ha, hb] at h
        simp only [bind, Except.bind] at h
        cases hc : unsqueezeShape x.shape axes with
        | error m => rw [hc] at h; cases h
        | ok s =>
          rw [hc] at h
          exact reshapeVal_vars (arg_vars hg ha) h
  | squeeze attr =>
    simp only [hop] at h
    cases ha : arg results n 0 with
    | error m => rw [ha] at h; cases h
    | ok x =>
      cases hb : axesArg 13 opset results n attr with
      | error m => rw [ha, hb] at h; cases h
      | ok axes =>
        rw [ha, hb] at h
        exact reshapeVal_vars (arg_vars hg ha) h
  | gather axis =>
    simp only [hop] at h
    cases ha : arg results n 0 with
    | error m => rw [ha] at h; cases h
    | ok x =>
      cases hb : arg results n 1 with
      | error m => rw [ha, hb] at h; cases h
      | ok y =>
        rw [ha, hb] at h
        simp only [bind, Except.bind] at h
        unfold computeGather at h
        cases y with
        | sym _ => cases h
        | num ind =>
          simp only at h
          split at h
          · cases h
          · split at h
            · cases h
              exact mapT_vars _ (fun t i => ⟨_, rfl⟩) (arg_vars hg ha)
            · cases h
  | reduceProd attr kd =>
    simp only [hop] at h
    cases ha : arg results n 0 with
    | error m => rw [ha] at h; cases h
    | ok x =>
      cases hb : axesArg 18 opset results n attr with
      | error m => rw [ha, hb] at h; cases h
      | ok axes =>
        rw [ha, hb] at h
        simp only [bind, Except.bind] at h
        have h1 := arg_vars hg ha
        unfold computeReduceProd at h
        simp only at h
        split at h
        · cases h
        · split at h
          · cases h
          · cases x with
            | num t => cases h; trivial
            | sym t =>
              cases h
              have hk : ∀ ax : Nat → Bool, ∀ i, ∀ j ∈ ((prodKeep Sym.mul (Sym.fromConst 1) ax t).get i).terms, P j := by
                intro ax i
                simp only [prodKeep]
                apply foldl_mul_vars
                · intro j hj; cases hj
                · intro s hs
                  rw [List.mem_map] at hs
                  obtain ⟨k, _, rfl⟩ := hs
                  exact h1 k
              intro i
              unfold npProd
              split
              · exact hk _ i
              · exact hk _ _
  | concat axis =>
    simp only [hop] at h
    cases ha : args results n.input with
    | error m => rw [ha] at h; cases h
    | ok xs =>
      rw [ha] at h
      cases h
      have h1 := args_vars hg _ _ ha
      unfold computeConcat
      split
      · trivial
      · intro i
        simp only [foldConcat, concat]
        apply concatGet_vars
        intro x hx
        rw [List.mem_map] at hx
        obtain ⟨y, hy, rfl⟩ := hx
        exact toSym_vars (h1 y hy)
  | slice st en ax =>
    simp only [hop] at h
    cases ha : arg results n 0 with
    | error m => rw [ha] at h; cases h
    | ok x =>
      cases hb : sliceArgs opset results n st en ax with
      | error m => rw [ha, hb] at h; cases h
      | ok p =>
        rw [ha, hb] at h
        simp only [bind, Except.bind] at h
        obtain ⟨so, eo, ao, tk⟩ := p
        cases so with
        | none => cases h
        | some starts =>
          cases eo with
          | none => cases h
          | some ends =>
            simp only [computeSlice] at h
            cases hf : setSlices x.shape.length (sliceEntries (ao.getD ((List.range starts.length).map (fun (i : Nat) => (i : Int)))) starts ends
                (tk.getD (List.replicate starts.length 1))) (fun _ => none) with
            | error m => rw [hf] at h; cases h
            | ok g =>
              rw [hf] at h
              simp only [bind, Except.bind] at h
              split at h
              · cases h
              · cases h
                exact mapT_vars _ (fun t i => ⟨_, rfl⟩) (arg_vars hg ha)

theorem runNodes_vars {P : Nat → Prop} (castTo : Int → Int → Int) (opset : Nat) (plan : List Node)
    (results results' : Dict String Val) (hg : ∀ name val, results.get name = some val → VarsIn P val)
    (h : runNodes castTo opset plan results = .ok results') : ∀ name val, results'.get name = some val → VarsIn P val := by
  induction plan generalizing results with
  | nil => cases h; exact hg
  | cons n l ih =>
    unfold runNodes at h
    cases hs : stepNode castTo opset results n with
    | error m => rw [hs] at h; cases h
    | ok r =>
      rw [hs] at h
      refine ih r ?_ h
      unfold stepNode at hs
      cases hc : computeOp castTo opset results n with
      | error m => rw [hc] at hs; cases hs
      | ok w =>
        rw [hc] at hs
        simp only [bind, Except.bind] at hs
        cases ho : n.output with
        | nil => rw [ho] at hs; cases hs; exact hg
        | cons out _ =>
          rw [ho] at hs
          cases hs
          intro name val hget
          rw [Dict.get_set] at hget
          split at hget
          · cases hget
            exact computeOp_vars castTo opset results n _ hg hc
          · exact hg _ _ hget

theorem computeOutputs_vars {P : Nat → Prop} (castTo : Int → Int → Int) (opset : Nat) (byOutput : String → Option Node)
    (setOrder : List (Option Node) → List (Option Node)) (fuel : Nat) (outputs : List String) (feed : Dict String Val)
    (hf : ∀ name val, feed.get name = some val → VarsIn P val) (res : List (T Sym))
    (h : computeOutputs castTo opset byOutput setOrder fuel outputs feed = .ok res) :
    ∀ t ∈ res, ∀ i, ∀ j ∈ (t.get i).terms, P j := by
  unfold computeOutputs at h
  cases hp : planLoop byOutput feed fuel (setOrder (outputs.map byOutput)) [] with
  | error m => rw [hp] at h; cases h
  | ok plan =>
    rw [hp] at h
    simp only [bind, Except.bind] at h
    cases hr : runNodes castTo opset plan feed with
    | error m => rw [hr] at h; cases h
    | ok results =>
      rw [hr] at h
      have hv := runNodes_vars castTo opset plan feed results hf hr
      have := readOutputs_spec _ _ _ h
      clear h hr hp
      induction this with
      | nil => simp
      | cons hd _ ih =>
        intro t ht
        rcases List.mem_cons.1 ht with rfl | ht
        · obtain ⟨val, h1, rfl⟩ := hd
          exact toSym_vars (hv _ _ h1)
        · exact ih t ht

theorem makeFeed_get {inpShape : List Int} {shapeOuts : List String} {name : String} {val : Val}
    (h : (makeFeed inpShape shapeOuts).get name = some val) : name ∈ shapeOuts ∧ val = .sym (symbolicShape inpShape) := by
  unfold makeFeed at h
  have key : ∀ (l : List String) (d : Dict String Val),
      (l.foldl (fun d out => d.set out (Val.sym (symbolicShape inpShape))) d).get name = some val →
      (name ∈ l ∧ val = .sym (symbolicShape inpShape)) ∨ d.get name = some val := by
    intro l
    induction l with
    | nil => intro d h; exact Or.inr h
    | cons a l ih =>
      intro d h
      rcases ih _ h with ⟨h1, h2⟩ | h1
      · exact Or.inl ⟨List.mem_cons_of_mem _ h1, h2⟩
      · rw [Dict.get_set] at h1
        split at h1
        · rename_i hn
          cases h1
          exact Or.inl ⟨by simp [hn], rfl⟩
        · exact Or.inr h1
  rcases key shapeOuts [] h with h | h
  · exact h
  · cases h

/-- **C41**: `_optimize_reshape` replaces a computed target shape by a constant one. Take any execution (tensor values
`e`, every shape-computing node doing what ONNX prescribes) on a data operand `x` whose dimensions are positive and
match the recorded shape, with the `Shape` consumers of the data giving its shape, and let the original reshape be defined and have
shape `r`. Whenever the optimizer rewrites, the rewritten reshape is defined and its result, after the inserted `Squeeze` or on
the operand after the inserted `Unsqueeze`, is the original result. Missing: a constant `0` entry with a non-zero shift
(see `reshape_optimizer_zero_violated`), `allowzero = 1`, and what `Handled` excludes. -/
theorem reshape_optimizer_partial {α : Type} (castTo : Int → Int → Int) (opset : Nat) (byOutput : String → Option Node)
    (setOrder : List (Option Node) → List (Option Node)) (hord : ∀ l q, q ∈ setOrder l ↔ q ∈ l) (fuel : Nat)
    (x : T α) (inpShape : List Int) (outShape : Option (List Int)) (shapeOuts : List String) (shapeInput : String)
    (e : String → T Int)
    (hpos : ∀ d ∈ x.shape, 0 < d) (hrec : ShapeRight inpShape x.shape)
    (hshape : ∀ out ∈ shapeOuts, Same (shapeOf x) (e out))
    (hsem : ∀ name n, byOutput name = some n → Sem castTo opset e n ∧ Handled castTo opset e n)
    (t : T Sym) (hrun : computeOutputs castTo opset byOutput setOrder fuel [shapeInput] (makeFeed inpShape shapeOuts) = .ok [t])
    (k : Nat) (ht : t.shape = [k]) (target : List Int) (htarget : IsVec (e shapeInput) target)
    (r : List Nat) (hr : ReshapesTo false x.shape target r)
    (cs : List Int) (shift : Int)
    (hopt : optimizeReshape inpShape outShape ((List.range k).map (fun i => t.get [i])) = .ok (some (cs, shift)))
    (hz : shift ≠ 0 → (0 : Int) ∉ target) :
    (∃ r', ReshapesTo false (pre shift x).shape cs r') ∧
    ∀ r', ReshapesTo false (pre shift x).shape cs r' → Same (post shift (reshape r' (pre shift x))) (reshape r x) := by
  obtain ⟨v, hv⟩ : ∃ v : Nat → Int, v = fun j => (nth x.shape j : Int) := ⟨_, rfl⟩
  have hfeed : ∀ name val, (makeFeed inpShape shapeOuts).get name = some val → Same (val.value v) (e name) := by
    intro name val h
    obtain ⟨h1, rfl⟩ := makeFeed_get h
    refine Same.trans ?_ (hshape name h1)
    refine ⟨by simp [Val.value, tmap, symbolicShape, shapeOf, hrec.1], fun idx hi => ?_⟩
    have hlt : nth idx 0 < x.shape.length := by
      have := hi.2 0 (by simp [Val.value, tmap, symbolicShape])
      simpa [Val.value, tmap, symbolicShape, nth, hrec.1] using this
    simp only [Val.value, tmap, symbolicShape, shapeOf]
    rcases hrec.2 _ hlt with hc | hc
    · rw [if_pos hc, fromVariable_value, hv]
    · have hne : inpShape.getD (nth idx 0) 0 ≠ -1 := by rw [hc]; omega
      rw [if_neg hne, fromConst_value, hc]
  have hout := symbolic_outputs_partial castTo opset byOutput setOrder hord fuel [shapeInput] _ v e hfeed hsem [t] hrun
  have hsame : Same (tmap (Sym.value v) t) (e shapeInput) := by
    cases hout with
    | cons h _ => exact h
  have hvars := computeOutputs_vars (P := fun j => j < x.shape.length) castTo opset byOutput setOrder fuel [shapeInput] _ (by
    intro name val h
    obtain ⟨h1, rfl⟩ := makeFeed_get h
    intro i j hj
    simp only [symbolicShape] at hj
    split at hj
    · rename_i hd
      simp only [Sym.fromVariable, Sym.init] at hj
      rw [if_neg (by omega)] at hj
      have : j = nth i 0 := by simpa using hj
      subst this
      rw [← hrec.1]
      by_contra hge
      rw [List.getD_eq_getElem?_getD, List.getElem?_eq_none (by omega)] at hd
      simp at hd
    · exact absurd hj (by unfold Sym.fromConst Sym.init; split <;> simp)) [t] hrun t (by simp)
  have hk : k = target.length := by
    have h1 := hsame.1
    simp only [tmap] at h1
    rw [ht, htarget.1] at h1
    simpa using h1
  have htgt : ((List.range k).map (fun i => t.get [i])).map (Sym.value v) = target := by
    apply List.ext_getElem (by simp [hk])
    intro i h1 h2
    simp only [List.length_map, List.length_range] at h1
    simp only [List.getElem_map, List.getElem_range]
    have := hsame.2 [i] (by
      simp only [tmap, ht]
      exact ⟨rfl, fun j hj => by
        have : j = 0 := by simpa using hj
        subst this; simpa [nth] using h1⟩)
    simp only [tmap] at this
    rw [this, htarget.2 i h2]
    simp [List.getElem?_eq_getElem h2]
  unfold optimizeReshape at hopt
  cases hp : plan ((List.range k).map (fun i => t.get [i])) with
  | none => rw [hp] at hopt; cases hopt
  | some p =>
    rw [hp] at hopt
    simp only at hopt
    split at hopt
    · cases hopt
    · split at hopt
      · cases hopt
      · simp only [Except.ok.injEq, Option.some.injEq, Prod.mk.injEq] at hopt
        obtain ⟨rfl, rfl⟩ := hopt
        rw [← htgt] at hr hz
        obtain ⟨r', h1, h2⟩ := plan_reshape x r _ p hpos (by
          intro y hy j hj
          rw [List.mem_map] at hy
          obtain ⟨i, _, rfl⟩ := hy
          exact hvars _ j hj) (by rw [← hv]; exact hr) hp (by
          intro hne y hy hc
          apply hz hne
          rw [List.mem_map]
          refine ⟨y, hy, ?_⟩
          unfold Sym.value
          rw [hc, Int.zero_mul])
        refine ⟨⟨r', h1⟩, fun r'' hr'' => ?_⟩
        rw [reshapesTo_unique hr'' h1]
        exact h2

/-! ## Witnesses -/

/-- Dimensions 0 and 1 unknown: `reshape(x, [x1, x0 * 3])`-like targets and shifted ones. -/
example : plan [Sym.fromVariable 1, (Sym.fromVariable 0).mul (Sym.fromConst 3)] = some ([0, -1], 1) := by decide
example : plan [Sym.fromConst 1, Sym.fromVariable 0, Sym.fromVariable 1] = some ([1, 0, 0], -1) := by decide
example : plan [Sym.fromConst 4, (Sym.fromVariable 0).mul (Sym.fromVariable 1)] = some ([4, -1], 0) := by decide
example : plan [Sym.fromVariable 1, Sym.fromVariable 0, Sym.fromVariable 2] = none := by decide

example : plan [Sym.fromVariable 0, Sym.fromVariable 2, Sym.fromVariable 2] = some ([0, -1, 0], 0) := by decide

/-- The hypotheses of `plan_reshape` hold for shape `[2, 5]` and target `[x1, x0 * 3] ↦ [5, 6]` read as a reshape of a
`[2, 5, 3]` tensor. -/
example : ReshapesTo false [2, 5, 3] ([Sym.fromVariable 1, (Sym.fromVariable 0).mul (Sym.fromConst 3)].map
    (Sym.value (fun j => (nth [2, 5, 3] j : Int)))) [5, 6] :=
  (fold_reshape_shape _ _ _).1 (by decide)

/-- `reshape_optimizer_partial` applies to the graph of `exNodes` (`Concat([prod(shape)], [1])`), with a `[5, 3]` operand of
which the first dimension is unknown: the constant shape is `[-1, 1]`. -/
example {α : Type} (x : T α) (hx : x.shape = [5, 3]) :
    ∀ r', ReshapesTo false x.shape [-1, 1] r' → Same (reshape r' x) (reshape [15, 1] x) := by
  have hrun : ∃ t, computeOutputs (fun _ x => x) 12 exNodes id 10 ["out"] (makeFeed [-1, 3] ["shape"]) = .ok [t] ∧
      t.shape = [2] ∧ (List.range 2).map (fun i => t.get [i]) = [⟨[0], 3⟩, ⟨[], 1⟩] := ⟨_, rfl, rfl, rfl⟩
  obtain ⟨t, h1, h2, h3⟩ := hrun
  refine (reshape_optimizer_partial (fun _ x => x) 12 exNodes id (fun _ _ => Iff.rfl) 10 x [-1, 3] none ["shape"] "out" exVal
    (by rw [hx]; decide) (by rw [hx]; exact ⟨rfl, by decide⟩) ?_ exHyps.2 t h1 2 h2 [15, 1] ⟨rfl, ?_⟩ [15, 1]
    (by rw [hx]; exact (fold_reshape_shape _ _ _).1 (by decide)) [-1, 1] 0 (by rw [h3]; rfl) (by decide)).2
  · intro out ho
    have : out = "shape" := by simpa using ho
    subst this
    refine ⟨by simp [shapeOf, hx, exVal], fun idx hi => ?_⟩
    have hlt : nth idx 0 < 2 := by
      have := hi.2 0 (by simp [shapeOf])
      simpa [shapeOf, nth, hx] using this
    simp only [shapeOf, hx, exVal]
    have : nth idx 0 = 0 ∨ nth idx 0 = 1 := by omega
    rcases this with h | h <;> simp [h] <;> rfl
  · intro i hi
    have : i = 0 ∨ i = 1 := by simp at hi; omega
    rcases this with rfl | rfl <;> rfl

/-- **C41 fails for a constant 0 in the target with a non-zero shift**: a `[2, 3, 6]` tensor (all dimensions unknown to
the optimizer) is reshaped to `[x1, 0, x0 * 2]`, that is `[3, 3, 4]`: the `0` copies dimension 1. The optimizer shifts by
1: the constant shape is `[1, 0, 0, -1]`, whose second `0` copies dimension 2, and the result is `[3, 6, 2]`. -/
theorem reshape_optimizer_zero_violated :
    ∃ (s r r' : List Nat) (syms : List Sym) (p : List Int × Int), plan syms = some p ∧ (∀ d ∈ s, 0 < d) ∧
      ReshapesTo false s (syms.map (Sym.value (fun j => (nth s j : Int)))) r ∧ p.2 = 1 ∧
      ReshapesTo false s (constShape p) (1 :: r') ∧ r = [3, 3, 4] ∧ r' = [3, 6, 2] := by
  refine ⟨[2, 3, 6], [3, 3, 4], [3, 6, 2],
    [Sym.fromVariable 1, Sym.fromConst 0, (Sym.fromVariable 0).mul (Sym.fromConst 2)], ([0, 0, -1], 1), by decide,
    by decide, (fold_reshape_shape _ _ _).1 (by decide), rfl, (fold_reshape_shape _ _ _).1 (by decide), rfl, rfl⟩

/-- **C41, the optimizer raises** when the recorded output shape is unknown and the shift is positive. -/
theorem reshape_optimizer_unknown_output_violated :
    ∃ m, optimizeReshape [-1, -1, -1] none [Sym.fromVariable 1, (Sym.fromVariable 0).mul (Sym.fromVariable 2)] = .error m :=
  ⟨_, rfl⟩

end Verif.ReshapeOpt
