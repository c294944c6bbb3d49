import Verif.Model.Rearrange
import Verif.Props.C19_Push2
/-!
# Running emitted operators: vectors of integers
-/
namespace Verif.Emit
open Verif.Tensor

variable {α : Type} {v : Nat} {zero : α} {env : Nat → Option (Value α)}

theorem canon_congr {x y : T Int} (h : Same x y) : canon x = canon y := by
  obtain ⟨s, f⟩ := x
  obtain ⟨s', f'⟩ := y
  obtain ⟨rfl, h⟩ := h
  simp only [canon]
  congr 1
  funext i
  by_cases hi : InB s i
  · rw [if_pos hi, if_pos hi]; exact h i hi
  · rw [if_neg hi, if_neg hi]

theorem canon_same (x : T Int) : Same (canon x) x := ⟨rfl, fun i hi => by
  have : InB x.shape i := hi
  simp [canon, this]⟩

@[simp] theorem canon_shape (x : T Int) : (canon x).shape = x.shape := (rfl)
@[simp] theorem canon_canon (x : T Int) : canon (canon x) = canon x := canon_congr (canon_same x)
@[simp] theorem vecT_shape (l : List Int) : (vecT l).shape = [l.length] := (rfl)
@[simp] theorem canon_vecT (l : List Int) : canon (vecT l) = vecT l := canon_canon _

theorem inB_one {n k : Nat} : InB [n] [k] ↔ k < n := by
  refine ⟨fun h => by simpa [nth] using h.2 0 (by simp), fun h => ⟨rfl, fun i hi => ?_⟩⟩
  have : i = 0 := by simpa using hi
  subst this
  simpa [nth] using h

theorem inB_cons {d : Nat} {s : List Nat} {k : Nat} {i : List Nat} : InB (d :: s) (k :: i) ↔ k < d ∧ InB s i := by
  refine ⟨fun h => ⟨by simpa [nth] using h.2 0 (by simp), by simpa using h.1, fun j hj => ?_⟩, fun h => ⟨by simpa using h.2.1, fun j hj => ?_⟩⟩
  · simpa [nth] using h.2 (j + 1) (by simpa using hj)
  · cases j with
    | zero => simpa [nth] using h.1
    | succ j => simpa [nth] using h.2.2 j (by simpa using hj)

theorem inB_nil {i : List Nat} : InB [] i ↔ i = [] := by
  refine ⟨fun h => by simpa using h.1, ?_⟩
  rintro rfl
  exact ⟨rfl, by simp⟩

theorem inB_cons' {d : Nat} {s i : List Nat} (h : InB (d :: s) i) : ∃ k j, i = k :: j ∧ k < d ∧ InB s j := by
  cases i with
  | nil => simp [InB] at h
  | cons k j => exact ⟨k, j, rfl, inB_cons.1 h⟩

theorem inB_append {s t i j : List Nat} (hl : i.length = s.length) : InB (s ++ t) (i ++ j) ↔ InB s i ∧ InB t j := by
  induction s generalizing i with
  | nil =>
    have : i = [] := by simpa using hl
    subst this
    simp [inB_nil]
  | cons d s ih =>
    cases i with
    | nil => simp at hl
    | cons k i =>
      simp only [List.cons_append, inB_cons]
      rw [ih (by simpa using hl), and_assoc]

theorem inB_append' {s t i : List Nat} (h : InB (s ++ t) i) : ∃ a b, i = a ++ b ∧ InB s a ∧ InB t b := by
  have hl : (i.take s.length).length = s.length := by
    have := h.1
    simp at this ⊢
    omega
  refine ⟨i.take s.length, i.drop s.length, (List.take_append_drop _ _).symm, ?_⟩
  rw [← List.take_append_drop s.length i] at h
  exact (inB_append hl).1 h

@[simp] theorem vecT_get (l : List Int) (k : Nat) (h : k < l.length) : (vecT l).get [k] = l[k] := by
  have : InB [l.length] [k] := inB_one.2 h
  simp [vecT, canon, this, nth, List.getD, h]

theorem canon_eq_vec {x : T Int} {l : List Int} (hs : x.shape = [l.length]) (h : ∀ k (hk : k < l.length), x.get [k] = l[k]) : canon x = vecT l := by
  rw [← canon_vecT l]
  refine canon_congr ⟨hs, fun i hi => ?_⟩
  rw [hs] at hi
  obtain ⟨k, j, rfl, hk, hj⟩ := inB_cons' hi
  rw [inB_nil] at hj
  subst hj
  rw [h k hk, vecT_get l k hk]

@[simp] theorem asVec_vecT (l : List Int) : asVec (vecT l) = some l := by
  simp only [asVec, vecT_shape, List.length_singleton, if_true, Option.some.injEq]
  apply List.ext_getElem (by simp [nth])
  intro k h1 h2
  simp only [List.getElem_map, List.getElem_range]
  exact vecT_get l k h2

@[simp] theorem vec_ints (l : List Int) : (Value.ints (vecT l) : Value α).vec = some l := asVec_vecT l

@[simp] theorem dims_data (x : T α) : (Value.data x).dims = x.shape := (rfl)
@[simp] theorem dims_ints (x : T Int) : (Value.ints x : Value α).dims = x.shape := (rfl)

/-! ## Running -/

@[simp] theorem eval_inp (i : Nat) : (Expr.inp i).eval v zero env = env i := by simp [Expr.eval]
@[simp] theorem eval_const (c : T Int) : (Expr.const c).eval v zero env = some (.ints c) := by simp [Expr.eval]
theorem eval_app (op : Op) (args : List Expr) : (Expr.app op args).eval v zero env = (Expr.evalList v zero env args).bind (op.eval v zero) := by
  simp [Expr.eval, bind]

theorem eval_app1 {op : Op} {a : Expr} {x : Value α} (ha : a.eval v zero env = some x) :
    (Expr.app op [a]).eval v zero env = op.eval v zero [x] := by
  simp [Expr.eval, Expr.evalList, ha]

theorem eval_app2 {op : Op} {a b : Expr} {x y : Value α} (ha : a.eval v zero env = some x) (hb : b.eval v zero env = some y) :
    (Expr.app op [a, b]).eval v zero env = op.eval v zero [x, y] := by
  simp [Expr.eval, Expr.evalList, ha, hb]

theorem eval_app3 {op : Op} {a b c : Expr} {x y z : Value α} (ha : a.eval v zero env = some x) (hb : b.eval v zero env = some y)
    (hc : c.eval v zero env = some z) : (Expr.app op [a, b, c]).eval v zero env = op.eval v zero [x, y, z] := by
  simp [Expr.eval, Expr.evalList, ha, hb, hc]

theorem eval_app4 {op : Op} {a b c d : Expr} {x y z w : Value α} (ha : a.eval v zero env = some x) (hb : b.eval v zero env = some y)
    (hc : c.eval v zero env = some z) (hd : d.eval v zero env = some w) :
    (Expr.app op [a, b, c, d]).eval v zero env = op.eval v zero [x, y, z, w] := by
  simp [Expr.eval, Expr.evalList, ha, hb, hc, hd]

/-! ## Operators on vectors -/

theorem shape_eval {x : Value α} : Op.eval v zero .shape [x] = some (.ints (vecT (x.dims.map Int.ofNat))) := by simp [Op.eval]

theorem mem_allIdx {s i : List Nat} : i ∈ allIdx s → InB s i := by
  induction s generalizing i with
  | nil => simp [allIdx, inB_nil]
  | cons d s ih =>
    simp only [allIdx, List.mem_flatMap, List.mem_range, List.mem_map, forall_exists_index, and_imp]
    rintro k hk j hj rfl
    exact inB_cons.2 ⟨hk, ih hj⟩

/-- `Gather` of a vector. -/
theorem gather_vec {l : List Int} {ix : List Nat} (h : ∀ k ∈ ix, k < l.length) :
    Op.eval v zero (.gather 0) [.ints (vecT l), .ints (vecT (ix.map Int.ofNat))] = some (.ints (vecT (ix.map (fun k => l.getD k 0))) : Value α) := by
  have hget : ∀ i ∈ allIdx (vecT (ix.map Int.ofNat)).shape, ∃ k ∈ ix, (vecT (ix.map Int.ofNat)).get i = Int.ofNat k := by
    intro i hi
    obtain ⟨k, j, rfl, hk, hj⟩ := inB_cons' (mem_allIdx hi)
    rw [inB_nil] at hj
    subst hj
    have hk' : k < ix.length := by simpa using hk
    refine ⟨ix[k], List.getElem_mem _, ?_⟩
    rw [vecT_get _ _ hk]
    simp
  have h1 : AxesOk 1 [0] := by decide
  have h2 : IndicesOk (nth [l.length] (normAxis 1 0)) (vecT (ix.map Int.ofNat)) := by
    intro i hi
    obtain ⟨k, hk, e⟩ := hget i hi
    have := h k hk
    rw [e]
    simp only [normAxis, nth]
    constructor
    · simp; try omega
    · simpa using this
  have h3 : v < 11 → ∀ i ∈ allIdx (vecT (ix.map Int.ofNat)).shape, 0 ≤ (vecT (ix.map Int.ofNat)).get i := by
    intro _ i hi
    obtain ⟨k, hk, e⟩ := hget i hi
    rw [e]
    simp
  refine (if_pos ⟨h1, h2, h3⟩ : Op.eval v zero (.gather 0) [.ints (vecT l), .ints (vecT (ix.map Int.ofNat))] = _).trans ?_
  simp only [Value.move, Option.some.injEq, Value.ints.injEq]
  apply canon_eq_vec
  · simp [gatherOn, normAxis]
  · intro k hk
    have hk' : k < ix.length := by simpa using hk
    have hk2 := h _ (List.getElem_mem hk')
    have e : (vecT (ix.map Int.ofNat)).get [k] = Int.ofNat ix[k] := by
      rw [vecT_get _ _ (by simpa using hk')]
      simp
    simp only [dims_ints, vecT_shape, List.length_singleton, normAxis, gatherOn, List.getElem_map]
    simp [nth, posOf, e, hk2]
    have : ¬ ((ix[k] : Int) < 0) := by omega
    simp [this, hk2]

theorem nth_cons_zero (a : Nat) (l : List Nat) : nth (a :: l) 0 = a := (rfl)
theorem nth_cons_succ (a : Nat) (l : List Nat) (i : Nat) : nth (a :: l) (i + 1) = nth l i := (rfl)

/-- `Expand` of a vector of length 1. -/
theorem expand_vec {d : Int} {n : Nat} :
    Op.eval v zero .expand [.ints (vecT [d]), .ints (vecT [(n : Int)])] = some (.ints (vecT (List.replicate n d)) : Value α) := by
  have h : Fits (expandRank 1 (vecT [d])).shape (expandRank 1 (⟨[n], fun _ => ()⟩ : T Unit)).shape := by
    intro i hi
    have : i = 0 := by simpa [expandRank] using hi
    subst this
    simp [expandRank, nth]
  have e : Op.eval v zero .expand [.ints (vecT [d]), .ints (vecT [(n : Int)])] =
      (expandOn [n] (vecT [d])).map (fun z => (.ints (canon z) : Value α)) := by
    simp [Op.eval, bind]
  rw [e]
  simp only [expandOn, zipT, vecT_shape, List.length_singleton, Nat.max_self]
  rw [if_pos h]
  simp only [Option.map_some, Option.some.injEq, Value.ints.injEq]
  apply canon_eq_vec
  · simp [expandRank, nth]
  · intro k hk
    have : (vecT [d]).get [0] = d := by rw [vecT_get _ _ (by simp)]; rfl
    simp [expandRank, bidx, nth, this]

end Verif.Emit
