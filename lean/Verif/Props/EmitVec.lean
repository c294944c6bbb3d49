import Verif.Props.EmitKit
import Verif.Props.C18_Reshape
import Mathlib.Tactic.Ring
/-!
# Running emitted operators: arithmetic of vectors, `Reshape`, `Slice`
-/
namespace Verif.Emit
open Verif.Tensor

variable {α β : Type} {v : Nat} {zero : α} {env : Nat → Option (Value α)}

/-! ## Element-wise operators -/

/-- Vectors of the same length. -/
theorem zipT_vec {γ : Type} (f : Int → Int → γ) {a b : List Int} (h : a.length = b.length) :
    ∃ z, zipT f (vecT a) (vecT b) = some z ∧ z.shape = [a.length] ∧ ∀ k (hk : k < a.length), z.get [k] = f a[k] (b[k]'(h ▸ hk)) := by
  have hf : Fits (expandRank 1 (vecT a)).shape (expandRank 1 (vecT b)).shape := by
    intro i hi
    have : i = 0 := by simpa [expandRank] using hi
    subst this
    simp [expandRank, nth, h]
  refine ⟨_, if_pos hf, ?_, fun k hk => ?_⟩
  · simp [expandRank, nth, h]
  · have e : ∀ c : List Int, c.length = a.length → bidx [c.length] [k] = [k] := by
      intro c hc
      simp only [bidx, List.length_singleton, List.range_one, List.map_cons, List.map_nil, nth_cons_zero]
      by_cases h1 : c.length = 1
      · rw [if_pos h1]; congr 1; omega
      · rw [if_neg h1]
    simp only [expandRank, vecT_shape, List.length_singleton, Nat.max_self, Nat.sub_self, List.replicate_zero, List.nil_append, List.drop_zero]
    rw [e a rfl, e b h.symm, vecT_get a k hk, vecT_get b k (h ▸ hk)]

theorem canon_zip {f : Int → Int → Int} {a b : List Int} {z : T Int} (h : a.length = b.length) (hs : z.shape = [a.length])
    (hz : ∀ k (hk : k < a.length), z.get [k] = f a[k] (b[k]'(h ▸ hk))) : canon z = vecT (List.zipWith f a b) := by
  apply canon_eq_vec
  · simp [hs, h]
  · intro k hk
    have hk' : k < a.length := by simp at hk; omega
    rw [hz k hk']
    simp

theorem mul_vec {a b : List Int} (h : a.length = b.length) :
    Op.eval v zero .mul [.ints (vecT a), .ints (vecT b)] = some (.ints (vecT (List.zipWith (· * ·) a b)) : Value α) := by
  obtain ⟨z, hz, hs, hg⟩ := zipT_vec (fun x y : Int => x * y) h
  show (zipT _ _ _).map _ = _
  rw [hz]
  simp [canon_zip h hs hg]

theorem sub_vec {a b : List Int} (h : a.length = b.length) :
    Op.eval v zero .sub [.ints (vecT a), .ints (vecT b)] = some (.ints (vecT (List.zipWith (· - ·) a b)) : Value α) := by
  obtain ⟨z, hz, hs, hg⟩ := zipT_vec (fun x y : Int => x - y) h
  show (zipT _ _ _).map _ = _
  rw [hz]
  simp [canon_zip h hs hg]

theorem add_vec {a b : List Int} (h : a.length = b.length) :
    Op.eval v zero .add [.ints (vecT a), .ints (vecT b)] = some (.ints (vecT (List.zipWith (· + ·) a b)) : Value α) := by
  obtain ⟨z, hz, hs, hg⟩ := zipT_vec (fun x y : Int => x + y) h
  show (zipT _ _ _).map _ = _
  rw [hz]
  simp [canon_zip h hs hg]

theorem div_vec {a b : List Int} (h : a.length = b.length) :
    Op.eval v zero .div [.ints (vecT a), .ints (vecT b)] = some (.ints (vecT (List.zipWith Int.tdiv a b)) : Value α) := by
  obtain ⟨z, hz, hs, hg⟩ := zipT_vec Int.tdiv h
  show (zipT _ _ _).map _ = _
  rw [hz]
  simp [canon_zip h hs hg]

/-! ## `Concat` -/

theorem allInts_vecs (ls : List (List Int)) : allInts (ls.map (fun l => (.ints (vecT l) : Value α))) = some (ls.map vecT) := by
  induction ls with
  | nil => rfl
  | cons l ls ih => simp [allInts, ih]

theorem concatGet_vec {ls : List (List Int)} {k : Nat} (hk : k < ls.flatten.length) : concatGet 0 0 (ls.map vecT) [k] = ls.flatten[k] := by
  induction ls generalizing k with
  | nil => simp at hk
  | cons l ls ih =>
    simp only [List.map_cons, concatGet, vecT_shape, nth_cons_zero, setAt, List.set_cons_zero, List.flatten_cons]
    by_cases h : k < l.length
    · rw [if_pos h, vecT_get l k h, List.getElem_append_left h]
    · rw [if_neg h]
      have hk' : k - l.length < ls.flatten.length := by
        rw [List.flatten_cons, List.length_append] at hk
        omega
      rw [ih hk', List.getElem_append_right (by omega)]

/-- Vectors one after the other. -/
theorem concat_vecs {ls : List (List Int)} (h : ls ≠ []) :
    Op.eval v zero (.concat 0) (ls.map (fun l => (.ints (vecT l) : Value α))) = some (.ints (vecT ls.flatten)) := by
  obtain ⟨l, ls', rfl⟩ := List.exists_cons_of_ne_nil h
  have ha : normAxis (((l :: ls').map vecT).headD ⟨[], fun _ => 0⟩).shape.length 0 = 0 := rfl
  have hok : ConcatOk 0 ((l :: ls').map vecT) := by
    refine ⟨by simp, fun y hy => ?_⟩
    obtain ⟨m, -, rfl⟩ := List.mem_map.1 hy
    refine ⟨rfl, fun i hi h0 => ?_⟩
    have : i = 0 := by simpa using hi
    exact absurd this h0
  show concatOp v zero 0 _ = _
  unfold concatOp
  rw [allInts_vecs]
  simp only [ha]
  rw [if_pos ⟨hok, by simp⟩]
  simp only [Option.some.injEq, Value.ints.injEq]
  apply canon_eq_vec
  · have : ((fun x : T Int => nth x.shape 0) ∘ vecT) = List.length := rfl
    simp [Tensor.concat, setAt, this, nth_cons_zero]
  · intro k hk
    exact concatGet_vec hk

/-! ## `Slice` -/

/-- Where a slice with step 1 starts, and how long it is. -/
theorem slice_count {s e d : Int} (h0 : 0 ≤ s) (h1 : s ≤ d) :
    (SliceSpec.first ⟨s, e, 1⟩ d) = s ∧ (SliceSpec.count ⟨s, e, 1⟩ d) = (clampPos d 0 d e - s).toNat := by
  have hf : SliceSpec.first ⟨s, e, 1⟩ d = s := by
    simp only [SliceSpec.first, clampPos]
    simp only [show (0 : Int) < 1 by decide, if_true]
    have : ¬ s < 0 := by omega
    simp only [this, if_false]
    omega
  refine ⟨hf, ?_⟩
  unfold SliceSpec.count
  simp only [show (0 : Int) < 1 by decide, if_true]
  rw [hf]
  simp [SliceSpec.last]

/-- The parameter of axis `i` of a slice. -/
def slicePar (r : Nat) (axes : List Int) (specs : List SliceSpec) (i : Nat) : Option SliceSpec :=
  ((axes.zip specs).find? (fun p => normAxis r p.1 = i)).map (·.2)

theorem slice_eq {fill : β} {axes : List Int} {specs : List SliceSpec} {x : T β} :
    slice fill axes specs x =
      { shape := (List.range x.shape.length).map (fun i => match slicePar x.shape.length axes specs i with | none => nth x.shape i | some s => s.count (nth x.shape i))
        get := fun idx => x.get ((List.range x.shape.length).map (fun i =>
          match slicePar x.shape.length axes specs i with | none => nth idx i | some s => (s.first (nth x.shape i) + nth idx i * s.step).toNat)) } := by
  unfold slice axisOp
  have h : ∀ idx : List Nat, ∀ i, i < x.shape.length → (sliceRule.src (((axes.zip specs).find? (fun p => decide (normAxis x.shape.length p.1 = i))).map (·.2))
      (nth x.shape i) (nth idx i)).isSome = true := by
    intro idx i _
    simp only [sliceRule]
    cases (List.find? (fun p => decide (normAxis x.shape.length p.1 = i)) (axes.zip specs)) <;> rfl
  have hg : (fun idx => if ∀ i, i < x.shape.length → (sliceRule.src (((axes.zip specs).find? (fun p => decide (normAxis x.shape.length p.1 = i))).map (·.2))
      (nth x.shape i) (nth idx i)).isSome = true then x.get ((List.range x.shape.length).map (fun i => (sliceRule.src
        (((axes.zip specs).find? (fun p => decide (normAxis x.shape.length p.1 = i))).map (·.2)) (nth x.shape i) (nth idx i)).getD 0)) else fill) =
      fun idx => x.get ((List.range x.shape.length).map (fun i =>
          match slicePar x.shape.length axes specs i with | none => nth idx i | some s => (s.first (nth x.shape i) + nth idx i * s.step).toNat)) := by
    funext idx
    rw [if_pos (h idx)]
    congr 1
    apply List.map_congr_left
    intro i _
    simp only [sliceRule, slicePar]
    cases (List.find? (fun p => decide (normAxis x.shape.length p.1 = i)) (axes.zip specs)) <;> rfl
  simp only [hg]
  rfl

/-- Part of a vector. -/
theorem slice_vec {l : List Int} {a : Nat} {e : Int} (hv : 10 ≤ v) (ha : a ≤ l.length) (he : 0 ≤ e) :
    Op.eval v zero .slice [.ints (vecT l), .ints (vecT [(a : Int)]), .ints (vecT [e])] = some (.ints (vecT ((l.take e.toNat).drop a)) : Value α) := by
  have hop : Op.eval v zero .slice [.ints (vecT l), .ints (vecT [(a : Int)]), .ints (vecT [e])] =
      some (.ints (canon (sliceOn [(a : Int)] [e] [0] 0 (vecT l))) : Value α) := by
    simp only [Op.eval, vec_ints, Option.bind_eq_bind, Option.bind_some, dims_ints, List.length_singleton]
    have ha : AxesOk 1 ((List.range 1).map Int.ofNat) := by decide
    exact if_pos ⟨hv, rfl, rfl, ha⟩
  rw [hop]
  simp only [Option.some.injEq, Value.ints.injEq, sliceOn, slice_eq]
  have hp : slicePar 1 [0] (List.zipWith (fun s e => ⟨s, e, 1⟩) [(a : Int)] [e]) 0 = some ⟨a, e, 1⟩ := rfl
  have hc := slice_count (s := a) (e := e) (d := l.length) (by omega) (by omega)
  have hcl : (clampPos l.length 0 l.length e - a).toNat = min e.toNat l.length - a := by
    unfold clampPos
    rw [if_neg (by omega)]
    omega
  apply canon_eq_vec
  · simp only [vecT_shape, List.length_singleton, List.range_one, List.map_cons, List.map_nil]
    rw [hp]
    simp only [nth_cons_zero]
    rw [hc.2, hcl]
    simp
  · intro k hk
    have hk' : k < min e.toNat l.length - a := by simpa using hk
    simp only [vecT_shape, List.length_singleton, List.range_one, List.map_cons, List.map_nil, hp, nth_cons_zero]
    rw [hc.1]
    have : ((a : Int) + (k : Int) * 1).toNat = a + k := by omega
    rw [this, vecT_get l _ (by omega)]
    simp

/-! ## `Reshape` -/

theorem size_cons (d : Nat) (s : List Nat) : size (d :: s) = d * size s := rfl
theorem size_append (s t : List Nat) : size (s ++ t) = size s * size t := by
  induction s with
  | nil => simp [size]
  | cons d s ih => rw [List.cons_append, size_cons, size_cons, ih, Nat.mul_assoc]

theorem size_pos {s : List Nat} (h : ∀ d ∈ s, 0 < d) : 0 < size s := by
  induction s with
  | nil => simp [size]
  | cons d s ih => rw [size_cons]; exact Nat.mul_pos (h d (by simp)) (ih fun e he => h e (by simp [he]))

/-- A target without zeros, with one open dimension. -/
theorem reshapeDims_open {s pre post : List Nat} {n : Nat} (hpos : ∀ d ∈ pre ++ post, 0 < d) (hs : size s = size (pre ++ n :: post)) :
    reshapeDims s (pre.map Int.ofNat ++ (-1) :: post.map Int.ofNat) = some (pre ++ n :: post) := by
  have hne : ∀ d ∈ pre ++ post, (Int.ofNat d) ≠ -1 ∧ Int.ofNat d ≠ 0 := fun d hd => by
    have := hpos d hd
    constructor
    · simp
    · simp; omega
  have hcopy : (pre.map Int.ofNat ++ (-1) :: post.map Int.ofNat).mapIdx (fun i z => if z = 0 then (nth s i : Int) else z) =
      pre.map Int.ofNat ++ (-1) :: post.map Int.ofNat := by
    apply List.ext_getElem (by simp)
    intro i h1 h2
    rw [List.getElem_mapIdx]
    have hm := List.getElem_mem h2
    rw [if_neg]
    intro h0
    rw [h0] at hm
    simp only [List.mem_append, List.mem_map, List.mem_cons] at hm
    rcases hm with ⟨d, hd, e⟩ | e | ⟨d, hd, e⟩
    · exact (hne d (by simp [hd])).2 e
    · cases e
    · exact (hne d (by simp [hd])).2 e
  have hfil : ∀ l : List Nat, (∀ d ∈ l, 0 < d) → ((l.map Int.ofNat).filter (fun z => decide (z ≠ -1))).map Int.toNat = l := by
    intro l _
    rw [List.filter_eq_self.2 (by
      intro z hz
      obtain ⟨d, -, rfl⟩ := List.mem_map.1 hz
      simp)]
    rw [List.map_map]
    exact List.map_id _
  have hk : ((pre.map Int.ofNat ++ (-1) :: post.map Int.ofNat).filter (fun z => decide (z ≠ -1))).map Int.toNat = pre ++ post := by
    rw [List.filter_append, List.map_append, hfil pre fun d hd => hpos d (by simp [hd]), List.filter_cons_of_neg (by simp),
      hfil post fun d hd => hpos d (by simp [hd])]
  have hq : size s / size (pre ++ post) = n := by
    have : size s = n * size (pre ++ post) := by
      rw [hs, size_append, size_append, size_cons]
      ring_nf
    rw [this]
    exact Nat.mul_div_cancel _ (size_pos hpos)
  have hr : (pre.map Int.ofNat ++ (-1) :: post.map Int.ofNat).map (fun z => if z = -1 then size s / size (pre ++ post) else z.toNat) = pre ++ n :: post := by
    have hmap : ∀ l : List Nat, (l.map Int.ofNat).map (fun z => if z = -1 then size s / size (pre ++ post) else z.toNat) = l := by
      intro l
      rw [List.map_map]
      conv_rhs => rw [← List.map_id l]
      apply List.map_congr_left
      intro d _
      simp
    rw [List.map_append, List.map_cons, hmap, hmap]
    simp [hq]
  unfold reshapeDims
  simp only [hcopy, hk, hr]
  rw [if_pos]
  refine ⟨?_, ?_, ?_, ?_, hs.symm⟩
  · intro z hz
    simp only [List.mem_append, List.mem_map, List.mem_cons] at hz
    rcases hz with ⟨d, hd, rfl⟩ | rfl | ⟨d, hd, rfl⟩
    · simp
    · decide
    · simp
  · intro i _ h0
    have hm := List.mem_of_getElem? h0
    simp only [List.mem_append, List.mem_map, List.mem_cons] at hm
    rcases hm with ⟨d, hd, e⟩ | e | ⟨d, hd, e⟩
    · exact absurd e (hne d (by simp [hd])).2
    · cases e
    · exact absurd e (hne d (by simp [hd])).2
  · have hz : ∀ l : List Nat, (l.map Int.ofNat).count (-1) = 0 := fun l => List.count_eq_zero.2 (by simp)
    rw [List.count_append, List.count_cons, hz, hz]
    simp
  · intro _
    exact Nat.pos_iff_ne_zero.1 (size_pos hpos)

theorem reshape_data {x : T α} {l : List Int} {r : List Nat} (h : reshapeDims x.shape l = some r) :
    Op.eval v zero .reshape [.data x, .ints (vecT l)] = some (.data (Tensor.reshape r x)) := by
  simp only [Op.eval, vec_ints, Option.bind_eq_bind, Option.bind_some, dims_data, h]
  rfl

theorem reshape_ints {x : T Int} {l : List Int} {r : List Nat} (h : reshapeDims x.shape l = some r) :
    Op.eval v zero .reshape [.ints x, .ints (vecT l)] = some (.ints (canon (Tensor.reshape r x)) : Value α) := by
  simp only [Op.eval, vec_ints, Option.bind_eq_bind, Option.bind_some, dims_ints, h]
  rfl

/-! ## Row-major positions -/

theorem lin_append {s t i j : List Nat} (h : i.length = s.length) : lin (s ++ t) (i ++ j) = lin s i * size t + lin t j := by
  induction s generalizing i with
  | nil =>
    have : i = [] := by simpa using h
    subst this
    simp [lin]
  | cons d s ih =>
    cases i with
    | nil => simp at h
    | cons k i =>
      simp only [List.cons_append, lin]
      rw [ih (by simpa using h), size_append]
      ring_nf

@[simp] theorem lin_one (d k : Nat) : lin [d] [k] = k := by simp [lin, size]

/-- A reshaped tensor read where the position is known. -/
theorem reshape_get {r : List Nat} {x : T β} {i j : List Nat} (hj : InB x.shape j) (h : lin r i = lin x.shape j) : (Tensor.reshape r x).get i = x.get j := by
  simp only [Tensor.reshape]
  rw [h, TransposeOpt.delin_lin hj]

end Verif.Emit
