import Verif.Props.C55_Blocks
import Verif.Spec.TfRearrange
/-!
# C55: running the parts of the emitted operators
-/
namespace Verif.Emit
open Verif.Tensor TransposeOpt

variable {α β : Type} {v : Nat} {zero : α} {env : Nat → Option (Value α)}

/-- A matrix of pairs: crops or paddings. -/
def pairsT (l : List (Nat × Nat)) : T Int :=
  canon ⟨[l.length, 2], fun i => if nth i 1 = 0 then ((l.getD (nth i 0) (0, 0)).1 : Int) else ((l.getD (nth i 0) (0, 0)).2 : Int)⟩

theorem inB_two {m n i j : Nat} : InB [m, n] [i, j] ↔ i < m ∧ j < n := by rw [inB_cons, inB_one]

theorem inB_two' {m n : Nat} {i : List Nat} (h : InB [m, n] i) : ∃ a b, i = [a, b] ∧ a < m ∧ b < n := by
  obtain ⟨a, j, rfl, ha, hj⟩ := inB_cons' h
  obtain ⟨b, j, rfl, hb, hj⟩ := inB_cons' hj
  rw [inB_nil] at hj
  subst hj
  exact ⟨a, b, rfl, ha, hb⟩

theorem pairsT_get (l : List (Nat × Nat)) {k : Nat} (h : k < l.length) : (pairsT l).get [k, 0] = l[k].1 ∧ (pairsT l).get [k, 1] = l[k].2 := by
  have h0 : InB [l.length, 2] [k, 0] := inB_two.2 ⟨h, by omega⟩
  have h1 : InB [l.length, 2] [k, 1] := inB_two.2 ⟨h, by omega⟩
  simp [pairsT, canon, h0, h1, nth, List.getD, h]

theorem zipWith_range {γ : Type} (f : Nat → Nat → γ) {g : Nat → Nat} {b : List Nat} :
    List.zipWith f ((List.range b.length).map g) b = (List.range b.length).map (fun k => f (g k) (nth b k)) := by
  apply List.ext_getElem (by simp)
  intro k h1 h2
  have : k < b.length := by simpa using h2
  simp [nth, List.getD, this]

theorem nth_range_self (l : List Nat) : (List.range l.length).map (nth l) = l := map_getD_range 0

/-- A list split at its parts, by components. -/
theorem nth_split {i m : Nat} {w e : List Nat} (h : w.length = m) (k : Nat) :
    nth (i :: w ++ e) (k + 1) = if k < m then nth w k else nth e (k - m) := by
  rw [List.cons_append, nth_cons_succ]
  unfold nth
  split
  · rw [getD_append_left _ (by omega)]
  · rw [getD_append_right _ (by omega), h]

/-- `Transpose` of a matrix. -/
theorem transpose2_ints {x : T Int} {m n : Nat} (h : x.shape = [m, n]) :
    ∃ z, Op.eval v zero (.transpose none) [.ints x] = some (.ints (canon z) : Value α) ∧ z.shape = [n, m] ∧ ∀ i j, z.get [i, j] = x.get [j, i] := by
  have hp : IsPerm [1, 0] := by decide
  refine ⟨Tensor.transpose [1, 0] x, ?_, by simp [Tensor.transpose, h, nth], fun i j => ?_⟩
  · simp only [Op.eval, dims_ints, h, Option.getD_none]
    exact if_pos ⟨hp, rfl⟩
  · simp [Tensor.transpose, permIdx, List.range_succ, nth]

/-- Two vectors, interleaved by the runtime. -/
theorem interleaveE_eval {m : Nat} {ea eb : Expr} {a b : List Int} (hm : 1 ≤ m) (ha : a.length = m) (hb : b.length = m)
    (hea : ea.eval v zero env = some (.ints (vecT a))) (heb : eb.eval v zero env = some (.ints (vecT b))) :
    (interleaveE m ea eb).eval v zero env = some (.ints (vecT (interleave a b))) := by
  have h1 : (Expr.app (.concat 0) [ea, eb]).eval v zero env = some (.ints (vecT (a ++ b))) := by
    rw [eval_app2 hea heb]
    have := concat_vecs (α := α) (v := v) (zero := zero) (ls := [a, b]) (by simp)
    simpa using this
  have hl : (a ++ b).length = 2 * m := by simp [ha, hb]; omega
  have h2 : (Expr.app .reshape [.app (.concat 0) [ea, eb], .const (vecT [-1, m])]).eval v zero env =
      some (.ints (canon (Tensor.reshape [2, m] (vecT (a ++ b))))) := by
    rw [eval_app2 h1 (eval_const _)]
    apply reshape_ints
    have := reshapeDims_open (s := (vecT (a ++ b)).shape) (pre := []) (post := [m]) (n := 2) (by simp; omega) (by simp [size]; omega)
    simpa using this
  obtain ⟨z, hz, hzs, hzg⟩ := transpose2_ints (v := v) (zero := zero) (x := canon (Tensor.reshape [2, m] (vecT (a ++ b)))) (m := 2) (n := m) rfl
  have hil : (interleave a b).length = 2 * m := by rw [interleave_length (by omega), ha]
  unfold interleaveE
  rw [eval_app2 ((eval_app1 h2).trans hz) (eval_const _)]
  rw [reshape_ints (r := [2 * m])]
  · simp only [Option.some.injEq, Value.ints.injEq]
    apply canon_eq_vec
    · simp [Tensor.reshape, hil]
    · intro k hk
      rw [hil] at hk
      have hread : ∀ r c, r < 2 → c < m → (Tensor.reshape [2, m] (vecT (a ++ b))).get [r, c] = (a ++ b).getD (r * m + c) 0 := by
        intro r c hr hc
        have hlt : r * m + c < (a ++ b).length := by
          rw [hl]
          have : r = 0 ∨ r = 1 := by omega
          rcases this with rfl | rfl <;> omega
        rw [reshape_get (j := [r * m + c]) (inB_one.2 hlt) (by simp [lin, size])]
        rw [vecT_get _ _ hlt]
        rw [List.getD, List.getElem?_eq_getElem hlt]
        rfl
      have hgen : ∀ q r, q < m → r < 2 → k = 2 * q + r → (Tensor.reshape [2 * m] (canon z)).get [k] = (a ++ b).getD (r * m + q) 0 := by
        intro q r hq hr e
        have hin : InB z.shape [q, r] := by rw [hzs]; exact inB_two.2 ⟨hq, hr⟩
        have hin2 : InB [2, m] [r, q] := inB_two.2 ⟨hr, hq⟩
        rw [reshape_get (x := canon z) (j := [q, r]) hin (by simp [lin, size, hzs, e]; omega)]
        rw [(canon_same z).2 _ hin, hzg]
        rw [(canon_same (Tensor.reshape [2, m] (vecT (a ++ b)))).2 _ hin2]
        exact hread r q hr hq
      have hint := interleave_getD (a := a) (b := b) (by omega) 0 (k / 2)
      have hval : (interleave a b)[k] = (interleave a b).getD k 0 := by simp [List.getD, hil, hk]
      rw [hval]
      rcases Nat.mod_two_eq_zero_or_one k with h | h
      · have hk2 : k = 2 * (k / 2) := by omega
        rw [hgen (k / 2) 0 (by omega) (by omega) (by omega), getD_append_left _ (by omega)]
        conv_rhs => rw [hk2]
        rw [hint.1]
        congr 1
        omega
      · have hk2 : k = 2 * (k / 2) + 1 := by omega
        rw [hgen (k / 2) 1 (by omega) (by omega) (by omega), getD_append_right _ (by omega)]
        conv_rhs => rw [hk2]
        rw [hint.2]
        congr 1
        omega
  · have := reshapeDims_open (s := (canon z).shape) (pre := []) (post := []) (n := 2 * m) (by simp) (by simp [size, hzs]; ring)
    simpa using this

/-- A part of the dimensions. -/
theorem dims_slice {x : Expr} {n : Nat} {s d : List Nat} (hx : x.eval v zero env = some (.ints (vecT ((n :: s ++ d).map Int.ofNat)))) (hv : 10 ≤ v)
    (hr : (1 + s.length + d.length : Int) ≤ int64Max) :
    (Expr.app .slice [x, .const (vecT [1]), .const (vecT [(s.length : Int) + 1])]).eval v zero env = some (.ints (vecT (s.map Int.ofNat))) ∧
    (Expr.app .slice [x, .const (vecT [(s.length : Int) + 1]), .const (vecT [int64Max])]).eval v zero env = some (.ints (vecT (d.map Int.ofNat))) := by
  constructor
  · rw [eval_app3 hx (eval_const _) (eval_const _)]
    have := slice_vec (α := α) (v := v) (zero := zero) (l := (n :: s ++ d).map Int.ofNat) (a := 1) (e := (s.length : Int) + 1) hv (by simp) (by omega)
    refine this.trans ?_
    have e : ((s.length : Int) + 1).toNat = s.length + 1 := by omega
    rw [e]
    simp
  · rw [eval_app3 hx (eval_const _) (eval_const _)]
    have := slice_vec (α := α) (v := v) (zero := zero) (l := (n :: s ++ d).map Int.ofNat) (a := s.length + 1) (e := int64Max) hv (by simp) (by decide)
    refine this.trans ?_
    rw [List.take_of_length_le]
    · simp
    · simp only [List.length_map, List.length_append, List.length_cons]
      omega

/-- A column of the crops as a vector. -/
theorem cropRow_eval {e : Expr} {l : List (Nat × Nat)} (hv : 10 ≤ v) (hl : (l.length : Int) ≤ int64Max) (he : e.eval v zero env = some (.ints (pairsT l)))
    {r : Nat} (hr : r < 2) :
    (squeeze0 v (.app .slice [.app (.transpose none) [.app .cast64 [e]], .const (vecT [(r : Int), 0]), .const (vecT [(r : Int) + 1, int64Max])])).eval v zero env =
      some (.ints (vecT (l.map (fun p => if r = 0 then (p.1 : Int) else p.2)))) := by
  obtain ⟨z, hz, hzs, hzg⟩ := transpose2_ints (v := v) (zero := zero) (x := pairsT l) (m := l.length) (n := 2) rfl
  have h1 : (Expr.app (.transpose none) [.app .cast64 [e]]).eval v zero env = some (.ints (canon z)) := by
    rw [eval_app1 (x := .ints (pairsT l)) ((eval_app1 he).trans rfl)]
    exact hz
  have hax : AxesOk 2 ((List.range 2).map Int.ofNat) := by decide
  have h2 : (Expr.app .slice [.app (.transpose none) [.app .cast64 [e]], .const (vecT [(r : Int), 0]), .const (vecT [(r : Int) + 1, int64Max])]).eval v zero env =
      some (.ints (canon (sliceOn [(r : Int), 0] [(r : Int) + 1, int64Max] [0, 1] 0 (canon z)))) := by
    rw [eval_app3 h1 (eval_const _) (eval_const _)]
    simp only [Op.eval, vec_ints, Option.bind_eq_bind, Option.bind_some, dims_ints, canon_shape, hzs]
    exact if_pos ⟨hv, rfl, rfl, hax⟩
  have hp0 : slicePar 2 [0, 1] (List.zipWith (fun s e => ⟨s, e, 1⟩) [(r : Int), 0] [(r : Int) + 1, int64Max]) 0 = some ⟨r, r + 1, 1⟩ := rfl
  have hp1 : slicePar 2 [0, 1] (List.zipWith (fun s e => ⟨s, e, 1⟩) [(r : Int), 0] [(r : Int) + 1, int64Max]) 1 = some ⟨0, int64Max, 1⟩ := rfl
  have c0 := slice_count (s := r) (e := r + 1) (d := 2) (by omega) (by omega)
  have c1 := slice_count (s := 0) (e := int64Max) (d := l.length) (by omega) (by omega)
  have hc0 : (clampPos 2 0 2 ((r : Int) + 1) - r).toNat = 1 := by unfold clampPos; rw [if_neg (by omega)]; omega
  have hc1 : (clampPos l.length 0 l.length int64Max - 0).toNat = l.length := by unfold clampPos; rw [if_neg (by decide)]; omega
  have hsh : (sliceOn [(r : Int), 0] [(r : Int) + 1, int64Max] [0, 1] 0 (canon z)).shape = [1, l.length] := by
    simp only [sliceOn, slice_eq, canon_shape, hzs, List.length_cons, List.length_nil, List.range_succ, List.range_zero, List.nil_append, List.cons_append,
      List.map_cons, List.map_nil, Nat.zero_add, nth_cons_zero, nth_cons_succ]
    rw [hp0, hp1]
    simp only
    have e2 : ((2 : Nat) : Int) = 2 := rfl
    rw [e2, c0.2, c1.2, hc0, hc1]
  have hget : ∀ k, k < l.length → (sliceOn [(r : Int), 0] [(r : Int) + 1, int64Max] [0, 1] 0 (canon z)).get [0, k] =
      if r = 0 then ((l.getD k (0, 0)).1 : Int) else (l.getD k (0, 0)).2 := by
    intro k hk
    simp only [sliceOn, slice_eq, canon_shape, hzs, List.length_cons, List.length_nil, List.range_succ, List.range_zero, List.nil_append, List.cons_append,
      List.map_cons, List.map_nil, Nat.zero_add, nth_cons_zero, nth_cons_succ]
    rw [hp0, hp1]
    simp only
    have e2 : ((2 : Nat) : Int) = 2 := rfl
    rw [e2, c0.1, c1.1]
    have e3 : ((r : Int) + ((0 : Nat) : Int) * 1).toNat = r := by omega
    have e4 : ((0 : Int) + (k : Int) * 1).toNat = k := by omega
    rw [e3, e4, (canon_same z).2 _ (by rw [canon_shape, hzs]; exact inB_two.2 ⟨hr, hk⟩), hzg]
    have := pairsT_get l hk
    rcases (show r = 0 ∨ r = 1 by omega) with rfl | rfl
    · simpa [List.getD, hk] using this.1
    · simpa [List.getD, hk] using this.2
  have hax0 : AxesOk 2 [0] := by decide
  have hsq : (squeeze0 v (.app .slice [.app (.transpose none) [.app .cast64 [e]], .const (vecT [(r : Int), 0]), .const (vecT [(r : Int) + 1, int64Max])])).eval
      v zero env = some (.ints (canon (Tensor.squeeze (axSet 2 [0]) (canon (sliceOn [(r : Int), 0] [(r : Int) + 1, int64Max] [0, 1] 0 (canon z)))))) := by
    have hattr : v < 13 → (Expr.app (.squeezeAttr [0]) [.app .slice [.app (.transpose none) [.app .cast64 [e]], .const (vecT [(r : Int), 0]),
        .const (vecT [(r : Int) + 1, int64Max])]]).eval v zero env =
        some (.ints (canon (Tensor.squeeze (axSet 2 [0]) (canon (sliceOn [(r : Int), 0] [(r : Int) + 1, int64Max] [0, 1] 0 (canon z)))))) := by
      intro hlt
      rw [eval_app1 h2]
      simp only [Op.eval, dims_ints, canon_shape, hsh]
      exact if_pos ⟨hlt, hax0, by simp, by simp [normAxis, nth]⟩
    unfold squeeze0 mkSqueeze
    split
    · split
      · exact hattr ‹_›
      · rw [eval_app2 h2 (eval_const _)]
        simp only [Op.eval, vec_ints, Option.bind_eq_bind, Option.bind_some, dims_ints, canon_shape, hsh]
        exact if_pos ⟨‹_›, hax0, by simp [normAxis, nth]⟩
    · exact hattr (by omega)
  rw [hsq]
  simp only [Option.some.injEq, Value.ints.injEq]
  have hkept : keptAxes 2 (axSet 2 [0]) = [1] := by decide
  apply canon_eq_vec
  · simp only [Tensor.squeeze, canon_shape, hsh, List.length_cons, List.length_nil, hkept, List.map_cons, List.map_nil, nth_cons_succ, nth_cons_zero,
      List.length_map]
  · intro k hk
    have hk' : k < l.length := by simpa using hk
    have e1 : (Tensor.squeeze (axSet 2 [0]) (canon (sliceOn [(r : Int), 0] [(r : Int) + 1, int64Max] [0, 1] 0 (canon z)))).get [k] =
        (canon (sliceOn [(r : Int), 0] [(r : Int) + 1, int64Max] [0, 1] 0 (canon z))).get [0, k] := by
      simp only [Tensor.squeeze, canon_shape, hsh, List.length_cons, List.length_nil, hkept]
      rfl
    rw [e1, (canon_same _).2 _ (by rw [canon_shape, hsh]; exact inB_two.2 ⟨by omega, hk'⟩), hget k hk']
    simp [List.getD, hk']

/-- The parameters of a slice of consecutive axes. -/
theorem slicePar_range {r : Nat} (specs : List SliceSpec) (a i : Nat) :
    slicePar r ((List.range specs.length).map (fun k => ((k + a : Nat) : Int))) specs i = if a ≤ i then specs[i - a]? else none := by
  induction specs generalizing a with
  | nil => simp [slicePar]
  | cons s specs ih =>
    have e : (List.range (s :: specs).length).map (fun k => ((k + a : Nat) : Int)) =
        (a : Int) :: (List.range specs.length).map (fun k => ((k + (a + 1) : Nat) : Int)) := by
      rw [List.length_cons, List.range_succ_eq_map, List.map_cons, List.map_map]
      congr 1
      · simp
      · apply List.map_congr_left
        intro k _
        simp only [Function.comp]
        omega
    rw [e]
    have hn : normAxis r (a : Int) = a := by unfold normAxis; rw [if_neg (by omega)]; omega
    unfold slicePar
    rw [List.zip_cons_cons, List.find?_cons]
    by_cases h : a = i
    · subst h
      simp [hn]
    · have hd : decide (normAxis r ((a : Int), s).1 = i) = false := by simp [hn, h]
      rw [hd]
      simp only
      have := ih (a + 1)
      unfold slicePar at this
      rw [this]
      by_cases h2 : a ≤ i
      · rw [if_pos h2, if_pos (by omega)]
        have : i - a = (i - (a + 1)) + 1 := by omega
        rw [this, List.getElem?_cons_succ]
      · rw [if_neg h2, if_neg (by omega)]

theorem axesOk_range {r m a : Nat} (h : m + a ≤ r) : AxesOk r ((List.range m).map (fun k => ((k + a : Nat) : Int))) := by
  constructor
  · intro z hz
    obtain ⟨k, hk, rfl⟩ := List.mem_map.1 hz
    have : k < m := by simpa using hk
    omega
  · rw [List.map_map]
    apply List.Nodup.map _ List.nodup_range
    intro i j h
    simp only [Function.comp, normAxis] at h
    split at h <;> split at h <;> omega

end Verif.Emit
