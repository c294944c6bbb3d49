import Verif.Props.C55_Gen
/-!
# C55: `SpaceToBatchND` of any rank
-/
namespace Verif.Emit
open Verif.Tensor TransposeOpt

variable {α β : Type} {v : Nat} {zero : α} {env : Nat → Option (Value α)}

/-- A number and a vector of length 1. -/
theorem sub_scalar {a b : Int} :
    Op.eval v zero .sub [.ints (canon ⟨[], fun _ => a⟩), .ints (vecT [b])] = some (.ints (vecT [a - b]) : Value α) := by
  have hf : Fits (expandRank 1 (canon ⟨[], fun _ => a⟩)).shape (expandRank 1 (vecT [b])).shape := by
    intro i hi
    have : i = 0 := by simpa [expandRank] using hi
    subst this
    simp [expandRank, nth]
  refine (show Op.eval v zero .sub [.ints (canon ⟨[], fun _ => a⟩), .ints (vecT [b])] =
    (zipT (fun x y : Int => x - y) (canon ⟨[], fun _ => a⟩) (vecT [b])).map (fun z => (.ints (canon z) : Value α)) from rfl).trans ?_
  simp only [zipT, canon_shape, vecT_shape, List.length_nil, List.length_singleton, show max 0 1 = 1 from rfl]
  rw [if_pos hf]
  simp only [Option.map_some, Option.some.injEq, Value.ints.injEq]
  apply canon_eq_vec
  · simp [expandRank, nth]
  · intro k hk
    have hk0 : k = 0 := by simpa using hk
    subst hk0
    have hb : (vecT [b]).get [0] = b := by rw [vecT_get _ _ (by simp)]; rfl
    simp [expandRank, bidx, nth, hb, canon, inB_nil]

/-- A vector times a vector of length 1. -/
theorem mul_one_vec {a : List Int} {g : Int} :
    Op.eval v zero .mul [.ints (vecT a), .ints (vecT [g])] = some (.ints (vecT (a.map (· * g))) : Value α) := by
  have hf : Fits (expandRank 1 (vecT a)).shape (expandRank 1 (vecT [g])).shape := by
    intro i hi
    have : i = 0 := by simpa [expandRank] using hi
    subst this
    simp [expandRank, nth]
  show (zipT (· * ·) (vecT a) (vecT [g])).map _ = _
  simp only [zipT, vecT_shape, List.length_singleton, Nat.max_self]
  rw [if_pos hf]
  simp only [Option.map_some, Option.some.injEq, Value.ints.injEq]
  apply canon_eq_vec
  · simp only [expandRank, vecT_shape, List.length_singleton, Nat.sub_self, List.replicate_zero, List.nil_append, List.range_one, List.map_cons, List.map_nil,
      nth_cons_zero, List.length_map]
    by_cases h1 : a.length = 1
    · simp [h1]
    · simp [h1]
  · intro k hk
    have hk' : k < a.length := by simpa using hk
    have hb : (vecT [g]).get [0] = g := by rw [vecT_get _ _ (by simp)]; rfl
    have e : bidx [a.length] [k] = [k] := by
      simp only [bidx, List.length_singleton, List.range_one, List.map_cons, List.map_nil, nth_cons_zero]
      by_cases h1 : a.length = 1
      · rw [if_pos h1]; congr 1; omega
      · rw [if_neg h1]
    have e1 : bidx [([g] : List Int).length] [k] = [0] := rfl
    simp only [expandRank, vecT_shape, List.length_singleton, Nat.sub_self, List.replicate_zero, List.nil_append, List.drop_zero, e]
    rw [show bidx [1] [k] = [0] from rfl, hb, vecT_get a k hk']
    simp

/-- Rows of zeros around pairs. -/
theorem pad_pairs {p : List (Nat × Nat)} {a b : Nat} :
    canon (Tensor.pad .constant 0 [(a : Int), 0, (b : Int), 0] (pairsT p)) = pairsT (List.replicate a (0, 0) ++ p ++ List.replicate b (0, 0)) := by
  have hc : pairsT (List.replicate a (0, 0) ++ p ++ List.replicate b (0, 0)) = canon (pairsT (List.replicate a (0, 0) ++ p ++ List.replicate b (0, 0))) := by
    simp [pairsT]
  have hps : (pairsT p).shape = [p.length, 2] := rfl
  have hsh : (Tensor.pad .constant 0 [(a : Int), 0, (b : Int), 0] (pairsT p)).shape = [a + p.length + b, 2] := by
    simp only [Tensor.pad, axisOp, hps, List.length_cons, List.length_nil, List.range_succ, List.range_zero, List.nil_append, List.cons_append, List.map_cons,
      List.map_nil, padRule, nth_cons_zero, nth_cons_succ, Nat.zero_add]
    simp
    omega
  rw [hc]
  refine canon_congr ⟨by rw [hsh]; simp [pairsT]; omega, fun idx hi => ?_⟩
  rw [hsh] at hi
  obtain ⟨k, r, rfl, hk, hr⟩ := inB_two' hi
  have hk' : k < (List.replicate a (0, 0) ++ p ++ List.replicate b ((0 : Nat), (0 : Nat))).length := by simp; omega
  have hrhs := pairsT_get (List.replicate a (0, 0) ++ p ++ List.replicate b ((0 : Nat), (0 : Nat))) hk'
  have hcond : (∀ i, i < (pairsT p).shape.length → ((padRule .constant).src (([(a : Int), 0, (b : Int), 0].getD i 0), [(a : Int), 0, (b : Int), 0].getD (i + (pairsT p).shape.length) 0)
      (nth (pairsT p).shape i) (nth [k, r] i)).isSome = true) ↔ a ≤ k ∧ k - a < p.length := by
    constructor
    · intro h
      have := h 0 (by rw [hps]; simp)
      simp only [hps, padRule, PadMode.src, List.getD_cons_zero, nth_cons_zero] at this
      by_cases hh : (0 : Int) ≤ (k : Int) - a ∧ (k : Int) - a < p.length
      · omega
      · rw [if_neg hh] at this
        simp at this
    · intro h i hi
      rw [hps] at hi
      simp only [List.length_cons, List.length_nil] at hi
      rcases (show i = 0 ∨ i = 1 by omega) with rfl | rfl
      · simp only [hps, padRule, PadMode.src, List.getD_cons_zero, nth_cons_zero]
        rw [if_pos (by omega)]
        rfl
      · simp only [hps, padRule, PadMode.src, List.getD_cons_zero, List.getD_cons_succ, nth_cons_zero, nth_cons_succ]
        rw [if_pos (by omega)]
        rfl
  simp only [Tensor.pad, axisOp]
  by_cases h : a ≤ k ∧ k - a < p.length
  · rw [if_pos (hcond.2 h)]
    have hidx : (List.range (pairsT p).shape.length).map (fun i => ((padRule .constant).src (([(a : Int), 0, (b : Int), 0].getD i 0),
        [(a : Int), 0, (b : Int), 0].getD (i + (pairsT p).shape.length) 0) (nth (pairsT p).shape i) (nth [k, r] i)).getD 0) = [k - a, r] := by
      simp only [hps, List.length_cons, List.length_nil, List.range_succ, List.range_zero, List.nil_append, List.cons_append, List.map_cons, List.map_nil, padRule,
        PadMode.src, nth_cons_zero, nth_cons_succ, Nat.zero_add, List.getD_cons_zero, List.getD_cons_succ]
      rw [if_pos (by omega), if_pos (by omega)]
      simp only [Option.getD_some]
      congr 1
      omega
    rw [hidx]
    have hg := pairsT_get p h.2
    have hel : (List.replicate a (0, 0) ++ p ++ List.replicate b ((0 : Nat), (0 : Nat)))[k] = p[k - a]'h.2 := by
      rw [List.getElem_append_left (by simp; omega), List.getElem_append_right (by simp; omega)]
      simp
    rcases (show r = 0 ∨ r = 1 by omega) with rfl | rfl
    · rw [hg.1, hrhs.1, hel]
    · rw [hg.2, hrhs.2, hel]
  · rw [if_neg (fun hh => h (hcond.1 hh))]
    have hel : (List.replicate a (0, 0) ++ p ++ List.replicate b ((0 : Nat), (0 : Nat)))[k] = (0, 0) := by
      by_cases h1 : k < a
      · rw [List.getElem_append_left (by simp; omega), List.getElem_append_left (by simp; omega)]
        simp
      · rw [List.getElem_append_right (by simp; omega)]
        simp
    rcases (show r = 0 ∨ r = 1 by omega) with rfl | rfl
    · rw [hrhs.1, hel]
      rfl
    · rw [hrhs.2, hel]
      rfl

/-- The columns of a matrix of pairs one after the other. -/
theorem columns_eval {e : Expr} {l : List (Nat × Nat)} (he : e.eval v zero env = some (.ints (pairsT l))) :
    (Expr.app .reshape [.app (.transpose none) [e], .const (vecT [-1])]).eval v zero env =
      some (.ints (vecT ((l.map Prod.fst ++ l.map Prod.snd).map Int.ofNat))) := by
  obtain ⟨z, hz, hzs, hzg⟩ := transpose2_ints (v := v) (zero := zero) (x := pairsT l) (m := l.length) (n := 2) rfl
  rw [eval_app2 ((eval_app1 he).trans hz) (eval_const _)]
  have hopen := reshapeDims_open (s := (canon z).shape) (pre := []) (post := []) (n := 2 * l.length) (by simp) (by simp [size, hzs])
  rw [List.map_nil, List.nil_append] at hopen
  rw [reshape_ints hopen]
  simp only [Option.some.injEq, Value.ints.injEq]
  apply canon_eq_vec
  · simp [Tensor.reshape]
    omega
  · intro k hk
    have hk' : k < 2 * l.length := by simp at hk; omega
    have hgen : ∀ r j, r < 2 → j < l.length → k = r * l.length + j →
        (Tensor.reshape ([] ++ [2 * l.length]) (canon z)).get [k] = (pairsT l).get [j, r] := by
      intro r j hr hj e
      have hin : InB z.shape [r, j] := by rw [hzs]; exact inB_two.2 ⟨hr, hj⟩
      rw [reshape_get (x := canon z) (j := [r, j]) hin (by simp [lin, size, hzs, e])]
      rw [(canon_same z).2 _ hin, hzg]
    by_cases h : k < l.length
    · rw [hgen 0 k (by omega) h (by omega), (pairsT_get l h).1, List.getElem_map, List.getElem_append_left (by simpa using h)]
      simp
    · rw [hgen 1 (k - l.length) (by omega) (by omega) (by omega), (pairsT_get l (k := k - l.length) (by omega)).2, List.getElem_map,
        List.getElem_append_right (by simp; omega)]
      simp

/-- The pads of the general case. -/
theorem spaceToBatchPads_eval {x : T α} {p : List (Nat × Nat)} (hv : 11 ≤ v) (hx0 : (Expr.inp 0).eval v zero env = some (.data x))
    (hp : (Expr.inp 2).eval v zero env = some (.ints (pairsT p))) {g : Nat} (hr : x.shape.length = 1 + p.length + g) :
    spaceToBatchPads.eval v zero env = some (.ints (vecT ((((0, 0) :: p ++ List.replicate g (0, 0)).map Prod.fst ++
      ((0, 0) :: p ++ List.replicate g (0, 0)).map Prod.snd).map Int.ofNat))) := by
  have hpad : (Expr.app .cast64 [.inp 2]).eval v zero env = some (.ints (pairsT p)) := (eval_app1 hp).trans rfl
  have hrank : (Expr.app .size [.app .shape [.inp 0]]).eval v zero env = some (.ints (canon ⟨[], fun _ => (x.shape.length : Int)⟩)) := by
    rw [eval_app1 ((eval_app1 hx0).trans shape_eval)]
    simp [Op.eval, size]
  have hprank : (Expr.app .slice [.app .shape [.app .cast64 [.inp 2]], .const (vecT [0]), .const (vecT [1])]).eval v zero env =
      some (.ints (vecT [(p.length : Int)])) := by
    rw [eval_app3 ((eval_app1 hpad).trans shape_eval) (eval_const _) (eval_const _)]
    exact slice_vec (a := 0) (by omega) (by simp) (by decide)
  have hgap := eval_app2 (op := .sub) ((eval_app2 (op := .sub) hrank hprank).trans sub_scalar) (eval_const (vecT [1]))
  rw [sub_vec (by simp)] at hgap
  have hmul := eval_app2 (op := .mul) (eval_const (vecT [0, 0, 1, 0])) hgap
  have hg : (x.shape.length : Int) - p.length - 1 = g := by omega
  simp only [List.zipWith_cons_cons, List.zipWith_nil_left] at hmul
  rw [mul_one_vec, hg] at hmul
  simp only [List.map_cons, List.map_nil, zero_mul, one_mul] at hmul
  have hop : ∀ (q : List (Nat × Nat)) (a b : Nat), Op.eval v zero .pad [.ints (pairsT q), .ints (vecT [(a : Int), 0, (b : Int), 0])] =
      some (.ints (pairsT (List.replicate a (0, 0) ++ q ++ List.replicate b (0, 0))) : Value α) := by
    intro q a b
    rw [← pad_pairs]
    simp only [Op.eval, vec_ints, Option.bind_eq_bind, Option.bind_some, dims_ints]
    exact if_pos ⟨hv, rfl⟩
  have h1 := eval_app2 (op := .pad) hpad (eval_const (vecT [((1 : Nat) : Int), 0, ((0 : Nat) : Int), 0]))
  rw [hop] at h1
  have h2 := eval_app2 (op := .pad) h1 hmul
  have h3 := hop (List.replicate 1 (0, 0) ++ p ++ List.replicate 0 (0, 0)) 0 g
  rw [show ((0 : Nat) : Int) = 0 from rfl] at h3
  rw [h3] at h2
  have h4 := columns_eval h2
  refine Eq.trans h4 ?_
  simp

/-- `Pad` with zeros on the axes behind the first one. -/
theorem pad_inner {x : T β} {n : Nat} {t d : List Nat} {p : List (Nat × Nat)} {fill : β} (hx : x.shape = n :: t ++ d) (hp : p.length = t.length) :
    ∃ y, Tensor.pad .constant fill ((((0, 0) :: p ++ List.replicate d.length (0, 0)).map Prod.fst ++
        ((0, 0) :: p ++ List.replicate d.length (0, 0)).map Prod.snd).map Int.ofNat) x = y ∧
      y.shape = n :: (List.range t.length).map (fun k => nth t k + (p.getD k (0, 0)).1 + (p.getD k (0, 0)).2) ++ d ∧
      ∀ i w e, i < n → w.length = t.length → InB d e → y.get (i :: w ++ e) =
        if ∀ k, k < t.length → (p.getD k (0, 0)).1 ≤ nth w k ∧ nth w k - (p.getD k (0, 0)).1 < nth t k then
          x.get (i :: (List.range t.length).map (fun k => nth w k - (p.getD k (0, 0)).1) ++ e) else fill := by
  refine ⟨_, rfl, ?_⟩
  have hlen : x.shape.length = 1 + t.length + d.length := by rw [hx]; simp; omega
  generalize hL : (0, 0) :: p ++ List.replicate d.length ((0 : Nat), (0 : Nat)) = L
  have hLl : L.length = x.shape.length := by rw [← hL]; simp; omega
  have hpar : ∀ j, j < x.shape.length → (((L.map Prod.fst ++ L.map Prod.snd).map Int.ofNat).getD j 0 = ((L.getD j (0, 0)).1 : Int) ∧
      ((L.map Prod.fst ++ L.map Prod.snd).map Int.ofNat).getD (j + x.shape.length) 0 = ((L.getD j (0, 0)).2 : Int)) := by
    intro j hj
    rw [List.map_append]
    constructor
    · rw [getD_append_left _ (by simp; omega)]
      have : j < L.length := by omega
      simp [List.getD, this]
    · rw [getD_append_right _ (by simp; omega)]
      have : j < L.length := by omega
      have e : j + x.shape.length - ((L.map Prod.fst).map Int.ofNat).length = j := by simp; omega
      rw [e]
      simp [List.getD, this]
  have hL0 : L.getD 0 (0, 0) = (0, 0) := by rw [← hL]; rfl
  have hLk : ∀ k, L.getD (k + 1) (0, 0) = if k < t.length then p.getD k (0, 0) else (0, 0) := by
    intro k
    rw [← hL, List.cons_append, List.getD_cons_succ]
    split
    · rw [getD_append_left _ (by omega)]
    · rw [getD_append_right _ (by omega)]
      simp only [List.getD, List.getElem?_replicate]
      split <;> rfl
  have hxk : ∀ k, nth x.shape (k + 1) = if k < t.length then nth t k else nth d (k - t.length) := by
    intro k
    rw [hx, nth_split rfl]
  constructor
  · apply ext_nth
    · simp [Tensor.pad, axisOp, hlen]
      omega
    · intro j hj
      have hj' : j < x.shape.length := by simpa [Tensor.pad, axisOp] using hj
      simp only [Tensor.pad, axisOp]
      rw [nth_map_range, if_pos hj', (hpar j hj').1, (hpar j hj').2]
      simp only [padRule]
      cases j with
      | zero =>
        rw [hL0, hx, List.cons_append, List.cons_append, nth_cons_zero, nth_cons_zero]
        simp
      | succ k =>
        rw [hLk, hxk, nth_split (m := t.length) (by simp), nth_map_range]
        split
        · omega
        · simp
  · intro i w e hi hw he
    simp only [Tensor.pad, axisOp]
    have hsrc : ∀ j, j < x.shape.length → (padRule .constant).src (((L.map Prod.fst ++ L.map Prod.snd).map Int.ofNat).getD j 0,
        ((L.map Prod.fst ++ L.map Prod.snd).map Int.ofNat).getD (j + x.shape.length) 0) (nth x.shape j) (nth (i :: w ++ e) j) =
        if (L.getD j (0, 0)).1 ≤ nth (i :: w ++ e) j ∧ nth (i :: w ++ e) j - (L.getD j (0, 0)).1 < nth x.shape j then
          some (nth (i :: w ++ e) j - (L.getD j (0, 0)).1) else none := by
      intro j hj
      rw [(hpar j hj).1, (hpar j hj).2]
      simp only [padRule, PadMode.src]
      by_cases h : (L.getD j (0, 0)).1 ≤ nth (i :: w ++ e) j ∧ nth (i :: w ++ e) j - (L.getD j (0, 0)).1 < nth x.shape j
      · rw [if_pos h, if_pos (by omega)]
        congr 1
        omega
      · rw [if_neg h, if_neg (by omega)]
    have hcond : (∀ j, j < x.shape.length → ((padRule .constant).src (((L.map Prod.fst ++ L.map Prod.snd).map Int.ofNat).getD j 0,
        ((L.map Prod.fst ++ L.map Prod.snd).map Int.ofNat).getD (j + x.shape.length) 0) (nth x.shape j) (nth (i :: w ++ e) j)).isSome = true) ↔
        ∀ k, k < t.length → (p.getD k (0, 0)).1 ≤ nth w k ∧ nth w k - (p.getD k (0, 0)).1 < nth t k := by
      constructor
      · intro h k hk
        have := h (k + 1) (by omega)
        rw [hsrc _ (by omega), hLk, if_pos hk, hxk, if_pos hk, nth_split hw, if_pos hk] at this
        by_contra hh
        rw [if_neg hh] at this
        simp at this
      · intro h j hj
        rw [hsrc j hj]
        cases j with
        | zero =>
          rw [hL0, hx, List.cons_append, List.cons_append, nth_cons_zero, nth_cons_zero, if_pos (by simpa using hi)]
          rfl
        | succ k =>
          rw [hLk, hxk, nth_split hw]
          by_cases hk : k < t.length
          · rw [if_pos hk, if_pos hk, if_pos hk, if_pos (h k hk)]
            rfl
          · rw [if_neg hk, if_neg hk, if_neg hk, if_pos (by
              have := he.2 (k - t.length) (by omega)
              simpa using this)]
            rfl
    by_cases h : ∀ k, k < t.length → (p.getD k (0, 0)).1 ≤ nth w k ∧ nth w k - (p.getD k (0, 0)).1 < nth t k
    · rw [if_pos (hcond.2 h), if_pos h]
      congr 1
      apply ext_nth
      · simp [hlen, he.1]
        omega
      · intro j hj
        have hj' : j < x.shape.length := by simpa using hj
        rw [nth_map_range, if_pos hj', hsrc j hj']
        cases j with
        | zero =>
          rw [hL0, hx, List.cons_append, List.cons_append, List.cons_append, nth_cons_zero, nth_cons_zero, nth_cons_zero, if_pos (by simpa using hi)]
          rfl
        | succ k =>
          rw [hLk, hxk, nth_split hw, nth_split (m := t.length) (by simp)]
          by_cases hk : k < t.length
          · rw [if_pos hk, if_pos hk, if_pos hk, if_pos hk, if_pos (h k hk), nth_map_range, if_pos hk]
            rfl
          · rw [if_neg hk, if_neg hk, if_neg hk, if_neg hk, if_pos (by
              have := he.2 (k - t.length) (by omega)
              simpa using this)]
            rfl
    · rw [if_neg (fun hh => h (hcond.1 hh)), if_neg h]

theorem ofNat_zip_div {r b : List Nat} (hb : ∀ k ∈ b, 0 < k) (hl : r.length = b.length) :
    List.zipWith Int.tdiv ((List.zipWith (· * ·) r b).map Int.ofNat) (b.map Int.ofNat) = r.map Int.ofNat := by
  apply List.ext_getElem (by simp [hl])
  intro k h1 h2
  have hk : k < b.length := by simp at h2; omega
  have := hb _ (List.getElem_mem hk)
  rw [List.getElem_zipWith, List.getElem_map, List.getElem_map, List.getElem_zipWith, List.getElem_map]
  simp only [Int.ofNat_eq_natCast, Nat.cast_mul]
  exact Int.mul_tdiv_cancel _ (by omega)

theorem mem_interleave {s b : List β} {k : β} (h : k ∈ interleave s b) : k ∈ s ∨ k ∈ b := by
  induction s generalizing b with
  | nil => simp [interleave] at h
  | cons a s ih =>
    cases b with
    | nil => simp [interleave] at h
    | cons c b =>
      simp only [interleave, List.mem_cons] at h ⊢
      rcases h with h | h | h
      · exact .inl (.inl h)
      · exact .inr (.inl h)
      · rcases ih h with h | h
        · exact .inl (.inr h)
        · exact .inr (.inr h)

theorem size_interleave {s b : List Nat} (h : s.length = b.length) : size (interleave s b) = size s * size b := by
  induction s generalizing b with
  | nil =>
    have : b = [] := by simpa using h.symm
    subst this
    simp [interleave, size]
  | cons a s ih =>
    cases b with
    | nil => simp at h
    | cons c b =>
      simp only [interleave, size_cons, ih (by simpa using h)]
      ring

/-- A position from its block and the offset in it. -/
theorem block_pos {w b o : List Nat} (hw : w.length = b.length) (ho : InB b o) :
    List.zipWith (· / ·) (List.zipWith (· + ·) (List.zipWith (· * ·) w b) o) b = w ∧
    List.zipWith (· % ·) (List.zipWith (· + ·) (List.zipWith (· * ·) w b) o) b = o := by
  induction b generalizing w o with
  | nil =>
    have h1 : w = [] := by simpa using hw
    rw [inB_nil] at ho
    subst h1 ho
    simp
  | cons c b ih =>
    cases w with
    | nil => simp at hw
    | cons a w =>
      obtain ⟨k, o, rfl, hk, ho⟩ := inB_cons' ho
      obtain ⟨h1, h2⟩ := ih (w := w) (by simpa using hw) ho
      simp only [List.zipWith_cons_cons, h1, h2]
      constructor
      · congr 1
        rw [Nat.mul_comm, Nat.mul_add_div (by omega), Nat.div_eq_of_lt hk, Nat.add_zero]
      · congr 1
        rw [Nat.mul_comm, Nat.mul_add_mod, Nat.mod_eq_of_lt hk]

theorem inB_block {r w b o : List Nat} (hr : r.length = b.length) (hw : InB r w) (ho : InB b o) :
    InB (List.zipWith (· * ·) r b) (List.zipWith (· + ·) (List.zipWith (· * ·) w b) o) := by
  induction b generalizing r w o with
  | nil =>
    have h1 : r = [] := by simpa using hr
    subst h1
    rw [inB_nil] at ho hw
    subst ho hw
    simp [inB_nil]
  | cons c b ih =>
    cases r with
    | nil => simp at hr
    | cons a r =>
      obtain ⟨k, o, rfl, hk, ho⟩ := inB_cons' ho
      obtain ⟨j, w, rfl, hj, hw⟩ := inB_cons' hw
      simp only [List.zipWith_cons_cons]
      refine inB_cons.2 ⟨?_, ih (by simpa using hr) hw ho⟩
      calc j * c + k < j * c + c := by omega
        _ = (j + 1) * c := by ring
        _ ≤ a * c := Nat.mul_le_mul_right _ hj

/-- Blocks are split off and brought to the front. -/
theorem blocksE_eval {x1 : Expr} {y : T α} {b r d : List Nat} {n : Nat} (hv : 10 ≤ v) (hy0 : x1.eval v zero env = some (.data y))
    (hy : y.shape = n :: List.zipWith (· * ·) r b ++ d) (hl : r.length = b.length) (hm : 1 ≤ b.length) (hb0 : ∀ k ∈ b, 0 < k) (hr0 : ∀ k ∈ r, 0 < k)
    (hd0 : ∀ k ∈ d, 0 < k) (hr : (1 + b.length + d.length : Int) ≤ int64Max) :
    ∃ z, (blocksE (1 + b.length + d.length) (b.map Int.ofNat) b.length x1).eval v zero env = some (.data z) ∧ z.shape = (size b * n) :: r ++ d ∧
      ∀ q w e, q < size b * n → InB r w → InB d e →
        z.get (q :: w ++ e) = y.get ((q % n) :: List.zipWith (· + ·) (List.zipWith (· * ·) w b) (delin b (q / n)) ++ e) := by
  have htl : (List.zipWith (· * ·) r b).length = b.length := by simp [hl]
  have hshape : (Expr.app .shape [x1]).eval v zero env = some (.ints (vecT ((n :: List.zipWith (· * ·) r b ++ d).map Int.ofNat))) := by
    rw [eval_app1 hy0, shape_eval, dims_data, hy]
  obtain ⟨hsp, hde⟩ := dims_slice hshape hv (by rw [htl]; exact hr)
  rw [htl] at hsp hde
  have hred : (Expr.app .div [spatialE b.length x1, .const (vecT (b.map Int.ofNat))]).eval v zero env = some (.ints (vecT (r.map Int.ofNat))) := by
    rw [spatialE, eval_app2 hsp (eval_const _), div_vec (by simp [hl]), ofNat_zip_div hb0 hl]
  have hil := interleaveE_eval hm (by simp [hl]) (by simp) hred (eval_const (vecT (b.map Int.ofNat)))
  rw [interleave_map] at hil
  have hshape1 := eval_app3 (op := .concat 0) (eval_const (vecT [-1])) hil hde
  have hcat1 := concat_vecs (α := α) (v := v) (zero := zero) (ls := [[-1], (interleave r b).map Int.ofNat, d.map Int.ofNat]) (by simp)
  simp only [List.map_cons, List.map_nil, List.flatten_cons, List.flatten_nil, List.append_nil] at hcat1
  rw [hcat1, ← List.map_append, List.cons_append, List.nil_append] at hshape1
  have hlin := fun (y e : List Nat) (hy : y.length = b.length) => lin_interleave (s := r) (b := b) (y := y) (d := d) (e := e) hl hy
  have hsz : size (interleave r b) = size (List.zipWith (· * ·) r b) := (hlin (List.replicate b.length 0) [] (by simp)).2
  have hx2 := eval_app2 (op := .reshape) hy0 hshape1
  have hopen1 := reshapeDims_open (s := y.shape) (pre := []) (post := interleave r b ++ d) (n := n) (by
    intro k hk
    rcases List.mem_append.1 hk with h | h
    · simp at h
    · rcases List.mem_append.1 h with h | h
      · rcases mem_interleave h with h | h
        · exact hr0 k h
        · exact hb0 k h
      · exact hd0 k h) (by
    rw [hy, List.cons_append, List.nil_append, size_cons, size_cons, size_append, size_append, hsz])
  rw [List.map_nil, List.nil_append] at hopen1
  rw [reshape_data hopen1, List.nil_append] at hx2
  have hrs : (Tensor.reshape (n :: (interleave r b ++ d)) y).shape = n :: interleave r b ++ d := rfl
  obtain ⟨htsh, htget⟩ := transpose_first (x := Tensor.reshape (n :: (interleave r b ++ d)) y) rfl hl hrs
  have htr := eval_app1 (op := .transpose (some (blocksFirst b.length (1 + b.length + d.length)))) hx2
  have htr2 : Op.eval v zero (.transpose (some (blocksFirst b.length (1 + b.length + d.length)))) [.data (Tensor.reshape (n :: (interleave r b ++ d)) y)] =
      some (.data (Tensor.transpose (blocksFirst b.length (1 + b.length + d.length)) (Tensor.reshape (n :: (interleave r b ++ d)) y))) := by
    simp only [Op.eval, dims_data, Option.getD_some]
    refine if_pos ⟨blocksFirst_isPerm (by omega), ?_⟩
    rw [blocksFirst_length (by omega), hrs]
    simp [interleave_length hl]
    omega
  rw [htr2] at htr
  generalize hT : Tensor.transpose (blocksFirst b.length (1 + b.length + d.length)) (Tensor.reshape (n :: (interleave r b ++ d)) y) = tr at htr htsh htget
  have hshape2 := eval_app3 (op := .concat 0) (eval_const (vecT [-1])) hred hde
  have hcat2 := concat_vecs (α := α) (v := v) (zero := zero) (ls := [[-1], r.map Int.ofNat, d.map Int.ofNat]) (by simp)
  simp only [List.map_cons, List.map_nil, List.flatten_cons, List.flatten_nil, List.append_nil] at hcat2
  rw [hcat2, ← List.map_append, List.cons_append, List.nil_append] at hshape2
  have hx3 := eval_app2 (op := .reshape) htr hshape2
  have hopen := reshapeDims_open (s := tr.shape) (pre := []) (post := r ++ d) (n := size b * n) (by
    intro k hk
    rcases List.mem_append.1 hk with h | h
    · simp at h
    · rcases List.mem_append.1 h with h | h
      · exact hr0 k h
      · exact hd0 k h) (by
    rw [htsh, List.nil_append, size_cons, size_append, size_append, size_append, size_append, size_cons]
    simp only [size, List.foldr_nil]
    ring)
  rw [List.map_nil, List.nil_append] at hopen
  rw [reshape_data hopen, List.nil_append] at hx3
  refine ⟨_, hx3, rfl, ?_⟩
  intro q w e hq hw he
  have hn : 0 < n := by
    rcases Nat.eq_zero_or_pos n with rfl | h
    · simp at hq
    · exact h
  have hqd : q / n < size b := Nat.div_lt_of_lt_mul (by rw [Nat.mul_comm]; exact hq)
  obtain ⟨hlin1, hoff⟩ := Verif.ConstFold.lin_delin hqd
  generalize delin b (q / n) = o at hlin1 hoff
  have hwl : w.length = b.length := hw.1.trans hl
  have hel : e.length = d.length := he.1
  have h3 : (Tensor.reshape (size b * n :: (r ++ d)) tr).get (q :: w ++ e) = tr.get (o ++ [q % n] ++ w ++ e) := by
    apply reshape_get
    · rw [htsh, List.append_assoc, List.append_assoc, List.append_assoc, List.append_assoc]
      exact (inB_append hoff.1).2 ⟨hoff, inB_cons.2 ⟨Nat.mod_lt _ hn, (inB_append hw.1).2 ⟨hw, he⟩⟩⟩
    · rw [htsh]
      simp only [List.append_assoc, List.cons_append, List.nil_append]
      rw [lin_append hoff.1, hlin1, lin, lin, size_cons, ← Nat.add_assoc]
      congr 1
      conv_lhs => rw [← Nat.div_add_mod q n]
      ring
  rw [h3, htget (q % n) w o e hwl hoff.1 hel]
  obtain ⟨hp1, hp2⟩ := block_pos hwl hoff
  have hinb := inB_block hl hw hoff
  generalize List.zipWith (· + ·) (List.zipWith (· * ·) w b) o = u at hp1 hp2 hinb
  have hul : u.length = b.length := hinb.1.trans htl
  apply reshape_get
  · rw [hy, List.cons_append, List.cons_append]
    exact inB_cons.2 ⟨Nat.mod_lt _ hn, (inB_append hinb.1).2 ⟨hinb, he⟩⟩
  · rw [hy, List.cons_append, List.cons_append, List.cons_append, lin, lin]
    have := (hlin u e hul).1
    rw [hp1, hp2] at this
    rw [this, size_append, size_append, hsz]

/-- The general form of the conversion of `SpaceToBatchND`. -/
theorem spaceToBatchGen_eval {x : T α} {b s d : List Nat} {p : List (Nat × Nat)} {n : Nat} (hv : 11 ≤ v) (hx : x.shape = n :: s ++ d)
    (hs : s.length = b.length) (hm : 1 ≤ b.length) (hp : p.length = b.length) (hb0 : ∀ k ∈ b, 0 < k) (hs0 : ∀ k ∈ s, 0 < k) (hd0 : ∀ k ∈ d, 0 < k)
    (hdiv : ∀ k, k < b.length → nth b k ∣ nth s k + (p.getD k (0, 0)).1 + (p.getD k (0, 0)).2) (hr : (x.shape.length : Int) ≤ int64Max) :
    ∃ y, (spaceToBatchGen x.shape.length (b.map Int.ofNat)).eval v zero (blockInputs x b p) = some (.data y) ∧ Same y (tfSpaceToBatch zero b p x) := by
  have hlen : x.shape.length = 1 + b.length + d.length := by rw [hx]; simp [hs]; omega
  have hx0 : (Expr.inp 0).eval v zero (blockInputs x b p) = some (.data x) := by simp [blockInputs]
  have hp2 : (Expr.inp 2).eval v zero (blockInputs x b p) = some (.ints (pairsT p)) := by simp [blockInputs]
  have hpads := spaceToBatchPads_eval (g := d.length) hv hx0 hp2 (by omega)
  obtain ⟨y, hy, hysh, hyget⟩ := pad_inner (fill := zero) hx (hp.trans hs.symm)
  have hy0 := eval_app2 (op := .pad) hx0 hpads
  have hop : Op.eval v zero .pad [.data x, .ints (vecT ((((0, 0) :: p ++ List.replicate d.length (0, 0)).map Prod.fst ++
      ((0, 0) :: p ++ List.replicate d.length (0, 0)).map Prod.snd).map Int.ofNat))] = some (.data y) := by
    rw [← hy]
    simp only [Op.eval, vec_ints, Option.bind_eq_bind, Option.bind_some, dims_data]
    refine if_pos ⟨hv, ?_⟩
    rw [hlen]
    simp
    omega
  rw [hop] at hy0
  rw [hs] at hysh hyget
  -- the number of blocks
  generalize hr' : (List.range b.length).map (fun k => (nth s k + (p.getD k (0, 0)).1 + (p.getD k (0, 0)).2) / nth b k) = r
  have hrl : r.length = b.length := by rw [← hr']; simp
  have hzip : (List.range b.length).map (fun k => nth s k + (p.getD k (0, 0)).1 + (p.getD k (0, 0)).2) = List.zipWith (· * ·) r b := by
    rw [← hr', zipWith_range]
    apply List.map_congr_left
    intro k hk
    exact (Nat.div_mul_cancel (hdiv k (by simpa using hk))).symm
  rw [hzip] at hysh
  have hr0 : ∀ k ∈ r, 0 < k := by
    intro k hk
    rw [← hr'] at hk
    obtain ⟨j, hj, rfl⟩ := List.mem_map.1 hk
    have hj' : j < b.length := by simpa using hj
    have h1 : 0 < nth s j := by rw [nth_eq _ _ (by omega)]; exact hs0 _ (List.getElem_mem _)
    have h2 : 0 < nth b j := by rw [nth_eq _ _ hj']; exact hb0 _ (List.getElem_mem _)
    exact Nat.div_pos (Nat.le_of_dvd (by omega) (hdiv j hj')) h2
  obtain ⟨z, hz, hzs, hzg⟩ := blocksE_eval (by omega) hy0 hysh hrl hm hb0 hr0 hd0 (by omega)
  refine ⟨z, ?_, ?_, ?_⟩
  · unfold spaceToBatchGen
    rw [List.length_map, hlen]
    exact hz
  · rw [hzs, ← hr']
    simp only [tfSpaceToBatch, hx, List.cons_append, nth_cons_zero, nth_cons_succ]
    congr 1
    congr 1
    · apply List.map_congr_left
      intro k hk
      have hk' : k < b.length := by simpa using hk
      have e1 : nth (s ++ d) k = nth s k := getD_append_left 0 (by omega)
      rw [e1]
    · simp [← hs]
  · intro idx hi
    rw [hzs] at hi
    obtain ⟨q, j, rfl, hq, hj⟩ := inB_cons' hi
    obtain ⟨w, e, rfl, hw, he⟩ := inB_append' hj
    have hwl : w.length = b.length := hw.1.trans hrl
    rw [← List.cons_append, hzg q w e hq hw he]
    have hn : 0 < n := by
      rcases Nat.eq_zero_or_pos n with rfl | h
      · simp at hq
      · exact h
    have hqd : q / n < size b := Nat.div_lt_of_lt_mul (by rw [Nat.mul_comm]; exact hq)
    obtain ⟨-, hoff⟩ := Verif.ConstFold.lin_delin hqd
    have hul : (List.zipWith (· + ·) (List.zipWith (· * ·) w b) (delin b (q / n))).length = b.length := by simp [hwl, hoff.1]
    rw [hyget (q % n) _ e (Nat.mod_lt _ hn) hul he]
    simp only [tfSpaceToBatch, hx, List.cons_append, nth_cons_zero, nth_cons_succ]
    have hyk : ∀ k, k < b.length → nth (List.zipWith (· + ·) (List.zipWith (· * ·) w b) (delin b (q / n))) k =
        nth (w ++ e) k * nth b k + nth (delin b (q / n)) k := by
      intro k hk
      have e1 : nth (w ++ e) k = nth w k := getD_append_left 0 (by omega)
      have h1 : k < w.length := by omega
      have h2 : k < (delin b (q / n)).length := by rw [hoff.1]; exact hk
      rw [e1, nth_eq _ _ (by omega), List.getElem_zipWith, List.getElem_zipWith, nth_eq _ _ h1, nth_eq _ _ hk, nth_eq _ _ h2]
    have hsk : ∀ k, k < b.length → nth (s ++ d) k = nth s k := fun k hk => getD_append_left 0 (by omega)
    have hdrop : List.drop (b.length + 1) (q :: (w ++ e)) = e := by simp [← hwl]
    rw [hdrop]
    have hcond : (∀ k, k < b.length → (p.getD k (0, 0)).1 ≤ nth (List.zipWith (· + ·) (List.zipWith (· * ·) w b) (delin b (q / n))) k ∧
        nth (List.zipWith (· + ·) (List.zipWith (· * ·) w b) (delin b (q / n))) k - (p.getD k (0, 0)).1 < nth s k) ↔
        ∀ k, k < b.length → (p.getD k (0, 0)).1 ≤ nth (w ++ e) k * nth b k + nth (delin b (q / n)) k ∧
          nth (w ++ e) k * nth b k + nth (delin b (q / n)) k - (p.getD k (0, 0)).1 < nth (s ++ d) k := by
      constructor
      · intro h k hk
        rw [hsk k hk, ← hyk k hk]
        exact h k hk
      · intro h k hk
        rw [hyk k hk, ← hsk k hk]
        exact h k hk
    by_cases h : ∀ k, k < b.length → (p.getD k (0, 0)).1 ≤ nth (w ++ e) k * nth b k + nth (delin b (q / n)) k ∧
          nth (w ++ e) k * nth b k + nth (delin b (q / n)) k - (p.getD k (0, 0)).1 < nth (s ++ d) k
    · rw [if_pos (hcond.2 h), if_pos h]
      congr 1
      congr 1
      congr 1
      apply List.map_congr_left
      intro k hk
      rw [hyk k (by simpa using hk)]
    · rw [if_neg (fun hh => h (hcond.1 hh)), if_neg h]

end Verif.Emit
