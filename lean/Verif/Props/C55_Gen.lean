import Verif.Props.C55_Kit
/-!
# C55: `BatchToSpaceND` of any rank
-/
namespace Verif.Emit
open Verif.Tensor TransposeOpt

variable {α β : Type} {v : Nat} {zero : α} {env : Nat → Option (Value α)}

/-- The inputs of the operators: a tensor, the block sizes, and crops or paddings. -/
def blockInputs (x : T α) (b : List Nat) (c : List (Nat × Nat)) : Nat → Option (Value α) :=
  fun i => if i = 0 then some (.data x) else if i = 1 then some (.ints (vecT (b.map Int.ofNat))) else if i = 2 then some (.ints (pairsT c)) else none

theorem ofNat_zip_mul {s b : List Nat} : List.zipWith (· * ·) (s.map Int.ofNat) (b.map Int.ofNat) = (List.zipWith (· * ·) s b).map Int.ofNat := by
  rw [List.zipWith_map, List.map_zipWith]
  rfl

/-- The permutation that puts blocks back, on a tensor of which the shape is known. -/
theorem transpose_back {x : T β} {n m : Nat} {b s d : List Nat} (hm : 1 ≤ m) (hb : b.length = m) (hs : s.length = m) (hx : x.shape = b ++ [n] ++ s ++ d) :
    (Tensor.transpose (blocksBack m (1 + m + d.length)) x).shape = n :: interleave s b ++ d ∧
    ∀ (i : Nat) (q w e : List Nat), q.length = m → w.length = m → e.length = d.length →
      (Tensor.transpose (blocksBack m (1 + m + d.length)) x).get (i :: interleave q w ++ e) = x.get (w ++ [i] ++ q ++ e) := by
  constructor
  · have := blocksBack_map hm hs hb (rank := 1 + m + d.length) rfl n 0
    rw [← this]
    simp only [Tensor.transpose, hx]
    rfl
  · intro i q w e hq hw he
    have := blocksBack_map hm hq hw (rank := 1 + m + d.length) (d := e) (by omega) i 0
    simp only [Tensor.transpose]
    rw [← this]
    have hp := permIdx_of_nth (idx := w ++ [i] ++ q ++ e) (blocksBack_isPerm hm (rank := 1 + m + d.length) (by omega)) (by
      rw [blocksBack_eq hm (by omega)]
      simp
      omega)
    have e2 : (blocksBack m (1 + m + d.length)).map (fun k => (w ++ [i] ++ q ++ e).getD k 0) = (blocksBack m (1 + m + d.length)).map (nth (w ++ [i] ++ q ++ e)) := rfl
    rw [e2, hp]

/-- The permutation that brings blocks to the front. -/
theorem transpose_first {x : T β} {n m : Nat} {b s d : List Nat} (hb : b.length = m) (hs : s.length = m) (hx : x.shape = n :: interleave s b ++ d) :
    (Tensor.transpose (blocksFirst m (1 + m + d.length)) x).shape = b ++ [n] ++ s ++ d ∧
    ∀ (i : Nat) (q w e : List Nat), q.length = m → w.length = m → e.length = d.length →
      (Tensor.transpose (blocksFirst m (1 + m + d.length)) x).get (w ++ [i] ++ q ++ e) = x.get (i :: interleave q w ++ e) := by
  constructor
  · have := blocksFirst_map hs hb (rank := 1 + m + d.length) rfl n 0
    rw [← this]
    simp only [Tensor.transpose, hx]
    rfl
  · intro i q w e hq hw he
    have := blocksFirst_map hq hw (rank := 1 + m + d.length) (d := e) (by omega) i 0
    simp only [Tensor.transpose]
    rw [← this]
    have hp := permIdx_of_nth (idx := i :: interleave q w ++ e) (blocksFirst_isPerm (m := m) (rank := 1 + m + d.length) (by omega)) (by
      rw [blocksFirst_length (by omega)]
      simp [interleave_length (show q.length = w.length by omega)]
      omega)
    have e2 : (blocksFirst m (1 + m + d.length)).map (fun k => (i :: interleave q w ++ e).getD k 0) =
      (blocksFirst m (1 + m + d.length)).map (nth (i :: interleave q w ++ e)) := rfl
    rw [e2, hp]

theorem mem_zipWith_pos {s b : List Nat} (hs : ∀ k ∈ s, 0 < k) (hb : ∀ k ∈ b, 0 < k) : ∀ k ∈ List.zipWith (· * ·) s b, 0 < k := by
  intro k hk
  obtain ⟨i, hi, rfl⟩ := List.getElem_of_mem hk
  rw [List.getElem_zipWith]
  exact Nat.mul_pos (hs _ (List.getElem_mem _)) (hb _ (List.getElem_mem _))

/-- A slice of the axes behind the first one. -/
theorem slice_inner {x : T β} {n : Nat} {t d : List Nat} {starts ends : List Int} {fill : β} (hx : x.shape = n :: t ++ d)
    (hs : starts.length = t.length) (he : ends.length = t.length) (c : List (Nat × Nat)) (hc : c.length = t.length)
    (hsv : ∀ k (h : k < t.length), starts[k] = ((c.getD k (0, 0)).1 : Int)) (hev : ∀ k (h : k < t.length), ends[k] = (nth t k : Int) - (c.getD k (0, 0)).2)
    (hfit : ∀ k, k < t.length → (c.getD k (0, 0)).1 + (c.getD k (0, 0)).2 ≤ nth t k) :
    (sliceOn starts ends ((List.range t.length).map (fun k => ((k + 1 : Nat) : Int))) fill x).shape =
      n :: (List.range t.length).map (fun k => nth t k - (c.getD k (0, 0)).1 - (c.getD k (0, 0)).2) ++ d ∧
    ∀ i w e, w.length = t.length → e.length = d.length →
      (sliceOn starts ends ((List.range t.length).map (fun k => ((k + 1 : Nat) : Int))) fill x).get (i :: w ++ e) =
        x.get (i :: (List.range t.length).map (fun k => nth w k + (c.getD k (0, 0)).1) ++ e) := by
  have hspec : (List.zipWith (fun s e => (⟨s, e, 1⟩ : SliceSpec)) starts ends).length = t.length := by simp [hs, he]
  have hpar : ∀ r j, slicePar r ((List.range t.length).map (fun k => ((k + 1 : Nat) : Int))) (List.zipWith (fun s e => (⟨s, e, 1⟩ : SliceSpec)) starts ends) j =
      if 1 ≤ j then (List.zipWith (fun s e => (⟨s, e, 1⟩ : SliceSpec)) starts ends)[j - 1]? else none := by
    intro r j
    have := slicePar_range (r := r) (List.zipWith (fun s e => (⟨s, e, 1⟩ : SliceSpec)) starts ends) 1 j
    rwa [hspec] at this
  have hin : ∀ r k, k < t.length → slicePar r ((List.range t.length).map (fun k => ((k + 1 : Nat) : Int)))
      (List.zipWith (fun s e => (⟨s, e, 1⟩ : SliceSpec)) starts ends) (k + 1) = some ⟨(c.getD k (0, 0)).1, (nth t k : Int) - (c.getD k (0, 0)).2, 1⟩ := by
    intro r k hk
    rw [hpar, if_pos (by omega), Nat.add_sub_cancel, List.getElem?_eq_getElem (by omega), List.getElem_zipWith, hsv k hk, hev k hk]
  have hout : ∀ r k, t.length ≤ k → slicePar r ((List.range t.length).map (fun k => ((k + 1 : Nat) : Int)))
      (List.zipWith (fun s e => (⟨s, e, 1⟩ : SliceSpec)) starts ends) (k + 1) = none := by
    intro r k hk
    rw [hpar, if_pos (by omega), Nat.add_sub_cancel, List.getElem?_eq_none (by omega)]
  have h0 : ∀ r, slicePar r ((List.range t.length).map (fun k => ((k + 1 : Nat) : Int)))
      (List.zipWith (fun s e => (⟨s, e, 1⟩ : SliceSpec)) starts ends) 0 = none := fun r => by rw [hpar, if_neg (by omega)]
  have hlen : x.shape.length = 1 + t.length + d.length := by rw [hx]; simp; omega
  have hcount := fun k (hk : k < t.length) => slice_count (s := (c.getD k (0, 0)).1) (e := (nth t k : Int) - (c.getD k (0, 0)).2) (d := (nth t k : Int)) (by omega)
    (by have := hfit k hk; omega)
  have hclamp : ∀ k, k < t.length → (clampPos (nth t k) 0 (nth t k) ((nth t k : Int) - (c.getD k (0, 0)).2) - (c.getD k (0, 0)).1).toNat =
      nth t k - (c.getD k (0, 0)).1 - (c.getD k (0, 0)).2 := by
    intro k hk
    have := hfit k hk
    unfold clampPos
    rw [if_neg (by omega)]
    omega
  constructor
  · apply ext_nth
    · simp [sliceOn, slice_eq, hlen]
      omega
    · intro j hj
      have hj' : j < x.shape.length := by simpa [sliceOn, slice_eq] using hj
      simp only [sliceOn, slice_eq]
      rw [nth_map_range, if_pos hj']
      cases j with
      | zero =>
        rw [h0]
        simp [hx, nth_cons_zero]
      | succ k =>
        rw [nth_split (m := t.length) (by simp)]
        by_cases hk : k < t.length
        · rw [hin _ k hk, if_pos hk, nth_map_range, if_pos hk, hx, nth_split rfl, if_pos hk]
          simp only
          rw [(hcount k hk).2, hclamp k hk]
        · rw [hout _ k (by omega), if_neg hk, hx]
          simp only
          rw [nth_split rfl, if_neg hk]
  · intro i w e hw he
    simp only [sliceOn, slice_eq]
    congr 1
    apply ext_nth
    · simp [hlen]
      omega
    · intro j hj
      have hj' : j < x.shape.length := by simpa using hj
      rw [nth_map_range, if_pos hj']
      cases j with
      | zero =>
        rw [h0]
        simp [nth_cons_zero]
      | succ k =>
        rw [nth_split (m := t.length) hw, nth_split (m := t.length) (by simp)]
        by_cases hk : k < t.length
        · rw [hin _ k hk, if_pos hk, if_pos hk, nth_map_range, if_pos hk, hx, nth_split rfl, if_pos hk]
          simp only
          rw [(hcount k hk).1]
          omega
        · rw [hout _ k (by omega), if_neg hk, if_neg hk]

/-- The full images of `BatchToSpaceND`, from the runtime. -/
theorem imagesE_eval {x : T α} {b s d : List Nat} {env : Nat → Option (Value α)} {n : Nat} (hv : 10 ≤ v) (hx0 : (Expr.inp 0).eval v zero env = some (.data x))
    (hx : x.shape = (size b * n) :: s ++ d) (hs : s.length = b.length) (hm : 1 ≤ b.length) (hb0 : ∀ k ∈ b, 0 < k) (hs0 : ∀ k ∈ s, 0 < k)
    (hd0 : ∀ k ∈ d, 0 < k) (hr : (x.shape.length : Int) ≤ int64Max) :
    ∃ y, (imagesE x.shape.length (b.map Int.ofNat) b.length).eval v zero env = some (.data y) ∧ y.shape = n :: List.zipWith (· * ·) s b ++ d ∧
      ∀ i w e, i < n → InB (List.zipWith (· * ·) s b) w → InB d e →
        y.get (i :: w ++ e) = x.get ((lin b (List.zipWith (· % ·) w b) * n + i) :: List.zipWith (· / ·) w b ++ e) := by
  have hlen : x.shape.length = 1 + b.length + d.length := by rw [hx]; simp [hs]; omega
  -- the dimensions
  have hshape : (Expr.app .shape [.inp 0]).eval v zero env = some (.ints (vecT (((size b * n) :: s ++ d).map Int.ofNat))) := by
    rw [eval_app1 hx0, shape_eval, dims_data, hx]
  obtain ⟨hsp, hde⟩ := dims_slice hshape hv (by rw [hlen] at hr; omega)
  rw [hs] at hsp hde
  have htarget : (Expr.app .mul [spatialE b.length (.inp 0), .const (vecT (b.map Int.ofNat))]).eval v zero env =
      some (.ints (vecT ((List.zipWith (· * ·) s b).map Int.ofNat))) := by
    rw [spatialE, eval_app2 hsp (eval_const _), mul_vec (by simp [hs]), ofNat_zip_mul]
  have hil := interleaveE_eval hm (by simp [hs]) (by simp) hsp (eval_const (vecT (b.map Int.ofNat)))
  have hshape1 := eval_app3 (op := .concat 0) (eval_const (vecT [-1])) hil hde
  have hcat1 := concat_vecs (α := α) (v := v) (zero := zero) (ls := [[-1], interleave (s.map Int.ofNat) (b.map Int.ofNat), d.map Int.ofNat]) (by simp)
  simp only [List.map_cons, List.map_nil, List.flatten_cons, List.flatten_nil, List.append_nil] at hcat1
  rw [hcat1] at hshape1
  have hfirst := blocksFirst_map (s := s.map Int.ofNat) (b := b.map Int.ofNat) (d := d.map Int.ofNat) (m := b.length) (rank := x.shape.length) (by simp [hs]) (by simp)
    (by simp [hlen]) (-1) 0
  have hgather := eval_app2 (op := .gather 0) hshape1 (eval_const (vecT ((blocksFirst b.length x.shape.length).map Int.ofNat)))
  rw [gather_vec (by
    intro k hk
    have hp := (blocksFirst_isPerm (m := b.length) (rank := x.shape.length) (by omega)).mem.1 hk
    rw [blocksFirst_length (by omega)] at hp
    have : (interleave (s.map Int.ofNat) (b.map Int.ofNat)).length = 2 * b.length := by rw [interleave_length (by simp [hs])]; simp [hs]
    simp only [List.length_append, List.length_cons, this, List.length_map]
    simp
    omega), ← List.append_assoc, List.cons_append, List.nil_append, hfirst] at hgather
  -- the first reshape
  have hx2 := eval_app2 (op := .reshape) hx0 hgather
  have hz : b.map Int.ofNat ++ [-1] ++ s.map Int.ofNat ++ d.map Int.ofNat = b.map Int.ofNat ++ (-1) :: (s ++ d).map Int.ofNat := by simp
  rw [hz, reshape_data (r := b ++ n :: (s ++ d)) (reshapeDims_open (by
    intro k hk
    rcases List.mem_append.1 hk with h | h
    · exact hb0 k h
    · rcases List.mem_append.1 h with h | h
      · exact hs0 k h
      · exact hd0 k h) (by
    rw [hx, List.cons_append, size_cons, size_append, size_append, size_cons, size_append]
    ring))] at hx2
  -- the transpose
  have hrs : (Tensor.reshape (b ++ n :: (s ++ d)) x).shape = b ++ [n] ++ s ++ d := by simp [Tensor.reshape]
  obtain ⟨htsh, htget⟩ := transpose_back (x := Tensor.reshape (b ++ n :: (s ++ d)) x) hm rfl hs hrs
  rw [← hlen] at htsh htget
  have htr := eval_app1 (op := .transpose (some (blocksBack b.length x.shape.length))) hx2
  have htr2 : Op.eval v zero (.transpose (some (blocksBack b.length x.shape.length))) [.data (Tensor.reshape (b ++ n :: (s ++ d)) x)] =
      some (.data (Tensor.transpose (blocksBack b.length x.shape.length) (Tensor.reshape (b ++ n :: (s ++ d)) x))) := by
    simp only [Op.eval, dims_data, Option.getD_some]
    refine if_pos ⟨blocksBack_isPerm hm (by omega), ?_⟩
    rw [blocksBack_eq hm (by omega), hrs]
    simp
    omega
  rw [htr2] at htr
  generalize hT : Tensor.transpose (blocksBack b.length x.shape.length) (Tensor.reshape (b ++ n :: (s ++ d)) x) = tr at htr htsh htget
  -- the second reshape
  have hshape2 := eval_app3 (op := .concat 0) (eval_const (vecT [-1])) htarget hde
  have hcat2 := concat_vecs (α := α) (v := v) (zero := zero) (ls := [[-1], (List.zipWith (· * ·) s b).map Int.ofNat, d.map Int.ofNat]) (by simp)
  simp only [List.map_cons, List.map_nil, List.flatten_cons, List.flatten_nil, List.append_nil] at hcat2
  rw [hcat2, ← List.map_append, List.cons_append, List.nil_append] at hshape2
  have hlin := fun (y e : List Nat) (hy : y.length = b.length) => lin_interleave (s := s) (b := b) (y := y) (d := d) (e := e) hs hy
  have hsz : size (interleave s b) = size (List.zipWith (· * ·) s b) := (hlin (List.replicate b.length 0) [] (by simp)).2
  have hx3 := eval_app2 (op := .reshape) htr hshape2
  have hopen := reshapeDims_open (s := tr.shape) (pre := []) (post := List.zipWith (· * ·) s b ++ d) (n := n) (by
    intro k hk
    rcases List.mem_append.1 hk with h | h
    · simp at h
    · rcases List.mem_append.1 h with h | h
      · exact mem_zipWith_pos hs0 hb0 k h
      · exact hd0 k h) (by
    rw [htsh, List.cons_append, List.nil_append, size_cons, size_cons, size_append, size_append, hsz])
  rw [List.map_nil, List.nil_append] at hopen
  rw [reshape_data hopen, List.nil_append] at hx3
  refine ⟨_, hx3, rfl, ?_⟩
  intro i y e hi0 hyb he
  have hyl : y.length = b.length := by rw [hyb.1]; simp [hs]
  have hel : e.length = d.length := he.1
  obtain ⟨hin1, hin2, hin3⟩ := inB_interleave hs hyb
  have hq : (List.zipWith (· / ·) y b).length = b.length := by simp [hyl]
  have hq' : (List.zipWith (· % ·) y b).length = b.length := by simp [hyl]
  have hqi : (interleave (List.zipWith (· / ·) y b) (List.zipWith (· % ·) y b)).length = (interleave s b).length := hin1.1
  have h3 : (Tensor.reshape (n :: (List.zipWith (· * ·) s b ++ d)) tr).get (i :: y ++ e) =
      tr.get (i :: interleave (List.zipWith (· / ·) y b) (List.zipWith (· % ·) y b) ++ e) := by
    apply reshape_get
    · rw [htsh, List.cons_append, List.cons_append]
      exact inB_cons.2 ⟨hi0, (inB_append hqi).2 ⟨hin1, he⟩⟩
    · rw [htsh, List.cons_append, List.cons_append, List.cons_append, lin, lin, (hlin y e hyl).1, size_append, size_append, hsz]
  rw [h3, htget i _ _ e hq hq' hel]
  apply reshape_get
  · rw [hx, List.cons_append, List.cons_append]
    refine inB_cons.2 ⟨?_, (inB_append (by rw [hq, hs])).2 ⟨hin2, he⟩⟩
    have := lin_lt hin3
    calc lin b (List.zipWith (· % ·) y b) * n + i < lin b (List.zipWith (· % ·) y b) * n + n := by omega
      _ = (lin b (List.zipWith (· % ·) y b) + 1) * n := by ring
      _ ≤ size b * n := Nat.mul_le_mul_right _ this
  · rw [hx]
    simp only [List.append_assoc, List.cons_append, List.nil_append]
    rw [lin_append (by rw [hq']), lin, lin, size_cons]
    ring

/-- The general form of the conversion of `BatchToSpaceND`. -/
theorem batchToSpaceGen_eval {x : T α} {b s d : List Nat} {c : List (Nat × Nat)} {n : Nat} (hv : 10 ≤ v) (hx : x.shape = (size b * n) :: s ++ d)
    (hs : s.length = b.length) (hm : 1 ≤ b.length) (hc : c.length = b.length) (hb0 : ∀ k ∈ b, 0 < k) (hs0 : ∀ k ∈ s, 0 < k) (hd0 : ∀ k ∈ d, 0 < k)
    (hfit : ∀ k, k < b.length → (c.getD k (0, 0)).1 + (c.getD k (0, 0)).2 ≤ nth s k * nth b k) (hr : (x.shape.length : Int) ≤ int64Max) :
    ∃ y, (batchToSpaceGen v x.shape.length (b.map Int.ofNat)).eval v zero (blockInputs x b c) = some (.data y) ∧ Same y (tfBatchToSpace b c x) := by
  have hlen : x.shape.length = 1 + b.length + d.length := by rw [hx]; simp [hs]; omega
  have hx0 : (Expr.inp 0).eval v zero (blockInputs x b c) = some (.data x) := by simp [blockInputs]
  have hsize0 := size_pos hb0
  obtain ⟨x3, hx3, hx3s, hx3g⟩ := imagesE_eval hv hx0 hx hs hm hb0 hs0 hd0 hr
  have hshape : (Expr.app .shape [.inp 0]).eval v zero (blockInputs x b c) = some (.ints (vecT (((size b * n) :: s ++ d).map Int.ofNat))) := by
    rw [eval_app1 hx0, shape_eval, dims_data, hx]
  obtain ⟨hsp, -⟩ := dims_slice hshape hv (by rw [hlen] at hr; omega)
  rw [hs] at hsp
  have htarget : (Expr.app .mul [spatialE b.length (.inp 0), .const (vecT (b.map Int.ofNat))]).eval v zero (blockInputs x b c) =
      some (.ints (vecT ((List.zipWith (· * ·) s b).map Int.ofNat))) := by
    rw [spatialE, eval_app2 hsp (eval_const _), mul_vec (by simp [hs]), ofNat_zip_mul]
  have htl : (List.zipWith (· * ·) s b).length = b.length := by simp [hs]
  -- the crops
  have hc2 : (Expr.inp 2).eval v zero (blockInputs x b c) = some (.ints (pairsT c)) := by simp [blockInputs]
  have hst := cropRow_eval (e := .inp 2) (l := c) (env := blockInputs x b c) (zero := zero) (v := v) hv (by omega) hc2 (r := 0) (by omega)
  have hen := cropRow_eval (e := .inp 2) (l := c) (env := blockInputs x b c) (zero := zero) (v := v) hv (by omega) hc2 (r := 1) (by omega)
  have hsub := eval_app2 (op := .sub) htarget hen
  rw [sub_vec (by simp [hs, hc])] at hsub
  have hfinal := eval_app4 (op := .slice) hx3 hst hsub (eval_const (vecT ((List.range b.length).map (fun k => ((k + 1 : Nat) : Int)))))
  have hop : ∀ st en : List Int, st.length = b.length → en.length = b.length →
      Op.eval v zero .slice [.data x3, .ints (vecT st), .ints (vecT en), .ints (vecT ((List.range b.length).map (fun k => ((k + 1 : Nat) : Int))))] =
      some (.data (sliceOn st en ((List.range b.length).map (fun k => ((k + 1 : Nat) : Int))) zero x3)) := by
    intro st en h1 h2
    simp only [Op.eval, vec_ints, Option.bind_eq_bind, Option.bind_some, dims_data]
    refine if_pos ⟨hv, by simp [h1], by simp [h2], ?_⟩
    apply axesOk_range
    rw [hx3s]
    simp [htl]
  rw [hop _ _ (by simp [hc]) (by simp [hc, hs])] at hfinal
  obtain ⟨hsl, hsg⟩ := slice_inner (x := x3) (fill := zero) (starts := c.map (fun p => if 0 = 0 then (p.1 : Int) else p.2))
    (ends := List.zipWith (· - ·) ((List.zipWith (· * ·) s b).map Int.ofNat) (c.map (fun p => if 1 = 0 then (p.1 : Int) else p.2))) hx3s
    (by simp [hc, hs]) (by simp [hc, hs]) c (by simp [hc, hs]) (by
      intro k hk
      have : k < c.length := by omega
      simp [List.getD, this]) (by
      intro k hk
      have h1 : k < c.length := by omega
      have h2 : k < s.length := by omega
      have h3 : k < b.length := by omega
      simp [List.getD, nth, h1, h2, h3]) (by
      intro k hk
      have := hfit k (by omega)
      have h2 : k < s.length := by omega
      have h3 : k < b.length := by omega
      simpa [nth, List.getD, h2, h3] using this)
  rw [htl] at hsl hsg
  refine ⟨_, by unfold batchToSpaceGen; rw [List.length_map]; exact hfinal, ?_, ?_⟩
  · rw [hsl]
    simp only [tfBatchToSpace, hx, List.cons_append, nth_cons_zero, nth_cons_succ]
    rw [Nat.mul_div_cancel_left _ hsize0]
    congr 1
    congr 1
    · apply List.map_congr_left
      intro k hk
      have hk' : k < b.length := by simpa using hk
      have h2 : k < s.length := by omega
      have e1 : nth (s ++ d) k = nth s k := getD_append_left 0 h2
      rw [e1]
      simp [nth, List.getD, h2, hk']
    · simp [← hs]
  · intro idx hi
    rw [hsl] at hi
    obtain ⟨i, j, rfl, hi0, hj⟩ := inB_cons' hi
    obtain ⟨w, e, rfl, hw, he⟩ := inB_append' hj
    have hwl : w.length = b.length := by rw [hw.1]; simp
    have hel : e.length = d.length := he.1
    rw [← List.cons_append, hsg i w e hwl hel]
    -- the position before the crop
    generalize hy : (List.range b.length).map (fun k => nth w k + (c.getD k (0, 0)).1) = y
    have hyl : y.length = b.length := by rw [← hy]; simp
    have hyb : InB (List.zipWith (· * ·) s b) y := by
      refine ⟨by rw [hyl, htl], fun k hk => ?_⟩
      rw [htl] at hk
      have h1 := hw.2 k (by simpa using hk)
      rw [nth_map_range, if_pos hk] at h1
      rw [← hy, nth_map_range, if_pos hk]
      omega
    rw [hx3g i y e hi0 hyb he]
    simp only [tfBatchToSpace, hx, List.cons_append, nth_cons_zero, nth_cons_succ]
    rw [Nat.mul_div_cancel_left _ hsize0]
    have hyk : ∀ k, k < b.length → nth (w ++ e) k + (c.getD k (0, 0)).1 = nth y k := by
      intro k hk
      have e1 : nth (w ++ e) k = nth w k := getD_append_left 0 (by omega)
      rw [e1, ← hy, nth_map_range, if_pos hk]
    have hyr : y = (List.range b.length).map (nth y) := by conv_lhs => rw [← nth_range_self y, hyl]
    have hdrop : List.drop (b.length + 1) (i :: (w ++ e)) = e := by simp [← hwl]
    rw [hdrop]
    have hmod : (List.range b.length).map (fun k => (nth (w ++ e) k + (c.getD k (0, 0)).1) % nth b k) = List.zipWith (· % ·) y b := by
      conv_rhs => rw [hyr, zipWith_range]
      exact List.map_congr_left fun k hk => by rw [hyk k (by simpa using hk)]
    have hdiv : (List.range b.length).map (fun k => (nth (w ++ e) k + (c.getD k (0, 0)).1) / nth b k) = List.zipWith (· / ·) y b := by
      conv_rhs => rw [hyr, zipWith_range]
      exact List.map_congr_left fun k hk => by rw [hyk k (by simpa using hk)]
    rw [hmod, hdiv]

end Verif.Emit
