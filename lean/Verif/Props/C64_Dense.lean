import Verif.Props.C64_Lookup
import Verif.Props.C64_RowIds
/-!
# C64: ragged tensors: `RaggedTensorToTensor`
-/
namespace Verif.Ragged
open Verif.Tensor Verif.Emit Verif.Seg Verif.Vec

variable {β : Type}

theorem inB_iff_forall₂ {s i : List Nat} : InB s i ↔ List.Forall₂ (· < ·) i s := by
  rw [List.forall₂_iff_get]
  unfold InB
  constructor
  · rintro ⟨h1, h2⟩
    refine ⟨h1, fun k hk hk' => ?_⟩
    have := h2 k hk'
    simpa [nth, List.getD, hk, hk'] using this
  · rintro ⟨h1, h2⟩
    refine ⟨h1, fun k hk => ?_⟩
    have hk' : k < i.length := by omega
    have := h2 k hk' hk
    simpa [nth, List.getD, hk, hk'] using this

theorem inB_split {a b i : List Nat} (h : InB (a ++ b) i) : InB a (i.take a.length) ∧ InB b (i.drop a.length) := by
  rw [inB_iff_forall₂] at h ⊢
  rw [inB_iff_forall₂]
  have hl := h.length_eq
  simp at hl
  have h1 := List.forall₂_take a.length h
  have h2 := List.forall₂_drop a.length h
  simp at h1 h2
  exact ⟨h1, h2⟩

theorem placeOf_cast {s q : List Nat} (h : InB s q) : placeOf s (q.map (fun a : Nat => (a : Int))) = some q := by
  have hf := inB_iff_forall₂.1 h
  unfold placeOf
  rw [if_pos]
  · congr 1
    apply List.ext_getElem (by simp [h.1])
    intro k h1 h2
    simp [posOf_nat]
  · refine ⟨by simp [h.1], fun p hp => ?_⟩
    rw [List.zip_map_left] at hp
    obtain ⟨⟨a, b⟩, hab, rfl⟩ := List.mem_map.1 hp
    have := (List.forall₂_iff_zip.1 hf).2 hab
    simp
    omega

/-- Writing all leaves to their places into a tensor of the default gives the dense tensor. -/
theorem scatter_dense {K : Nat} {P : List (List Nat)} {vals : T β} {dims u : List Nat} {t : Nest (List Nat → β) K} {default : β}
    (hdims : dims.length = K) (hnd : P.Nodup) (hin : ∀ q ∈ P, InB dims q) (hs : vals.shape = P.length :: u)
    (hv : ∀ m (hm : m < P.length) j, InB u j → (lookup K t P[m]).map (fun f => f j) = some (vals.get (m :: j)))
    (hall : ∀ q f, InB dims q → lookup K t q = some f → q ∈ P) :
    ∃ r, scatterSlices K ⟨dims ++ u, fun _ => default⟩ (castAll P) vals = some r ∧ Same r (dense K t default dims u) := by
  have hps : (castAll P).mapM (placeOf ((dims ++ u).take K)) = some P := by
    rw [← hdims, List.take_left]
    have : ∀ P : List (List Nat), (∀ q ∈ P, InB dims q) → (castAll P).mapM (placeOf dims) = some P := by
      intro P
      induction P with
      | nil => intro _; rfl
      | cons q P ih =>
        intro h
        have e : castAll (q :: P) = (q.map (fun a : Nat => (a : Int))) :: castAll P := rfl
        rw [e, List.mapM_cons, placeOf_cast (h q (by simp)), ih (fun q hq => h q (by simp [hq]))]
        rfl
    exact this P hin
  have hd : (dims ++ u).drop K = u := by rw [← hdims, List.drop_left]
  unfold scatterSlices
  simp only [hps]
  rw [if_pos ⟨by simp; omega, by rw [hs, hd], hnd⟩]
  refine ⟨_, rfl, rfl, fun i hi => ?_⟩
  have hi' : InB (dims ++ u) i := hi
  obtain ⟨h1, h2⟩ := inB_split hi'
  rw [hdims] at h1 h2
  simp only [dense]
  by_cases hm : i.take K ∈ P
  · rw [if_pos hm]
    have hlt := List.idxOf_lt_length_of_mem hm
    have := hv _ hlt _ h2
    rw [List.getElem_idxOf] at this
    rw [this]
    rfl
  · rw [if_neg hm]
    cases hl : lookup K t (i.take K) with
    | none => rfl
    | some f => exact absurd (hall _ f h1 hl) hm

/-! ## Clipping to a shape -/

/-- The dimensions that are asked for: negative ones are those of the box. -/
def askedDims (asked : List Int) (b : List Nat) : List Nat := List.zipWith (fun s d => if s < 0 then d else s.toNat) asked b

theorem outShape_ok {n : Nat} {uniform : Bool} {s asked : List Int} {b : List Nat} (hs : (if uniform then s.take n else s) = asked)
    (hl : asked.length = b.length) : outShape n uniform s (b.map (fun a : Nat => (a : Int))) = some ((askedDims asked b).map (fun a : Nat => (a : Int))) := by
  unfold outShape askedDims
  rw [hs, zip2_eq (by simp [hl])]
  congr 1
  rw [List.map_zipWith, List.zipWith_map_right]
  congr 1
  funext s d
  split
  · rfl
  · omega

theorem min_pos_iff {l : List Int} {m : Int} (h : l.min? = some m) : 0 < m ↔ ∀ x ∈ l, 0 < x := by
  rw [List.min?_eq_some_iff] at h
  constructor
  · intro hm x hx
    have := h.2 x hx
    omega
  · intro hx
    exact hx m h.1

theorem inBounds_ok {dims : List Nat} (hd : dims ≠ []) {P : List (List Nat)} (hP : ∀ q ∈ P, q.length = dims.length) :
    inBounds (dims.map (fun a : Nat => (a : Int))) (castAll P) = some (P.map (fun q => (List.zipWith (fun a b => decide (a < b)) q dims).all id)) := by
  unfold inBounds
  have e1 : (castAll P).mapM (zip2 (fun a b : Int => a - b) (dims.map (fun a : Nat => (a : Int)))) =
      some ((castAll P).map (List.zipWith (fun a b : Int => a - b) (dims.map (fun a : Nat => (a : Int))))) := by
    refine mapM_some (fun q hq => zip2_eq ?_)
    obtain ⟨r, hr, rfl⟩ := List.mem_map.1 hq
    simp [hP r hr]
  simp only [Option.bind_eq_bind]
  rw [e1, Option.bind_some]
  have hmin : ∀ q ∈ P, ∃ m, (List.zipWith (fun a b : Int => a - b) (dims.map (fun a : Nat => (a : Int))) (q.map (fun a : Nat => (a : Int)))).min? = some m := by
    intro q hq
    have hl := hP q hq
    cases hx : (List.zipWith (fun a b : Int => a - b) (dims.map (fun a : Nat => (a : Int))) (q.map (fun a : Nat => (a : Int)))).min? with
    | some m => exact ⟨m, rfl⟩
    | none =>
      rw [List.min?_eq_none_iff] at hx
      have := congrArg List.length hx
      simp [hl] at this
      exact absurd this hd
  unfold rowMin
  rw [mapM_some (g := fun l => l.min?.getD 0)]
  · simp only [Option.bind_some, castAll, List.map_map, Option.some.injEq]
    refine List.map_congr_left (fun q hq => ?_)
    obtain ⟨m, hm⟩ := hmin q hq
    simp only [Function.comp, hm, Option.getD_some]
    have hl := hP q hq
    rw [Bool.eq_iff_iff, decide_eq_true_eq, min_pos_iff hm, List.all_eq_true]
    constructor
    · intro h x hx
      obtain ⟨k, hk, rfl⟩ := List.getElem_of_mem hx
      simp at hk
      have h' := h ((dims[k]'(by omega) : Int) - (q[k]'(by omega) : Int)) (by
        rw [List.mem_iff_getElem]
        exact ⟨k, by simp; omega, by simp⟩)
      simp
      omega
    · intro h x hx
      obtain ⟨k, hk, rfl⟩ := List.getElem_of_mem hx
      simp at hk
      have h' := h (decide (q[k]'(by omega) < dims[k]'(by omega))) (by
        rw [List.mem_iff_getElem]
        exact ⟨k, by simp; omega, by simp⟩)
      simp at h' ⊢
      omega
  · intro l hl
    simp only [castAll, List.map_map, List.mem_map, Function.comp] at hl
    obtain ⟨q, hq, rfl⟩ := hl
    obtain ⟨m, hm⟩ := hmin q hq
    rw [hm]
    rfl

theorem all_lt_iff {q dims : List Nat} (h : q.length = dims.length) :
    (List.zipWith (fun a b => decide (a < b)) q dims).all id = true ↔ InB dims q := by
  rw [List.all_eq_true]
  constructor
  · intro hx
    refine ⟨h, fun k hk => ?_⟩
    have hk' : k < q.length := by omega
    have := hx (decide (q[k] < dims[k])) (by
      rw [List.mem_iff_getElem]
      exact ⟨k, by simp; omega, by simp⟩)
    simp at this
    simpa [nth, List.getD, hk, hk'] using this
  · intro hi x hx
    obtain ⟨k, hk, rfl⟩ := List.getElem_of_mem hx
    simp at hk
    have := hi.2 k (by omega)
    simp [nth, List.getD, hk] at this ⊢
    exact this

/-- The kept elements by their positions. -/
theorem filter_by_index {γ : Type} (l : List γ) (b : γ → Bool) (d : γ) :
    l.filter b = ((List.range l.length).filter (fun k => (l.map b).getD k false)).map (fun k => l.getD k d) := by
  have e : l = (List.range l.length).map (fun k => l.getD k d) := by
    apply List.ext_getElem (by simp)
    intro k h1 h2
    simp [List.getD, h1]
  conv => lhs; rw [e]
  rw [List.filter_map]
  congr 1
  refine List.filter_congr (fun k hk => ?_)
  have hk : k < l.length := by simpa using hk
  simp [List.getD, hk]

/-! ## The conversion -/

/-- A way to give the rows of `t`: row splits (every level has a row) or row ids (every level has an element). -/
inductive Encodes {k : Nat} {α : Type} (t : List (Nest α (k + 1))) : Partition → Prop
  | splits : (∀ r ∈ lens (k + 1) t, r ≠ []) → Encodes t (.rowSplits ((lens (k + 1) t).map splits))
  | rowIds : (∀ r ∈ lens (k + 1) t, r.sum ≠ 0) → Encodes t (.valueRowids t.length ((lens (k + 1) t).map rowIds))

theorem lens_length {α : Type} (k : Nat) (l : List (Nest α k)) : (lens k l).length = k := by
  induction k with
  | zero => rfl
  | succ k ih =>
    show (List.map List.length l :: lens k (List.flatten l)).length = _
    rw [List.length_cons, ih]

theorem box_length {α : Type} (k : Nat) (l : List (Nest α k)) : (box k l).length = k + 1 := by simp [box, lens_length]

theorem rowIds_ne {l : List Nat} (h : l.sum ≠ 0) : rowIds l ≠ [] := by
  intro e
  have := congrArg List.length e
  simp only [rowIds, List.length_flatMap, List.length_replicate, List.length_nil] at this
  have e2 : l.zipIdx.map (fun p => p.1) = l := by simp
  rw [e2] at this
  exact h this

theorem Encodes.indices {k : Nat} {α : Type} {t : List (Nest α (k + 1))} {p : Partition} (h : Encodes t p) :
    p.indices = some (castAll (paths (k + 2) t), (box (k + 1) t).map (fun a : Nat => (a : Int))) ∧ p.dims = k + 2 := by
  cases h with
  | splits h =>
    refine ⟨?_, by simp [Partition.dims, lens_length]⟩
    show (do let (ix, dims) ← splitsToIndices _; _) = _
    rw [splitsToIndices_ok t h]
    rfl
  | rowIds h =>
    refine ⟨?_, by simp [Partition.dims, lens_length]⟩
    show (do let (ix, dims) ← rowIdsToIndices _ _; _) = _
    rw [rowIdsToIndices_ok t (fun r hr => rowIds_ne (h r hr))]
    rfl

/-- The values: a tensor that has the leaves, tensors of the dimensions `u`, one after the other. -/
def HoldsLeaves (values : T β) (u : List Nat) (ls : List (List Nat → β)) : Prop :=
  values.shape = ls.length :: u ∧ ∀ m (hm : m < ls.length) j, InB u j → values.get (m :: j) = ls[m] j

theorem constOfShape_nat (c : β) (s : List Nat) : constOfShape c (s.map (fun a : Nat => (a : Int))) = some ⟨s, fun _ => c⟩ := by
  unfold constOfShape
  rw [if_pos (by intro d hd; obtain ⟨a, _, rfl⟩ := List.mem_map.1 hd; omega)]
  simp [Function.comp_def]

theorem dims_uniform {uniform : Bool} {out u : List Nat} (hu : uniform = false → u = []) :
    (if uniform then out.map (fun a : Nat => (a : Int)) ++ u.map Int.ofNat else out.map (fun a : Nat => (a : Int))) = (out ++ u).map (fun a : Nat => (a : Int)) := by
  cases uniform with
  | true => simp
  | false => simp [hu rfl]

/-- **RaggedTensorToTensor**, natural shape. -/
theorem raggedToTensor_natural {k : Nat} {t : List (Nest (List Nat → β) (k + 1))} {p : Partition} (hp : Encodes t p) {uniform : Bool} {u : List Nat}
    (hu : uniform = false → u = []) {values : T β} (hv : HoldsLeaves values u (leaves (k + 1) t)) (default : β) :
    ∃ r, raggedToTensor p uniform none values default = some r ∧ Same r (dense (k + 2) t default (box (k + 1) t) u) := by
  obtain ⟨e1, e2⟩ := hp.indices
  have hlen : (paths (k + 2) t).length = (leaves (k + 1) t).length := paths_length (k + 1) t
  obtain ⟨r, hr, hS⟩ := scatter_dense (K := k + 2) (P := paths (k + 2) t) (vals := values) (dims := box (k + 1) t) (u := u) (t := t) (default := default)
    (box_length _ _) (paths_nodup _ _) (fun q hq => inB_iff_forall₂.2 (paths_in_box _ _ hq)) (by rw [hv.1, hlen])
    (by
      intro m hm j hj
      have h1 := congrArg (fun l => l[m]?) (lookup_paths_top (k + 1) t)
      have hm' : m < (leaves (k + 1) t).length := by omega
      simp only [List.getElem?_map, List.getElem?_eq_getElem hm, List.getElem?_eq_getElem hm', Option.map_some, Option.some.injEq] at h1
      rw [h1, Option.map_some, hv.2 m hm' j hj])
    (fun q f _ hl => mem_paths_of_lookup _ _ _ hl)
  refine ⟨r, ?_, hS⟩
  unfold raggedToTensor
  simp only [Option.bind_eq_bind, e1, Option.bind_some, e2, hv.1, List.tail_cons]
  rw [dims_uniform hu, constOfShape_nat, Option.bind_some]
  exact hr

/-- **RaggedTensorToTensor** with a shape: rows are filled up or cut; negative dimensions are as large as necessary. -/
theorem raggedToTensor_shape {k : Nat} {t : List (Nest (List Nat → β) (k + 1))} {p : Partition} (hp : Encodes t p) {uniform : Bool} {u : List Nat}
    (hu : uniform = false → u = []) {values : T β} (hv : HoldsLeaves values u (leaves (k + 1) t)) (default : β) {s asked : List Int}
    (hs : (if uniform then s.take (k + 2) else s) = asked) (hl : asked.length = k + 2) :
    ∃ r, raggedToTensor p uniform (some s) values default = some r ∧
      Same r (dense (k + 2) t default (List.zipWith (fun a d => if a < 0 then d else a.toNat) asked (box (k + 1) t)) u) := by
  obtain ⟨e1, e2⟩ := hp.indices
  have hlen : (paths (k + 2) t).length = (leaves (k + 1) t).length := paths_length (k + 1) t
  have hbl := box_length (k + 1) t
  have eo := outShape_ok (b := box (k + 1) t) hs (by omega)
  have hdl : (askedDims asked (box (k + 1) t)).length = k + 2 := by simp [askedDims, hl, hbl]
  have hql : ∀ q ∈ paths (k + 2) t, q.length = (askedDims asked (box (k + 1) t)).length := fun q hq => by rw [hdl]; exact length_of_mem_paths _ _ hq
  generalize hD : askedDims asked (box (k + 1) t) = D at *
  have ei := inBounds_ok (dims := D) (by intro h; rw [h] at hdl; simp at hdl) hql
  let b : List Nat → Bool := fun q => (List.zipWith (fun a b => decide (a < b)) q D).all id
  have hb : ∀ q ∈ paths (k + 2) t, b q = true ↔ InB D q := fun q hq => all_lt_iff (hql q hq)
  have ec := compress_map (paths (k + 2) t) (fun q => q.map (fun a : Nat => (a : Int))) b
  let keep := (List.range (paths (k + 2) t).length).filter (fun m => ((paths (k + 2) t).map b).getD m false)
  have hkeep : (paths (k + 2) t).filter b = keep.map (fun m => (paths (k + 2) t).getD m []) := filter_by_index _ b []
  let values' : T β := ⟨keep.length :: u, fun i => values.get (nth keep (nth i 0) :: i.tail)⟩
  have ev : compressT values ((paths (k + 2) t).map b) = some values' := by
    unfold compressT
    rw [if_pos (by rw [hv.1]; simp [nth, hlen])]
    simp only [List.length_map, hv.1, List.tail_cons]
    rfl
  obtain ⟨r, hr, hS⟩ := scatter_dense (K := k + 2) (P := (paths (k + 2) t).filter b) (vals := values') (dims := D) (u := u) (t := t) (default := default)
    hdl ((paths_nodup _ _).filter _) (fun q hq => (hb q (List.mem_filter.1 hq).1).1 (List.mem_filter.1 hq).2)
    (by rw [hkeep]; simp [values'])
    (by
      intro m hm j hj
      have hmk : m < keep.length := by rw [hkeep] at hm; simpa using hm
      have hin : keep[m] < (paths (k + 2) t).length := by
        have := List.getElem_mem hmk
        simp only [keep, List.mem_filter, List.mem_range] at this
        exact this.1
      have e : ((paths (k + 2) t).filter b)[m] = (paths (k + 2) t)[keep[m]] := by
        simp only [hkeep, List.getElem_map]
        simp [List.getD, hin]
      have hm' : keep[m] < (leaves (k + 1) t).length := by omega
      have h1 := congrArg (fun l => l[keep[m]]?) (lookup_paths_top (k + 1) t)
      simp only [List.getElem?_map, List.getElem?_eq_getElem hin, List.getElem?_eq_getElem hm', Option.map_some, Option.some.injEq] at h1
      rw [e, h1, Option.map_some]
      have hn : nth keep m = keep[m] := by simp [nth, List.getD, hmk]
      show _ = some (values.get (nth keep m :: j))
      rw [hn, hv.2 _ hm' j hj])
    (fun q f hq hlk => by
      have hmem := mem_paths_of_lookup _ _ _ hlk
      exact List.mem_filter.2 ⟨hmem, (hb q hmem).2 hq⟩)
  refine ⟨r, ?_, by rw [← hD] at hS; exact hS⟩
  unfold raggedToTensor
  simp only [Option.bind_eq_bind, e1, Option.bind_some, e2, eo, ei]
  have ec' : compress (castAll (paths (k + 2) t)) ((paths (k + 2) t).map (fun q => (List.zipWith (fun a b => decide (a < b)) q D).all id)) =
    some (castAll ((paths (k + 2) t).filter b)) := ec
  have ev' : compressT values ((paths (k + 2) t).map (fun q => (List.zipWith (fun a b => decide (a < b)) q D).all id)) = some values' := ev
  rw [ec', Option.bind_some, ev', Option.bind_some]
  show ((constOfShape default (if uniform then D.map (fun a : Nat => (a : Int)) ++ u.map Int.ofNat else D.map (fun a : Nat => (a : Int)))).bind fun x => _) = _
  rw [dims_uniform hu, constOfShape_nat, Option.bind_some]
  exact hr

end Verif.Ragged
