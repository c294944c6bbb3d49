import Verif.Model.Symbolic
import Verif.Props.C15_ConstFold
import Verif.Props.C31_SliceOps
import Mathlib.Algebra.BigOperators.Group.Multiset.Basic
/-!
# C22: symbolic execution gives the shape formula of every execution

Specification: an assignment `v` of integers to the variables gives every symbolic tensor a value (`Val.value`). The
meaning of a node is that of its ONNX operator (`Sem`, with the operators of `Spec/TensorOps`).
-/
namespace Verif.Symbolic
open Verif.Tensor Verif.ConstFold Verif.TransposeOpt Verif.SliceOps

/-! ## Specification -/

/-- The value of a symbolic element: the constant times the values of the variables. -/
def Sym.value (v : Nat → Int) (s : Sym) : Int := s.const * (s.terms.map v).prod

/-- The tensor an array stands for. -/
def Val.value (v : Nat → Int) : Val → T Int
  | .num t => t
  | .sym t => tmap (Sym.value v) t

/-- The tensor is the vector `l`. -/
def IsVec (t : T Int) (l : List Int) : Prop := t.shape = [l.length] ∧ ∀ i, i < l.length → t.get [i] = l.getD i 0

/-- The axes of `Squeeze`, `Unsqueeze` (`thr = 13`) and `ReduceProd` (`thr = 18`): an attribute before opset `thr`, the
second input from then on. -/
def AxesAre (thr opset : Nat) (e : String → T Int) (n : Node) (attr : Option (List Int)) (axes : List Int) : Prop :=
  if opset < thr then attr = some axes else ∃ name, n.input[1]? = some name ∧ IsVec (e name) axes

/-- Input `i` of `Slice` is the vector `l`; if it is missing, the default holds. -/
def OptVec (e : String → T Int) (n : Node) (i : Nat) (dflt l : List Int) : Prop :=
  match n.input[i]? with
  | none => l = dflt
  | some name => if name = "" then l = dflt else IsVec (e name) l

/-- The operands of `Slice`: attributes before opset 10, inputs from then on. -/
def SliceOperands (opset : Nat) (e : String → T Int) (n : Node) (st en ax : Option (List Int))
    (starts ends axes steps : List Int) : Prop :=
  if opset < 10 then
    st = some starts ∧ en = some ends ∧ ax.getD ((List.range starts.length).map (fun (i : Nat) => (i : Int))) = axes ∧
      steps = List.replicate starts.length 1
  else
    (∃ name, n.input[1]? = some name ∧ name ≠ "" ∧ IsVec (e name) starts) ∧
    (∃ name, n.input[2]? = some name ∧ name ≠ "" ∧ IsVec (e name) ends) ∧
    OptVec e n 3 ((List.range starts.length).map (fun (i : Nat) => (i : Int))) axes ∧
    OptVec e n 4 (List.replicate starts.length 1) steps

/-- ONNX `Gather`: axis `a` of the data is replaced by the axes of the indices. -/
def gather {α : Type} (a : Nat) (ind : T Int) (x : T α) : T α :=
  { shape := x.shape.take a ++ ind.shape ++ x.shape.drop (a + 1)
    get := fun idx =>
      let i := ind.get ((idx.drop a).take ind.shape.length)
      let i := if i < 0 then i + nth x.shape a else i
      x.get (idx.take a ++ [i.toNat] ++ idx.drop (a + ind.shape.length)) }

/-- What ONNX requires of the operands of `Concat`. -/
def ConcatOk (axis : Int) (xs : List (T Int)) : Prop :=
  ∃ rank, (ValidAxis rank axis ∧ ∀ x ∈ xs, x.shape.length = rank) ∧
    ∀ x ∈ xs, ∀ y ∈ xs, ∀ i, i < rank → i ≠ normAxis rank axis → nth x.shape i = nth y.shape i

/-- The value of the first output of node `n` is what its ONNX operator computes from the values of its inputs. Operator
nodes that violate the operator's requirements are not valid ONNX, hence the requirements are part of the meaning. -/
def Sem (castTo : Int → Int → Int) (opset : Nat) (e : String → T Int) (n : Node) : Prop :=
  ∀ out, n.output.head? = some out →
  match n.op with
  | .const t => Same t (e out)
  | .cast dst => ∀ x, n.input[0]? = some x → Same (tmap (castTo dst) (e x)) (e out)
  | .mul => ∀ x y, n.input[0]? = some x → n.input[1]? = some y →
      Broadcastable (max (e x).shape.length (e y).shape.length)
        ([e x, e y].map (expandRank (max (e x).shape.length (e y).shape.length))) ∧
      Same (elementwise List.prod (max (e x).shape.length (e y).shape.length) [e x, e y]) (e out)
  | .unsqueeze attr => ∀ x axes, n.input[0]? = some x → AxesAre 13 opset e n attr axes →
      let r := (e x).shape.length + axes.length
      (∀ a ∈ axes, ValidAxis r a) ∧ (axes.map (normAxis r)).Nodup ∧
      Same (unsqueeze r (axisSet r axes) (e x)) (e out)
  | .squeeze attr => ∀ x axes, n.input[0]? = some x → AxesAre 13 opset e n attr axes →
      let r := (e x).shape.length
      (∀ a ∈ axes, ValidAxis r a) ∧ (axes.map (normAxis r)).Nodup ∧
      (∀ i, i < r → axisSet r axes i = true → nth (e x).shape i = 1) ∧
      Same (squeeze (axisSet r axes) (e x)) (e out)
  | .gather axis => ∀ x i, n.input[0]? = some x → n.input[1]? = some i →
      ValidAxis (e x).shape.length axis ∧
      Same (gather (normAxis (e x).shape.length axis) (e i) (e x)) (e out)
  | .reduceProd attr keepdims => ∀ x axes, n.input[0]? = some x → AxesAre 18 opset e n attr axes →
      let ax := reducedSet false (e x).shape.length axes
      Same (if keepdims then reduceKeep Multiset.prod ax (e x) else reduceDrop Multiset.prod ax (e x)) (e out)
  | .slice st en ax => ∀ x starts ends axes steps, n.input[0]? = some x →
      SliceOperands opset e n st en ax starts ends axes steps →
      ends.length = starts.length ∧ axes.length = starts.length ∧ steps.length = starts.length ∧
      (∀ a ∈ axes, ValidAxis (e x).shape.length a) ∧ (axes.map (normAxis (e x).shape.length)).Nodup ∧
      (∀ s ∈ steps, s ≠ 0) ∧
      Same (slice 0 axes ((starts.zip (ends.zip steps)).map (fun p => ⟨p.1, p.2.1, p.2.2⟩)) (e x)) (e out)
  | .concat axis => ConcatOk axis (n.input.map e) ∧
      Same (concat 0 (normAxis ((n.input.map e).head?.map (fun x => x.shape.length) |>.getD 0) axis) (n.input.map e)) (e out)
  | .other _ => True

/-- The nodes the executor handles as ONNX prescribes: `Squeeze` axes are not negative, `Cast` does not change the values
(it is skipped on symbolic tensors), `ReduceProd` has axes, and no `Slice` steps backwards from before the first
element. -/
def Handled (castTo : Int → Int → Int) (opset : Nat) (e : String → T Int) (n : Node) : Prop :=
  match n.op with
  | .cast dst => ∀ x, n.input[0]? = some x → ∀ i, InB (e x).shape i → castTo dst ((e x).get i) = (e x).get i
  | .squeeze attr => ∀ axes, AxesAre 13 opset e n attr axes → ∀ a ∈ axes, 0 ≤ a
  | .reduceProd attr _ => ∀ axes, AxesAre 18 opset e n attr axes → axes ≠ []
  | .slice st en ax => ∀ x starts ends axes steps, n.input[0]? = some x →
      SliceOperands opset e n st en ax starts ends axes steps →
      ∀ j, j < starts.length → steps.getD j 0 < 0 →
        let d : Int := nth (e x).shape (normAxis (e x).shape.length (axes.getD j 0))
        1 ≤ d ∧ -d ≤ starts.getD j 0
  | _ => True

/-! ## Products -/

theorem init_value (v : Nat → Int) (l : List Nat) (c : Int) : (Sym.init l c).value v = c * (l.map v).prod := by
  unfold Sym.init Sym.value
  split
  · rename_i h; simp [h]
  · rfl

theorem mul_value (v : Nat → Int) (a b : Sym) : (a.mul b).value v = a.value v * b.value v := by
  unfold Sym.mul
  rw [init_value]
  simp only [Sym.value, List.map_append, List.prod_append]
  exact mul_mul_mul_comm _ _ _ _

theorem fromConst_value (v : Nat → Int) (c : Int) : (Sym.fromConst c).value v = c := by
  unfold Sym.fromConst
  rw [init_value]
  simp

theorem fromVariable_value (v : Nat → Int) (x : Nat) : (Sym.fromVariable x).value v = v x := by
  unfold Sym.fromVariable
  rw [init_value]
  simp

theorem toSym_value (v : Nat → Int) (x : Val) : tmap (Sym.value v) x.toSym = x.value v := by
  cases x with
  | sym t => rfl
  | num t =>
    simp only [Val.toSym, Val.value, tmap]
    congr
    funext i
    exact fromConst_value v _

theorem value_shape (v : Nat → Int) (x : Val) : (x.value v).shape = x.shape := by cases x <;> rfl

theorem mapT_value (v : Nat → Int) (x : Val) (F : (α : Type) → T α → T α)
    (hF : ∀ t : T Sym, tmap (Sym.value v) (F Sym t) = F Int (tmap (Sym.value v) t)) :
    (x.mapT F).value v = F Int (x.value v) := by
  cases x with
  | num t => rfl
  | sym t => exact hF t

/-! ## The operators respect `Same` and the value of symbolic elements -/

theorem reshape_congr {α : Type} {s : List Nat} {a b : T α} (h : Same a b) (hs : size s = size a.shape) :
    Same (reshape s a) (reshape s b) := by
  refine ⟨rfl, fun idx hi => ?_⟩
  simp only [reshape] at hi ⊢
  rw [← h.1]
  exact h.2 _ (lin_delin (hs ▸ lin_lt hi)).2

theorem expandRank_congr {α : Type} (n : Nat) {a b : T α} (h : Same a b) : Same (expandRank n a) (expandRank n b) := by
  refine ⟨by simp [expandRank, h.1], fun idx hi => ?_⟩
  simp only [expandRank] at hi ⊢
  rw [← h.1]
  apply h.2
  refine ⟨?_, fun i hlt => ?_⟩
  · have := hi.1
    simp only [List.length_append, List.length_replicate] at this
    rw [List.length_drop]; omega
  · have := hi.2 (n - a.shape.length + i) (by simp; omega)
    simp only [nth, List.getD_eq_getElem?_getD] at this ⊢
    rw [List.getElem?_append_right (by simp)] at this
    simpa using this

theorem elementwise_congr {α β : Type} (f : List α → β) (n : Nat) (xs ys : List (T α))
    (hb : Broadcastable n (ys.map (expandRank n))) (h : List.Forall₂ Same xs ys) :
    Same (elementwise f n xs) (elementwise f n ys) := by
  apply Same.symm
  apply elementwiseSame_congr _ _ _ _ hb
  clear hb
  induction h with
  | nil => exact List.Forall₂.nil
  | cons h _ ih => exact List.Forall₂.cons (expandRank_congr n h).symm ih

theorem elementwise_tmap {α β : Type} (f : α → β) (g : List α → α) (g' : List β → β) (n : Nat) (xs : List (T α))
    (hg : ∀ l, f (g l) = g' (l.map f)) :
    tmap f (elementwise g n xs) = elementwise g' n (xs.map (tmap f)) := by
  unfold elementwise elementwiseSame tmap
  simp only [List.map_map, T.mk.injEq]
  refine ⟨?_, ?_⟩
  · apply List.map_congr_left
    intro i _
    rfl
  · funext idx
    rw [hg, List.map_map]
    rfl

theorem mul_sound (v : Nat → Int) (x y : Val) (a b o : T Int) (hx : Same (x.value v) a) (hy : Same (y.value v) b)
    (hb : Broadcastable (max a.shape.length b.shape.length) ([a, b].map (expandRank (max a.shape.length b.shape.length))))
    (ho : Same (elementwise List.prod (max a.shape.length b.shape.length) [a, b]) o) :
    Same ((computeMul x y).value v) o := by
  have hlx : x.shape.length = a.shape.length := by rw [← value_shape v, hx.1]
  have hly : y.shape.length = b.shape.length := by rw [← value_shape v, hy.1]
  have key : (computeMul x y).value v = elementwise List.prod (max a.shape.length b.shape.length) [x.value v, y.value v] := by
    have hn : ∀ p q : T Int, foldBinary (· * ·) 0 p q = elementwise List.prod (max p.shape.length q.shape.length) [p, q] := by
      intro p q
      simp [foldBinary, elementwise, elementwiseSame]
    have hs : ∀ p q : Val, tmap (Sym.value v) (foldBinary Sym.mul (Sym.fromConst 0) p.toSym q.toSym) =
        elementwise List.prod (max p.shape.length q.shape.length) [p.value v, q.value v] := by
      intro p q
      unfold foldBinary
      have e : ∀ (n : Nat) (s t : T Sym), tmap (Sym.value v) (elementwise (fun l => Sym.mul (l.getD 0 (Sym.fromConst 0)) (l.getD 1 (Sym.fromConst 0))) n [s, t]) =
          elementwise List.prod n [tmap (Sym.value v) s, tmap (Sym.value v) t] := by
        intro n s t
        unfold elementwise elementwiseSame tmap
        simp only [List.map_cons, List.map_nil, T.mk.injEq]
        refine ⟨rfl, ?_⟩
        funext idx
        simp only [List.getD_cons_zero, List.getD_cons_succ, mul_value, List.prod_cons, List.prod_nil, mul_one]
        rfl
      rw [e, toSym_value, toSym_value]
      have l1 : p.toSym.shape.length = p.shape.length := by cases p <;> rfl
      have l2 : q.toSym.shape.length = q.shape.length := by cases q <;> rfl
      rw [l1, l2]
    rw [← hlx, ← hly]
    cases x with
    | num t =>
      cases y with
      | num u => exact hn t u
      | sym u => exact hs (.num t) (.sym u)
    | sym t => exact hs (.sym t) y
  rw [key]
  refine Same.trans (elementwise_congr _ _ _ _ hb ?_) ho
  exact List.Forall₂.cons hx (List.Forall₂.cons hy List.Forall₂.nil)

theorem reshape_self {α : Type} (x : T α) : Same (reshape x.shape x) x := by
  refine ⟨rfl, fun idx hi => ?_⟩
  simp only [reshape] at hi ⊢
  rw [delin_lin hi]

/-- A successful `reshape` keeps the values. -/
theorem reshapeVal_value {v : Nat → Int} {x r : Val} {s : List Nat} (h : reshapeVal x s = .ok r) :
    ∃ s', npReshape x.shape (s.map (fun (d : Nat) => (d : Int))) = .ok s' ∧ r.value v = reshape s' (x.value v) ∧
      size s' = size x.shape := by
  unfold reshapeVal at h
  cases h1 : npReshape x.shape (s.map (fun (d : Nat) => (d : Int))) with
  | error m => rw [h1] at h; cases h
  | ok s' =>
    rw [h1] at h
    simp only [bind, Except.bind] at h
    cases h
    exact ⟨s', rfl, mapT_value v x _ (fun t => rfl), ((npReshape_spec _ _ _).1 h1).total⟩

theorem unsqueeze_sound (v : Nat → Int) (x r : Val) (t : T Int) (axes : List Int) (s : List Nat) (hx : Same (x.value v) t)
    (hax : ∀ a ∈ axes, ValidAxis (t.shape.length + axes.length) a)
    (hnd : (axes.map (normAxis (t.shape.length + axes.length))).Nodup)
    (hs : unsqueezeShape x.shape axes = .ok s) (hr : reshapeVal x s = .ok r) :
    Same (r.value v) (unsqueeze (t.shape.length + axes.length) (axisSet (t.shape.length + axes.length) axes) t) := by
  obtain ⟨s', h1, h2, h3⟩ := reshapeVal_value (v := v) hr
  obtain ⟨y, hy1, hy2⟩ := fold_unsqueeze t axes hax hnd
  have hsh : t.shape = x.shape := by rw [← hx.1, value_shape]
  unfold foldUnsqueeze at hy1
  rw [hsh, hs] at hy1
  simp only [bind, Except.bind, h1] at hy1
  cases hy1
  rw [h2]
  exact (reshape_congr hx (by rw [value_shape]; exact h3)).trans hy2

theorem squeezeShape_eq {s : List Nat} {axes : List Int} (hnn : ∀ a ∈ axes, 0 ≤ a) :
    squeezeShape s axes = (keptAxes s.length (axisSet s.length axes)).map (nth s) := by
  unfold squeezeShape keptAxes
  simp only
  congr 1
  apply List.filter_congr
  intro i _
  rw [Bool.eq_iff_iff]
  simp only [decide_eq_true_eq, Bool.not_eq_true', ← Bool.not_eq_true, axisSet_iff]
  apply not_congr
  rw [List.mem_map]
  constructor
  · rintro ⟨a, ha, he⟩
    refine ⟨a, ha, ?_⟩
    have := hnn a ha
    rw [if_pos (by omega)] at he
    unfold normAxis
    rw [if_neg (by omega)]
    omega
  · rintro ⟨a, ha, he⟩
    refine ⟨a, ha, ?_⟩
    have := hnn a ha
    unfold normAxis at he
    rw [if_neg (by omega)] at he
    rw [if_pos (by omega)]
    omega

/-- `Squeeze` is a reshape. -/
theorem squeeze_as_reshape {α : Type} (t : T α) (axes : List Int)
    (hax : ∀ a ∈ axes, ValidAxis t.shape.length a) (hnd : (axes.map (normAxis t.shape.length)).Nodup)
    (hone : ∀ i, i < t.shape.length → axisSet t.shape.length axes i = true → nth t.shape i = 1) :
    size t.shape = size (squeeze (axisSet t.shape.length axes) t).shape ∧
    Same (reshape (squeeze (axisSet t.shape.length axes) t).shape t) (squeeze (axisSet t.shape.length axes) t) := by
  obtain ⟨u, hu⟩ : ∃ u, u = squeeze (axisSet t.shape.length axes) t := ⟨_, rfl⟩
  have hrank : u.shape.length + axes.length = t.shape.length := by rw [hu]; exact squeeze_unsqueeze_rank axes t hax hnd
  obtain ⟨y, hy1, hy2⟩ := fold_unsqueeze u axes (by rw [hrank]; exact hax) (by rw [hrank]; exact hnd)
  rw [hrank] at hy2
  have hcancel := squeeze_unsqueeze_cancel axes t hone
  rw [← hu] at hcancel ⊢
  have hyt := hy2.trans hcancel
  unfold foldUnsqueeze at hy1
  cases e1 : unsqueezeShape u.shape axes with
  | error m => rw [e1] at hy1; cases hy1
  | ok s1 =>
    rw [e1] at hy1
    simp only [bind, Except.bind] at hy1
    cases e2 : npReshape u.shape (s1.map (fun (d : Nat) => (d : Int))) with
    | error m => rw [e2] at hy1; cases hy1
    | ok s2 =>
      rw [e2] at hy1
      cases hy1
      have hs2 : s2 = t.shape := hyt.1
      subst hs2
      have hsz : size t.shape = size u.shape := ((npReshape_spec _ _ _).1 e2).total
      refine ⟨hsz, (reshape_congr hyt.symm hsz.symm).trans ?_⟩
      exact (reshape_reshape _ _ _ hsz hsz.symm).trans (reshape_self u)

theorem squeeze_sound (v : Nat → Int) (x r : Val) (t : T Int) (axes : List Int) (hx : Same (x.value v) t)
    (hax : ∀ a ∈ axes, ValidAxis t.shape.length a) (hnd : (axes.map (normAxis t.shape.length)).Nodup)
    (hone : ∀ i, i < t.shape.length → axisSet t.shape.length axes i = true → nth t.shape i = 1)
    (hnn : ∀ a ∈ axes, 0 ≤ a) (hr : reshapeVal x (squeezeShape x.shape axes) = .ok r) :
    Same (r.value v) (squeeze (axisSet t.shape.length axes) t) := by
  obtain ⟨s', h1, h2, h3⟩ := reshapeVal_value (v := v) hr
  have hsh : t.shape = x.shape := by rw [← hx.1, value_shape]
  rw [squeezeShape_eq hnn, ← hsh] at h1
  obtain ⟨hsz, hsame⟩ := squeeze_as_reshape t axes hax hnd hone
  have hush : (squeeze (axisSet t.shape.length axes) t).shape =
      (keptAxes t.shape.length (axisSet t.shape.length axes)).map (nth t.shape) := rfl
  rw [← hush, npReshape_concrete t.shape _ hsz.symm] at h1
  cases h1
  rw [h2]
  exact (reshape_congr hx (by rw [value_shape, ← hsh]; exact hsz.symm)).trans hsame

/-! ## Gather -/

theorem take_eq_gather {α : Type} (a : Nat) (ind : T Int) (x : T α) : take a ind x = gather a ind x := by
  unfold take gather normAxis
  rfl

theorem nth_append_left {l m : List Nat} {i : Nat} (h : i < l.length) : nth (l ++ m) i = nth l i := by
  simp [nth, List.getElem?_append_left h, h]
theorem nth_append_right {l m : List Nat} {i : Nat} (h : l.length ≤ i) : nth (l ++ m) i = nth m (i - l.length) := by
  simp [nth, List.getElem?_append_right h]
theorem nth_take {l : List Nat} {a i : Nat} (h : i < a) : nth (l.take a) i = nth l i := by
  simp [nth, h]
theorem nth_drop {l : List Nat} {a i : Nat} : nth (l.drop a) i = nth l (a + i) := by
  simp [nth]

/-- The parts of a result index of `Gather`. -/
theorem gather_index {s is idx : List Nat} {a : Nat} (ha : a < s.length) (hi : InB (s.take a ++ is ++ s.drop (a + 1)) idx) :
    InB is ((idx.drop a).take is.length) ∧
    ∀ k, k < nth s a → InB s (idx.take a ++ [k] ++ idx.drop (a + is.length)) := by
  obtain ⟨h1, h2⟩ := hi
  simp only [List.length_append, List.length_take, List.length_drop] at h1 h2
  have hlt : (s.take a).length = a := by simp; omega
  constructor
  · refine ⟨by simp; omega, fun i hi => ?_⟩
    have := h2 (a + i) (by omega)
    rw [nth_append_left (by simp; omega), nth_append_right (by simp), hlt] at this
    rw [nth_take hi, nth_drop]
    simpa using this
  · intro k hk
    refine ⟨by simp; omega, fun i hi => ?_⟩
    have hla : (idx.take a).length = a := by simp; omega
    by_cases c1 : i < a
    · have := h2 i (by omega)
      rw [nth_append_left (by simp; omega), nth_append_left (by omega), nth_take c1] at this
      rw [nth_append_left (by simp; omega), nth_append_left (by omega), nth_take c1]
      exact this
    · by_cases c2 : i = a
      · subst c2
        rw [nth_append_left (by simp; omega), nth_append_right (by omega), hla]
        simpa [nth] using hk
      · have := h2 (i - 1 + is.length) (by omega)
        rw [nth_append_right (by simp; omega), nth_drop] at this
        rw [nth_append_right (by simp; omega), nth_drop]
        simp only [List.length_append, List.length_take, List.length_cons, List.length_nil] at this ⊢
        have e1 : a + is.length + (i - (min a idx.length + (0 + 1))) = i - 1 + is.length := by omega
        have e2 : a + 1 + (i - 1 + is.length - (min a s.length + is.length)) = i := by omega
        rw [e1]; rw [e2] at this
        exact this

theorem gather_sound (v : Nat → Int) (x i r : Val) (t ti : T Int) (axis : Int) (hx : Same (x.value v) t)
    (hi : Same (i.value v) ti) (hax : ValidAxis t.shape.length axis) (hr : computeGather x i axis = .ok r) :
    Same (r.value v) (gather (normAxis t.shape.length axis) ti t) := by
  have hsh : t.shape = x.shape := by rw [← hx.1, value_shape]
  unfold computeGather at hr
  cases i with
  | sym _ => cases hr
  | num ind =>
    simp only at hr
    split at hr
    · cases hr
    · split at hr
      · rename_i hall
        cases hr
        rw [List.all_eq_true] at hall
        rw [mapT_value v x _ (fun t => rfl), take_eq_gather, ← hsh]
        rw [← hsh] at hall
        have hlt := normAxis_lt hax
        obtain ⟨a, ha⟩ : ∃ a, a = normAxis t.shape.length axis := ⟨_, rfl⟩
        rw [← ha] at hall hlt ⊢
        simp only [Val.value] at hi
        refine ⟨?_, fun idx hidx => ?_⟩
        · simp only [gather]
          rw [hx.1, hi.1]
        · simp only [gather] at hidx ⊢
          rw [hx.1] at hidx
          obtain ⟨g1, g2⟩ := gather_index hlt hidx
          rw [hx.1, ← hi.1, ← hi.2 _ g1]
          have hb := hall _ ((mem_allIdx _ _).2 g1)
          simp only [decide_eq_true_eq] at hb
          rw [← hx.1] at hb g2
          rw [← hx.1]
          apply hx.2
          apply g2
          split <;> omega
      · cases hr

/-! ## ReduceProd -/

theorem foldl_value (v : Nat → Int) (l : List Sym) (a : Sym) :
    (l.foldl Sym.mul a).value v = (l.map (Sym.value v)).foldl (· * ·) (a.value v) := by
  induction l generalizing a with
  | nil => rfl
  | cons s l ih => simp only [List.foldl_cons, List.map_cons]; rw [ih, mul_value]

theorem prodKeep_tmap (v : Nat → Int) (ax : Nat → Bool) (t : T Sym) :
    tmap (Sym.value v) (prodKeep Sym.mul (Sym.fromConst 1) ax t) = prodKeep (· * ·) 1 ax (tmap (Sym.value v) t) := by
  unfold prodKeep tmap
  simp only [T.mk.injEq, true_and]
  funext idx
  rw [foldl_value, fromConst_value, List.map_map]
  rfl

theorem prodKeep_eq (ax : Nat → Bool) (t : T Int) : prodKeep (· * ·) 1 ax t = reduceKeep Multiset.prod ax t := by
  unfold prodKeep reduceKeep group
  simp only [T.mk.injEq, true_and]
  funext idx
  rw [Multiset.map_coe, Multiset.prod_coe, List.prod_eq_foldl]

theorem reduceKeep_congr {α β : Type} (f : Multiset α → β) (ax : Nat → Bool) {a b : T α} (h : Same a b) :
    Same (reduceKeep f ax a) (reduceKeep f ax b) := by
  refine ⟨by simp [reduceKeep, h.1], fun idx _ => ?_⟩
  simp only [reduceKeep, group]
  congr 1
  rw [← h.1]
  apply Multiset.map_congr rfl
  intro j hj
  apply h.2
  rw [Multiset.mem_coe, List.mem_filter] at hj
  exact (mem_allIdx _ _).1 hj.1

theorem reduceProd_sound (v : Nat → Int) (x r : Val) (t : T Int) (axes : List Int) (kd : Bool) (hx : Same (x.value v) t)
    (hne : axes ≠ []) (hr : computeReduceProd x axes kd = .ok r) :
    Same (r.value v) (if kd then reduceKeep Multiset.prod (reducedSet false t.shape.length axes) t
      else reduceDrop Multiset.prod (reducedSet false t.shape.length axes) t) := by
  have hsh : t.shape = x.shape := by rw [← hx.1, value_shape]
  have hset : (fun i => decide (i ∈ axes.map (normAxis x.shape.length))) = reducedSet false t.shape.length axes := by
    funext i
    rw [hsh]
    simp [reducedSet, hne, axisSet]
  unfold computeReduceProd at hr
  simp only [hset] at hr
  generalize reducedSet false t.shape.length axes = ax at hr ⊢
  have hval : r.value v = npProd (· * ·) 1 ax kd (x.value v) := by
    split at hr
    · cases hr
    · split at hr
      · cases hr
      · cases x with
        | num u => cases hr; rfl
        | sym u =>
          cases hr
          simp only [Val.value]
          unfold npProd
          cases kd with
          | true => exact prodKeep_tmap v ax u
          | false =>
            simp only [Bool.false_eq_true, if_false]
            rw [← prodKeep_tmap]
            rfl
  rw [hval]
  unfold npProd reduceDrop
  rw [prodKeep_eq]
  have hk := reduceKeep_congr Multiset.prod ax hx
  cases kd with
  | true => exact hk
  | false =>
    simp only [Bool.false_eq_true, if_false]
    apply squeeze_congr hk
    intro i hi ha
    simp only [reduceKeep, List.length_map, List.length_range] at hi ⊢
    rw [nth_map_range, if_pos hi, if_pos ha]

/-! ## Slice -/

theorem pyBound_pos {d s p : Int} (hs : 0 < s) (hd : 0 ≤ d) : pyBound d s p = clampPos d 0 d p := by
  unfold pyBound clampPos
  simp only
  rw [if_neg (show ¬ s < 0 by omega), if_neg (show ¬ s < 0 by omega)]
  split_ifs <;> omega

theorem pyBound_neg {d s p : Int} (hs : s < 0) (hd : 0 ≤ d) : pyBound d s p = clampPos d (-1) (d - 1) p := by
  unfold pyBound clampPos
  simp only
  rw [if_pos hs, if_pos hs]
  split_ifs <;> omega

/-- ONNX's slice of one axis is Python's. -/
theorem py_axis (st en sp : Int) (d : Nat) (h0 : sp ≠ 0) (hneg : sp < 0 → 1 ≤ (d : Int) ∧ -(d : Int) ≤ st) :
    pyCount ⟨st, en, sp⟩ d = SliceSpec.count ⟨st, en, sp⟩ d ∧
    pyBound d sp st = SliceSpec.first ⟨st, en, sp⟩ d := by
  by_cases hs : 0 < sp
  · have e1 := pyBound_pos (p := st) hs (Int.natCast_nonneg d)
    have e2 := pyBound_pos (p := en) hs (Int.natCast_nonneg d)
    refine ⟨?_, by unfold SliceSpec.first; rw [if_pos hs, e1]⟩
    unfold pyCount SliceSpec.count SliceSpec.first SliceSpec.last
    simp only [e1, e2]
    rw [if_neg (show ¬ sp < 0 by omega), if_pos hs, if_pos hs, if_pos hs]
    generalize clampPos d 0 d st = a
    generalize clampPos d 0 d en = b
    split
    · have : b - a + sp - 1 = (b - a - 1) + sp := by omega
      rw [this, Int.add_ediv_of_dvd_right (Int.dvd_refl sp), Int.ediv_self h0]
    · have : (b - a + sp - 1) / sp ≤ 0 := by
        have := Int.ediv_lt_of_lt_mul hs (show b - a + sp - 1 < 1 * sp by omega)
        omega
      omega
  · have hs' : sp < 0 := by omega
    obtain ⟨hd1, hst⟩ := hneg hs'
    have e1 := pyBound_neg (p := st) hs' (Int.natCast_nonneg d)
    have e2 := pyBound_neg (p := en) hs' (Int.natCast_nonneg d)
    have e3 : clampPos d (-1) (d - 1) st = clampPos d 0 (d - 1) st := by
      unfold clampPos; split <;> omega
    refine ⟨?_, by unfold SliceSpec.first; rw [if_neg hs, e1, e3]⟩
    unfold pyCount SliceSpec.count SliceSpec.first SliceSpec.last
    simp only [e1, e2, e3]
    rw [if_pos hs', if_neg hs, if_neg hs, if_neg hs]
    generalize clampPos d 0 (d - 1) st = a
    generalize clampPos d (-1) (d - 1) en = b
    split
    · have : a - b + -sp - 1 = (a - b - 1) + -sp := by omega
      rw [this, Int.add_ediv_of_dvd_right (Int.dvd_refl (-sp)), Int.ediv_self (by omega)]
    · have : (a - b + -sp - 1) / -sp ≤ 0 := by
        have := Int.ediv_lt_of_lt_mul (show 0 < -sp by omega) (show a - b + -sp - 1 < 1 * -sp by omega)
        omega
      omega

/-- Python reads inside the axis. -/
theorem pySrc_lt (s : Option PySlice) (d o : Nat) (h0 : ∀ p, s = some p → p.step ≠ 0) (ho : o < pyDim s d) : pySrc s d o < d := by
  cases s with
  | none => exact ho
  | some p =>
    obtain ⟨st, en, sp⟩ := p
    have h0 := h0 _ rfl
    simp only [pyDim, pySrc, pyCount] at *
    by_cases hs : sp < 0
    · rw [if_pos hs] at ho
      rw [pyBound_neg hs (Int.natCast_nonneg d), pyBound_neg hs (Int.natCast_nonneg d)] at ho
      rw [pyBound_neg hs (Int.natCast_nonneg d)]
      have hA : clampPos d (-1) (d - 1) st ≤ d - 1 := by unfold clampPos; split <;> omega
      have hB : -1 ≤ clampPos d (-1) (d - 1) en := by unfold clampPos; split <;> omega
      generalize clampPos (d : Int) (-1) (d - 1) st = a at *
      generalize clampPos (d : Int) (-1) (d - 1) en = b at *
      split at ho
      · have h1 : (o : Int) ≤ (a - b - 1) / -sp := by omega
        have h2 : (o : Int) * -sp ≤ a - b - 1 := (Int.le_ediv_iff_mul_le (by omega)).1 h1
        have h3 : (0 : Int) ≤ (o : Int) * -sp := Int.mul_nonneg (by omega) (by omega)
        have h4 : (o : Int) * -sp = -((o : Int) * sp) := by rw [Int.mul_neg]
        omega
      · omega
    · have hs' : 0 < sp := by omega
      rw [if_neg hs] at ho
      rw [pyBound_pos hs' (Int.natCast_nonneg d), pyBound_pos hs' (Int.natCast_nonneg d)] at ho
      rw [pyBound_pos hs' (Int.natCast_nonneg d)]
      have hA : 0 ≤ clampPos d 0 d st := by unfold clampPos; split <;> omega
      have hB : clampPos d 0 d en ≤ d := by unfold clampPos; split <;> omega
      generalize clampPos (d : Int) 0 d st = a at *
      generalize clampPos (d : Int) 0 d en = b at *
      split at ho
      · have h1 : (o : Int) ≤ (b - a - 1) / sp := by omega
        have h2 : (o : Int) * sp ≤ b - a - 1 := (Int.le_ediv_iff_mul_le hs').1 h1
        have h3 : (0 : Int) ≤ (o : Int) * sp := Int.mul_nonneg (by omega) (by omega)
        omega
      · omega

/-- With distinct axes, `slices[axis] = ..` assigns every entry to its axis. -/
theorem setSlices_spec (rank : Nat) (l : List (Int × PySlice)) (f g : Nat → Option PySlice)
    (hd : (l.map (fun p => normAxis rank p.1)).Nodup) (h : setSlices rank l f = .ok g) (i : Nat) :
    g i = ((l.find? (fun p => normAxis rank p.1 = i)).map (·.2)).or (f i) := by
  induction l generalizing f with
  | nil => cases h; rfl
  | cons p l ih =>
    obtain ⟨a, s⟩ := p
    simp only [List.map_cons, List.nodup_cons] at hd
    unfold setSlices at h
    split at h
    · cases h
    · rw [ih _ hd.2 h]
      by_cases hi : i = normAxis rank a
      · have hn : l.find? (fun p => normAxis rank p.1 = i) = none := by
          rw [List.find?_eq_none]
          intro q hq hc
          apply hd.1
          rw [List.mem_map]
          exact ⟨q, hq, by rw [← hi]; simpa using hc⟩
        rw [hn, List.find?_cons_of_pos (by simp [hi])]
        simp [hi]
      · rw [List.find?_cons_of_neg (by simpa using fun c => hi c.symm), if_neg hi]

theorem slice_sound (v : Nat → Int) (x r : Val) (t : T Int) (starts ends axes steps : List Int) (ao so : Option (List Int))
    (hao : ao.getD ((List.range starts.length).map (fun (i : Nat) => (i : Int))) = axes)
    (hso : so.getD (List.replicate starts.length 1) = steps) (hx : Same (x.value v) t)
    (hl1 : ends.length = starts.length) (hl2 : axes.length = starts.length) (hl3 : steps.length = starts.length)
    (hnd : (axes.map (normAxis t.shape.length)).Nodup) (h0 : ∀ s ∈ steps, s ≠ 0)
    (hneg : ∀ j, j < starts.length → steps.getD j 0 < 0 →
      1 ≤ (nth t.shape (normAxis t.shape.length (axes.getD j 0)) : Int) ∧
      -(nth t.shape (normAxis t.shape.length (axes.getD j 0)) : Int) ≤ starts.getD j 0)
    (hr : computeSlice x starts ends ao so = .ok r) :
    Same (r.value v) (slice 0 axes ((starts.zip (ends.zip steps)).map (fun p => ⟨p.1, p.2.1, p.2.2⟩)) t) := by
  have hsh : t.shape = x.shape := by rw [← hx.1, value_shape]
  unfold computeSlice at hr
  simp only [hao, hso] at hr
  cases hf : setSlices x.shape.length (sliceEntries axes starts ends steps) (fun _ => none) with
  | error m => rw [hf] at hr; cases hr
  | ok g =>
    rw [hf] at hr
    simp only [bind, Except.bind] at hr
    split at hr
    · cases hr
    · cases hr
      rw [mapT_value v x _ (fun t => rfl)]
      obtain ⟨raw, hraw⟩ : ∃ raw, raw = axes.zip (starts.zip (ends.zip steps)) := ⟨_, rfl⟩
      have e1 : sliceEntries axes starts ends steps = raw.map (fun p => (p.1, (⟨p.2.1, p.2.2.1, p.2.2.2⟩ : PySlice))) := by
        unfold sliceEntries
        rw [hraw, List.zip_map_right]
        rfl
      have e2 : axes.zip ((starts.zip (ends.zip steps)).map (fun p => (⟨p.1, p.2.1, p.2.2⟩ : SliceSpec))) =
          raw.map (fun p => (p.1, (⟨p.2.1, p.2.2.1, p.2.2.2⟩ : SliceSpec))) := by
        rw [hraw, List.zip_map_right]
        rfl
      have hfst : raw.map (fun p => p.1) = axes := by
        rw [hraw]
        apply List.map_fst_zip
        simp only [List.length_zip]; omega
      rw [← hsh] at hf
      have hg : ∀ i, g i = (raw.find? (fun p => normAxis t.shape.length p.1 = i)).map (fun p => (⟨p.2.1, p.2.2.1, p.2.2.2⟩ : PySlice)) := by
        intro i
        rw [setSlices_spec _ _ _ _ _ hf i, e1, List.find?_map]
        · cases h : raw.find? ((fun p => decide (normAxis t.shape.length p.1 = i)) ∘ fun p => (p.1, (⟨p.2.1, p.2.2.1, p.2.2.2⟩ : PySlice))) with
          | none =>
            have : raw.find? (fun p => decide (normAxis t.shape.length p.1 = i)) = none := h
            rw [this]; rfl
          | some q =>
            have : raw.find? (fun p => decide (normAxis t.shape.length p.1 = i)) = some q := h
            rw [this]; rfl
        · rw [e1, List.map_map]
          have : (fun p => normAxis t.shape.length p.1) ∘ (fun p => (p.1, (⟨p.2.1, p.2.2.1, p.2.2.2⟩ : PySlice))) =
              (normAxis t.shape.length) ∘ (fun (p : Int × Int × Int × Int) => p.1) := rfl
          rw [this, ← List.map_map, hfst]
          exact hnd
      have hgs : ∀ i, ((axes.zip ((starts.zip (ends.zip steps)).map (fun p => (⟨p.1, p.2.1, p.2.2⟩ : SliceSpec)))).find?
          (fun p => normAxis t.shape.length p.1 = i)).map (·.2) =
          (raw.find? (fun p => normAxis t.shape.length p.1 = i)).map (fun p => (⟨p.2.1, p.2.2.1, p.2.2.2⟩ : SliceSpec)) := by
        intro i
        rw [e2, List.find?_map]
        cases h : raw.find? ((fun p => decide (normAxis t.shape.length p.1 = i)) ∘ fun p => (p.1, (⟨p.2.1, p.2.2.1, p.2.2.2⟩ : SliceSpec))) with
        | none =>
          have : raw.find? (fun p => decide (normAxis t.shape.length p.1 = i)) = none := h
          rw [this]; rfl
        | some q =>
          have : raw.find? (fun p => decide (normAxis t.shape.length p.1 = i)) = some q := h
          rw [this]; rfl
      have hentry : ∀ i a st en sp, raw.find? (fun p => decide (normAxis t.shape.length p.1 = i)) = some (a, st, en, sp) →
          sp ≠ 0 ∧ (sp < 0 → 1 ≤ (nth t.shape i : Int) ∧ -(nth t.shape i : Int) ≤ st) := by
        intro i a st en sp h
        have hm := List.mem_of_find?_eq_some h
        have hp := List.find?_some h
        simp only [decide_eq_true_eq] at hp
        rw [hraw] at hm
        obtain ⟨j, hj, hje⟩ := List.mem_iff_getElem.1 hm
        simp only [List.getElem_zip, Prod.mk.injEq] at hje
        obtain ⟨ja, js, _, jp⟩ := hje
        simp only [List.length_zip] at hj
        refine ⟨by rw [← jp]; exact h0 _ (List.getElem_mem _), fun hneg' => ?_⟩
        have := hneg j (by omega) (by
          rw [List.getD_eq_getElem?_getD, List.getElem?_eq_getElem (by omega), Option.getD_some, jp]; exact hneg')
        rw [List.getD_eq_getElem?_getD, List.getElem?_eq_getElem (by omega), Option.getD_some, ja, hp,
          List.getD_eq_getElem?_getD, List.getElem?_eq_getElem (by omega), Option.getD_some, js] at this
        exact this
      have hdim : ∀ i, pyDim (g i) (nth t.shape i) = sliceRule.outDim (((axes.zip ((starts.zip (ends.zip steps)).map
          (fun p => (⟨p.1, p.2.1, p.2.2⟩ : SliceSpec)))).find? (fun p => normAxis t.shape.length p.1 = i)).map (·.2)) (nth t.shape i) := by
        intro i
        rw [hgs, hg]
        cases h : raw.find? (fun p => decide (normAxis t.shape.length p.1 = i)) with
        | none => rfl
        | some q =>
          obtain ⟨a, st, en, sp⟩ := q
          obtain ⟨q1, q2⟩ := hentry _ _ _ _ _ h
          exact (py_axis st en sp _ q1 q2).1
      have hsrc : ∀ i o, pySrc (g i) (nth t.shape i) o = sliceSrc (((axes.zip ((starts.zip (ends.zip steps)).map
          (fun p => (⟨p.1, p.2.1, p.2.2⟩ : SliceSpec)))).find? (fun p => normAxis t.shape.length p.1 = i)).map (·.2)) (nth t.shape i) o := by
        intro i o
        rw [hgs, hg]
        cases h : raw.find? (fun p => decide (normAxis t.shape.length p.1 = i)) with
        | none => rfl
        | some q =>
          obtain ⟨a, st, en, sp⟩ := q
          obtain ⟨q1, q2⟩ := hentry _ _ _ _ _ h
          simp only [Option.map_some, pySrc, sliceSrc]
          rw [(py_axis st en sp _ q1 q2).2]
      refine ⟨?_, fun idx hidx => ?_⟩
      · rw [slice_shape]
        simp only [pySliceAll]
        rw [hx.1]
        exact List.map_congr_left (fun i _ => hdim i)
      · rw [slice_get]
        simp only [pySliceAll] at hidx ⊢
        rw [hx.1] at hidx ⊢
        rw [List.map_congr_left (fun i _ => (hsrc i (nth idx i)).symm)]
        apply hx.2
        rw [hx.1]
        refine ⟨by simp, fun i hi => ?_⟩
        rw [nth_map_range, if_pos hi]
        apply pySrc_lt
        · intro p hp
          rw [hg] at hp
          rw [Option.map_eq_some_iff] at hp
          obtain ⟨⟨a, st, en, sp⟩, q1, q2⟩ := hp
          rw [← q2]
          exact (hentry _ _ _ _ _ q1).1
        · have := hidx.2 i (by simpa using hi)
          rwa [nth_map_range, if_pos hi] at this

/-! ## Concat -/

theorem concatGet_tmap {α β : Type} (f : α → β) (fill : α) (a : Nat) (xs : List (T α)) (idx : List Nat) :
    f (concatGet fill a xs idx) = concatGet (f fill) a (xs.map (tmap f)) idx := by
  induction xs generalizing idx with
  | nil => rfl
  | cons x xs ih =>
    simp only [concatGet, List.map_cons, tmap]
    split
    · rfl
    · exact ih _

theorem concat_tmap {α β : Type} (f : α → β) (fill : α) (a : Nat) (xs : List (T α)) :
    tmap f (concat fill a xs) = concat (f fill) a (xs.map (tmap f)) := by
  unfold concat
  simp only [tmap, T.mk.injEq]
  refine ⟨?_, ?_⟩
  · rw [List.map_map]
    cases xs <;> rfl
  · funext idx
    exact concatGet_tmap f fill a xs idx

theorem concatGet_congr {α : Type} (fill : α) (a r : Nat) (D : List Nat) {xs ys : List (T α)} (h : List.Forall₂ Same xs ys)
    (hr : ∀ y ∈ ys, y.shape.length = r) (hD : ∀ y ∈ ys, ∀ i, i < r → i ≠ a → nth y.shape i = nth D i) (idx : List Nat)
    (hl : idx.length = r) (hi : ∀ i, i < r → i ≠ a → nth idx i < nth D i) :
    concatGet fill a xs idx = concatGet fill a ys idx := by
  induction h generalizing idx with
  | nil => rfl
  | @cons x y xs ys hxy _ ih =>
    simp only [concatGet]
    rw [hxy.1]
    split
    · rename_i hlt
      apply hxy.2
      rw [hxy.1]
      refine ⟨by rw [hl, hr y (by simp)], fun i hii => ?_⟩
      rw [hr y (by simp)] at hii
      by_cases c : i = a
      · rw [c]; exact hlt
      · rw [hD y (by simp) i hii c]; exact hi i hii c
    · apply ih (fun y hy => hr y (List.mem_cons_of_mem _ hy)) (fun y hy => hD y (List.mem_cons_of_mem _ hy))
      · simpa [setAt] using hl
      · intro i hii hc
        rw [nth_setAt_ne (fun c => hc c.symm)]
        exact hi i hii hc

theorem map_shape_congr {α : Type} {xs ys : List (T α)} (h : List.Forall₂ Same xs ys) (a : Nat) :
    xs.map (fun x => nth x.shape a) = ys.map (fun x => nth x.shape a) := by
  induction h with
  | nil => rfl
  | cons h _ ih => simp only [List.map_cons, h.1, ih]

theorem concat_congr {axis : Int} {xs ys : List (T Int)} (h : List.Forall₂ Same xs ys) (hok : ConcatOk axis ys) (r : Nat)
    (hrank : ys ≠ [] → r = (ys.head?.map (fun x => x.shape.length)).getD 0) :
    Same (concat 0 (normAxis r axis) xs) (concat 0 (normAxis r axis) ys) := by
  cases h with
  | nil => exact Same.refl _
  | @cons x y xs ys hxy hrest =>
    obtain ⟨rank, ⟨hv, hl⟩, hD⟩ := hok
    have hr : r = rank := by rw [hrank (by simp)]; simpa using hl y (by simp)
    subst hr
    have hall : List.Forall₂ Same (x :: xs) (y :: ys) := List.Forall₂.cons hxy hrest
    have hsum : ∀ a, ((x :: xs).map (fun x => nth x.shape a)) = ((y :: ys).map (fun x => nth x.shape a)) :=
      fun a => map_shape_congr hall a
    have hshape : (concat 0 (normAxis r axis) (x :: xs)).shape = (concat 0 (normAxis r axis) (y :: ys)).shape := by
      unfold concat
      simp only
      rw [hsum, hxy.1]
    refine ⟨hshape, fun idx hidx => ?_⟩
    rw [hshape] at hidx
    have hly := hl y (by simp)
    apply concatGet_congr 0 (normAxis r axis) r y.shape hall hl
    · intro z hz i hi hne
      exact hD z hz y (by simp) i hi hne
    · have := hidx.1
      simpa [concat, setAt, hly] using this
    · intro i hi hne
      have := hidx.2 i (by simpa [concat, setAt, hly] using hi)
      simp only [concat] at this
      rwa [nth_setAt_ne (fun c => hne c.symm)] at this

theorem allNum_some {xs : List Val} {l : List (T Int)} (h : allNum xs = some l) : xs = l.map Val.num := by
  induction xs generalizing l with
  | nil => cases h; rfl
  | cons x xs ih =>
    cases x with
    | sym t => cases h
    | num t =>
      simp only [allNum, Option.map_eq_some_iff] at h
      obtain ⟨l', h1, h2⟩ := h
      rw [← h2, ih h1]
      rfl

theorem concat_sound (v : Nat → Int) (xs : List Val) (ys : List (T Int)) (axis : Int)
    (h : List.Forall₂ (fun (x : Val) y => Same (x.value v) y) xs ys) (hok : ConcatOk axis ys) :
    Same ((computeConcat xs axis).value v) (concat 0 (normAxis ((ys.head?.map (fun x => x.shape.length)).getD 0) axis) ys) := by
  have hv : List.Forall₂ Same (xs.map (Val.value v)) ys := by
    rw [List.forall₂_map_left_iff]; exact h
  have hrk : ((xs.head?.map (fun x => x.shape.length)).getD 0) = ((ys.head?.map (fun x => x.shape.length)).getD 0) := by
    cases h with
    | nil => rfl
    | cons h _ => simp only [List.head?_cons, Option.map_some, Option.getD_some]; rw [← value_shape v, h.1]
  have key : (computeConcat xs axis).value v =
      concat 0 (normAxis ((xs.head?.map (fun x => x.shape.length)).getD 0) axis) (xs.map (Val.value v)) := by
    unfold computeConcat
    split
    · rename_i l hl
      have := allNum_some hl
      subst this
      simp only [Val.value, foldConcat]
      have e : (l.map Val.num).map (Val.value v) = l := by
        rw [List.map_map]
        have : Val.value v ∘ Val.num = id := rfl
        rw [this, List.map_id]
      rw [e]
      cases l <;> rfl
    · simp only [Val.value, foldConcat]
      rw [concat_tmap, fromConst_value, List.map_map]
      have e : tmap (Sym.value v) ∘ Val.toSym = Val.value v := by funext x; exact toSym_value v x
      rw [e]
      cases xs with
      | nil => rfl
      | cons x xs => cases x <;> rfl
  rw [key, hrk]
  exact concat_congr hv hok _ (fun _ => rfl)

/-! ## One node -/

/-- All results are the values of the tensors they are stored under. -/
def Good (v : Nat → Int) (e : String → T Int) (results : Dict String Val) : Prop :=
  ∀ name val, results.get name = some val → Same (val.value v) (e name)

theorem arg_good {v : Nat → Int} {e : String → T Int} {results : Dict String Val} {n : Node} {i : Nat} {x : Val}
    (hg : Good v e results) (h : arg results n i = .ok x) :
    ∃ name, n.input[i]? = some name ∧ Same (x.value v) (e name) := by
  unfold arg at h
  split at h
  · cases h
  · rename_i name hn
    split at h
    · cases h
    · rename_i w hw
      cases h
      exact ⟨name, hn, hg _ _ hw⟩

theorem tolist_isVec {v : Nat → Int} {x : Val} {t : T Int} {l : List Int} (hx : Same (x.value v) t)
    (h : tolist x = .ok l) : IsVec t l := by
  unfold tolist at h
  split at h
  · cases h
  · rename_i u
    split at h
    · rename_i k hk
      cases h
      simp only [Val.value] at hx
      refine ⟨by rw [← hx.1, hk]; simp, fun i hi => ?_⟩
      simp only [List.length_map, List.length_range] at hi
      rw [← hx.2 [i] (by rw [hk]; exact ⟨rfl, fun j hj => by
        have : j = 0 := by simpa using hj
        subst this; simpa [nth] using hi⟩)]
      simp [hi]
    · cases h

theorem axesArg_are {v : Nat → Int} {e : String → T Int} {results : Dict String Val} {n : Node} {thr opset : Nat}
    {attr : Option (List Int)} {axes : List Int} (hg : Good v e results)
    (h : axesArg thr opset results n attr = .ok axes) : AxesAre thr opset e n attr axes := by
  unfold axesArg at h
  unfold AxesAre
  split at h
  · rename_i hlt
    rw [if_pos hlt]
    split at h
    · cases h
    · cases h; rfl
  · rename_i hlt
    rw [if_neg hlt]
    cases ha : arg results n 1 with
    | error m => rw [ha] at h; cases h
    | ok w =>
      rw [ha] at h
      obtain ⟨name, h1, h2⟩ := arg_good hg ha
      exact ⟨name, h1, tolist_isVec h2 h⟩

theorem optArg_vec {v : Nat → Int} {e : String → T Int} {results : Dict String Val} {n : Node} {i : Nat}
    {o : Option (List Int)} (hg : Good v e results) (h : optArg results n i = .ok o) (dflt : List Int) :
    OptVec e n i dflt (o.getD dflt) ∧ ∀ l, o = some l → ∃ name, n.input[i]? = some name ∧ name ≠ "" ∧ IsVec (e name) l := by
  unfold optArg at h
  unfold OptVec
  cases hn : n.input[i]? with
  | none => rw [hn] at h; cases h; exact ⟨rfl, fun l hl => by cases hl⟩
  | some name =>
    rw [hn] at h
    simp only at h ⊢
    split at h
    · rename_i hname
      cases h
      rw [if_pos hname]
      exact ⟨rfl, fun l hl => by cases hl⟩
    · rename_i hname
      rw [if_neg hname]
      cases ha : arg results n i with
      | error m => rw [ha] at h; cases h
      | ok w =>
        rw [ha] at h
        obtain ⟨name', h1, h2⟩ := arg_good hg ha
        rw [hn] at h1
        cases h1
        cases ht : tolist w with
        | error m => simp only [bind, Except.bind, ht] at h; cases h
        | ok l =>
          simp only [bind, Except.bind, ht] at h
          cases h
          have := tolist_isVec h2 ht
          exact ⟨this, fun l' hl' => by cases hl'; exact ⟨name, rfl, hname, this⟩⟩

theorem args_good {v : Nat → Int} {e : String → T Int} {results : Dict String Val} (hg : Good v e results)
    (names : List String) (xs : List Val) (h : args results names = .ok xs) :
    List.Forall₂ (fun (x : Val) y => Same (x.value v) y) xs (names.map e) := by
  induction names generalizing xs with
  | nil => cases h; exact List.Forall₂.nil
  | cons name l ih =>
    unfold args at h
    split at h
    · cases h
    · rename_i w hw
      cases hr : args results l with
      | error m => rw [hr] at h; cases h
      | ok r =>
        rw [hr] at h
        cases h
        exact List.Forall₂.cons (hg _ _ hw) (ih r hr)

theorem cast_sound (castTo : Int → Int → Int) (v : Nat → Int) (dst : Int) (x : Val) (t : T Int) (hx : Same (x.value v) t)
    (hid : ∀ i, InB t.shape i → castTo dst (t.get i) = t.get i) :
    Same ((computeCast castTo dst x).value v) (tmap (castTo dst) t) := by
  cases x with
  | sym u =>
    refine ⟨hx.1, fun idx hi => ?_⟩
    have e1 := hx.2 idx hi
    have hi' : InB t.shape idx := hx.1 ▸ hi
    simp only [computeCast, tmap]
    rw [hid idx hi']
    exact e1
  | num u =>
    refine ⟨hx.1, fun idx hi => ?_⟩
    simp only [computeCast, Val.value, tmap] at hi ⊢
    have e1 : u.get idx = t.get idx := hx.2 idx hi
    rw [e1]

theorem computeOp_sound (castTo : Int → Int → Int) (opset : Nat) (v : Nat → Int) (e : String → T Int)
    (results : Dict String Val) (n : Node) (r : Val) (out : String) (hg : Good v e results) (hsem : Sem castTo opset e n)
    (hh : Handled castTo opset e n) (ho : n.output.head? = some out) (h : computeOp castTo opset results n = .ok r) :
    Same (r.value v) (e out) := by
  have hs := hsem out ho
  unfold Handled at hh
  unfold computeOp at h
  cases hop : n.op with
  | const t => simp only [hop] at h hs; cases h; exact hs
  | other s => simp only [hop] at h; cases h
  | cast dst =>
    simp only [hop] at h hs hh
    cases ha : arg results n 0 with
    | error m => rw [ha] at h; cases h
    | ok x =>
      rw [ha] at h
      obtain ⟨nx, h1, h2⟩ := arg_good hg ha
      cases h
      exact (cast_sound castTo v dst x _ h2 (hh nx h1)).trans (hs nx h1)
  | mul =>
    simp only [hop] at h hs
    cases ha : arg results n 0 with
    | error m => rw [ha] at h; cases h
    | ok x =>
      cases hb : arg results n 1 with
      | error m => rw [ha, hb] at h; cases h
      | ok y =>
        rw [ha, hb] at h
        obtain ⟨nx, h1, h2⟩ := arg_good hg ha
        obtain ⟨ny, h3, h4⟩ := arg_good hg hb
        cases h
        obtain ⟨k1, k2⟩ := hs nx ny h1 h3
        exact mul_sound v x y _ _ _ h2 h4 k1 k2
  | unsqueeze attr =>
    simp only [hop] at h hs
    cases ha : arg results n 0 with
    | error m => rw [ha] at h; cases h
    | ok x =>
      cases hb : axesArg 13 opset results n attr with
      | error m => rw [ha, hb] at h; cases h
      | ok axes =>
        rw [ha, hb] at h
        simp only [bind, Except.bind] at h
        cases hc : unsqueezeShape x.shape axes with
        | error m => rw [hc] at h; cases h
        | ok s =>
          rw [hc] at h
          obtain ⟨nx, h1, h2⟩ := arg_good hg ha
          obtain ⟨k1, k2, k3⟩ := hs nx axes h1 (axesArg_are hg hb)
          exact (unsqueeze_sound v x r _ axes s h2 k1 k2 hc h).trans k3
  | squeeze attr =>
    simp only [hop] at h hs hh
    cases ha : arg results n 0 with
    | error m => rw [ha] at h; cases h
    | ok x =>
      cases hb : axesArg 13 opset results n attr with
      | error m => rw [ha, hb] at h; cases h
      | ok axes =>
        rw [ha, hb] at h
        simp only [bind, Except.bind] at h
        obtain ⟨nx, h1, h2⟩ := arg_good hg ha
        obtain ⟨k1, k2, k3, k4⟩ := hs nx axes h1 (axesArg_are hg hb)
        exact (squeeze_sound v x r _ axes h2 k1 k2 k3 (hh axes (axesArg_are hg hb)) h).trans k4
  | gather axis =>
    simp only [hop] at h hs
    cases ha : arg results n 0 with
    | error m => rw [ha] at h; cases h
    | ok x =>
      cases hb : arg results n 1 with
      | error m => rw [ha, hb] at h; cases h
      | ok y =>
        rw [ha, hb] at h
        obtain ⟨nx, h1, h2⟩ := arg_good hg ha
        obtain ⟨ny, h3, h4⟩ := arg_good hg hb
        obtain ⟨k1, k2⟩ := hs nx ny h1 h3
        exact (gather_sound v x y r _ _ axis h2 h4 k1 h).trans k2
  | reduceProd attr kd =>
    simp only [hop] at h hs hh
    cases ha : arg results n 0 with
    | error m => rw [ha] at h; cases h
    | ok x =>
      cases hb : axesArg 18 opset results n attr with
      | error m => rw [ha, hb] at h; cases h
      | ok axes =>
        rw [ha, hb] at h
        simp only [bind, Except.bind] at h
        obtain ⟨nx, h1, h2⟩ := arg_good hg ha
        exact (reduceProd_sound v x r _ axes kd h2 (hh axes (axesArg_are hg hb)) h).trans (hs nx axes h1 (axesArg_are hg hb))
  | concat axis =>
    simp only [hop] at h hs
    cases ha : args results n.input with
    | error m => rw [ha] at h; cases h
    | ok xs =>
      rw [ha] at h
      cases h
      exact (concat_sound v xs _ axis (args_good hg _ _ ha) hs.1).trans hs.2
  | slice st en ax =>
    simp only [hop] at h hs hh
    cases ha : arg results n 0 with
    | error m => rw [ha] at h; cases h
    | ok x =>
      cases hb : sliceArgs opset results n st en ax with
      | error m => rw [ha, hb] at h; cases h
      | ok p =>
        rw [ha, hb] at h
        simp only [bind, Except.bind] at h
        obtain ⟨nx, h1, h2⟩ := arg_good hg ha
        obtain ⟨so, eo, ao, tk⟩ := p
        cases so with
        | none => cases h
        | some starts =>
          cases eo with
          | none => cases h
          | some ends =>
            simp only at h
            have hops : SliceOperands opset e n st en ax starts ends
                (ao.getD ((List.range starts.length).map (fun (i : Nat) => (i : Int)))) (tk.getD (List.replicate starts.length 1)) := by
              unfold SliceOperands
              unfold sliceArgs at hb
              by_cases ho10 : opset < 10
              · rw [if_pos ho10]
                rw [if_neg (by omega)] at hb
                cases hb
                exact ⟨rfl, rfl, rfl, rfl⟩
              · rw [if_neg ho10]
                rw [if_pos (by omega)] at hb
                cases q1 : optArg results n 1 with
                | error m => rw [q1] at hb; cases hb
                | ok s1 =>
                  cases q2 : optArg results n 2 with
                  | error m => rw [q1, q2] at hb; cases hb
                  | ok s2 =>
                    cases q3 : optArg results n 3 with
                    | error m => rw [q1, q2, q3] at hb; cases hb
                    | ok s3 =>
                      cases q4 : optArg results n 4 with
                      | error m => rw [q1, q2, q3, q4] at hb; cases hb
                      | ok s4 =>
                        rw [q1, q2, q3, q4] at hb
                        cases hb
                        exact ⟨(optArg_vec hg q1 []).2 _ rfl, (optArg_vec hg q2 []).2 _ rfl,
                          (optArg_vec hg q3 _).1, (optArg_vec hg q4 _).1⟩
            obtain ⟨k1, k2, k3, _, k5, k6, k7⟩ := hs nx _ _ _ _ h1 hops
            exact (slice_sound v x r _ starts ends _ _ ao tk rfl rfl h2 k1 k2 k3 k5 k6 (hh nx _ _ _ _ h1 hops) h).trans k7

/-! ## The whole computation -/

theorem runNodes_good (castTo : Int → Int → Int) (opset : Nat) (v : Nat → Int) (e : String → T Int)
    (plan : List Node) (results results' : Dict String Val) (hg : Good v e results)
    (hsem : ∀ n ∈ plan, Sem castTo opset e n ∧ Handled castTo opset e n)
    (h : runNodes castTo opset plan results = .ok results') : Good v e results' := by
  induction plan generalizing results with
  | nil => cases h; exact hg
  | cons n l ih =>
    unfold runNodes at h
    cases hs : stepNode castTo opset results n with
    | error m => rw [hs] at h; cases h
    | ok r =>
      rw [hs] at h
      refine ih r ?_ (fun m hm => hsem m (List.mem_cons_of_mem _ hm)) h
      unfold stepNode at hs
      cases hc : computeOp castTo opset results n with
      | error m => rw [hc] at hs; cases hs
      | ok w =>
        rw [hc] at hs
        simp only [bind, Except.bind] at hs
        cases ho : n.output with
        | nil => rw [ho] at hs; cases hs; exact hg
        | cons out _ =>
          rw [ho] at hs
          cases hs
          intro name val hget
          rw [Dict.get_set] at hget
          split at hget
          · rename_i heq
            cases hget
            subst heq
            exact computeOp_sound castTo opset v e results n w out hg (hsem n (by simp)).1 (hsem n (by simp)).2 (by rw [ho]; rfl) hc
          · exact hg _ _ hget

theorem pushInputs_mem {byOutput : String → Option Node} {feed : Dict String Val} (names : List String) (stack : List (Option Node))
    (q : Option Node) :
    q ∈ pushInputs byOutput feed names stack ↔
      q ∈ stack ∨ ∃ name ∈ names, name ≠ "" ∧ feed.contains name = false ∧ byOutput name = q := by
  induction names generalizing stack with
  | nil => simp [pushInputs]
  | cons a l ih =>
    unfold pushInputs
    split
    · rename_i h
      rw [ih]
      simp only [List.mem_cons, exists_eq_or_imp]
      constructor
      · rintro ((rfl | h1) | h1)
        · exact Or.inr (Or.inl ⟨h.1, h.2, rfl⟩)
        · exact Or.inl h1
        · exact Or.inr (Or.inr h1)
      · rintro (h1 | ⟨_, _, h1⟩ | h1)
        · exact Or.inl (Or.inr h1)
        · exact Or.inl (Or.inl h1.symm)
        · exact Or.inr h1
    · rename_i h
      rw [ih]
      simp only [List.mem_cons, exists_eq_or_imp]
      constructor
      · rintro (h1 | h1)
        · exact Or.inl h1
        · exact Or.inr (Or.inr h1)
      · rintro (h1 | ⟨h2, h3, _⟩ | h1)
        · exact Or.inl h1
        · exact absurd ⟨h2, h3⟩ h
        · exact Or.inr h1

/-- Every node of the plan was on the stack or produces an input of a node of the plan. -/
theorem planLoop_from {byOutput : String → Option Node} {feed : Dict String Val} (fuel : Nat) (stack : List (Option Node))
    (acc plan : List Node) (h : planLoop byOutput feed fuel stack acc = .ok plan) :
    (∀ n ∈ plan, n ∈ acc ∨ some n ∈ stack ∨ ∃ name, byOutput name = some n) ∧
    (∃ pre, plan = pre ++ acc) ∧ (∀ q ∈ stack, ∃ n, q = some n ∧ n ∈ plan) ∧
    (∀ n ∈ plan, n ∈ acc ∨ supported n = true) := by
  induction fuel generalizing stack acc with
  | zero =>
    cases stack with
    | nil =>
      simp only [planLoop, Except.ok.injEq] at h
      subst h
      exact ⟨fun n hn => Or.inl hn, ⟨[], rfl⟩, by simp, fun n hn => Or.inl hn⟩
    | cons q l => cases h
  | succ f ih =>
    cases stack with
    | nil =>
      simp only [planLoop, Except.ok.injEq] at h
      subst h
      exact ⟨fun n hn => Or.inl hn, ⟨[], rfl⟩, by simp, fun n hn => Or.inl hn⟩
    | cons q l =>
      cases q with
      | none => cases h
      | some n =>
        simp only [planLoop] at h
        split at h
        · rename_i hsup
          obtain ⟨h1, ⟨pre, hp⟩, h3, h4⟩ := ih _ _ h
          refine ⟨?_, ⟨pre ++ [n], by simp [hp]⟩, ?_, ?_⟩
          · intro m hm
            rcases h1 m hm with hc | hc | hc
            · rcases List.mem_cons.1 hc with rfl | hc
              · exact Or.inr (Or.inl (by simp))
              · exact Or.inl hc
            · rcases (pushInputs_mem _ _ _).1 hc with hd | ⟨name, _, _, _, hd⟩
              · exact Or.inr (Or.inl (List.mem_cons_of_mem _ hd))
              · exact Or.inr (Or.inr ⟨name, hd⟩)
            · exact Or.inr (Or.inr hc)
          · intro q hq
            rcases List.mem_cons.1 hq with rfl | hq
            · exact ⟨n, rfl, by rw [hp]; simp⟩
            · exact h3 q ((pushInputs_mem _ _ _).2 (Or.inl hq))
          · intro m hm
            rcases h4 m hm with hc | hc
            · rcases List.mem_cons.1 hc with rfl | hc
              · exact Or.inr hsup
              · exact Or.inl hc
            · exact Or.inr hc
        · cases h

theorem readOutputs_spec (results : Dict String Val) (names : List String) (res : List (T Sym))
    (h : readOutputs results names = .ok res) :
    List.Forall₂ (fun (t : T Sym) name => ∃ val, results.get name = some val ∧ t = val.toSym) res names := by
  induction names generalizing res with
  | nil => cases h; exact List.Forall₂.nil
  | cons name l ih =>
    unfold readOutputs at h
    split at h
    · cases h
    · rename_i w hw
      split at h
      · cases h
      · cases hr : readOutputs results l with
        | error m => rw [hr] at h; cases h
        | ok r =>
          rw [hr] at h
          cases h
          exact List.Forall₂.cons ⟨w, hw, rfl⟩ (ih r hr)

/-- **C22**: take any assignment of integers to the variables and any execution of the graph, that is, values `e` of all
tensors such that every node computes what its ONNX operator prescribes, and in which the fed tensors have the values
their symbolic tensors stand for. If `compute_outputs` returns, the symbolic tensors it returns stand for the values the
outputs have in that execution, for every graph, opset, set order and nodes the executor handles as prescribed
(`Handled`). -/
theorem symbolic_outputs_partial (castTo : Int → Int → Int) (opset : Nat) (byOutput : String → Option Node)
    (setOrder : List (Option Node) → List (Option Node)) (hord : ∀ l q, q ∈ setOrder l ↔ q ∈ l) (fuel : Nat)
    (outputs : List String) (feed : Dict String Val) (v : Nat → Int) (e : String → T Int)
    (hfeed : ∀ name val, feed.get name = some val → Same (val.value v) (e name))
    (hsem : ∀ name n, byOutput name = some n → Sem castTo opset e n ∧ Handled castTo opset e n)
    (res : List (T Sym)) (h : computeOutputs castTo opset byOutput setOrder fuel outputs feed = .ok res) :
    List.Forall₂ (fun (t : T Sym) out => Same (tmap (Sym.value v) t) (e out)) res outputs := by
  unfold computeOutputs at h
  cases hp : planLoop byOutput feed fuel (setOrder (outputs.map byOutput)) [] with
  | error m => rw [hp] at h; cases h
  | ok plan =>
    rw [hp] at h
    simp only [bind, Except.bind] at h
    cases hr : runNodes castTo opset plan feed with
    | error m => rw [hr] at h; cases h
    | ok results =>
      rw [hr] at h
      have hg : Good v e results := by
        refine runNodes_good castTo opset v e plan feed results hfeed ?_ hr
        intro n hn
        rcases (planLoop_from _ _ _ _ hp).1 n hn with hc | hc | ⟨name, hc⟩
        · cases hc
        · rw [hord, List.mem_map] at hc
          obtain ⟨name, _, hc⟩ := hc
          exact hsem name n hc
        · exact hsem name n hc
      have := readOutputs_spec _ _ _ h
      clear h hr hp
      induction this with
      | nil => exact List.Forall₂.nil
      | cons hd _ ih =>
        refine List.Forall₂.cons ?_ ih
        obtain ⟨val, h1, rfl⟩ := hd
        rw [toSym_value]
        exact hg _ _ h1

/-! ## The plan -/

theorem planLoop_order {byOutput : String → Option Node} {feed : Dict String Val} (fuel : Nat) (stack : List (Option Node))
    (acc plan : List Node)
    (hinv : ∀ pre n post, acc = pre ++ n :: post → ∀ name ∈ n.input, name ≠ "" → feed.contains name = false →
      byOutput name ∈ stack ∨ ∃ m ∈ pre, byOutput name = some m)
    (h : planLoop byOutput feed fuel stack acc = .ok plan) :
    ∀ pre n post, plan = pre ++ n :: post → ∀ name ∈ n.input, name ≠ "" → feed.contains name = false →
      ∃ m ∈ pre, byOutput name = some m := by
  induction fuel generalizing stack acc with
  | zero =>
    cases stack with
    | cons q l => cases h
    | nil =>
      simp only [planLoop, Except.ok.injEq] at h
      subst h
      intro pre n post hs name hn h1 h2
      rcases hinv pre n post hs name hn h1 h2 with hc | hc
      · cases hc
      · exact hc
  | succ f ih =>
    cases stack with
    | nil =>
      simp only [planLoop, Except.ok.injEq] at h
      subst h
      intro pre n post hs name hn h1 h2
      rcases hinv pre n post hs name hn h1 h2 with hc | hc
      · cases hc
      · exact hc
    | cons q l =>
      cases q with
      | none => cases h
      | some k =>
        simp only [planLoop] at h
        split at h
        · refine ih _ _ ?_ h
          intro pre n post hs name hn h1 h2
          cases pre with
          | nil =>
            simp only [List.nil_append, List.cons.injEq] at hs
            obtain ⟨rfl, _⟩ := hs
            exact Or.inl ((pushInputs_mem _ _ _).2 (Or.inr ⟨name, hn, h1, h2, rfl⟩))
          | cons p pre =>
            simp only [List.cons_append, List.cons.injEq] at hs
            obtain ⟨rfl, hs⟩ := hs
            rcases hinv pre n post hs name hn h1 h2 with hc | ⟨m, hm, hc⟩
            · rcases List.mem_cons.1 hc with hc | hc
              · exact Or.inr ⟨k, by simp, hc⟩
              · exact Or.inl ((pushInputs_mem _ _ _).2 (Or.inl hc))
            · exact Or.inr ⟨m, List.mem_cons_of_mem _ hm, hc⟩
        · cases h

theorem runNodes_has (castTo : Int → Int → Int) (opset : Nat) (pre : List Node) (results results' : Dict String Val)
    (h : runNodes castTo opset pre results = .ok results') :
    (∀ name, (results.get name).isSome → (results'.get name).isSome) ∧
    ∀ m ∈ pre, ∀ out, m.output.head? = some out → (results'.get out).isSome := by
  induction pre generalizing results with
  | nil => cases h; exact ⟨fun _ h => h, by simp⟩
  | cons n l ih =>
    unfold runNodes at h
    cases hs : stepNode castTo opset results n with
    | error m => rw [hs] at h; cases h
    | ok r =>
      rw [hs] at h
      obtain ⟨i1, i2⟩ := ih r h
      have hstep : (∀ name, (results.get name).isSome → (r.get name).isSome) ∧
          ∀ out, n.output.head? = some out → (r.get out).isSome := by
        unfold stepNode at hs
        cases hc : computeOp castTo opset results n with
        | error m => rw [hc] at hs; cases hs
        | ok w =>
          rw [hc] at hs
          simp only [bind, Except.bind] at hs
          cases ho : n.output with
          | nil => rw [ho] at hs; cases hs; exact ⟨fun _ h => h, by simp⟩
          | cons out _ =>
            rw [ho] at hs
            cases hs
            refine ⟨fun name hn => ?_, fun o ho' => ?_⟩
            · rw [Dict.get_set]; split
              · rfl
              · exact hn
            · simp only [List.head?_cons, Option.some.injEq] at ho'
              subst ho'
              rw [Dict.get_set, if_pos rfl]; rfl
      refine ⟨fun name hn => i1 _ (hstep.1 _ hn), fun m hm out ho => ?_⟩
      rcases List.mem_cons.1 hm with rfl | hm
      · exact i1 _ (hstep.2 out ho)
      · exact i2 m hm out ho

/-- **C22, no lookup fails**: in the order `plan_computation` returns, whenever the loop of `compute_outputs` comes to a
node, every named input of the node has a value, and after the loop so has every output. -/
theorem plan_inputs_available (castTo : Int → Int → Int) (opset : Nat) (byOutput : String → Option Node)
    (hby : ∀ name n, byOutput name = some n → n.output.head? = some name)
    (setOrder : List (Option Node) → List (Option Node)) (hord : ∀ l q, q ∈ setOrder l ↔ q ∈ l) (fuel : Nat)
    (outputs : List String) (feed : Dict String Val) (plan : List Node)
    (hp : planLoop byOutput feed fuel (setOrder (outputs.map byOutput)) [] = .ok plan) :
    (∀ pre n post results, plan = pre ++ n :: post → runNodes castTo opset pre feed = .ok results →
      ∀ name ∈ n.input, name ≠ "" → (results.get name).isSome) ∧
    ∀ results, runNodes castTo opset plan feed = .ok results → ∀ out ∈ outputs, (results.get out).isSome := by
  constructor
  · intro pre n post results hs hr name hn h1
    obtain ⟨r1, r2⟩ := runNodes_has castTo opset pre feed results hr
    cases hf : feed.contains name with
    | true => exact r1 name hf
    | false =>
      obtain ⟨m, hm, hc⟩ := planLoop_order fuel _ [] plan (by intro pre n post hs; simp at hs) hp pre n post hs name hn h1 hf
      exact r2 m hm name (hby _ _ hc)
  · intro results hr out hout
    obtain ⟨r1, r2⟩ := runNodes_has castTo opset plan feed results hr
    obtain ⟨n, hq, hn⟩ := (planLoop_from _ _ _ _ hp).2.2.1 (byOutput out) ((hord _ _).2 (List.mem_map_of_mem hout))
    exact r2 n hn out (hby _ _ hq)

/-- **C22, the plan is found**: in an acyclic graph (`rank` decreases from a node to the producers of its inputs) the
loop of `plan_computation` ends. -/
theorem plan_terminates (byOutput : String → Option Node) (feed : Dict String Val) (rank : Node → Nat)
    (hrank : ∀ n name m, name ∈ n.input → byOutput name = some m → rank m < rank n) (stack : List (Option Node)) :
    ∃ fuel, ∀ fuel', fuel ≤ fuel' → ∀ acc, planLoop byOutput feed fuel' stack acc ≠ .error "fuel" := by
  have push : ∀ (k : Nat) (n : Node), rank n < k → ∀ stack : List (Option Node),
      (∃ fuel, ∀ fuel', fuel ≤ fuel' → ∀ acc, planLoop byOutput feed fuel' stack acc ≠ .error "fuel") →
      ∃ fuel, ∀ fuel', fuel ≤ fuel' → ∀ acc, planLoop byOutput feed fuel' (some n :: stack) acc ≠ .error "fuel" := by
    intro k
    induction k with
    | zero => intro n hn; omega
    | succ k ih =>
      intro n hn stack hst
      have hin : ∀ names : List String, (∀ name ∈ names, name ∈ n.input) → ∀ stack : List (Option Node),
          (∃ fuel, ∀ fuel', fuel ≤ fuel' → ∀ acc, planLoop byOutput feed fuel' stack acc ≠ .error "fuel") →
          ∃ fuel, ∀ fuel', fuel ≤ fuel' → ∀ acc, planLoop byOutput feed fuel' (pushInputs byOutput feed names stack) acc ≠ .error "fuel" := by
        intro names
        induction names with
        | nil => intro _ stack h; exact h
        | cons a l ihl =>
          intro hsub stack h
          unfold pushInputs
          split
          · apply ihl (fun name hn => hsub name (List.mem_cons_of_mem _ hn))
            cases hb : byOutput a with
            | none =>
              refine ⟨1, fun f hf acc => ?_⟩
              cases f with
              | zero => omega
              | succ f => simp [planLoop]
            | some m =>
              apply ih m _ stack h
              have := hrank n a m (hsub a (by simp)) hb
              omega
          · exact ihl (fun name hn => hsub name (List.mem_cons_of_mem _ hn)) stack h
      obtain ⟨F, hF⟩ := hin n.input (fun _ h => h) stack hst
      refine ⟨F + 1, fun f hf acc => ?_⟩
      cases f with
      | zero => omega
      | succ f =>
        simp only [planLoop]
        split
        · exact hF f (by omega) _
        · simp
  induction stack with
  | nil => exact ⟨0, fun f _ acc => by cases f <;> simp [planLoop]⟩
  | cons q l ih =>
    cases q with
    | none =>
      refine ⟨1, fun f hf acc => ?_⟩
      cases f with
      | zero => omega
      | succ f => simp [planLoop]
    | some n => exact push (rank n + 1) n (by omega) l ih

/-! ## Witnesses

The graph of a typical reshape: `shape` is the (symbolic) shape `[x0, 3]`, the result is `Concat([prod(shape)], [1])`. -/

def exNodes : String → Option Node := fun s =>
  if s = "c" then some ⟨.const ⟨[1], fun _ => 1⟩, [], ["c"]⟩
  else if s = "p" then some ⟨.reduceProd (some [0]) true, ["shape"], ["p"]⟩
  else if s = "out" then some ⟨.concat 0, ["p", "c"], ["out"]⟩
  else none

def exFeed : Dict String Val :=
  [("shape", .sym ⟨[2], fun i => if nth i 0 = 0 then Sym.fromVariable 0 else Sym.fromConst 3⟩)]

/-- The values of the tensors when the variable is 5. -/
def exVal (s : String) : T Int :=
  if s = "c" then ⟨[1], fun _ => 1⟩
  else if s = "shape" then ⟨[2], fun i => if nth i 0 = 0 then 5 else 3⟩
  else if s = "p" then ⟨[1], fun _ => 15⟩
  else if s = "out" then ⟨[2], fun i => if nth i 0 = 0 then 15 else 1⟩
  else ⟨[], fun _ => 0⟩

/-- The run returns, with the formula `[3·x0, 1]`. -/
example : ((computeOutputs (fun _ x => x) 12 exNodes id 10 ["out"] exFeed).toOption.map
    (fun l => l.map (fun t => (t.shape, t.get [0], t.get [1])))) = some [([2], ⟨[0], 3⟩, ⟨[], 1⟩)] := by decide

/-- The hypotheses of `symbolic_outputs_partial` hold of it. -/
theorem exHyps : (∀ name val, exFeed.get name = some val → Same (val.value (fun _ => 5)) (exVal name)) ∧
    ∀ name n, exNodes name = some n → Sem (fun _ x => x) 12 exVal n ∧ Handled (fun _ x => x) 12 exVal n := by
  constructor
  · intro name val h
    simp only [exFeed, Dict.get] at h
    split at h
    · rename_i hn
      cases h
      subst hn
      refine ⟨rfl, fun i _ => ?_⟩
      simp only [Val.value, tmap, exVal]
      simp only [show ("shape" = "c") = False by simp, if_false, if_true]
      split <;> simp [fromVariable_value, fromConst_value]
    · cases h
  · intro name n h
    unfold exNodes at h
    split at h
    · cases h
      refine ⟨?_, trivial⟩
      intro out ho
      cases ho
      exact ⟨rfl, fun i _ => rfl⟩
    · split at h
      · cases h
        refine ⟨?_, ?_⟩
        · intro out ho
          cases ho
          intro x axes hx hax
          cases hx
          simp only [AxesAre, show (12 : Nat) < 18 by omega, if_true, Option.some.injEq] at hax
          subst hax
          refine ⟨rfl, fun i hi => ?_⟩
          have : i = [0] := by
            obtain ⟨h1, h2⟩ := hi
            match i, h1, h2 with
            | [a], _, h2 =>
              have : a < 1 := h2 0 (by decide)
              congr; omega
          subst this
          rfl
        · intro axes hax
          simp only [AxesAre, show (12 : Nat) < 18 by omega, if_true, Option.some.injEq] at hax
          subst hax
          simp
      · split at h
        · cases h
          refine ⟨?_, trivial⟩
          intro out ho
          cases ho
          refine ⟨⟨1, ⟨by unfold ValidAxis; omega, ?_⟩, ?_⟩, rfl, ?_⟩
          · intro x hx
            simp only [List.map_cons, List.map_nil, List.mem_cons, List.not_mem_nil, or_false] at hx
            rcases hx with rfl | rfl <;> rfl
          · intro x _ y _ i hi hne
            have : i = 0 := by omega
            subst this
            exact absurd rfl hne
          · intro i hi
            obtain ⟨h1, h2⟩ := hi
            match i, h1, h2 with
            | [a], _, h2 =>
              have h3 : a < 2 := h2 0 (by decide)
              have : a = 0 ∨ a = 1 := by omega
              rcases this with rfl | rfl <;> rfl
        · cases h

/-- **C22 fails for negative `Squeeze` axes**: `compute_squeeze_shape` adds the number of axes instead of the rank.
Squeezing axis -2 of shape [1, 3] should give shape [3]; the executor drops axis `-2 + 1 = -1`, that is none. -/
theorem symbolic_squeeze_negative_violated (x0 : Nat) :
    ∃ (n : Node) (t : T Sym) (r : Val), computeOp (fun _ x => x) 12 [("x", .sym t)] n = .ok r ∧
      n.op = .squeeze (some [-2]) ∧ n.input = ["x"] ∧ t.shape = [1, 3] ∧ (∀ i, t.get i = Sym.fromVariable x0) ∧
      (squeeze (axisSet 2 [-2]) t).shape = [3] ∧ r.shape = [1, 3] := by
  refine ⟨⟨.squeeze (some [-2]), ["x"], ["y"]⟩, ⟨[1, 3], fun _ => Sym.fromVariable x0⟩, _, rfl, rfl, rfl, rfl, fun _ => rfl, ?_, ?_⟩
  · rfl
  · rfl

/-- **C22 fails for `Cast`**: a narrowing cast (here to int8, 300 becomes 44) is skipped on symbolic tensors, although it
is applied to numeric ones. -/
theorem symbolic_cast_violated :
    let castTo : Int → Int → Int := fun dst x => if dst = 3 then (x + 128) % 256 - 128 else x
    ∃ (n : Node) (r : Val), computeOp castTo 12 [("x", .sym ⟨[], fun _ => Sym.fromVariable 0⟩)] n = .ok r ∧
      n.op = .cast 3 ∧ n.input = ["x"] ∧ (r.value (fun _ => 300)).get [] = 300 ∧ castTo 3 300 = 44 := by
  refine ⟨⟨.cast 3, ["x"], ["y"]⟩, _, rfl, rfl, rfl, by decide, by decide⟩

/-- **C22 fails for `ReduceProd` without axes to reduce** (an empty axes input reduces all axes in ONNX, none in
numpy). -/
theorem symbolic_reduceprod_empty_violated (x0 : Nat) :
    ∃ (r : Val), computeOp (fun _ x => x) 18
        [("x", .sym ⟨[2], fun _ => Sym.fromVariable x0⟩), ("a", .num ⟨[0], fun _ => 0⟩)]
        ⟨.reduceProd none true, ["x", "a"], ["y"]⟩ = .ok r ∧
      r.shape = [2] ∧ (reduceKeep (Multiset.prod) (reducedSet false 1 []) (⟨[2], fun _ => 1⟩ : T Int)).shape = [1] := by
  exact ⟨_, rfl, rfl, rfl⟩

end Verif.Symbolic
