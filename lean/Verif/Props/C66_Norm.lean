import Verif.Props.C66_Broadcast
import Verif.Model.PatternRewriters
import Mathlib.Algebra.Order.Ring.Int
import Mathlib.Tactic.Ring
/-!
# C66: layer normalization becomes `InstanceNormalization`
-/
namespace Verif.Patt
open Verif.Tensor Verif.Emit Verif.Conv

variable {α : Type} [CommRing α]

/-! ## What TensorFlow computes -/

/-- A product, a sum; operands in either order. -/
def mulF (flip : Bool) (a b : T α) : Option (T α) := if flip then zipT (· * ·) b a else zipT (· * ·) a b
def addF (flip : Bool) (a b : T α) : Option (T α) := if flip then zipT (· + ·) b a else zipT (· + ·) a b

/-- Product of the reciprocal root, the difference and the scale, in one of three orders. -/
def LnForm.combine (m : LnMatch α) (r d : T α) : Option (T α) :=
  match m.form with
  | .scaleFirst => (mulF m.flipInner r m.scale).bind (fun z => mulF m.flipOuter z d)
  | .scaleLast => (mulF m.flipInner r d).bind (fun z => mulF m.flipOuter z m.scale)
  | .rsqrtLast => (mulF m.flipInner m.scale d).bind (fun z => mulF m.flipOuter z r)

/-- The value of the matched subgraph: `scale * (x - mean) * rsqrt(mean((x - mean)^2) + eps) + bias`. -/
def LnMatch.value (mean : List α → α) (rsqrt : α → α) (m : LnMatch α) : Option (T α) :=
  (tfMean mean m.meanAxes m.meanKeep m.x).bind (fun mu =>
  (zipT (· - ·) m.x mu).bind (fun d =>
  (tfMean mean m.varAxes m.varKeep (mapT (fun v => v * v) d)).bind (fun var =>
  (addF m.flipEps var m.eps).bind (fun ve =>
  (if m.flipSub then zipT (· - ·) mu m.x else zipT (· - ·) m.x mu).bind (fun d' =>
  (LnForm.combine m (mapT rsqrt ve) d').bind (fun z =>
  addF m.flipBias z m.bias))))))

/-! ## Views from the last axis -/

/-- Coordinates with another last one. -/
def upd (p : Nat → Nat) (j : Nat) : Nat → Nat := fun k => if k = 0 then j else p k

/-- Length of an axis after broadcasting. -/
def bd (a b : Nat) : Nat := if a = 1 then b else a

/-- What a broadcasting operator gives. -/
structure Views (z x y : T α) (f : α → α → α) : Prop where
  rank : z.shape.length = max x.shape.length y.shape.length
  dims : ∀ k, dimB z.shape k = bd (dimB x.shape k) (dimB y.shape k)
  compat : Compat' x.shape y.shape
  read : ∀ p, at' z p = f (at' x p) (at' y p)

theorem zip_views {f : α → α → α} {x y z : T α} (h : zipT f x y = some z) : Views z x y f := by
  obtain ⟨h1, h2, h3, h4⟩ := zipT_view h
  exact ⟨h1, h2, h3, h4⟩

theorem Views.swap {f g : α → α → α} {x y z : T α} (h : Views z x y f) (hfg : ∀ a b, f a b = g b a) : Views z y x g := by
  refine ⟨by rw [h.rank, Nat.max_comm], fun k => ?_, fun k => ?_, fun p => by rw [h.read, hfg]⟩
  · rw [h.dims]
    have := h.compat k
    unfold bd
    split_ifs <;> omega
  · have := h.compat k
    omega

theorem mulF_views {flip : Bool} {a b z : T α} (h : mulF flip a b = some z) : Views z a b (· * ·) := by
  unfold mulF at h
  split at h
  · exact (zip_views h).swap (fun _ _ => mul_comm _ _)
  · exact zip_views h

theorem addF_views {flip : Bool} {a b z : T α} (h : addF flip a b = some z) : Views z a b (· + ·) := by
  unfold addF at h
  split at h
  · exact (zip_views h).swap (fun _ _ => add_comm _ _)
  · exact zip_views h

omit [CommRing α] in
theorem at_map {β : Type} (f : α → β) (x : T α) (p : Nat → Nat) : at' (mapT f x) p = f (at' x p) := rfl

omit [CommRing α] in
theorem at3 {x : T α} {a b c : Nat} (h : x.shape = [a, b, c]) (p : Nat → Nat) :
    at' x p = x.get [if a = 1 then 0 else p 2, if b = 1 then 0 else p 1, if c = 1 then 0 else p 0] := by
  unfold at'
  rw [h]
  rfl

omit [CommRing α] in
theorem at1 {x : T α} {c : Nat} (h : x.shape = [c]) (p : Nat → Nat) : at' x p = x.get [if c = 1 then 0 else p 0] := by
  unfold at'
  rw [h]
  rfl

theorem allIdx_single (c : Nat) : allIdx [c] = (List.range c).map (fun j => [j]) := by
  simp only [allIdx, List.map_cons, List.map_nil]
  generalize List.range c = l
  induction l with
  | nil => rfl
  | cons a l ih => rw [List.flatMap_cons, ih]; rfl

theorem allIdx_last (c : Nat) : allIdx [1, 1, c] = (List.range c).map (fun j => [0, 0, j]) := by
  have h : allIdx [1, 1, c] = ((allIdx [c]).map (fun i => 0 :: i)).map (fun i => 0 :: i) := by simp [allIdx]
  rw [h, allIdx_single, List.map_map, List.map_map]
  rfl

/-- The axis 2 of three. -/
theorem axes_two {l : List Int} (h : l.map (· % 3) = [2]) (hb : ∀ a ∈ l, -((3 : Nat) : Int) ≤ a ∧ a < (3 : Nat)) : l = [2] ∨ l = [-1] := by
  match l, h with
  | [], h => cases h
  | _ :: _ :: _, h => simp at h
  | [a], h =>
    have := hb a (by simp)
    simp only [List.map_cons, List.map_nil, List.cons.injEq, and_true] at h
    have : a = 2 ∨ a = -1 := by omega
    rcases this with rfl | rfl
    · exact Or.inl rfl
    · exact Or.inr rfl

omit [CommRing α] in
/-- The mean over the last of three axes, seen from that axis. -/
theorem mean_view {mean : List α → α} {axes : List Int} {x m : T α} {a b c : Nat} (hx : x.shape = [a, b, c]) (ha : axes.map (· % 3) = [2])
    (h : tfMean mean axes true x = some m) : m.shape = [a, b, 1] ∧ ∀ p, at' m p = mean ((List.range c).map (fun j => at' x (upd p j))) := by
  unfold tfMean at h
  simp only at h
  split at h
  case isFalse => cases h
  rename_i hb
  have hl : x.shape.length = 3 := by rw [hx]; rfl
  rw [hl] at hb h
  have hred : ∀ i : Nat, i < 3 → (axes.any (fun a => decide (Tensor.normAxis 3 a = i)) = decide (i = 2)) := by
    intro i hi
    have hi' : i = 0 ∨ i = 1 ∨ i = 2 := by omega
    rcases axes_two ha hb with rfl | rfl <;> rcases hi' with rfl | rfl | rfl <;> rfl
  simp only [Option.some.injEq] at h
  rw [if_pos trivial] at h
  have h0 := hred 0 (by omega)
  have h1 := hred 1 (by omega)
  have h2 := hred 2 (by omega)
  have e3 : List.range 3 = [0, 1, 2] := rfl
  rw [e3] at h
  simp only [List.map_cons, List.map_nil, h0, h1, h2, hx] at h
  have ms : m.shape = [a, b, 1] := by rw [← h]; rfl
  refine ⟨ms, fun p => ?_⟩
  rw [at3 ms, ← h]
  show mean ((allIdx [1, 1, c]).map _) = _
  rw [allIdx_last, List.map_map]
  congr 1
  apply List.map_congr_left
  intro j hj
  have hj := List.mem_range.1 hj
  rw [at3 hx]
  show x.get [_, _, j] = _
  congr 1
  by_cases hc : c = 1
  · rw [if_pos hc]
    have : j = 0 := by omega
    subst this
    rfl
  · rw [if_neg hc]
    rfl

theorem upd_upd (p : Nat → Nat) (i j : Nat) : upd (upd p i) j = upd p j := by
  funext k
  simp only [upd]
  split <;> rfl

/-- `InstanceNormalization` with ones and zeros, seen from the last axis. -/
theorem norm_view {mean : List α → α} {div : α → α → α} {sqrt : α → α} {eps : α} {x y : T α} {a b c : Nat} (hx : x.shape = [a, b, c])
    (h : instanceNorm mean div sqrt eps x ⟨[nth x.shape 1], fun _ => 1⟩ ⟨[nth x.shape 1], fun _ => 0⟩ = some y) :
    y.shape = [a, b, c] ∧ ∀ p, at' y p = div (at' x p - mean ((List.range c).map (fun j => at' x (upd p j))))
      (sqrt (mean ((List.range c).map (fun j => (at' x (upd p j) - mean ((List.range c).map (fun j => at' x (upd p j)))) *
        (at' x (upd p j) - mean ((List.range c).map (fun j => at' x (upd p j))))) ) + eps)) := by
  unfold instanceNorm at h
  simp only at h
  split at h
  case isFalse => cases h
  simp only [Option.some.injEq] at h
  have ys : y.shape = [a, b, c] := by rw [← h]; exact hx
  refine ⟨ys, fun p => ?_⟩
  rw [at3 ys, ← h]
  dsimp only
  rw [one_mul, add_zero]
  have hrow : (allIdx (x.shape.drop 2)).map (fun s => x.get (List.take 2 [if a = 1 then 0 else p 2, if b = 1 then 0 else p 1, if c = 1 then 0 else p 0] ++ s)) =
      (List.range c).map (fun j => at' x (upd p j)) := by
    rw [hx]
    show (allIdx [c]).map _ = _
    rw [allIdx_single, List.map_map]
    apply List.map_congr_left
    intro j hj
    have hj := List.mem_range.1 hj
    rw [at3 hx]
    show x.get [_, _, j] = _
    congr 1
    by_cases hc : c = 1
    · rw [if_pos hc]
      have : j = 0 := by omega
      subst this
      rfl
    · rw [if_neg hc]
      rfl
  rw [hrow, List.map_map, ← at3 hx]
  rfl

omit [CommRing α] in
/-- One element. -/
theorem one_view {e : T α} (h : Tensor.size e.shape = 1) : (∀ k, dimB e.shape k = 1) ∧ ∀ p, at' e p = e.get (List.replicate e.shape.length 0) := by
  have h1 : ∀ s : List Nat, Tensor.size s = 1 → ∀ d ∈ s, d = 1 := by
    intro s
    induction s with
    | nil => intro _ d hd; cases hd
    | cons d s ih =>
      intro hs x hx
      have hs' : d * Tensor.size s = 1 := hs
      have := And.intro (Nat.eq_one_of_mul_eq_one_right hs') (Nat.eq_one_of_mul_eq_one_left hs')
      rcases List.mem_cons.1 hx with rfl | hx
      · exact this.1
      · exact ih this.2 x hx
  have h2 : ∀ i, i < e.shape.length → nth e.shape i = 1 := fun i hi => by
    rw [nth_eq _ _ hi]
    exact h1 _ h _ (List.getElem_mem _)
  refine ⟨fun k => ?_, fun p => ?_⟩
  · by_cases hk : k < e.shape.length
    · rw [dimB_of_lt hk]
      exact h2 _ (by omega)
    · exact dimB_of_le (by omega)
  · unfold at'
    congr 1
    apply List.ext_getElem (by simp)
    intro i hi _
    simp only [List.length_map, List.length_range] at hi
    simp [h2 i hi]


theorem dim3 {s : List Nat} {a b c : Nat} (h : s = [a, b, c]) (k : Nat) : dimB s k = if k = 0 then c else if k = 1 then b else if k = 2 then a else 1 := by
  subst h
  match k with
  | 0 => rfl
  | 1 => rfl
  | 2 => rfl
  | k + 3 => rw [dimB_of_le (by simp)]; rfl

/-- The three orders of the product. -/
theorem combine_views {m : LnMatch α} {r d z : T α} (hr : ∀ k, dimB r.shape k = 1 ∨ dimB r.shape k = dimB d.shape k) (h : LnForm.combine m r d = some z) :
    z.shape.length = max (max r.shape.length d.shape.length) m.scale.shape.length ∧
      (∀ k, dimB z.shape k = bd (dimB d.shape k) (dimB m.scale.shape k)) ∧ Compat' d.shape m.scale.shape ∧
      ∀ p, at' z p = at' d p * at' r p * at' m.scale p := by
  unfold LnForm.combine at h
  split at h <;> obtain ⟨y, h1, h2⟩ := Option.bind_eq_some_iff.1 h <;> have v1 := mulF_views h1 <;> have v2 := mulF_views h2 <;>
    refine ⟨by have := v2.rank; have := v1.rank; omega, fun k => ?_, fun k => ?_, fun p => ?_⟩
  all_goals first
    | (rw [v2.read, v1.read]; ring)
    | (have a1 := v1.dims k
       have a2 := v2.dims k
       have a3 := v1.compat k
       have a4 := v2.compat k
       have a5 := hr k
       rw [a1] at a2 a4
       revert a2 a4
       unfold bd
       split_ifs <;> omega)

/-- **C66**: where the rewriter puts in an `InstanceNormalization`, the new nodes compute what the matched ones do: the recorded rank is right, the means keep their
axis, the last difference is in the written order, `epsilon` has at most three axes. -/
theorem layer_norm_partial (mean : List α → α) (div : α → α → α) (sqrt rsqrt : α → α) (hdiv : ∀ a v, div a (sqrt v) = a * rsqrt v) (m : LnMatch α)
    (hr : ∀ r, m.rank = some r → r = m.x.shape.length) (hk : m.meanKeep = true) (hk' : m.varKeep = true) (hs : m.flipSub = false) (he : m.eps.shape.length ≤ 3)
    (hf : m.float = true) {z : Option (T α)} (h : lnRewrite mean div sqrt m = some z) {v : T α} (hv : m.value mean rsqrt = some v) : ∃ y, z = some y ∧ Same y v := by
  unfold lnRewrite at h
  split at h
  case isFalse => cases h
  rename_i hok
  simp only [lnOk, Bool.and_eq_true, decide_eq_true_eq] at hok
  obtain ⟨⟨⟨o1, o2⟩, o3⟩, o4⟩ := hok
  have hl := hr _ o1
  obtain ⟨a, b, c, hx⟩ : ∃ a b c, m.x.shape = [a, b, c] := by
    match m.x.shape, hl with
    | [a, b, c], _ => exact ⟨a, b, c, rfl⟩
  -- the matched nodes
  unfold LnMatch.value at hv
  rw [hk, hk', hs] at hv
  obtain ⟨mu, h1, hv⟩ := Option.bind_eq_some_iff.1 hv
  obtain ⟨d, h2, hv⟩ := Option.bind_eq_some_iff.1 hv
  obtain ⟨var, h3, hv⟩ := Option.bind_eq_some_iff.1 hv
  obtain ⟨ve, h4, hv⟩ := Option.bind_eq_some_iff.1 hv
  obtain ⟨d', h5, hv⟩ := Option.bind_eq_some_iff.1 hv
  obtain ⟨w, h6, h7⟩ := Option.bind_eq_some_iff.1 hv
  rw [if_neg (by simp), h2] at h5
  cases h5
  obtain ⟨ms, mr⟩ := mean_view hx o2 h1
  have dv := zip_views h2
  have dd : ∀ k, dimB d.shape k = dimB m.x.shape k := by
    intro k
    rw [dv.dims, dim3 hx, dim3 ms]
    unfold bd
    split_ifs <;> omega
  have ds : d.shape = [a, b, c] := by
    rw [← hx]
    exact shape_ext (by rw [dv.rank, ms, hx]; rfl) dd
  obtain ⟨vs, vr⟩ := mean_view (x := mapT (fun v => v * v) d) ds o3 h3
  obtain ⟨e1, e2⟩ := one_view o4
  have vev := addF_views h4
  have ved : ∀ k, dimB ve.shape k = dimB var.shape k := by
    intro k
    rw [vev.dims, e1]
    unfold bd
    split_ifs <;> omega
  obtain ⟨w1, w2, w3, w4⟩ := combine_views (r := mapT rsqrt ve) (fun k => by
    show dimB ve.shape k = 1 ∨ dimB ve.shape k = _
    rw [ved, dim3 vs, dim3 ds]
    split_ifs <;> omega) h6
  have fv := addF_views h7
  -- the new nodes
  obtain ⟨n, hn⟩ : ∃ n, instanceNorm mean div sqrt (m.eps.get (List.replicate m.eps.shape.length 0)) m.x ⟨[nth m.x.shape 1], fun _ => 1⟩ ⟨[nth m.x.shape 1], fun _ => 0⟩ = some n := by
    unfold instanceNorm
    simp only
    rw [if_pos ⟨by rw [hx]; simp, trivial, trivial⟩]
    exact ⟨_, rfl⟩
  obtain ⟨ns, nr⟩ := norm_view hx hn
  obtain ⟨y1, hy1⟩ := zipT_some (fun s t : α => s * t) (x := n) (y := m.scale) (by rw [ns, ← ds]; exact w3)
  have v1 := zip_views hy1
  have y1d : ∀ k, dimB y1.shape k = dimB w.shape k := fun k => by rw [v1.dims, w2, ns, ds]
  obtain ⟨y2, hy2⟩ := zipT_some (fun s t : α => s + t) (x := y1) (y := m.bias) (fun k => by rw [y1d]; exact fv.compat k)
  have v2 := zip_views hy2
  rw [hn, Option.bind_some, hy1, Option.bind_some, hy2] at h
  refine ⟨y2, (Option.some.inj h).symm, same_of_view ?_ (fun k => ?_) (fun p => ?_)⟩
  · have l1 : n.shape.length = 3 := by rw [ns]; rfl
    have l2 : d.shape.length = 3 := by rw [ds]; rfl
    have l3 : var.shape.length = 3 := by rw [vs]; rfl
    have l4 : (mapT rsqrt ve).shape.length = max var.shape.length m.eps.shape.length := vev.rank
    rw [v2.rank, v1.rank, fv.rank, w1]
    omega
  · rw [v2.dims, fv.dims, y1d]
  · rw [v2.read, v1.read, fv.read, w4, nr, hdiv, at_map, vev.read, e2, vr, dv.read, mr]
    have hup : ∀ j, at' (mapT (fun v => v * v) d) (upd p j) = (at' m.x (upd p j) - mean ((List.range c).map (fun j => at' m.x (upd p j)))) *
        (at' m.x (upd p j) - mean ((List.range c).map (fun j => at' m.x (upd p j)))) := by
      intro j
      rw [at_map, dv.read, mr]
      simp only [upd_upd]
    simp only [hup]

/-! ## Examples -/

/-- Numbers with their sum for the mean and no root; enough to tell operators apart. -/
def lnEx : LnMatch Int :=
  ⟨.scaleFirst, ⟨[1, 2, 2], fun i => 4 * nth i 1 + nth i 2 * nth i 2⟩, [-1], true, [2], true, ⟨[], fun _ => 1⟩, ⟨[2], fun i => nth i 0 + 1⟩, ⟨[1], fun _ => 100⟩, false, true, true, false, true,
    some 3, true⟩

theorem layer_norm_example : ∃ y v, lnRewrite List.sum (fun a b => a * b) (fun v => v) lnEx = some (some y) ∧ lnEx.value List.sum (fun v => v) = some v ∧
    v.shape = [1, 2, 2] ∧ ([[0, 0, 0], [0, 0, 1], [0, 1, 0], [0, 1, 1]].map v.get = [98, 100, -110, -236]) ∧
    ([[0, 0, 0], [0, 0, 1], [0, 1, 0], [0, 1, 1]].map y.get = [98, 100, -110, -236]) := ⟨_, _, rfl, rfl, rfl, by decide, by decide⟩

/-- **Defect**: the operands of the last difference may be in the wrong order; the sign is lost. -/
theorem layer_norm_sign_violated : ∃ m : LnMatch Int, m.meanKeep = true ∧ m.varKeep = true ∧ m.float = true ∧ m.rank = some m.x.shape.length ∧
    ∃ y v, lnRewrite List.sum (fun a b => a * b) (fun v => v) m = some (some y) ∧ m.value List.sum (fun v => v) = some v ∧ y.get [0, 0, 0] = 98 ∧ v.get [0, 0, 0] = 102 :=
  ⟨{ lnEx with flipSub := true }, rfl, rfl, rfl, rfl, _, _, rfl, rfl, by decide, by decide⟩

/-- **Defect**: whether the means keep their axis is not looked at. -/
theorem layer_norm_keep_violated : ∃ m : LnMatch Int, m.flipSub = false ∧ m.float = true ∧ m.rank = some m.x.shape.length ∧
    ∃ y v, lnRewrite List.sum (fun a b => a * b) (fun v => v) m = some (some y) ∧ m.value List.sum (fun v => v) = some v ∧ y.get [0, 0, 1] ≠ v.get [0, 0, 1] :=
  ⟨{ lnEx with meanKeep := false }, rfl, rfl, rfl, _, _, rfl, rfl, by decide⟩

/-- **Defect**: the ones and zeros are 32-bit floats, whatever the type of the data is. -/
theorem layer_norm_type_violated : ∃ m : LnMatch Int, m.flipSub = false ∧ m.meanKeep = true ∧ m.varKeep = true ∧ m.rank = some m.x.shape.length ∧
    lnRewrite List.sum (fun a b => a * b) (fun v => v) m = some none ∧ ∃ v, m.value List.sum (fun v => v) = some v :=
  ⟨{ lnEx with float := false }, rfl, rfl, rfl, rfl, rfl, _, rfl⟩

end Verif.Patt
