import Verif.Props.C57_Conv
import Verif.Spec.TfRearrange
import Verif.Props.C19_Push2
import Verif.Props.EmitVec
/-!
# C59: windows between space-to-batch and batch-to-space are dilated windows
-/
namespace Verif.Conv
open Verif.Tensor Verif.Nn Verif.Emit Verif.TransposeOpt

variable {α β : Type}

/-- The geometry of a window without padding, strides or dilations. -/
def plain (K : List Nat) : Geom := ⟨K, List.replicate K.length 1, List.replicate K.length 1, List.replicate K.length 0, List.replicate K.length 0⟩

/-- The dilated geometry with padding. -/
def dilated (K b before after : List Nat) : Geom := ⟨K, List.replicate K.length 1, b, before, after⟩

theorem nth_replicate {k a i : Nat} (h : i < k) : nth (List.replicate k a) i = a := by
  rw [nth_eq _ _ (by simpa using h)]; simp

theorem plain_pos (K : List Nat) (o k : Nat → Nat) {i : Nat} (h : i < K.length) : (plain K).pos o k i = o i + k i := by
  unfold Geom.pos plain
  simp only [nth_replicate h, Nat.mul_one]

theorem dilated_pos (K b before after : List Nat) (o k : Nat → Nat) {i : Nat} (h : i < K.length) :
    (dilated K b before after).pos o k i = o i + k i * nth b i := by
  unfold Geom.pos dilated
  simp only [nth_replicate h, Nat.mul_one]

theorem plain_out (K : List Nat) (i n : Nat) (h : i < K.length) (hk : 1 ≤ nth K i) : (plain K).outDim i n = n + 1 - nth K i := by
  unfold Geom.outDim plain span
  simp only [nth_replicate h, Nat.div_one]
  omega

theorem dilated_out (K b before after : List Nat) (i n : Nat) (h : i < K.length) :
    (dilated K b before after).outDim i n = n + nth before i + nth after i - nth b i * (nth K i - 1) := by
  unfold Geom.outDim dilated span
  simp only [nth_replicate h, Nat.div_one]
  omega

/-- The image that a block offset selects is found again. -/
theorem block_off {B v : List Nat} {n a : Nat} (hv : InB B v) (ha : a < n) : delin B ((lin B v * n + a) / n) = v ∧ (lin B v * n + a) % n = a := by
  have h1 : (lin B v * n + a) / n = lin B v := by
    rw [Nat.mul_comm, Nat.mul_add_div (by omega), Nat.div_eq_of_lt ha, Nat.add_zero]
  have h2 : (lin B v * n + a) % n = a := by rw [Nat.mul_add_mod', Nat.mod_eq_of_lt ha]
  exact ⟨by rw [h1, delin_lin hv], h2⟩

theorem inB_mods {b : List Nat} (hb : ∀ d ∈ b, 1 ≤ d) (y : Nat → Nat) : InB b ((List.range b.length).map (fun k => y k % nth b k)) := by
  refine ⟨by simp, fun i hi => ?_⟩
  rw [nth_map_range, if_pos hi]
  exact Nat.mod_lt _ (nth_pos hb hi)

/-- The operator does not tell padding from elements that are zero. -/
def ZeroPads (zero : α) (K : List Nat) (F : Nat → (List Nat → Nat → Option α) → β) : Prop :=
  ∀ q r r', (∀ k c, InB K k → (r k c).getD zero = (r' k c).getD zero) → F q r = F q r'

theorem convAt_zeroPads (acc : Acc α) (zero : α) (K : List Nat) (cin per : Nat) (w : List Nat → Nat → Nat → α) :
    ZeroPads zero K (convAt acc zero K cin per w) := by
  intro q r r' h
  unfold convAt
  congr 1
  funext k c
  by_cases hk : InB K k ∧ c < cin
  · rw [if_pos hk, if_pos hk, h k _ hk.1]
  · rw [if_neg hk, if_neg hk]

theorem depthwise_zeroPads (acc : Acc α) (zero : α) (K : List Nat) (mult : Nat) (w : T α) :
    ZeroPads zero K (fun q r => acc K 1 (fun k' c => if InB K k' ∧ c < 1 then ((r k' (q / mult)).getD zero, w.get (k' ++ [q / mult, q % mult])) else (zero, zero))) := by
  intro q r r' h
  dsimp only
  congr 1
  funext k c
  by_cases hk : InB K k ∧ c < 1
  · rw [if_pos hk, if_pos hk, h k _ hk.1]
  · rw [if_neg hk, if_neg hk]

/-- Arithmetic of one axis: `D` the length, `p0`, `p1` the padding, `c1` the crop, `b` the block, `k` the kernel. -/
theorem axis_out {D p0 p1 c1 b k : Nat} (hdiv : (D + p0 + p1) % b = 0) (hc : c1 ≤ p1) (hk : 1 ≤ k) :
    ((D + p0 + p1) / b + 1 - k) * b - 0 - c1 = D + p0 + (p1 - c1) - b * (k - 1) := by
  have h := Nat.div_add_mod (D + p0 + p1) b
  rw [hdiv] at h
  generalize (D + p0 + p1) / b = P at *
  have e : (P + 1 - k) * b = P * b - b * (k - 1) := by
    obtain ⟨j, rfl⟩ : ∃ j, k = j + 1 := ⟨k - 1, by omega⟩
    rw [Nat.add_sub_cancel, show P + 1 - (j + 1) = P - j by omega, Nat.sub_mul, Nat.mul_comm j]
  rw [e, Nat.mul_comm P]
  omega

/-- A window read through a block offset: inside of the image, at distance `b`. -/
theorem axis_read {P b k y j c1 : Nat} (hy : y < (P + 1 - k) * b - 0 - c1) (hj : j < k) :
    y / b + j < P ∧ (y / b + j) * b + y % b = y + j * b := by
  have h1 : y / b < P + 1 - k := Nat.div_lt_of_lt_mul (by rw [Nat.mul_comm]; omega)
  have := Nat.div_add_mod y b
  rw [Nat.mul_comm] at this
  rw [Nat.add_mul]
  refine ⟨?_, by omega⟩
  clear this hy
  generalize y / b = z at h1 ⊢
  omega

/-- The blocks, over all the axes they range over: if the channels come first, there is a block of 1 for them. -/
def blockOf (last : Bool) (b : List Nat) : List Nat := if last then b else 1 :: b

/-- The paddings or crops over the same axes. -/
def pairsOf (last : Bool) (p : List (Nat × Nat)) : List (Nat × Nat) := if last then p else (0, 0) :: p

/-- Space-to-batch on the spatial axes of a layout. -/
theorem s2b_shape (last : Bool) (zero : α) (b : List Nat) (p : List (Nat × Nat)) (x : T α) {n cin : Nat} {D : List Nat} (hx : x.shape = mk last n D cin)
    (hb : b.length = D.length) :
    (tfSpaceToBatch zero (blockOf last b) (pairsOf last p) x).shape =
      mk last (size b * n) ((List.range b.length).map (fun k => (nth D k + (p.getD k (0, 0)).1 + (p.getD k (0, 0)).2) / nth b k)) cin := by
  unfold tfSpaceToBatch
  cases last
  · have hd : x.shape.drop (b.length + 1 + 1) = [] := by rw [hx, hb]; simp [mk]
    show (size (1 :: b) * nth x.shape 0) :: ((List.range (b.length + 1)).map _ ++ x.shape.drop (b.length + 1 + 1)) = (size b * n) :: cin :: _
    rw [hd, List.append_nil, size_cons, Nat.one_mul, hx, nth_mk_zero, List.range_succ_eq_map, List.map_cons, List.map_map]
    congr 2
    exact Nat.div_one _
  · have hd : x.shape.drop (b.length + 1) = [cin] := by rw [hx, hb]; simp [mk]
    show (size b * nth x.shape 0) :: ((List.range b.length).map _ ++ x.shape.drop (b.length + 1)) = (size b * n) :: (_ ++ [cin])
    rw [hd, hx, nth_mk_zero]
    congr 2
    exact List.map_congr_left (fun i hi => by
      show (nth (D ++ [cin]) i + _ + _) / _ = _
      rw [nth_append_left (by rw [← hb]; exact List.mem_range.1 hi)]
      rfl)

theorem s2b_get (last : Bool) (zero : α) (b : List Nat) (p : List (Nat × Nat)) (x : T α) {n cin a c' : Nat} {D v y : List Nat} (hx : x.shape = mk last n D cin)
    (hb : b.length = D.length) (hv : InB b v) (ha : a < n) (hc : c' < cin) (hy : y.length = D.length) :
    (tfSpaceToBatch zero (blockOf last b) (pairsOf last p) x).get (mk last (lin b v * n + a) y c') =
      if ∀ i, i < b.length → (p.getD i (0, 0)).1 ≤ nth y i * nth b i + nth v i ∧ nth y i * nth b i + nth v i - (p.getD i (0, 0)).1 < nth D i then
        x.get (mk last a ((List.range b.length).map (fun i => nth y i * nth b i + nth v i - (p.getD i (0, 0)).1)) c')
      else zero := by
  obtain ⟨o1, o2⟩ := block_off hv ha
  have hn : nth x.shape 0 = n := by rw [hx, nth_mk_zero]
  unfold tfSpaceToBatch
  cases last
  · have hv' : InB (1 :: b) (0 :: v) := (inB_cons).2 ⟨by omega, hv⟩
    have hl : lin b v = lin (1 :: b) (0 :: v) := by show _ = 0 * size b + lin b v; omega
    have o1' : delin (1 :: b) ((lin b v * n + a) / n) = 0 :: v := by rw [hl]; exact (block_off hv' ha).1
    have hd : (mk false (lin b v * n + a) y c').drop (b.length + 1 + 1) = [] := by
      rw [hb, ← hy]; simp [mk]
    show (if ∀ k, k < b.length + 1 → _ then _ else _) = _
    simp only [nth_mk_zero, hn, blockOf, pairsOf, o1', o2, if_neg Bool.false_ne_true, List.length_cons, hd, List.append_nil]
    have hiff : (∀ k, k < b.length + 1 → (((0, 0) :: p).getD k (0, 0)).1 ≤ nth (mk false (lin b v * n + a) y c') (k + 1) * nth (1 :: b) k + nth (0 :: v) k ∧
        nth (mk false (lin b v * n + a) y c') (k + 1) * nth (1 :: b) k + nth (0 :: v) k - (((0, 0) :: p).getD k (0, 0)).1 < nth x.shape (k + 1)) ↔
        ∀ i, i < b.length → (p.getD i (0, 0)).1 ≤ nth y i * nth b i + nth v i ∧ nth y i * nth b i + nth v i - (p.getD i (0, 0)).1 < nth D i := by
      rw [hx]
      constructor
      · intro h i hi; exact h (i + 1) (by omega)
      · intro h i hi
        cases i with
        | zero => exact ⟨Nat.zero_le _, by show c' * 1 + 0 - 0 < cin; omega⟩
        | succ i => exact h i (by omega)
    have hm : (List.range (b.length + 1)).map (fun k => nth (mk false (lin b v * n + a) y c') (k + 1) * nth (1 :: b) k + nth (0 :: v) k - (((0, 0) :: p).getD k (0, 0)).1) =
        c' :: (List.range b.length).map (fun i => nth y i * nth b i + nth v i - (p.getD i (0, 0)).1) := by
      rw [List.range_succ_eq_map, List.map_cons, List.map_map]
      congr 1
      show c' * 1 + 0 - 0 = c'
      omega
    rw [hm]
    by_cases hh : ∀ i, i < b.length → (p.getD i (0, 0)).1 ≤ nth y i * nth b i + nth v i ∧ nth y i * nth b i + nth v i - (p.getD i (0, 0)).1 < nth D i
    · rw [if_pos hh, if_pos (hiff.2 hh)]; rfl
    · rw [if_neg hh, if_neg (fun h' => hh (hiff.1 h'))]
  · have hd : (mk true (lin b v * n + a) y c').drop (b.length + 1) = [c'] := by
      rw [hb, ← hy]; simp [mk]
    simp only [nth_mk_zero, hn, blockOf, pairsOf, o1, o2, if_true, hd]
    have hyi : ∀ i, i < b.length → nth (mk true (lin b v * n + a) y c') (i + 1) = nth y i := fun i hi => spOf_mk true _ _ _ (by omega)
    have hxi : ∀ i, i < b.length → nth x.shape (i + 1) = nth D i := fun i hi => by rw [hx]; exact spOf_mk true _ _ _ (by omega)
    have hiff : (∀ k, k < b.length → (p.getD k (0, 0)).1 ≤ nth (mk true (lin b v * n + a) y c') (k + 1) * nth b k + nth v k ∧
        nth (mk true (lin b v * n + a) y c') (k + 1) * nth b k + nth v k - (p.getD k (0, 0)).1 < nth x.shape (k + 1)) ↔
        ∀ i, i < b.length → (p.getD i (0, 0)).1 ≤ nth y i * nth b i + nth v i ∧ nth y i * nth b i + nth v i - (p.getD i (0, 0)).1 < nth D i :=
      forall_congr' fun i => forall_congr' fun hi => by rw [hyi i hi, hxi i hi]
    have hm : (List.range b.length).map (fun k => nth (mk true (lin b v * n + a) y c') (k + 1) * nth b k + nth v k - (p.getD k (0, 0)).1) =
        (List.range b.length).map (fun i => nth y i * nth b i + nth v i - (p.getD i (0, 0)).1) :=
      List.map_congr_left (fun i hi => by rw [hyi i (List.mem_range.1 hi)])
    rw [hm]
    by_cases hh : ∀ i, i < b.length → (p.getD i (0, 0)).1 ≤ nth y i * nth b i + nth v i ∧ nth y i * nth b i + nth v i - (p.getD i (0, 0)).1 < nth D i
    · rw [if_pos hh, if_pos (hiff.2 hh)]; rfl
    · rw [if_neg hh, if_neg (fun h' => hh (hiff.1 h'))]

/-- Batch-to-space on the spatial axes of a layout. -/
theorem b2s_shape (last : Bool) (b : List Nat) (c : List (Nat × Nat)) (z : T α) {n cout : Nat} {D : List Nat} (hz : z.shape = mk last (size b * n) D cout)
    (hb : b.length = D.length) (hpos : 0 < size b) :
    (tfBatchToSpace (blockOf last b) (pairsOf last c) z).shape =
      mk last n ((List.range b.length).map (fun k => nth D k * nth b k - (c.getD k (0, 0)).1 - (c.getD k (0, 0)).2)) cout := by
  unfold tfBatchToSpace
  have hn : nth z.shape 0 = size b * n := by rw [hz, nth_mk_zero]
  cases last
  · have hd : z.shape.drop (b.length + 1 + 1) = [] := by rw [hz, hb]; simp [mk]
    show (nth z.shape 0 / size (1 :: b)) :: ((List.range (b.length + 1)).map _ ++ z.shape.drop (b.length + 1 + 1)) = n :: cout :: _
    rw [hd, List.append_nil, size_cons, Nat.one_mul, hn, Nat.mul_div_cancel_left _ hpos, List.range_succ_eq_map, List.map_cons, List.map_map, hz]
    congr 2
    show cout * 1 - 0 - 0 = cout
    omega
  · have hd : z.shape.drop (b.length + 1) = [cout] := by rw [hz, hb]; simp [mk]
    show (nth z.shape 0 / size b) :: ((List.range b.length).map _ ++ z.shape.drop (b.length + 1)) = n :: (_ ++ [cout])
    rw [hd, hn, Nat.mul_div_cancel_left _ hpos, hz]
    congr 2
    exact List.map_congr_left (fun i hi => by
      show nth (D ++ [cout]) i * _ - _ - _ = _
      rw [nth_append_left (by rw [← hb]; exact List.mem_range.1 hi)]
      rfl)

theorem b2s_get (last : Bool) (b : List Nat) (c : List (Nat × Nat)) (z : T α) {n cout a q : Nat} {D y : List Nat} (hz : z.shape = mk last (size b * n) D cout)
    (hb : b.length = D.length) (hpos : 0 < size b) (hy : y.length = D.length) (hc : ∀ i, i < b.length → (c.getD i (0, 0)).1 = 0) :
    (tfBatchToSpace (blockOf last b) (pairsOf last c) z).get (mk last a y q) =
      z.get (mk last (lin b ((List.range b.length).map (fun k => nth y k % nth b k)) * n + a) ((List.range b.length).map (fun k => nth y k / nth b k)) q) := by
  have hn : nth z.shape 0 / size b = n := by rw [hz, nth_mk_zero, Nat.mul_div_cancel_left _ hpos]
  have e1 : ∀ s : List Nat, s.length = D.length → ∀ f : Nat → Nat → Nat, (List.range b.length).map (fun k => f (nth s k + (c.getD k (0, 0)).1) (nth b k)) =
      (List.range b.length).map (fun k => f (nth s k) (nth b k)) := fun s _ f =>
    List.map_congr_left (fun k hk => by rw [hc k (List.mem_range.1 hk), Nat.add_zero])
  unfold tfBatchToSpace
  cases last
  · have hd : (mk false a y q).drop (b.length + 1 + 1) = [] := by rw [hb, ← hy]; simp [mk]
    have hs : size (1 :: b) = size b := by rw [size_cons, Nat.one_mul]
    show z.get ((lin (1 :: b) ((List.range (b.length + 1)).map _) * (nth z.shape 0 / size (1 :: b)) + nth (mk false a y q) 0) ::
      ((List.range (b.length + 1)).map _ ++ (mk false a y q).drop (b.length + 1 + 1))) = _
    rw [hd, hs, hn, List.append_nil, nth_mk_zero, List.range_succ_eq_map, List.map_cons, List.map_map, List.map_cons, List.map_map]
    have m1 : (List.range b.length).map ((fun k => (nth (mk false a y q) (k + 1) + ((pairsOf false c).getD k (0, 0)).1) % nth (blockOf false b) k) ∘ Nat.succ) =
        (List.range b.length).map (fun k => nth y k % nth b k) := e1 y hy (· % ·)
    have m2 : (List.range b.length).map ((fun k => (nth (mk false a y q) (k + 1) + ((pairsOf false c).getD k (0, 0)).1) / nth (blockOf false b) k) ∘ Nat.succ) =
        (List.range b.length).map (fun k => nth y k / nth b k) := e1 y hy (· / ·)
    rw [m1, m2]
    have l1 : lin (1 :: b) ((nth (mk false a y q) (0 + 1) + ((pairsOf false c).getD 0 (0, 0)).1) % nth (blockOf false b) 0 :: (List.range b.length).map (fun k => nth y k % nth b k)) =
        lin b ((List.range b.length).map (fun k => nth y k % nth b k)) := by
      show (q + 0) % 1 * size b + _ = _
      rw [Nat.mod_one, Nat.zero_mul, Nat.zero_add]
    rw [l1]
    show z.get (_ :: (q + 0) / 1 :: _) = z.get (_ :: q :: _)
    rw [Nat.div_one, Nat.add_zero]
  · have hd : (mk true a y q).drop (b.length + 1) = [q] := by rw [hb, ← hy]; simp [mk]
    have hyi : ∀ f : Nat → Nat → Nat, (List.range b.length).map (fun k => f (nth (mk true a y q) (k + 1) + (c.getD k (0, 0)).1) (nth b k)) =
        (List.range b.length).map (fun k => f (nth y k) (nth b k)) := fun f => by
      rw [← e1 y hy f]
      refine List.map_congr_left (fun k hk => ?_)
      rw [show nth (mk true a y q) (k + 1) = nth y k from spOf_mk true a y q (by have := List.mem_range.1 hk; omega)]
    simp only [nth_mk_zero, blockOf, pairsOf, if_true, hd, hn, hyi (· % ·), hyi (· / ·)]
    rfl

/-- The paddings, crops and blocks of the axes fit. -/
structure BlocksFit (D b : List Nat) (p c : List (Nat × Nat)) : Prop where
  len : b.length = D.length
  pos : ∀ d ∈ b, 1 ≤ d
  divides : ∀ i, i < D.length → (nth D i + (p.getD i (0, 0)).1 + (p.getD i (0, 0)).2) % nth b i = 0
  start : ∀ i, i < D.length → (c.getD i (0, 0)).1 = 0
  crop : ∀ i, i < D.length → (c.getD i (0, 0)).2 ≤ (p.getD i (0, 0)).2

/-- Padding before. -/
def padBefore (m : Nat) (p : List (Nat × Nat)) : List Nat := (List.range m).map (fun i => (p.getD i (0, 0)).1)

/-- Padding after that is not cropped. -/
def padAfter (m : Nat) (p c : List (Nat × Nat)) : List Nat := (List.range m).map (fun i => (p.getD i (0, 0)).2 - (c.getD i (0, 0)).2)

/-- **Dilated windows**: an operator on windows between space-to-batch and batch-to-space is the operator on dilated windows of the image, with the padding
that is not cropped. -/
theorem dilated_windows (last : Bool) (zero : α) (K b : List Nat) (p c : List (Nat × Nat)) (cout cin n : Nat) (D : List Nat)
    (F : Nat → (List Nat → Nat → Option α) → β) (x : T α)
    (hx : x.shape = mk last n D cin) (hK : K.length = D.length) (hKpos : ∀ d ∈ K, 1 ≤ d) (h : BlocksFit D b p c) (hF : ZeroPads zero K F) :
    Same (tfBatchToSpace (blockOf last b) (pairsOf last c) (windowed last (plain K) cout F (tfSpaceToBatch zero (blockOf last b) (pairsOf last p) x)))
      (windowed last (dilated K b (padBefore D.length p) (padAfter D.length p c)) cout F x) := by
  have hsize : 0 < size b := size_pos h.pos
  have hKb : K.length = b.length := by rw [hK, h.len]
  have hx0 : nth x.shape 0 = n := by rw [hx, nth_mk_zero]
  have hs2b := s2b_shape last zero b p x hx h.len
  have hsp : ∀ i, i < D.length → spOf last (tfSpaceToBatch zero (blockOf last b) (pairsOf last p) x).shape i =
      (nth D i + (p.getD i (0, 0)).1 + (p.getD i (0, 0)).2) / nth b i :=
    fun i hi => by rw [hs2b, spOf_mk _ _ _ _ (by simp [h.len, hi]), nth_map_range, if_pos (by rw [h.len]; exact hi)]
  have hch : chOf last K.length (tfSpaceToBatch zero (blockOf last b) (pairsOf last p) x).shape = cin := by
    rw [hs2b]
    have hl : K.length = ((List.range b.length).map (fun k => (nth D k + (p.getD k (0, 0)).1 + (p.getD k (0, 0)).2) / nth b k)).length := by simp [hKb]
    rw [hl]
    exact chOf_mk last _ _ cin
  have hchx : chOf last K.length x.shape = cin := by rw [hx, hK]; exact chOf_mk _ _ _ _
  have hspx : ∀ i, i < D.length → spOf last x.shape i = nth D i := fun i hi => by rw [hx, spOf_mk _ _ _ _ hi]
  have hbpos : ∀ i, i < D.length → 1 ≤ nth b i := fun i hi => nth_pos h.pos (by rw [h.len]; exact hi)
  -- windows
  have hws : (windowed last (plain K) cout F (tfSpaceToBatch zero (blockOf last b) (pairsOf last p) x)).shape =
      mk last (size b * n) ((List.range K.length).map (fun i => (nth D i + (p.getD i (0, 0)).1 + (p.getD i (0, 0)).2) / nth b i + 1 - nth K i)) cout := by
    rw [windowed_shape]
    show mk last (nth (tfSpaceToBatch zero (blockOf last b) (pairsOf last p) x).shape 0) _ cout = _
    rw [hs2b, nth_mk_zero, ← hs2b]
    congr 1
    refine List.map_congr_left (fun i hi => ?_)
    have hi' : i < K.length := List.mem_range.1 hi
    rw [hsp i (by omega), plain_out K i _ hi' (nth_pos hKpos hi')]
  have haxis : ∀ i, i < D.length → ((nth D i + (p.getD i (0, 0)).1 + (p.getD i (0, 0)).2) / nth b i + 1 - nth K i) * nth b i - 0 - (c.getD i (0, 0)).2 =
      nth D i + (p.getD i (0, 0)).1 + ((p.getD i (0, 0)).2 - (c.getD i (0, 0)).2) - nth b i * (nth K i - 1) := fun i hi =>
    axis_out (h.divides i hi) (h.crop i hi) (nth_pos hKpos (by omega))
  -- the shapes
  have hshape : (tfBatchToSpace (blockOf last b) (pairsOf last c)
        (windowed last (plain K) cout F (tfSpaceToBatch zero (blockOf last b) (pairsOf last p) x))).shape =
      mk last n ((List.range D.length).map (fun i => nth D i + (p.getD i (0, 0)).1 + ((p.getD i (0, 0)).2 - (c.getD i (0, 0)).2) - nth b i * (nth K i - 1))) cout := by
    rw [b2s_shape last b c _ hws (by simp [hKb]) hsize, h.len]
    congr 1
    refine List.map_congr_left (fun i hi => ?_)
    have hi' : i < D.length := List.mem_range.1 hi
    rw [nth_map_range, if_pos (by omega), h.start i hi']
    exact haxis i hi'
  refine ⟨?_, fun idx hi => ?_⟩
  · rw [hshape, windowed_shape, hx0]
    show _ = mk last n ((List.range K.length).map _) cout
    rw [hK]
    congr 1
    refine List.map_congr_left (fun i hi => ?_)
    have hi' : i < D.length := List.mem_range.1 hi
    unfold padBefore padAfter
    rw [dilated_out _ _ _ _ _ _ (by omega), nth_map_range, if_pos hi', nth_map_range, if_pos hi', hspx i hi']
  · rw [hshape] at hi
    obtain ⟨a, y, q, hy, rfl⟩ := exists_mk last (m := D.length) (idx := idx) (by rw [hi.1, mk_length]; simp)
    have hb := (inB_mk (by simpa using hy)).1 hi
    have ha : a < n := hb.1
    have hyi : ∀ i, i < D.length → nth y i < ((nth D i + (p.getD i (0, 0)).1 + (p.getD i (0, 0)).2) / nth b i + 1 - nth K i) * nth b i - 0 - (c.getD i (0, 0)).2 := by
      intro i hi'
      have := hb.2.1.2 i (by simpa using hi')
      rw [nth_map_range, if_pos hi'] at this
      rw [haxis i hi']
      exact this
    rw [b2s_get last b c _ hws (by simp [hKb]) hsize (by simp [hy, hK]) (fun i hi' => h.start i (by rw [← h.len]; exact hi'))]
    generalize hv : (List.range b.length).map (fun k => nth y k % nth b k) = v
    have hvB : InB b v := by rw [← hv]; exact inB_mods h.pos (nth y)
    have hvi : ∀ i, i < D.length → nth v i = nth y i % nth b i := fun i hi' => by rw [← hv, nth_map_range, if_pos (by rw [h.len]; exact hi')]
    have cl : chOf last K.length (mk last (lin b v * n + a) ((List.range b.length).map (fun k => nth y k / nth b k)) q) = q := by
      have hl : K.length = ((List.range b.length).map (fun k => nth y k / nth b k)).length := by simp [hKb]
      rw [hl]
      exact chOf_mk last _ _ q
    have cr : chOf last K.length (mk last a y q) = q := by rw [hK, ← hy]; exact chOf_mk last a y q
    show F (chOf last K.length _) _ = F (chOf last K.length _) _
    rw [cl, cr]
    refine hF q _ _ (fun k c' hk => ?_)
    have hki : ∀ i, i < D.length → nth k i < nth K i := fun i hi' => hk.2 i (by omega)
    have hread : ∀ i, i < D.length → _ := fun i hi' => axis_read (hyi i hi') (hki i hi')
    have pl : ∀ i, i < D.length → (plain K).pos (spOf last (mk last (lin b v * n + a) ((List.range b.length).map (fun k => nth y k / nth b k)) q)) (nth k) i =
        nth y i / nth b i + nth k i := by
      intro i hi'
      rw [plain_pos _ _ _ (by omega), spOf_mk _ _ _ _ (by simp [h.len, hi']), nth_map_range, if_pos (by rw [h.len]; exact hi')]
    have pr : ∀ i, i < D.length → (dilated K b (padBefore D.length p) (padAfter D.length p c)).pos (spOf last (mk last a y q)) (nth k) i =
        nth y i + nth k i * nth b i := by
      intro i hi'
      rw [dilated_pos _ _ _ _ _ _ (by omega), spOf_mk _ _ _ _ (by omega)]
    have hp0 : ∀ i, i < D.length → nth (padBefore D.length p) i = (p.getD i (0, 0)).1 := fun i hi' => by
      unfold padBefore
      rw [nth_map_range, if_pos hi']
    have hbefore : ∀ i, i < D.length → nth (plain K).before i = 0 := fun i hi' => nth_replicate (by omega)
    dsimp only
    by_cases hc' : c' < cin
    swap
    · rw [if_neg (fun h' => hc' (by have := h'.2.1; rwa [show (plain K).kernel.length = K.length from rfl, hch] at this))]
      rw [if_neg (fun h' => hc' (by have := h'.2.1; rwa [show (dilated K b (padBefore D.length p) (padAfter D.length p c)).kernel.length = K.length from rfl, hchx] at this))]
    -- the left window is inside
    rw [if_pos]
    swap
    · refine ⟨hk, ?_, fun i hi' => ?_⟩
      · show c' < chOf last K.length _
        rw [hch]; exact hc'
      · have hi'' : i < D.length := by rw [← hK]; exact hi'
        rw [hbefore i hi'', pl i hi'', hsp i hi'']
        exact ⟨Nat.zero_le _, (hread i hi'').1⟩
    have hm : (List.range (plain K).kernel.length).map (fun i => (plain K).pos (spOf last (mk last (lin b v * n + a)
        ((List.range b.length).map (fun k => nth y k / nth b k)) q)) (nth k) i - nth (plain K).before i) =
        (List.range b.length).map (fun i => nth y i / nth b i + nth k i) := by
      show (List.range K.length).map _ = _
      rw [hKb]
      exact List.map_congr_left (fun i hi' => by
        have hi'' : i < D.length := by rw [← h.len]; exact List.mem_range.1 hi'
        rw [pl i hi'', hbefore i hi'', Nat.sub_zero])
    rw [hm, nth_mk_zero]
    -- what space-to-batch reads
    show ((tfSpaceToBatch zero (blockOf last b) (pairsOf last p) x).get _) = _
    rw [s2b_get last zero b p x hx h.len hvB ha hc' (by simp [h.len])]
    have hY : ∀ i, i < D.length → nth ((List.range b.length).map (fun i => nth y i / nth b i + nth k i)) i * nth b i + nth v i = nth y i + nth k i * nth b i := by
      intro i hi'
      rw [nth_map_range, if_pos (by rw [h.len]; exact hi'), hvi i hi']
      exact (hread i hi').2
    have hcond : (∀ i, i < b.length → (p.getD i (0, 0)).1 ≤ nth ((List.range b.length).map (fun i => nth y i / nth b i + nth k i)) i * nth b i + nth v i ∧
        nth ((List.range b.length).map (fun i => nth y i / nth b i + nth k i)) i * nth b i + nth v i - (p.getD i (0, 0)).1 < nth D i) ↔
        (InB K k ∧ c' < chOf last K.length x.shape ∧ ∀ i, i < K.length →
          nth (padBefore D.length p) i ≤ (dilated K b (padBefore D.length p) (padAfter D.length p c)).pos (spOf last (mk last a y q)) (nth k) i ∧
          (dilated K b (padBefore D.length p) (padAfter D.length p c)).pos (spOf last (mk last a y q)) (nth k) i - nth (padBefore D.length p) i <
            spOf last x.shape i) := by
      constructor
      · intro hh
        refine ⟨hk, by rw [hchx]; exact hc', fun i hi' => ?_⟩
        have hi'' : i < D.length := by omega
        have := hh i (by omega)
        rw [hY i hi''] at this
        rw [hp0 i hi'', pr i hi'', hspx i hi'']
        exact this
      · rintro ⟨_, _, hh⟩ i hi'
        have hi'' : i < D.length := by rw [← h.len]; exact hi'
        have := hh i (by omega)
        rw [hp0 i hi'', pr i hi'', hspx i hi''] at this
        rw [hY i hi'']
        exact this
    have hmr : (List.range b.length).map (fun i => nth ((List.range b.length).map (fun i => nth y i / nth b i + nth k i)) i * nth b i + nth v i - (p.getD i (0, 0)).1) =
        (List.range K.length).map (fun i => (dilated K b (padBefore D.length p) (padAfter D.length p c)).pos (spOf last (mk last a y q)) (nth k) i -
          nth (padBefore D.length p) i) := by
      rw [hKb]
      refine List.map_congr_left (fun i hi' => ?_)
      have hi'' : i < D.length := by rw [← h.len]; exact List.mem_range.1 hi'
      rw [hY i hi'', hp0 i hi'', pr i hi'']
    split
    · rename_i hh
      refine Eq.trans ?_ (congrArg (fun o => Option.getD o zero) (if_pos (hcond.1 hh))).symm
      rw [hmr, nth_mk_zero]
      rfl
    · rename_i hh
      split
      · rename_i h'
        exact absurd (hcond.2 h') hh
      · rfl

end Verif.Conv
