import Verif.Props.OptPass
import Verif.Props.C19_Push
import Verif.Spec.PoolOps
/-!
# C61: reductions turned into global pooling
-/
namespace Verif.Tensor
open Verif Verif.TransposeOpt

theorem mem_spatialAxes {n : Nat} {z : Int} : z ∈ Graph.spatialAxes n ↔ 2 ≤ z ∧ z < n := by
  simp only [Graph.spatialAxes, List.mem_map, List.mem_range]
  constructor
  · rintro ⟨i, hi, rfl⟩; omega
  · rintro ⟨h1, h2⟩; exact ⟨(z - 2).toNat, by omega, by omega⟩

theorem spatialAxes_ne {n : Nat} : Graph.spatialAxes n ≠ [] ↔ 3 ≤ n := by
  simp [Graph.spatialAxes]; omega

theorem contains_spatial {n i : Nat} (h : i < n) : ((Graph.spatialAxes n).map (normAxis n)).contains i = spatial i := by
  rw [Bool.eq_iff_iff]
  simp only [List.contains_iff_mem, List.mem_map, mem_spatialAxes, spatial, normAxis, decide_eq_true_eq]
  constructor
  · rintro ⟨z, ⟨h1, h2⟩, h3⟩; rw [if_neg (by omega)] at h3; omega
  · intro h2; exact ⟨i, by omega, by rw [if_neg (by omega)]; rfl⟩

theorem contains_spatial' {n i : Nat} (h : i < n) : ((Graph.spatialAxes n).map Int.toNat).contains i = spatial i := by
  rw [Bool.eq_iff_iff]
  simp only [List.contains_iff_mem, List.mem_map, mem_spatialAxes, spatial, decide_eq_true_eq]
  constructor
  · rintro ⟨z, ⟨h1, h2⟩, h3⟩; omega
  · intro h2; exact ⟨i, by omega, by rfl⟩

theorem group_ax {α : Type} {ax ax' : Nat → Bool} {x : T α} (h : ∀ i, i < x.shape.length → ax i = ax' i) (idx : List Nat) :
    group ax x idx = group ax' x idx := by
  unfold group
  congr 2
  apply List.filter_congr
  intro j _
  rw [Bool.eq_iff_iff, List.all_eq_true, List.all_eq_true]
  constructor <;> intro h' i hi
  · rw [← h i (List.mem_range.1 hi)]; exact h' i hi
  · rw [h i (List.mem_range.1 hi)]; exact h' i hi

theorem reduceKeep_ax {α β : Type} (f : Multiset α → β) {ax ax' : Nat → Bool} {x : T α} (h : ∀ i, i < x.shape.length → ax i = ax' i) :
    Same (reduceKeep f ax x) (reduceKeep f ax' x) := by
  refine ⟨?_, fun idx _ => ?_⟩
  · simp only [reduceKeep]
    apply List.map_congr_left
    intro i hi
    rw [h i (List.mem_range.1 hi)]
  · simp only [reduceKeep]; rw [group_ax h]

theorem keptAxes_ax {n : Nat} {ax ax' : Nat → Bool} (h : ∀ i, i < n → ax i = ax' i) : keptAxes n ax = keptAxes n ax' := by
  unfold keptAxes
  apply List.filter_congr
  intro i hi
  rw [h i (List.mem_range.1 hi)]

theorem squeeze_ax {α : Type} {ax ax' : Nat → Bool} {x : T α} (h : ∀ i, i < x.shape.length → ax i = ax' i) :
    Same (squeeze ax x) (squeeze ax' x) := by
  refine ⟨?_, fun idx _ => ?_⟩
  · simp only [squeeze]; rw [keptAxes_ax h]
  · simp only [squeeze]
    congr 1
    apply List.map_congr_left
    intro i hi
    rw [h i (List.mem_range.1 hi), keptAxes_ax h]

theorem keptAxes_mem {n : Nat} {ax : Nat → Bool} {i : Nat} : i ∈ keptAxes n ax ↔ i < n ∧ ax i = false := by
  simp [keptAxes]

theorem squeeze_same {α : Type} {ax : Nat → Bool} {x y : T α} (h : Same x y) (h1 : ∀ i, i < x.shape.length → ax i = true → nth x.shape i = 1) :
    Same (squeeze ax x) (squeeze ax y) := by
  refine ⟨?_, fun idx hi => ?_⟩
  · simp only [squeeze]; rw [h.1]
  · have hs := h.1
    simp only [squeeze] at hi ⊢
    rw [← hs]
    apply h.2
    refine ⟨by simp, fun i hlt => ?_⟩
    rw [nth_map_range, if_pos hlt]
    by_cases ha : ax i = true
    · rw [if_pos ha, h1 i hlt ha]; omega
    · rw [if_neg ha]
      have ha : ax i = false := by simpa using ha
      have hm : i ∈ keptAxes x.shape.length ax := keptAxes_mem.2 ⟨hlt, ha⟩
      have hl := List.idxOf_lt_length_iff.2 hm
      have := hi.2 ((keptAxes x.shape.length ax).idxOf i) (by simpa using hl)
      rw [nth_map _ _ _ hl, nth_idxOf_of_mem hm] at this
      exact this

/-- **Pooling over all spatial positions is reducing all axes but the first two.** -/
theorem globalPool_eq {α : Type} (f : Multiset α → α) (x : T α) (h : 2 ≤ x.shape.length) :
    Same (globalPool f x) (reduceKeep f spatial x) := by
  refine ⟨?_, fun idx _ => ?_⟩
  · simp only [globalPool, reduceKeep]
    match hs : x.shape with
    | [] => rw [hs] at h; simp at h
    | [_] => rw [hs] at h; simp at h
    | a :: b :: l =>
      simp only [List.take, List.length_cons, List.cons_append, List.nil_append, List.range_succ_eq_map, List.map_cons, List.map_map]
      simp [spatial, nth, Function.comp_def]
  · simp only [globalPool, reduceKeep, group]
    congr 3
    apply List.filter_congr
    intro j _
    rw [Bool.eq_iff_iff, List.all_eq_true, decide_eq_true_eq]
    constructor
    · rintro ⟨h0, h1⟩ i hi
      by_cases e : 2 ≤ i
      · simp [spatial, e]
      · have : i = 0 ∨ i = 1 := by omega
        rcases this with rfl | rfl <;> simp [h0, h1]
    · intro h'
      have a := h' 0 (List.mem_range.2 (by omega))
      have b := h' 1 (List.mem_range.2 (by omega))
      simp [spatial] at a b
      exact ⟨a, b⟩

end Verif.Tensor

namespace Verif.Graph
open Verif Verif.Tensor

variable {V α : Type} {v : Nat} {R : Reading V α} {I : Interp V} {mean max : Multiset α → α} {fresh : Nat → String} {g g' : G} {r : Ref}

/-- A reduction whose axes are an attribute: one operand, one result, at least one axis. -/
def ReduceShape (n : Node) : Prop :=
  (n.op = "ReduceMean" ∨ n.op = "ReduceMax") → ∀ l, n.attr.get "axes" = some (.ints l) →
    n.domain = "" ∧ l ≠ [] ∧ (∃ x o, n.input = [x] ∧ n.output = [o] ∧ x ≠ "" ∧ o ≠ "") ∧
    (n.attr.get "keepdims" = none ∨ ∃ k, n.attr.get "keepdims" = some (.int k))

/-- What the optimizer relies on. -/
structure PoolInv (fresh : Nat → String) (g : G) : Prop where
  inv : HInv fresh g
  unrecorded : ∀ k y, g.heap.length ≤ k → Mine fresh k y → g.shapes.get y = none
  shape : ∀ q ∈ g.nodes, ReduceShape (g.node q)

/-- In the run `e`, what is recorded for the operand of a reduction has the right rank. -/
def RanksRight (R : Reading V α) (g : G) (e : String → V) : Prop :=
  ∀ q ∈ g.nodes, ((g.node q).op = "ReduceMean" ∨ (g.node q).op = "ReduceMax") → ∀ x ∈ (g.node q).input, x ≠ "" → ∀ n, g.rankOf x = some n →
    (R.ten (e x)).shape.length = n

/-- The operands a rewritten reduction must see. -/
def RankIs (R : Reading V α) (n : Nat) (args : List (Option V)) : Prop := ∃ a, args = [some a] ∧ (R.ten a).shape.length = n

theorem poolLaw_keep (P : PoolOps v R I mean max) {op : String} (hop : op = "ReduceMean" ∨ op = "ReduceMax") {attr attr' : Dict String Attr}
    {a : V} {n : Nat} (h3 : 3 ≤ n) (hr : (R.ten a).shape.length = n) (hax : attr.get "axes" = some (.ints (spatialAxes n)))
    (hk : attr.get "keepdims" = none ∨ ∃ k, k ≠ 0 ∧ attr.get "keepdims" = some (.int k)) :
    I (poolType op) "" attr' [some a] 0 = I op "" attr [some a] 0 := by
  obtain ⟨f, hf, hf'⟩ : ∃ f, (op = "ReduceMean" ∧ f = mean ∨ op = "ReduceMax" ∧ f = max) ∧
      (poolType op = "GlobalAveragePool" ∧ f = mean ∨ poolType op = "GlobalMaxPool" ∧ f = max) := by
    rcases hop with rfl | rfl
    · exact ⟨mean, by simp, by simp [poolType]⟩
    · exact ⟨max, by simp, by simp [poolType]⟩
  apply R.ext
  refine (P.pool _ f hf' attr' a (by omega)).trans ((globalPool_eq f _ (by omega)).trans ?_)
  refine Tensor.Same.symm (((P.reduce op f hf attr _ a hax (spatialAxes_ne.2 h3) ?_).1 hk).trans (reduceKeep_ax f ?_))
  · intro z hz
    have := mem_spatialAxes.1 hz
    omega
  · intro i hi; rw [hr]; exact contains_spatial (by omega)

theorem poolLaw_drop (P : PoolOps v R I mean max) {op : String} (hop : op = "ReduceMean" ∨ op = "ReduceMax") {attr attr' : Dict String Attr}
    {a : V} {n : Nat} (h3 : 3 ≤ n) (hr : (R.ten a).shape.length = n) (hax : attr.get "axes" = some (.ints (spatialAxes n)))
    (hk : attr.get "keepdims" = some (.int 0)) {b : V} (hb : b = I (poolType op) "" attr' [some a] 0) {c : V}
    (hc : (v < 13 ∧ c = I "Squeeze" "" [("axes", .ints (spatialAxes n))] [some b] 0) ∨
      (13 ≤ v ∧ ∃ d at', R.ints d = some (spatialAxes n) ∧ c = I "Squeeze" "" at' [some b, some d] 0)) :
    c = I op "" attr [some a] 0 := by
  obtain ⟨f, hf, hf'⟩ : ∃ f, (op = "ReduceMean" ∧ f = mean ∨ op = "ReduceMax" ∧ f = max) ∧
      (poolType op = "GlobalAveragePool" ∧ f = mean ∨ poolType op = "GlobalMaxPool" ∧ f = max) := by
    rcases hop with rfl | rfl
    · exact ⟨mean, by simp, by simp [poolType]⟩
    · exact ⟨max, by simp, by simp [poolType]⟩
  have hb' : Tensor.Same (R.ten b) (reduceKeep f spatial (R.ten a)) := by
    rw [hb]; exact (P.pool _ f hf' attr' a (by omega)).trans (globalPool_eq f _ (by omega))
  have hlen : (R.ten b).shape.length = n := by rw [hb'.1]; simp [reduceKeep, hr]
  have hone : ∀ i, i < (R.ten b).shape.length → spatial i = true → nth (R.ten b).shape i = 1 := by
    intro i hi hs
    rw [hb'.1]
    simp only [reduceKeep]
    rw [nth_map_range, if_pos (by omega), if_pos hs]
  have hax' : ∀ z ∈ spatialAxes n, 0 ≤ z ∧ z < (R.ten b).shape.length ∧ nth (R.ten b).shape z.toNat = 1 := by
    intro z hz
    have := mem_spatialAxes.1 hz
    refine ⟨by omega, by omega, hone _ (by omega) ?_⟩
    simp [spatial]; omega
  have hc' : Tensor.Same (R.ten c) (squeeze (fun i => ((spatialAxes n).map Int.toNat).contains i) (R.ten b)) := by
    rcases hc with ⟨hv, rfl⟩ | ⟨hv, d, at', hd, rfl⟩
    · exact P.squeezeAttr _ _ b hv rfl (spatialAxes_ne.2 h3) hax'
    · exact P.squeezeIn _ _ b d hv hd (spatialAxes_ne.2 h3) hax'
  apply R.ext
  refine hc'.trans ((squeeze_ax (ax' := spatial) fun i hi => contains_spatial' (by omega)).trans ((squeeze_same hb' hone).trans ?_))
  refine Tensor.Same.symm (((P.reduce op f hf attr _ a hax (spatialAxes_ne.2 h3) ?_).2 hk).trans ?_)
  · intro z hz
    have := mem_spatialAxes.1 hz
    omega
  · have hs : ∀ i, i < (R.ten a).shape.length → ((spatialAxes n).map (normAxis (R.ten a).shape.length)).contains i = spatial i := by
      intro i hi; rw [hr]; exact contains_spatial (by omega)
    unfold reduceDrop
    refine (squeeze_ax (ax' := spatial) ?_).trans (squeeze_same (reduceKeep_ax f hs) ?_)
    · intro i hi; exact hs i (by simpa [reduceKeep] using hi)
    · intro i hi hsp
      have hi : i < (R.ten a).shape.length := by simpa [reduceKeep] using hi
      simp only [reduceKeep]
      rw [nth_map_range, if_pos hi, if_pos (by rw [hs i hi]; exact hsp)]

/-- A replaced reduction: the other nodes are as before, the group contains no reduction. -/
theorem pool_opt (hf : FreshTensors fresh) (hi : PoolInv fresh g) (h0 : r ∈ g.nodes) {name op x o : String} {attr : Dict String Attr}
    (hn : g.node r = ⟨name, op, "", attr, [x], [o]⟩) (hop : op = "ReduceMean" ∨ op = "ReduceMax") (hx : x ≠ "") (ho : o ≠ "") {n : Nat}
    (hrk : g.rankOf x = some n) {as : List Act} (hl : ∀ a ∈ as, a.light = true) (hnin : ∀ xs, .inputs xs ∉ as)
    (hok : Grp.allOk fresh o as (Grp.start (g.node r) g.heap.length o)) {σ : Grp}
    (hσ : Grp.run fresh as (Grp.start (g.node r) g.heap.length o) = σ) (hout : σ.out = o ∨ ∃ k, g.heap.length ≤ k ∧ Mine fresh k σ.out)
    (hnodes : ∀ m ∈ σ.nodes, m.op ≠ "ReduceMean" ∧ m.op ≠ "ReduceMax")
    (h : G.runActs fresh g r as g = .ok g') (hs : ConvStep I (RankIs R n) fresh g r g') :
    OptStep I (PoolInv fresh) (RanksRight R) g g' := by
  have hgi : (g.node r).isGraphInput = false := by rw [hn]; rcases hop with rfl | rfl <;> rfl
  have hc : (g.node r).op ≠ "Const" := by rw [hn]; rcases hop with rfl | rfl <;> simp [poolType]
  have houtr : (g.node r).output = [o] := by rw [hn]
  have hown : (∃ xs, .inputs xs ∈ as) → ∀ q ∈ g.nodes, (g.node q).name ∉ (g.node q).input := fun ⟨xs, h⟩ => (hnin xs h).elim
  obtain ⟨hlen, hold, hmem⟩ := acts_nodes hf hi.inv h0 hgi hc houtr ho h hok hown hσ
  have hsh := acts_shapes (g := g) hf hi.inv h0 hgi hc houtr ho hl hown (Grp.start_inv hi.inv h0 houtr) hok
    ⟨fun _ _ => rfl, fun k y hk hy => Or.inl (hi.unrecorded k y hk hy), hi.unrecorded⟩ h
  have hred : ∀ q ∈ g'.nodes, ((g'.node q).op = "ReduceMean" ∨ (g'.node q).op = "ReduceMax") → q ∈ g.nodes ∧ q ≠ r := by
    intro q hq hop
    rcases hmem q hq with h | h
    · exact h
    · obtain ⟨h1, h2⟩ := hnodes _ h
      exact (hop.elim h1 h2).elim
  refine ⟨⟨hs.inv, hsh.far, ?_⟩, hs.outputs, ?_, ?_⟩
  · intro q hq hop l hax
    obtain ⟨hq0, hqr⟩ := hred q hq hop
    have hqe := (hold q hq0 hqr).2
    rw [hqe] at hop hax ⊢
    obtain ⟨a1, a2, ⟨y, z, b1, b2, b3, b4⟩, a4⟩ := hi.shape q hq0 hop l hax
    refine ⟨a1, a2, ⟨if y = o then σ.out else y, z, ?_, b2, ?_, b4⟩, a4⟩
    · simp [Node.mapIn, b1]
    · split
      · rcases hout with h | ⟨k, hk, hm⟩
        · rw [h]; exact ho
        · exact Mine.ne hf hm
      · exact b3
  · rw [hs.inputs]
    apply List.map_congr_left
    intro q hq
    have hqr : q ≠ r := by
      rintro rfl
      have := hi.inv.inputs q hq
      rw [hgi] at this; cases this
    rw [(hold q (hi.inv.inputsIn q hq) hqr).2]; rfl
  · intro env e he hok'
    obtain ⟨e', h1, h2, h3⟩ := hs.run env e he (by
      refine ⟨e x, ?_, ?_⟩
      · rw [hn]; simp [argVals, argVal, hx]
      · exact hok' r h0 (by rw [hn]; exact hop) x (by rw [hn]; simp) hx n hrk)
    refine ⟨e', h1, h2, ?_⟩
    intro q hq hop y hy hye m hm
    obtain ⟨hq0, hqr⟩ := hred q hq hop
    have hqe := (hold q hq0 hqr).2
    obtain ⟨j, hj⟩ := List.getElem?_of_mem hy
    have hval := h3 q hq0 hqr
    rw [hqe] at hop hj
    simp only [Node.mapIn, List.getElem?_map, Option.map_eq_some_iff] at hj
    obtain ⟨z, hz, rfl⟩ := hj
    have hze : z ≠ "" := by
      rintro rfl
      rw [if_neg (Ne.symm ho)] at hye
      exact hye rfl
    have hval' : e' (if z = o then σ.out else z) = e z := by
      rw [hqe] at hval
      have := congrArg (fun l => l[j]?) hval
      simp only [argVals, Node.mapIn, List.getElem?_map, hz, Option.map_some, Option.some.injEq] at this
      rw [argVal_ne hye, argVal_ne hze] at this
      exact Option.some.inj this
    rw [hval']
    refine hok' q hq0 hop z (List.mem_of_getElem? hz) hze m ?_
    have hzs : g'.shapes.get (if z = o then σ.out else z) = none ∨ g'.shapes.get (if z = o then σ.out else z) = g.shapes.get z := by
      have hkeep : ∀ w, (∃ q ∈ g.nodes, w ∈ (g.node q).input ∨ w ∈ (g.node q).output) → g'.shapes.get w = g.shapes.get w := by
        rintro w ⟨q, hq, hw⟩
        refine hsh.old w fun k hk hm => ?_
        rcases hw with hw | hw
        · exact (hi.inv.unread k w hk hm).1 q hq hw
        · exact hi.inv.unmade k w hk hm q hq hw
      split
      · rename_i e; subst e
        rcases hout with h | ⟨k, hk, hm⟩
        · rw [h]; exact Or.inr (hkeep _ ⟨r, h0, Or.inr (by rw [hn]; simp)⟩)
        · exact hsh.new k _ hk hm
      · exact Or.inr (hkeep _ ⟨q, hq0, Or.inl (List.mem_of_getElem? hz)⟩)
    unfold G.rankOf at hm ⊢
    rcases hzs with h | h
    · rw [h] at hm; cases hm
    · rw [h] at hm; exact hm

theorem poolStep_spec (hf : FreshTensors fresh) (P : PoolOps v R I mean max) (hi : PoolInv fresh g) (h0 : r ∈ g.nodes)
    (h : poolStep v fresh g r = .ok (some g')) : OptStep I (PoolInv fresh) (RanksRight R) g g' := by
  unfold poolStep at h
  split at h
  case isFalse => cases h
  rename_i hop
  split at h
  · cases h
  · cases h
  rename_i as has
  split at h
  · cases h
  rename_i g1 hrun
  cases h
  unfold poolActs at has
  split at has
  case h_2 => cases has
  rename_i x xs o os hin hou
  split at has
  · cases has
  split at has
  · cases has
  rename_i hdt hno
  split at has
  · cases has
  rename_i n hrk
  split at has
  · cases has
  rename_i hax
  have hax := not_not.1 hax
  obtain ⟨hdom, hne, ⟨x', o', hin', hou', hx, ho⟩, hkd⟩ := hi.shape r h0 hop _ hax
  rw [hin] at hin'; rw [hou] at hou'
  obtain ⟨rfl, rfl⟩ := List.cons.inj hin'
  obtain ⟨rfl, rfl⟩ := List.cons.inj hou'
  have h3 := spatialAxes_ne.1 hne
  cases has
  obtain ⟨name, op, attr, hn⟩ : ∃ name op attr, g.node r = ⟨name, op, "", attr, [x], [o]⟩ :=
    ⟨(g.node r).name, (g.node r).op, (g.node r).attr, by rw [← hin, ← hou, ← hdom]⟩
  rw [hn] at hop hax hkd hrun
  dsimp only at hop hax hkd hrun
  have hxo : x ≠ o := by
    rintro rfl
    obtain ⟨ρ, hρ⟩ := hi.inv.ranked
    have := hρ r h0 r h0 ⟨x, ho, by rw [hn]; simp, by rw [hn]; simp⟩
    exact absurd this (Nat.lt_irrefl _)
  have hgi : (g.node r).isGraphInput = false := by rw [hn]; rcases hop with rfl | rfl <;> rfl
  have hc : (g.node r).op ≠ "Const" := by rw [hn]; rcases hop with rfl | rfl <;> simp [poolType]
  have hpt : poolType op ≠ "ReduceMean" ∧ poolType op ≠ "ReduceMax" := by rcases hop with rfl | rfl <;> simp [poolType]
  have hplain : ∀ nm at' xs' os', (⟨nm, poolType op, "", at', xs', os'⟩ : Node).isGraphInput = false := by
    intro nm at' xs' os'
    rcases hop with rfl | rfl <;> rfl
  by_cases hk0 : attr.get "keepdims" = some (.int 0)
  · have hfresh : ∀ k, g.heap.length ≤ k → ∀ z, Mine fresh k z → z ≠ x ∧ z ≠ o := by
      intro k hk z hz
      have a := (hi.inv.unread k z hk hz).1 r h0
      have b := hi.inv.unmade k z hk hz r h0
      rw [hn] at a b
      exact ⟨by simpa using a, by simpa using b⟩
    rw [if_pos hk0] at hrun
    by_cases hv : v < 13
    · simp only [poolSqueeze, if_pos hv] at hrun
      have hz := hfresh g.heap.length (Nat.le_refl _) _ (Or.inr rfl)
      have hok : Grp.allOk fresh o ([.setType (poolType op), .attrs (attr.erase "axes")] ++
          [.make (.mk' "Squeeze" [o] [("axes", .ints (spatialAxes n))]), .insertOut o] ++ [.attrs ((attr.erase "axes").erase "keepdims")])
          (Grp.start (g.node r) g.heap.length o) := by
        rw [hn]; grp []
      have hσ : Grp.run fresh ([.setType (poolType op), .attrs (attr.erase "axes")] ++
          [.make (.mk' "Squeeze" [o] [("axes", .ints (spatialAxes n))]), .insertOut o] ++ [.attrs ((attr.erase "axes").erase "keepdims")])
          (Grp.start (g.node r) g.heap.length o) =
          ⟨some ⟨name, poolType op, "", (attr.erase "axes").erase "keepdims", [x], [o]⟩,
            [(g.heap.length, ⟨fresh g.heap.length, "Squeeze", "", [("axes", .ints (spatialAxes n))], [o], [outName fresh g.heap.length]⟩)],
            outName fresh g.heap.length, g.heap.length + 1, [], false, false⟩ := by
        rw [hn]; grp [hxo, outName]
      refine pool_opt hf hi h0 hn hop hx ho hrk ?_ ?_ hok hσ (Or.inr ⟨g.heap.length, Nat.le_refl _, Or.inr rfl⟩) ?_ hrun ?_
      · simp [Act.light]
      · simp
      · simp [Grp.nodes, hpt]
      · refine acts_step hf hi.inv h0 hgi hc (by rw [hn]) ho hrun hok (by simp) hσ rfl (fun h => (hno h).elim) (by simp)
          (L := [⟨name, poolType op, "", (attr.erase "axes").erase "keepdims", [x], [o]⟩,
            ⟨fresh g.heap.length, "Squeeze", "", [("axes", .ints (spatialAxes n))], [o], [outName fresh g.heap.length]⟩])
          (by exact List.Perm.refl _) ?_ ?_ ?_ ?_
        · rw [hn]; simp [Fed]
        · simp [hplain]; rfl
        · simp
        · intro e he hd
          rw [hn] at hd ⊢
          obtain ⟨a, ha, har⟩ := hd
          simp only [argVals, List.map_cons, List.map_nil, argVal_ne hx, List.cons.injEq, Option.some.injEq, and_true] at ha
          subst ha
          simp only [Eqs, argVals, List.map_cons, List.map_nil, argVal_ne hx, argVal_ne ho, List.headD, and_true] at he ⊢
          exact poolLaw_drop P hop h3 har hax hk0 he.1 (Or.inl ⟨hv, he.2⟩)
    · simp only [poolSqueeze, if_neg hv] at hrun
      have hz := hfresh (g.heap.length + 1) (by omega) _ (Or.inr rfl)
      have hz' := hfresh g.heap.length (by omega) _ (Or.inl rfl)
      have hok : Grp.allOk fresh o ([.setType (poolType op), .attrs (attr.erase "axes")] ++
          [.make (.const ⟨7, [(spatialAxes n).length], spatialAxes n⟩), .make (.mk' "Squeeze" [o, fresh g.heap.length]), .insertOut o] ++
          [.attrs ((attr.erase "axes").erase "keepdims")])
          (Grp.start (g.node r) g.heap.length o) := by
        rw [hn]; grp []
      have hσ : Grp.run fresh ([.setType (poolType op), .attrs (attr.erase "axes")] ++
          [.make (.const ⟨7, [(spatialAxes n).length], spatialAxes n⟩), .make (.mk' "Squeeze" [o, fresh g.heap.length]), .insertOut o] ++
          [.attrs ((attr.erase "axes").erase "keepdims")])
          (Grp.start (g.node r) g.heap.length o) =
          ⟨some ⟨name, poolType op, "", (attr.erase "axes").erase "keepdims", [x], [o]⟩,
            [(g.heap.length, ⟨fresh g.heap.length, "Const", "", [("value", .tensor ⟨7, [(spatialAxes n).length], spatialAxes n⟩)], [], [fresh g.heap.length]⟩),
             (g.heap.length + 1, ⟨fresh (g.heap.length + 1), "Squeeze", "", [], [o, fresh g.heap.length], [outName fresh (g.heap.length + 1)]⟩)],
            outName fresh (g.heap.length + 1), g.heap.length + 1 + 1, [], false, false⟩ := by
        rw [hn]; grp [hxo, outName]
      refine pool_opt hf hi h0 hn hop hx ho hrk ?_ ?_ hok hσ (Or.inr ⟨g.heap.length + 1, by omega, Or.inr rfl⟩) ?_ hrun ?_
      · simp [Act.light]
      · simp
      · simp [Grp.nodes, hpt]
      · refine acts_step hf hi.inv h0 hgi hc (by rw [hn]) ho hrun hok (by simp) hσ rfl (fun h => (hno h).elim) (by simp)
          (L := [⟨name, poolType op, "", (attr.erase "axes").erase "keepdims", [x], [o]⟩,
            ⟨fresh g.heap.length, "Const", "", [("value", .tensor ⟨7, [(spatialAxes n).length], spatialAxes n⟩)], [], [fresh g.heap.length]⟩,
            ⟨fresh (g.heap.length + 1), "Squeeze", "", [], [o, fresh g.heap.length], [outName fresh (g.heap.length + 1)]⟩])
          (by exact List.Perm.refl _) ?_ ?_ ?_ ?_
        · rw [hn]; simp [Fed]
        · simp [hplain]; exact ⟨rfl, rfl⟩
        · simp
        · intro e he hd
          rw [hn] at hd ⊢
          obtain ⟨a, ha, har⟩ := hd
          simp only [argVals, List.map_cons, List.map_nil, argVal_ne hx, List.cons.injEq, Option.some.injEq, and_true] at ha
          subst ha
          have hfe : fresh g.heap.length ≠ "" := Mine.ne hf (Or.inl rfl)
          simp only [Eqs, argVals, List.map_cons, List.map_nil, argVal_ne hx, argVal_ne ho, argVal_ne hfe, List.headD, and_true] at he ⊢
          refine poolLaw_drop P hop h3 har hax hk0 he.1 (Or.inr ⟨by omega, _, _, ?_, he.2.2⟩)
          rw [he.2.1]
          exact P.const _ ⟨7, [(spatialAxes n).length], spatialAxes n⟩ rfl rfl rfl
  · rw [if_neg hk0] at hrun
    have hok : Grp.allOk fresh o ([.setType (poolType op), .attrs (attr.erase "axes")] ++ [] ++ [.attrs ((attr.erase "axes").erase "keepdims")])
        (Grp.start (g.node r) g.heap.length o) := by
      rw [hn]; grp []
    have hσ : Grp.run fresh ([.setType (poolType op), .attrs (attr.erase "axes")] ++ [] ++ [.attrs ((attr.erase "axes").erase "keepdims")])
        (Grp.start (g.node r) g.heap.length o) =
        ⟨some ⟨name, poolType op, "", (attr.erase "axes").erase "keepdims", [x], [o]⟩, [], o, g.heap.length, [], false, false⟩ := by
      rw [hn]; grp []
    refine pool_opt hf hi h0 hn hop hx ho hrk ?_ ?_ hok hσ (Or.inl rfl) ?_ hrun ?_
    · simp [Act.light]
    · simp
    · simp [Grp.nodes, hpt]
    · refine acts_step hf hi.inv h0 hgi hc (by rw [hn]) ho hrun hok (by simp) hσ rfl (fun _ => rfl) (by simp)
        (L := [⟨name, poolType op, "", (attr.erase "axes").erase "keepdims", [x], [o]⟩]) (by exact List.Perm.refl _) ?_ ?_ ?_ ?_
      · rw [hn]; simp [Fed]
      · simp [hplain]
      · simp
      · intro e he hd
        rw [hn] at hd ⊢
        obtain ⟨a, ha, har⟩ := hd
        simp only [argVals, List.map_cons, List.map_nil, argVal_ne hx, List.cons.injEq, Option.some.injEq, and_true] at ha
        subst ha
        simp only [Eqs, argVals, List.map_cons, List.map_nil, argVal_ne hx, List.headD, and_true] at he ⊢
        rw [he]
        refine poolLaw_keep P hop h3 har hax ?_
        rcases hkd with h | ⟨k, h⟩
        · exact Or.inl h
        · refine Or.inr ⟨k, ?_, h⟩
          rintro rfl; exact hk0 h

/-- **C61 (global pooling).** If the run ends and what is recorded for the operands of reductions has the right rank, the optimized graph computes
the same outputs. -/
theorem poolOptimize_sameOn (hf : FreshTensors fresh) (P : PoolOps v R I mean max) (hi : PoolInv fresh g) {fuel : Nat}
    (h : g.poolOptimize v fresh fuel = .ok g') : SameOn I (RanksRight R g) g g' ∧ PoolInv fresh g' := by
  have hs := optLoop_spec (I := I) (Inv := PoolInv fresh) (Ok := RanksRight R) (fun g r g' hi h0 h => poolStep_spec hf P hi h0 h) fuel hi h
  exact ⟨hs.sameOn (fun g h => h.inv) hi, hs.inv⟩

end Verif.Graph
