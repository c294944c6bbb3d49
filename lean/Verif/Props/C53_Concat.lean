import Verif.Props.C53_Shape
import Mathlib.Data.List.Induction
/-!
# C53: `Concat`, `ConcatV2`
-/
namespace Verif.Graph
open Verif Verif.Elem Verif.Cast

variable {v : Nat} {I : Interp (Ten Val)} {A : Arr} {K T : Kern Val} {cast : DT → Val → Val}
  {fresh : Nat → String} {g g' : G} {r : Ref} {name op op' : String} {attr attr' : Dict String Attr} {x y c o : String} {xs xs' ys : List String}
  {t t' : DT} {W : Tensor}

/-- The axis that is written means the same dimension and is not negative. -/
theorem concatAxis_ok {rank : Option Nat} {z z' : Int} {n : Nat} (h : concatAxis rank z = .ok z') (hr : ∀ m, rank = some m → m = n) (hz : AxisOk n z) :
    OnnxAxis v n z' ∧ axisOf n z' = axisOf n z := by
  unfold concatAxis at h
  by_cases e : z < 0
  · rw [if_pos e] at h
    cases rank with
    | none => cases h
    | some m =>
      obtain rfl := hr m rfl
      simp only [Except.ok.injEq] at h
      have : z' = normAxis m z := by rw [← h, normAxis, if_pos e]; omega
      rw [this]
      exact ⟨⟨hz.norm.2, fun _ => hz.norm.1⟩, axisOf_norm hz⟩
  · rw [if_neg e] at h
    simp only [Except.ok.injEq] at h
    subst h
    exact ⟨⟨hz, fun _ => by omega⟩, rfl⟩

/-- The values of several tensors. -/
theorem argVals_map {V : Type} {e : String → V} {as : List V} (h : ys.map (argVal e) = as.map some) :
    as = ys.map e ∧ ∀ y ∈ ys, argVal e y = some (e y) := by
  induction ys generalizing as with
  | nil => cases as <;> simp at h ⊢
  | cons y ys ih =>
    cases as with
    | nil => simp at h
    | cons a as =>
      simp only [List.map_cons, List.cons.injEq] at h
      obtain ⟨h1, h2⟩ := ih h.2
      obtain ⟨-, h3⟩ := argVal_some h.1
      refine ⟨by rw [h1, ← h3, List.map_cons], ?_⟩
      intro z hz
      rcases List.mem_cons.1 hz with rfl | hz
      · rw [h.1, h3]
      · exact h2 z hz

/-- The parts of a concatenation: same type and rank. -/
def Parts (t : DT) (n : Nat) (as : List (Ten Val)) : Prop := as ≠ [] ∧ ∀ a ∈ as, a.rank = n ∧ a.dt = t

/-- **`Concat`** (the axis comes first), from operator set 8 on. -/
theorem concat_converts (on : OnnxAxisOps v I A) (tf : TfAxisOps I A) (co : ConstOps I) (hf : FreshTensors fresh)
    (S : Site fresh g r name "Concat" attr (c :: y :: ys) o) {z : Int} (hw : IsInt W t' z) (hc : ConstIn g c W) (ht : moveTypes v t = true)
    (h : G.handle fresh concatActs g r = .ok g') :
    ConvStep I (fun args => ∃ ax as n, args = some ax :: as.map some ∧ Parts t n as ∧ AxisOk n z ∧ RankOk g y n) fresh g r g' := by
  cases hz : concatAxis (g.rankOf y) z with
  | error m =>
    have : concatActs g r = .error m := by
      have h2 : (g.node r).input = c :: y :: ys := by rw [S.node]
      simp [concatActs, S.constAt (i := 0) rfl hc, hw.int, h2, hz, bind, Except.bind]
    simp [G.handle, this, bind, Except.bind] at h
  | ok z' =>
  refine self_step hf S (handle_run h (as := [.setType "Concat", .dropInput 0, .setAttr "axis" (.int z')]) ?_) ?_
    (by simp) (op' := "Concat") (attr' := attr.set "axis" (.int z')) (xs' := y :: ys) (miss := [c]) (top := false) ?_ ?_ ?_ (by decide) ?_
  · have h2 : (g.node r).input = c :: y :: ys := by rw [S.node]
    simp [concatActs, S.constAt (i := 0) rfl hc, hw.int, h2, hz, bind, Except.bind]
  · grp []
  · grp []
  · intro i hi _
    rw [List.mem_singleton.1 hi]
    exact hc.out
  · intro i hi; exact List.mem_cons_of_mem _ hi
  · rintro env e hs ⟨ax, as, n, hargs, ⟨hne, hp⟩, hax, hrk⟩
    obtain ⟨h0, h1⟩ := List.cons.inj hargs
    obtain ⟨-, h3⟩ := argVal_some h0
    have hh := (hc.val co hs hw.vec).2.2
    rw [hw.2.2, h3] at hh
    obtain ⟨k1, k2⟩ := concatAxis_ok (v := v) hz hrk hax
    rw [hargs]
    show I "Concat" "" _ ((y :: ys).map (argVal e)) 0 = _
    have h1 : (y :: ys).map (argVal e) = as.map some := h1
    rw [h1, on.concat _ z' as n t (by simp) hne hp k1 ht, k2, tf.concat _ ax z as n hh hne (fun a ha => (hp a ha).1) hax]

/-! ## ConcatV2 -/

/-- Positions of the elements with `p`, last first. -/
def slots (p : String → Bool) (xs : List String) : List Nat := ((List.range xs.length).filter (fun i => p (xs.getD i ""))).reverse

theorem slots_snoc (p : String → Bool) (xs : List String) (x : String) :
    slots p (xs ++ [x]) = (if p x then [xs.length] else []) ++ slots p xs := by
  have hinit : (List.range xs.length).filter (fun i => p ((xs ++ [x]).getD i "")) = (List.range xs.length).filter (fun i => p (xs.getD i "")) := by
    refine List.filter_congr fun i hi => ?_
    rw [List.mem_range] at hi
    simp [List.getD, List.getElem?_append_left hi]
  unfold slots
  rw [List.length_append, List.length_singleton, List.range_succ, List.filter_append, hinit, List.reverse_append]
  congr 1
  by_cases e : p x = true <;> simp [e]

/-- Dropping the slots with `p`, last first. -/
theorem run_drops (fresh : Nat → String) (o : String) (p : String → Bool) (n : Node) (news : List (Ref × Node)) (out : String) (len : Nat) (lost top : Bool)
    (xs : List String) : ∀ (ys : List String) (miss : List String) (rest : List Act), ∃ miss', (∀ i ∈ miss', i ∈ miss ∨ p i = true) ∧
      Grp.run fresh ((slots p xs).map .dropInput ++ rest) ⟨some { n with input := xs ++ ys }, news, out, len, miss, lost, top⟩ =
        Grp.run fresh rest ⟨some { n with input := xs.filter (fun x => !p x) ++ ys }, news, out, len, miss', lost, top⟩ ∧
      (Grp.allOk fresh o rest ⟨some { n with input := xs.filter (fun x => !p x) ++ ys }, news, out, len, miss', lost, top⟩ →
        Grp.allOk fresh o ((slots p xs).map .dropInput ++ rest) ⟨some { n with input := xs ++ ys }, news, out, len, miss, lost, top⟩) := by
  induction xs using List.reverseRecOn with
  | nil => intro ys miss rest; exact ⟨miss, fun i hi => Or.inl hi, rfl, id⟩
  | append_singleton xs x ih =>
    intro ys miss rest
    rw [slots_snoc]
    by_cases e : p x = true
    · obtain ⟨miss', h1, h2, h3⟩ := ih ys (miss ++ [x]) rest
      have e1 : (xs ++ [x]).filter (fun x => !p x) ++ ys = xs.filter (fun x => !p x) ++ ys := by simp [e]
      have e2 : (xs ++ x :: ys).eraseIdx xs.length = xs ++ ys := by
        rw [List.eraseIdx_append_of_length_le (Nat.le_refl _)]
        simp
      have e4 : Grp.act fresh ⟨some { n with input := xs ++ [x] ++ ys }, news, out, len, miss, lost, top⟩ (.dropInput xs.length) =
          ⟨some { n with input := xs ++ ys }, news, out, len, miss ++ [x], lost, top⟩ := by
        simp [Grp.act, Grp.input, e2]
      refine ⟨miss', ?_, ?_, ?_⟩
      · intro i hi
        rcases h1 i hi with h1 | h1
        · rcases List.mem_append.1 h1 with h1 | h1
          · exact Or.inl h1
          · rw [List.mem_singleton] at h1
            exact Or.inr (by rw [h1]; exact e)
        · exact Or.inr h1
      · rw [e1, ← h2]
        simp only [e, if_true, List.cons_append, List.nil_append, List.map_cons, Grp.run, e4]
      · rw [e1]
        intro h
        have := h3 h
        simp only [e, if_true, List.cons_append, List.nil_append, List.map_cons]
        refine ⟨rfl, ?_⟩
        rw [e4]
        exact this
    · obtain ⟨miss', h1, h2, h3⟩ := ih (x :: ys) miss rest
      have e1 : (xs ++ [x]).filter (fun x => !p x) ++ ys = xs.filter (fun x => !p x) ++ x :: ys := by simp [e]
      have e2 : xs ++ [x] ++ ys = xs ++ x :: ys := by simp
      refine ⟨miss', h1, ?_, ?_⟩
      · rw [e1, e2, ← h2]
        simp [e]
      · rw [e1, e2]
        intro h
        simpa [e] using h3 h

/-- Parts that are empty along the axis may be left out. -/
theorem concat_filter (al : ArrLaws A) {k : Nat} {p : String → Bool} {e : String → Ten Val} : ∀ (ys : List String) (pre : List (Ten Val)),
    (∀ a ∈ pre ++ ys.map e, ∀ b ∈ pre ++ ys.map e, a.dt = b.dt ∧ a.rank = b.rank ∧ ∀ j, j ≠ k → a.size j = b.size j) →
    (∀ y ∈ ys, p y = true → (e y).size k = 0) → pre ++ (ys.filter (fun y => !p y)).map e ≠ [] →
    A.concat k (pre ++ ys.map e) = A.concat k (pre ++ (ys.filter (fun y => !p y)).map e)
  | [], pre, _, _, _ => rfl
  | y :: ys, pre, hc, hz, hne => by
    by_cases hp : p y = true
    · have hf : (y :: ys).filter (fun y => !p y) = ys.filter (fun y => !p y) := by simp [hp]
      rw [hf] at hne ⊢
      have hne' : pre ++ ys.map e ≠ [] := by
        intro h0
        rw [List.append_eq_nil_iff, List.map_eq_nil_iff] at h0
        rw [h0.1, h0.2] at hne
        exact hne rfl
      rw [List.map_cons, al.drop k pre (e y) (ys.map e) (hz y (by simp) hp) hne' (fun b hb => ?_)]
      · refine concat_filter al ys pre (fun a ha b hb => ?_) (fun y hy => hz y (by simp [hy])) hne
        refine hc a ?_ b ?_
        · rcases List.mem_append.1 ha with h | h
          · exact List.mem_append_left _ h
          · exact List.mem_append_right _ (List.mem_cons_of_mem _ h)
        · rcases List.mem_append.1 hb with h | h
          · exact List.mem_append_left _ h
          · exact List.mem_append_right _ (List.mem_cons_of_mem _ h)
      · refine hc b ?_ (e y) (by simp)
        rcases List.mem_append.1 hb with h | h
        · exact List.mem_append_left _ h
        · exact List.mem_append_right _ (List.mem_cons_of_mem _ h)
    · have hf : (y :: ys).filter (fun y => !p y) = y :: ys.filter (fun y => !p y) := by simp [hp]
      rw [hf] at hne ⊢
      have := concat_filter al (p := p) (e := e) ys (pre ++ [e y]) (by simpa using hc) (fun y hy => hz y (by simp [hy])) (by simp)
      simpa using this

/-- The parts of `ConcatV2`: type, rank, the same sizes in the other dimensions; the constants without elements are empty along the axis, and they are not
all. -/
structure V2Parts (g : G) (ys : List String) (t : DT) (n : Nat) (z : Int) (as : List (Ten Val)) : Prop where
  rank : ∀ a ∈ as, a.rank = n ∧ a.dt = t
  axis : AxisOk n z
  sizes : ∀ a ∈ as, ∀ b ∈ as, ∀ j, j ≠ axisOf n z → a.size j = b.size j
  empty : ∀ (i : Nat) (y : String) (a : Ten Val), ys[i]? = some y → as[i]? = some a → g.emptyConst y = true → a.size (axisOf n z) = 0
  known : ∀ y ∈ ys, g.emptyConst y = false → RankOk g y n

theorem slots_empty (g : G) (xs : List String) : g.emptySlots xs = slots g.emptyConst xs := rfl

theorem ConstIn.lookup (S : Site fresh g r name op attr xs o) (h : ConstIn g x W) :
    ∃ q, g.getNodeByOutput x = some q ∧ (g.node q).op = "Const" ∧ (g.node q).tensorValue = some W := by
  obtain ⟨hne, q, hq, nm, dom, attr', hn, -, ha⟩ := h
  exact ⟨q, (S.inv.reach.wf.getNodeByOutput hne q).2 ⟨hq, by rw [hn]; simp⟩, by rw [hn], by simp [hn, Node.tensorValue, ha]⟩

/-- **`ConcatV2`** (the axis comes last), from operator set 8 on. Constants without elements are left out. -/
theorem concatV2_converts_partial (on : OnnxAxisOps v I A) (tf : TfAxisOps I A) (co : ConstOps I) (al : ArrLaws A) (hf : FreshTensors fresh)
    (S : Site fresh g r name "ConcatV2" attr (ys ++ [c]) o) {z : Int} (hw : IsInt W t' z) (hc : ConstIn g c W)
    (hsome : ∃ y ∈ ys, g.emptyConst y = false) (ht : moveTypes v t = true) (h : G.handle fresh concatV2Acts g r = .ok g') :
    ConvStep I (fun args => ∃ ax as n, args = as.map some ++ [some ax] ∧ as.length = ys.length ∧ V2Parts g ys t n z as) fresh g r g' := by
  obtain ⟨q, hq, hqc, hqv⟩ := hc.lookup S
  have hce : g.emptyConst c = false := by simp [G.emptyConst, hq, hqc, hqv, hw.2.2]
  set zs := ys.filter (fun y => !g.emptyConst y) with hzs
  have hfil : (ys ++ [c]).filter (fun y => !g.emptyConst y) = zs ++ [c] := by simp [hzs, hce]
  have h2 : (g.node r).input = ys ++ [c] := by rw [S.node]
  have hz0 : zs ≠ [] := by
    obtain ⟨y, hy, hye⟩ := hsome
    exact List.ne_nil_of_mem (List.mem_filter.2 ⟨hy, by simp [hye]⟩)
  cases hz : concatAxis (zs.findSome? g.rankOf) z with
  | error m =>
    have : concatV2Acts g r = .error m := by
      simp [concatV2Acts, h2, hfil, hq, hqc, hqv, hw.int, hz, bind, Except.bind, -List.filter_append]
    simp [G.handle, this, bind, Except.bind] at h
  | ok z' =>
  obtain ⟨miss, hm1, hm2, hm3⟩ := run_drops fresh o g.emptyConst ⟨name, "Concat", "", attr, [], [o]⟩ [] o g.heap.length false false (ys ++ [c]) [] []
    [.dropInput zs.length, .setAttr "axis" (.int z')]
  rw [List.append_nil, List.append_nil, hfil] at hm2 hm3
  have hlen : (zs ++ [c]).eraseIdx zs.length = zs := by
    rw [List.eraseIdx_append_of_length_le (Nat.le_refl _)]
    simp
  have hget : (zs ++ [c])[zs.length]? = some c := by simp
  refine self_step hf S (handle_run h (as := .setType "Concat" :: ((slots g.emptyConst (ys ++ [c])).map .dropInput ++
    [.dropInput zs.length, .setAttr "axis" (.int z')])) ?_) ?_ ?_ (op' := "Concat") (attr' := attr.set "axis" (.int z')) (xs' := zs) (miss := miss ++ [c])
    (top := false) ?_ ?_ ?_ (by decide) ?_
  · simp [concatV2Acts, h2, hfil, hq, hqc, hqv, hw.int, hz, bind, Except.bind, slots_empty, -List.filter_append]
  · refine ⟨rfl, rfl, hm3 ?_⟩
    exact ⟨rfl, rfl, trivial⟩
  · rintro ⟨l, hl⟩
    simp at hl
  · show Grp.run fresh ((slots g.emptyConst (ys ++ [c])).map .dropInput ++ [.dropInput zs.length, .setAttr "axis" (.int z')]) _ = _
    refine hm2.trans ?_
    simp [Grp.run, Grp.act, Grp.input, hlen]
  · intro i hi hin
    rcases List.mem_append.1 hi with hi | hi
    · rcases hm1 i hi with h | h
      · cases h
      · have := (List.mem_filter.1 hin).2
        simp [h] at this
    · rw [List.mem_singleton.1 hi]
      exact hc.out
  · intro i hi
    exact List.mem_append_left _ (List.mem_filter.1 hi).1
  · rintro env e hs ⟨ax, as, n, hargs, hlen', P⟩
    rw [List.map_append] at hargs ⊢
    obtain ⟨h0, h1⟩ := List.append_inj hargs (by simp [hlen'])
    obtain ⟨rfl, hvals⟩ := argVals_map h0
    obtain ⟨-, h3⟩ := argVal_some (List.cons.inj h1).1
    have hh := (hc.val co hs hw.vec).2.2
    rw [hw.2.2, h3] at hh
    have hknown : ∀ m, zs.findSome? g.rankOf = some m → m = n := by
      intro m hm
      obtain ⟨y, hy, hr⟩ := List.exists_of_findSome?_eq_some hm
      obtain ⟨hy1, hy2⟩ := List.mem_filter.1 hy
      exact P.known y hy1 (by simpa using hy2) m hr
    obtain ⟨k1, k2⟩ := concatAxis_ok (v := v) hz hknown P.axis
    have hzv : zs.map (argVal e) = (zs.map e).map some := by
      rw [List.map_map]
      exact List.map_congr_left fun y hy => hvals y (List.mem_filter.1 hy).1
    have hall : ∀ y ∈ ys, (e y).rank = n ∧ (e y).dt = t := fun y hy => P.rank _ (List.mem_map_of_mem hy)
    rw [h0, h1, hzv, on.concat _ z' (zs.map e) n t (by simp) (by simpa using hz0) ?_ k1 ht, k2,
      tf.concatV2 _ ax z (ys.map e) n hh (by obtain ⟨y, hy, -⟩ := hsome; exact List.ne_nil_of_mem (List.mem_map_of_mem hy)) (fun a ha => (P.rank a ha).1) P.axis]
    · refine (concat_filter al (p := g.emptyConst) (e := e) ys [] ?_ ?_ (by simpa using hsome)).symm
      · intro a ha b hb
        rw [List.nil_append] at ha hb
        exact ⟨(P.rank a ha).2.trans (P.rank b hb).2.symm, (P.rank a ha).1.trans (P.rank b hb).1.symm, P.sizes a ha b hb⟩
      · intro y hy hp
        obtain ⟨i, hi⟩ := List.getElem?_of_mem hy
        exact P.empty i y (e y) hi (by rw [List.getElem?_map, hi]; rfl) hp
    · intro a ha
      obtain ⟨y, hy, rfl⟩ := List.mem_map.1 ha
      exact hall y (List.mem_filter.1 hy).1

end Verif.Graph
