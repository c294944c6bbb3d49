import Verif.Props.C61_Pool
/-!
# C61: upsampling by one
-/
namespace Verif.Tensor
open Verif

theorem ratFloor_nat (k : Nat) : ((k : Rat).floor).toNat = k := by
  have : (k : Rat).floor = (k : Int) := Rat.floor_intCast k
  rw [this]; rfl

theorem nearest_interpolates {α : Type} : Interpolates (nearest (α := α)) := by
  intro x idx _
  simp only [nearest, List.map_map]
  congr 1
  conv_rhs => rw [← List.map_id idx]
  apply List.map_congr_left
  intro k _
  simp [ratFloor_nat]

/-- **Upsampling by one on every axis changes nothing**, in any mode. -/
theorem upsample_one {α : Type} {interp : T α → List Rat → α} (hi : Interpolates interp) {s : List Rat} (hs : ∀ q ∈ s, q = 1) (x : T α) :
    Same (upsample interp s x) x := by
  have h1 : ∀ i, s.getD i 1 = 1 := by
    intro i
    rw [List.getD_eq_getElem?_getD]
    cases h : s[i]? with
    | none => rfl
    | some q => exact hs q (List.mem_of_getElem? h)
  have hsh : (upsample interp s x).shape = x.shape := by
    simp only [upsample, h1, mul_one]
    apply List.ext_getElem
    · simp
    · intro i h h'
      simp [nth, h', ratFloor_nat]
  refine ⟨hsh, fun idx hidx => ?_⟩
  rw [hsh] at hidx
  simp only [upsample, h1, div_one]
  rw [← hi x idx hidx]
  congr 1
  apply List.ext_getElem
  · simp [hidx.1]
  · intro i h h'
    have : i < idx.length := by simpa using h'
    simp [nth, this]

end Verif.Tensor

namespace Verif.Graph
open Verif Verif.Tensor

variable {V α : Type} {v : Nat} {R : Reading V α} {I : Interp V} {fresh : Nat → String} {g g' : G} {r : Ref}
  {floats : V → Option (List Rat)} {decode : Tensor → Option (List Rat)} {interp : T α → List Rat → α} {isOne : Tensor → Bool}

/-- `Upsample` of the ONNX operator set `v`. -/
def UpsampleShape (v : Nat) (n : Node) : Prop :=
  n.op = "Upsample" → n.domain = "" ∧ (∃ x xs o, n.input = x :: xs ∧ n.output = [o] ∧ x ≠ "" ∧ o ≠ "" ∧ "" ∉ xs ∧ (v ≤ 8 → xs = []))

/-- Constants. -/
def ConstShape (n : Node) : Prop := n.isConst = true → n.op = "Const" ∧ n.domain = "" ∧ n.input = [] ∧ ∃ c, n.output = [c]

structure UpInv (v : Nat) (fresh : Nat → String) (g : G) : Prop where
  inv : HInv fresh g
  shape : ∀ q ∈ g.nodes, UpsampleShape v (g.node q)
  consts : ∀ q ∈ g.nodes, ConstShape (g.node q)

theorem up_opt (hf : FreshTensors fresh) (hi : UpInv v fresh g) (h0 : r ∈ g.nodes) {name x o : String} {xs ys : List String} {attr : Dict String Attr}
    (hn : g.node r = ⟨name, "Upsample", "", attr, x :: xs, [o]⟩) (hx : x ≠ "") (ho : o ≠ "") {as : List Act} (has : as = [.setType "Identity"] ∧ ys = x :: xs ∧ xs = [] ∨
      as = [.setType "Identity", .rawInputs [x]] ∧ ys = [x])
    (law : ∀ env e, Sat I env e g.nodeList → e x = I "Upsample" "" attr ((x :: xs).map (argVal e)) 0)
    (hid : ∀ a, I "Identity" "" attr [some a] 0 = a)
    (h : G.runActs fresh g r as g = .ok g') : OptStep I (UpInv v fresh) (fun _ _ => True) g g' := by
  have hgi : (g.node r).isGraphInput = false := by rw [hn]; rfl
  have hc : (g.node r).op ≠ "Const" := by rw [hn]; simp
  have hout : (g.node r).output = [o] := by rw [hn]
  have hys : ys = [x] := by rcases has with ⟨-, h, h'⟩ | ⟨-, h⟩ <;> simp [*]
  have hok : Grp.allOk fresh o as (Grp.start (g.node r) g.heap.length o) := by
    rcases has with ⟨rfl, -⟩ | ⟨rfl, -⟩ <;> (rw [hn]; grp [])
  have hσ : Grp.run fresh as (Grp.start (g.node r) g.heap.length o) =
      ⟨some ⟨name, "Identity", "", attr, [x], [o]⟩, [], o, g.heap.length, [], false, false⟩ := by
    rcases has with ⟨rfl, h1, rfl⟩ | ⟨rfl, -⟩ <;> (rw [hn]; grp [])
  have hown : (∃ xs, .inputs xs ∈ as) → ∀ q ∈ g.nodes, (g.node q).name ∉ (g.node q).input := by
    rcases has with ⟨rfl, -⟩ | ⟨rfl, -⟩ <;> simp
  have hs : ConvStep I (fun args => ∀ a, args.head? = some (some a) → I "Upsample" "" attr args 0 = a) fresh g r g' := by
    refine acts_step hf hi.inv h0 hgi hc hout ho h hok hown hσ rfl (fun _ => rfl) (by simp)
      (L := [⟨name, "Identity", "", attr, [x], [o]⟩]) (by exact List.Perm.refl _) ?_ ?_ ?_ ?_
    · rw [hn]; simp [Fed]
    · simp; rfl
    · simp
    · intro e he hd
      rw [hn] at hd ⊢
      simp only [Eqs, argVals, List.map_cons, List.map_nil, argVal_ne hx, List.headD, and_true, hid] at he hd ⊢
      rw [hd (e x) (by simp), he]
  obtain ⟨hlen, hold, hmem⟩ := acts_nodes hf hi.inv h0 hgi hc hout ho h hok hown hσ
  have hsame : ∀ q ∈ g.nodes, q ≠ r → g'.node q = g.node q := by
    intro q hq hqr
    rw [(hold q hq hqr).2]
    have hfn : (fun x => if x = o then o else x) = (id : String → String) := by
      funext y; by_cases e : y = o <;> simp [e]
    simp [Node.mapIn, hfn]
  refine ⟨⟨hs.inv, ?_, ?_⟩, hs.outputs, ?_, ?_⟩
  · intro q hq
    rcases hmem q hq with ⟨a, b⟩ | h
    · rw [hsame q a b]; exact hi.shape q a
    · simp only [Grp.nodes, Option.toList_some, List.map_nil, List.append_nil, List.mem_singleton] at h
      rw [h]; intro h; simp at h
  · intro q hq
    rcases hmem q hq with ⟨a, b⟩ | h
    · rw [hsame q a b]; exact hi.consts q a
    · simp only [Grp.nodes, Option.toList_some, List.map_nil, List.append_nil, List.mem_singleton] at h
      rw [h]; intro h; simp [Node.isConst] at h
  · rw [hs.inputs]
    apply List.map_congr_left
    intro q hq
    have hqr : q ≠ r := by
      rintro rfl
      have := hi.inv.inputs q hq
      rw [hgi] at this; cases this
    rw [hsame q (hi.inv.inputsIn q hq) hqr]
  · intro env e he _
    obtain ⟨e', h1, h2, -⟩ := hs.run env e he (by
      rw [hn]
      intro a ha
      simp only [argVals, List.map_cons, List.head?_cons, argVal_ne hx, Option.some.injEq] at ha
      rw [← ha]
      exact (law env e he).symm)
    exact ⟨e', h1, h2, trivial⟩

theorem upsampleStep_spec (hf : FreshTensors fresh) (P : UpsampleOps v R I floats decode interp) (hint : Interpolates interp)
    (hone : ∀ W, isOne W = true → ∃ s, decode W = some s ∧ ∀ q ∈ s, q = 1) (hi : UpInv v fresh g) (h0 : r ∈ g.nodes)
    (h : upsampleStep v fresh isOne g r = .ok (some g')) : OptStep I (UpInv v fresh) (fun _ _ => True) g g' := by
  unfold upsampleStep at h
  split at h
  case isFalse => cases h
  rename_i hop
  split at h
  · cases h
  · cases h
  rename_i as has
  split at h
  · cases h
  rename_i g1 hrun
  cases h
  obtain ⟨hdom, x, xs, o, hin, hou, hx, ho, hxe, hv8⟩ := hi.shape r h0 hop
  obtain ⟨name, attr, hn⟩ : ∃ name attr, g.node r = ⟨name, "Upsample", "", attr, x :: xs, [o]⟩ :=
    ⟨(g.node r).name, (g.node r).attr, by rw [← hin, ← hou, ← hdom, ← hop]⟩
  unfold upsampleActs at has
  rw [hn] at has
  dsimp only at has
  split at has
  · rename_i hv
    obtain rfl := hv8 hv
    split at has
    · rename_i W hW
      split at has
      · rename_i hc
        cases has
        obtain ⟨s, hs, hs1⟩ := hone W hc.2
        refine up_opt hf hi h0 hn hx ho (ys := [x]) (Or.inl ⟨rfl, rfl, rfl⟩) ?_ (P.identity attr) hrun
        intro env e he
        simp only [List.map_cons, List.map_nil, argVal_ne hx]
        apply R.ext
        exact Tensor.Same.symm ((P.scalesAttr attr W s _ hv hW hs).trans (upsample_one hint hs1 _))
      · cases has
    · cases has
  · rename_i hv
    split at has
    case h_2 => cases has
    rename_i x' c hxs
    obtain ⟨rfl, rfl⟩ : x = x' ∧ xs = [c] := by simpa using hxs
    split at has
    · cases has
    rename_i q hq
    split at has
    case isFalse => cases has
    rename_i hqc
    split at has
    case h_2 => cases has
    rename_i W hW
    split at has
    case isFalse => cases has
    rename_i hw1
    cases has
    obtain ⟨s, hs, hs1⟩ := hone W hw1
    refine up_opt hf hi h0 hn hx ho (ys := [x]) (Or.inr ⟨rfl, rfl⟩) ?_ (P.identity attr) hrun
    intro env e he
    have hce : c ≠ "" := by
      rintro rfl
      exact hxe (by simp)
    obtain ⟨hqm, hqo⟩ := (hi.inv.reach.wf.getNodeByOutput hce q).1 hq
    obtain ⟨k1, k2, k3, d, k4⟩ := hi.consts q hqm hqc
    have hd : c = d := by rw [k4] at hqo; simpa using hqo
    subst hd
    have hcv : e c = I "Const" "" (g.node q).attr [] 0 := by
      have := he.1 (g.node q) (List.mem_map.2 ⟨q, hqm, rfl⟩) 0 c (by rw [k4]; rfl) hce
      have hq : (g.node q).isGraphInput = false := by
        simp [Node.isGraphInput, k1]
      simpa [NodeSat, hq, k1, k2, k3, argVals] using this
    simp only [List.map_cons, List.map_nil, argVal_ne hx, argVal_ne hce]
    apply R.ext
    exact Tensor.Same.symm ((P.scalesIn attr s _ _ (by omega) (by rw [hcv, P.const _ _ hW, hs])).trans (upsample_one hint hs1 _))

/-- **C61 (upsampling).** If the pass ends, the graph computes the same outputs. -/
theorem upsampleOptimize_sameOn (hf : FreshTensors fresh) (P : UpsampleOps v R I floats decode interp) (hint : Interpolates interp)
    (hone : ∀ W, isOne W = true → ∃ s, decode W = some s ∧ ∀ q ∈ s, q = 1) (hi : UpInv v fresh g) {fuel : Nat}
    (h : g.upsampleOptimize v fresh isOne fuel = .ok g') : SameOn I (fun _ => True) g g' ∧ UpInv v fresh g' := by
  unfold G.upsampleOptimize at h
  cases hp : G.optPass (upsampleStep v fresh isOne) fuel g 0 false with
  | error m => rw [hp] at h; cases h
  | ok p =>
    rw [hp] at h
    cases h
    have hs := optPass_spec (I := I) (Inv := UpInv v fresh) (Ok := fun _ _ => True)
      (fun g r g' hi h0 h => upsampleStep_spec hf P hint hone hi h0 h) fuel hi hp
    exact ⟨hs.sameOn (fun g h => h.inv) hi, hs.inv⟩

end Verif.Graph
