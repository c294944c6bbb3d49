import Verif.Props.C62_Text
/-!
# C62: the handler of Einsum, cases that go wrong, examples
-/
namespace Verif.Einsum
open Verif.Tensor

variable {α : Type} [CommSemiring α]

/-! ## The handler -/

/-- When the handler takes `MatMul`: the equation is `…ik,kj->…ij` or `…ik,jk->…ij`. -/
theorem asMatmul_form {t1 t2 rhs : List Char} {b : Bool} (h : asMatmul t1 t2 rhs = some b) :
    ∃ P i j k, t1 = P ++ [i, k] ∧ rhs = P ++ [i, j] ∧ t2 = (if b then [j, k] else [k, j]) ∧ t1.Nodup ∧ t2.Nodup ∧ rhs.Nodup := by
  unfold asMatmul at h
  split at h
  · rename_i hc
    obtain ⟨n1, l1, n2, _, n3, l3, l2⟩ := hc
    have hr : rhs = rhs.take (rhs.length - 2) ++ [rhs.getD (rhs.length - 2) ' ', rhs.getD (rhs.length - 1) ' '] := by
      conv_lhs => rw [← List.take_append_drop (rhs.length - 2) rhs]
      congr 1
      apply List.ext_getElem
      · simp only [List.length_drop, List.length_cons, List.length_nil]; omega
      · intro m h1 h2
        simp only [List.length_cons, List.length_nil] at h2
        have hm : m = 0 ∨ m = 1 := by omega
        rcases hm with rfl | rfl
        · simp [List.getElem?_eq_getElem (show rhs.length - 2 < rhs.length by omega)]
        · have e : rhs.length - 2 + 1 = rhs.length - 1 := by omega
          simp [List.getElem?_eq_getElem (show rhs.length - 1 < rhs.length by omega), e]
    have ht2 : t2 = [t2.getD 0 ' ', t2.getD 1 ' '] := by
      match t2, l2 with
      | [a, c], _ => rfl
    simp only at h
    have fin : ∀ (k : Char) (b' : Bool), (decide (t1.drop (t1.length - 2) = [rhs.getD (rhs.length - 2) ' ', k]) &&
        decide (t1.take (t1.length - 2) = rhs.take (rhs.length - 2))) = true →
        t2 = (if b' then [rhs.getD (rhs.length - 1) ' ', k] else [k, rhs.getD (rhs.length - 1) ' ']) →
        ∃ P i j k, t1 = P ++ [i, k] ∧ rhs = P ++ [i, j] ∧ t2 = (if b' then [j, k] else [k, j]) ∧ t1.Nodup ∧ t2.Nodup ∧ rhs.Nodup := by
      intro k b' hk ht
      simp only [Bool.and_eq_true, decide_eq_true_eq] at hk
      refine ⟨rhs.take (rhs.length - 2), rhs.getD (rhs.length - 2) ' ', rhs.getD (rhs.length - 1) ' ', k, ?_, hr, ht, n1, n2, n3⟩
      rw [← hk.1, ← hk.2, List.take_append_drop]
    split at h
    · rename_i hj
      split at h
      · rename_i hk
        cases h
        refine fin _ true hk ?_
        rw [if_pos rfl, ← hj]
        exact ht2
      · cases h
    · split at h
      · rename_i hj
        split at h
        · rename_i hk
          cases h
          refine fin _ false hk ?_
          rw [if_neg (by simp), ← hj]
          exact ht2
        · cases h
      · cases h
  · cases h

/-- `MatMul` computes the equation. -/
theorem matmulM_einsum {dim : Char → Nat} {P : List Char} {i j k : Char} {x y y' : T α} {t2 : List Char} (h1 : (P ++ [i, k]).Nodup)
    (h3 : (P ++ [i, j]).Nodup) (hjk : k ≠ j) (hm : ∀ c, c ∈ t2 ↔ c = k ∨ c = j) (hx : x.shape = (P ++ [i, k]).map dim) (hys : y.shape = t2.map dim)
    (hy' : y'.shape = [dim k, dim j]) (hyg : ∀ σ : Char → Nat, σ k < dim k → σ j < dim j → y'.get [σ k, σ j] = y.get (t2.map σ)) :
    ∃ t, matmulM x y' = some t ∧ Same t (einsum [P ++ [i, k], t2] (P ++ [i, j]) [x, y]) := by
  have hops : Operands dim [P ++ [i, k], t2] [x, y] := .cons hx (.cons hys .nil)
  have hkP : k ∉ P := fun h => (List.nodup_append.1 h1).2.2 k h k (by simp) rfl
  have hki : i ≠ k := by
    have := (List.nodup_append.1 h1).2.1
    simpa using this
  have hknown : ∀ c ∈ P ++ [i, j], c ∈ [P ++ [i, k], t2].flatten := by
    intro c hc
    simp only [List.mem_append, List.mem_cons, List.not_mem_nil, or_false] at hc
    simp only [List.flatten_cons, List.flatten_nil, List.append_nil, List.mem_append, List.mem_cons, List.not_mem_nil, or_false, hm]
    tauto
  have hxl : x.shape.getLast? = some (dim k) := by rw [hx]; simp
  have hx2 : 2 ≤ x.shape.length := by rw [hx]; simp
  refine ⟨{ shape := x.shape.dropLast ++ [dim j], get := fun idx => ((List.range (dim k)).map
    (fun r => x.get (idx.dropLast ++ [r]) * y'.get [r, idx.getLastD 0])).sum }, ?_, ?_, fun idx hi => ?_⟩
  · unfold matmulM
    rw [hy']
    simp only
    rw [if_pos ⟨hx2, hxl⟩]
  · rw [einsum_shape hops hknown, hx]
    have e : (P ++ [i, k]).map dim = (P.map dim ++ [dim i]) ++ [dim k] := by simp
    simp only [e]
    rw [List.dropLast_concat]
    simp
  · have hil : idx.length = (P ++ [i, j]).length := by
      rw [hi.1]
      have e : (P ++ [i, k]).map dim = (P.map dim ++ [dim i]) ++ [dim k] := by simp
      simp only [hx, e]
      rw [List.dropLast_concat]
      simp
    obtain ⟨σ, hσ⟩ : ∃ σ : Char → Nat, (P ++ [i, j]).map σ = idx := ⟨_, index_map h3 hil⟩
    have hjd : σ j < dim j := by
      have := hi.2 (P.length + 1) (by rw [hx]; simp)
      rw [← hσ] at this
      simpa [hx, nth] using this
    have hg := einsum_get (out := P ++ [i, j]) hops σ
    rw [hσ] at hg
    rw [hg]
    have hperm : (summed [P ++ [i, k], t2] (P ++ [i, j])).Perm [k] := by
      refine (List.perm_ext_iff_of_nodup (List.nodup_dedup _) (List.nodup_singleton k)).2 ?_
      intro c
      rw [show (List.filter _ _).dedup = summed [P ++ [i, k], t2] (P ++ [i, j]) from rfl, summed_mem]
      simp only [List.flatten_cons, List.flatten_nil, List.append_nil, List.mem_append, List.mem_cons, List.not_mem_nil, or_false, hm]
      constructor
      · tauto
      · rintro rfl
        exact ⟨Or.inr (Or.inl rfl), by rintro (h | h | h); exacts [hkP h, hki h.symm, hjk h]⟩
    rw [sumL_perm hperm]
    simp only [sumL]
    rw [sum_range_list]
    apply Finset.sum_congr rfl
    intro r hr
    have hr := Finset.mem_range.1 hr
    have e1 : idx.dropLast ++ [r] = (P ++ [i, k]).map (upd σ k r) := by
      rw [← hσ, show (P ++ [i, j]).map σ = (P.map σ ++ [σ i]) ++ [σ j] by simp, List.dropLast_concat]
      have : P.map (upd σ k r) = P.map σ := List.map_congr_left (fun c hc => upd_ne _ _ (fun h => hkP (by rw [← h]; exact hc)))
      rw [List.map_append, this]
      simp [upd_ne σ r hki]
    have e2 : idx.getLastD 0 = σ j := by rw [← hσ]; simp
    simp only [e1, e2]
    have e3 := hyg (upd σ k r) (by simpa using hr) (by rw [upd_ne _ _ (Ne.symm hjk)]; exact hjd)
    rw [upd_self, upd_ne _ _ (Ne.symm hjk)] at e3
    simp [product, e3]

/-- **C62, the handler.** An `Einsum` of lower-case letters that becomes a `MatMul` computes the same. -/
theorem convert_matmul {dim : Char → Nat} {t1 t2 out : List Char} {x y : T α} {b : Bool} (h1 : ∀ c ∈ t1, c ∈ lower) (h2 : ∀ c ∈ t2, c ∈ lower)
    (h3 : ∀ c ∈ out, c ∈ lower) (hc : convert (text [t1, t2] out) = .matmul b) (hx : Operands dim [t1, t2] [x, y]) :
    ∃ t, runMatmul b x y = some t ∧ Same t (einsum [t1, t2] out [x, y]) := by
  have hl : ∀ t : List Char, (∀ c ∈ t, c ∈ lower) → t.map Char.toLower = t := by
    intro t ht
    conv_rhs => rw [← List.map_id t]
    exact List.map_congr_left (fun c hc => (lower_upper c (ht c hc)).2.2.1)
  have hch := fun c (hc : c ∈ lower) => alphabet_chars c (lower_upper c hc).2.2.2
  unfold convert at hc
  simp only at hc
  rw [map_text (by decide) (by decide) (by decide)] at hc
  simp only [List.map_cons, List.map_nil, hl t1 h1, hl t2 h2, hl out h3] at hc
  rw [text, splitArrow_text ?_ (fun h => (hch _ (h3 _ h)).1 rfl)] at hc
  swap
  · intro h
    rcases mem_commas h with h | h
    · exact absurd h (by decide)
    · simp only [List.flatten_cons, List.flatten_nil, List.append_nil, List.mem_append] at h
      rcases h with h | h
      · exact (hch _ (h1 _ h)).1 rfl
      · exact (hch _ (h2 _ h)).1 rfl
  simp only at hc
  rw [splitC_commas (by simp)] at hc
  swap
  · intro t ht h
    simp only [List.mem_cons, List.not_mem_nil, or_false] at ht
    rcases ht with rfl | rfl
    · exact (hch _ (h1 _ h)).2.2.1 rfl
    · exact (hch _ (h2 _ h)).2.2.1 rfl
  simp only at hc
  have hx1 : x.shape = t1.map dim := by cases hx with | cons h _ => exact h
  have hx2 : y.shape = t2.map dim := by cases hx with | cons _ h => cases h with | cons h _ => exact h
  cases hm : asMatmul t1 t2 out with
  | none => rw [hm] at hc; cases hc
  | some b' =>
    rw [hm] at hc
    cases hc
    obtain ⟨P, i, j, k, rfl, rfl, ht2, n1, n2, n3⟩ := asMatmul_form hm
    cases b with
    | false =>
      simp only [Bool.false_eq_true, if_false] at ht2
      subst ht2
      have hjk : k ≠ j := by simpa using n2
      simp only [runMatmul, Bool.false_eq_true, if_false]
      exact matmulM_einsum (y := y) (y' := y) n1 n3 hjk (fun c => by simp) hx1 hx2 (by rw [hx2]; rfl) (fun σ _ _ => rfl)
    | true =>
      simp only [if_true] at ht2
      subst ht2
      have hjk : k ≠ j := by
        have : j ≠ k := by simpa using n2
        exact this.symm
      have hp : IsPerm [1, 0] := by unfold IsPerm; decide
      simp only [runMatmul, if_true, transposeT]
      rw [if_pos ⟨hp, by rw [hx2]; rfl⟩, Option.bind_some]
      refine matmulM_einsum (y := y) (y' := transpose [1, 0] y) n1 n3 hjk (fun c => by simp [or_comm]) hx1 hx2 ?_ (fun σ _ _ => ?_)
      · simp only [transpose, hx2]
        rfl
      · simp only [transpose]
        congr 1

/-- **C62, the handler.** An `Einsum` that stays one: its letters become lower case, which is harmless unless the equation has a letter in both cases. -/
theorem convert_einsum {dim : Char → Nat} {ins : List (List Char)} {out eq' : List Char} {xs : List (T α)} (hp : Proper ins out)
    (hinj : ∀ a ∈ ins.flatten, ∀ b ∈ ins.flatten, a.toLower = b.toLower → a = b) (hc : convert (text ins out) = .einsum eq') (hx : Operands dim ins xs) :
    ∃ ins' out', eq' = text ins' out' ∧ Proper ins' out' ∧ Same (einsum ins' out' xs) (einsum ins out xs) := by
  have he : eq' = (text ins out).map Char.toLower := by
    unfold convert at hc
    simp only at hc
    split at hc
    · split at hc
      · split at hc
        · cases hc
        · cases hc; rfl
      · cases hc; rfl
    · cases hc; rfl
  obtain ⟨_, h2, h3⟩ := einsum_rename Char.toLower hinj hp hx
  exact ⟨_, _, by rw [he, map_text (by decide) (by decide) (by decide)], h2, h3⟩

/-! ## What goes wrong -/

/-- A vector and a matrix of numbers. -/
def mat2 (f : Nat → Nat → Int) (a b : Nat) : T Int := ⟨[a, b], fun i => f (nth i 0) (nth i 1)⟩

/-- **C62, violated.** Lower-casing merges letters that are different: `aA,Ab->ab`, a product of matrices, becomes `aa,ab->ab`. -/
theorem lowercase_merges_letters : ∃ (ins : List (List Char)) (out : List Char) (x y : T Int), Proper ins out ∧ Operands (fun _ => 2) ins [x, y] ∧
    ∃ ins' out', convert (text ins out) = .einsum (text ins' out') ∧
      (einsum ins' out' [x, y]).get [0, 0] ≠ (einsum ins out [x, y]).get [0, 0] := by
  refine ⟨[['a', 'A'], ['A', 'b']], ['a', 'b'], mat2 (fun _ _ => 1) 2 2, mat2 (fun i _ => i) 2 2, ⟨by decide, by decide, by decide⟩,
    .cons rfl (.cons rfl .nil), [['a', 'a'], ['a', 'b']], ['a', 'b'], by decide, by decide⟩

/-- **C62, violated.** A scalar first operand: the leading comma is stripped, the equation is read as one with a single operand, and the scalar is
the result: `,a->a` of a number and a vector has the shape of the number. -/
theorem scalar_first_operand_lost : ∃ (ins : List (List Char)) (out : List Char) (xs : List (T Int)) (s : Sub), Proper ins out ∧
    Operands (fun _ => 3) ins xs ∧ decompose (text ins out) = some s ∧
    ∃ t, s.run 13 xs = some t ∧ t.shape = [] ∧ (einsum ins out xs).shape = [3] :=
  ⟨[[], ['a']], ['a'], [⟨[], fun _ => 2⟩, ⟨[3], fun i => nth i 0⟩], .ident (.expand [] (.ident (.inp 0))),
    ⟨by decide, by decide, by decide⟩, .cons rfl (.cons rfl .nil), by decide, _, rfl, rfl, rfl⟩

/-- **C62, violated at operator set 12.** `Einsum` exists there, and so does the optimizer, but a sum needs `ReduceSum` with the axes as an operand,
which exists from operator set 13 on: no operand gives a result. -/
theorem opset_12_invalid : ∃ s, decompose (text [['a', 'b']] ['a']) = some s ∧ ∀ xs : List (T Int), s.run 12 xs = none := by
  refine ⟨.ident (.squeeze [1] (.reduceSum [1] (.expand [] (.ident (.inp 0))))), by decide, fun xs => ?_⟩
  simp only [Sub.run]
  cases (Option.map canonT xs[0]?) with
  | none => rfl
  | some t =>
    simp only [Option.bind_some]
    rw [if_pos (by decide)]
    cases unsqueezeT [] t with
    | none => rfl
    | some u => rfl

/-- Axes without elements: the product of matrices with none, `Reshape` cannot infer the length. -/
theorem empty_axis_fails : ∃ s, decompose (text [['a', 'b'], ['b', 'c']] ['a', 'c']) = some s ∧
    (s.run 13 [mat2 (fun _ _ => 1) 2 0, mat2 (fun _ _ => 1) 0 2]).isNone = true := by
  refine ⟨_, rfl, ?_⟩
  decide

/-! ## Examples -/

example : decompose (text [['a', 'b'], ['b', 'c']] ['a', 'c']) =
    some (.ident (.squeeze [1] (.transpose [0, 2, 1] (.batchDot [] [2] [0] [1] false 3
      (.transpose [0, 2, 1] (.expand [2] (.ident (.inp 0)))) (.transpose [0, 2, 1] (.expand [0] (.ident (.inp 1)))))))) := by decide
example : Proper [['a', 'b', 'c'], ['c', 'd'], ['d', 'b']] ['b', 'a'] := ⟨by decide, by decide, by decide⟩
example : Operands (fun c => if c = 'a' then 2 else 3) [['a', 'b'], ['b', 'c']] [mat2 (fun i j => i + j) 2 3, mat2 (fun i j => i * j) 3 3] :=
  .cons rfl (.cons rfl .nil)
example : lowerLetters (text [['b', 'a'], ['b', 'c']] ['a', 'c']) = ['a', 'b', 'c'] := by decide
example : candidate ['c', 'a', 'b'] (text [['a', 'b'], ['b', 'c']] ['a', 'c']) = some (text [['b', 'c'], ['c', 'a']] ['b', 'a']) := by decide
example : convert (text [['a', 'i', 'k'], ['j', 'k']] ['a', 'i', 'j']) = .matmul true := by decide
example : convert (text [['A', 'i', 'k'], ['k', 'j']] ['j', 'A', 'i']) = .einsum "aik,kj->jai".toList := by decide
example : (einsum [['a', 'b'], ['b', 'c']] ['a', 'c'] [mat2 (fun i j => i + j) 2 2, mat2 (fun i j => i * j + 1) 2 2]).get [1, 1] = 5 := by decide

end Verif.Einsum
