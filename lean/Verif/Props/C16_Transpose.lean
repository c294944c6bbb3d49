import Verif.Model.TransposeOpt
/-!
# C16: back-to-back transposes are fused correctly
-/
namespace Verif.TransposeOpt
open Verif.Tensor

/-- The tensor produced after the rewrite: what stands for the second transpose, applied to `x`. -/
def fusedResult {α : Type} (t1 t2 : List Nat) (x : T α) : T α :=
  match optimizeTranspose t1 t2 with
  | none => x
  | some perm => transpose perm x

theorem fusePerm_isPerm {t1 t2 : List Nat} (h1 : IsPerm t1) (h2 : IsPerm t2) (hl : t2.length = t1.length) :
    IsPerm (fusePerm t1 t2) := by
  apply isPerm_of_nodup
  · rw [fusePerm]
    apply List.Nodup.map_on _ h2.nodup
    intro a ha b hb hab
    have ha' := hl ▸ h2.mem.1 ha
    have hb' := hl ▸ h2.mem.1 hb
    have := congrArg t1.idxOf hab
    rwa [h1.idxOf_nth ha', h1.idxOf_nth hb'] at this
  · intro x hx
    simp only [fusePerm, List.mem_map, List.length_map] at hx ⊢
    obtain ⟨a, ha, rfl⟩ := hx
    rw [hl]
    exact h1.nth_lt (hl ▸ h2.mem.1 ha)

theorem permIdx_fuse {t1 t2 idx : List Nat} (h1 : IsPerm t1) (h2 : IsPerm t2) (hl : t2.length = t1.length)
    : permIdx t1 (permIdx t2 idx) = permIdx (fusePerm t1 t2) idx := by
  have hf := fusePerm_isPerm h1 h2 hl
  have hfl : (fusePerm t1 t2).length = t1.length := by simp [fusePerm, hl]
  apply ext_nth (by simp [hfl])
  intro j hj
  simp only [permIdx_length] at hj
  rw [nth_permIdx hj, nth_permIdx (hl ▸ h1.idxOf_lt hj), nth_permIdx (hfl ▸ hj)]
  congr 1
  have hi : t2.idxOf (t1.idxOf j) < t2.length := h2.idxOf_lt (hl ▸ h1.idxOf_lt hj)
  have hfi : t2.idxOf (t1.idxOf j) < (fusePerm t1 t2).length := by simpa [fusePerm] using hi
  rw [← hf.idxOf_nth hfi]
  congr 1
  rw [fusePerm, nth_map _ _ _ hi, h2.nth_idxOf (hl ▸ h1.idxOf_lt hj), h1.nth_idxOf hj]

theorem permIdx_range {n : Nat} {idx : List Nat} (hl : idx.length = n) : permIdx (List.range n) idx = idx := by
  apply ext_nth (by simp [hl])
  intro j hj
  simp only [permIdx_length, List.length_range] at hj
  rw [nth_permIdx (by simpa using hj)]
  congr 1
  have := (isPerm_range n).idxOf_nth (i := j) (by simpa using hj)
  rw [nth_eq _ _ (by simpa using hj)] at this
  simpa using this

/-- A transpose with the identity permutation is the identity, so `_remove_useless_tranpose`
(tf2onnx/optimizer/transpose_optimizer.py:344-346) is right. -/
theorem useless_transpose {α : Type} (perm : List Nat) (x : T α) (hl : x.shape.length = perm.length)
    (h : isUseless perm = true) : Same (transpose perm x) x := by
  have h' : perm = List.range perm.length := by simpa [isUseless] using h
  rw [h']
  refine ⟨?_, fun idx hi => ?_⟩
  · apply ext_nth (by simp [transpose, hl])
    intro i hi
    simp only [transpose, List.length_map, List.length_range] at hi
    rw [transpose, nth_map _ _ _ (by simpa using hi), nth_range hi]
  · have hil : idx.length = perm.length := by simpa [transpose] using hi.1
    simp only [transpose]
    rw [permIdx_range hil]

/-- **C16.** For every tensor and any two permutations of its axes, what `_optimize_transpose` leaves in place of two
transposes in a row produces the same tensor. -/
theorem transpose_fusion {α : Type} (t1 t2 : List Nat) (x : T α) (h1 : IsPerm t1) (h2 : IsPerm t2)
    (hl1 : x.shape.length = t1.length) (hl2 : t2.length = t1.length) :
    Same (fusedResult t1 t2 x) (transpose t2 (transpose t1 x)) := by
  have hfl : (fusePerm t1 t2).length = t1.length := by simp [fusePerm, hl2]
  have key : Same (transpose (fusePerm t1 t2) x) (transpose t2 (transpose t1 x)) := by
    refine ⟨?_, fun idx _ => ?_⟩
    · simp only [transpose, fusePerm, List.map_map]
      apply List.map_congr_left
      intro i hi
      rw [Function.comp, nth_map _ _ _ (hl2 ▸ h2.mem.1 hi)]
    · simp only [transpose]
      rw [permIdx_fuse h1 h2 hl2]
  unfold fusedResult optimizeTranspose
  split
  · rename_i h
    split at h
    · rename_i hr
      refine (useless_transpose (fusePerm t1 t2) x (hl1.trans hfl.symm) ?_).symm.trans key
      simp only [isUseless, decide_eq_true_eq]
      rw [hfl, ← hl2]; exact hr
    · cases h
  · rename_i p h
    split at h
    · cases h
    · cases h; exact key

example : optimizeTranspose [0, 2, 3, 1] [0, 3, 1, 2] = none := by decide
example : optimizeTranspose [1, 2, 0] [1, 2, 0] = some [2, 0, 1] := by decide
example : IsPerm [0, 2, 3, 1] := by unfold IsPerm; decide

/-! ## `invert_perm` -/

theorem foldl_set_nth (l : List (Nat × Nat)) (acc : List Nat) (j : Nat) (hj : j < acc.length)
    (hn : (l.map (·.1)).Nodup) :
    nth (l.foldl (fun inv pi => inv.set pi.1 pi.2) acc) j =
      match l.find? (fun pi => pi.1 = j) with | some pi => pi.2 | none => nth acc j := by
  induction l generalizing acc with
  | nil => rfl
  | cons p l ih =>
    simp only [List.map_cons, List.nodup_cons] at hn
    rw [List.foldl_cons, ih _ (by simpa using hj) hn.2, List.find?_cons]
    by_cases hp : p.1 = j
    · have : l.find? (fun pi => decide (pi.1 = j)) = none := by
        rw [List.find?_eq_none]
        intro q hq hqj
        apply hn.1
        rw [List.mem_map]
        exact ⟨q, hq, by rw [hp]; simpa using hqj⟩
      rw [this]
      subst hp
      simp [nth, hj]
    · simp only [hp, decide_false, Bool.false_eq_true]
      cases l.find? (fun pi => decide (pi.1 = j)) with
      | some q => rfl
      | none => simp [nth, hp]

/-- **`invert_perm` is the inverse permutation**: entry `j` is the position of `j`. -/
theorem invertPerm_spec (perm : List Nat) (hp : IsPerm perm) :
    invertPerm perm = (List.range perm.length).map perm.idxOf := by
  have hlen : ∀ (l : List (Nat × Nat)) (acc : List Nat),
      (l.foldl (fun inv pi => inv.set pi.1 pi.2) acc).length = acc.length := by
    intro l
    induction l with
    | nil => intro _; rfl
    | cons p l ih => intro acc; rw [List.foldl_cons, ih]; simp
  have hl : (invertPerm perm).length = perm.length := by rw [invertPerm, hlen]; simp
  apply ext_nth (by simp [hl])
  intro j hj
  rw [hl] at hj
  rw [invertPerm, foldl_set_nth _ _ _ (by simpa using hj) (by simpa using hp.nodup), nth_map_range, if_pos hj]
  have hi := hp.idxOf_lt hj
  have hm : (j, perm.idxOf j) ∈ perm.zipIdx := by
    rw [List.mem_zipIdx_iff_getElem?, List.getElem?_eq_getElem hi]
    simp
  split
  · rename_i q hq
    have h1 := List.find?_some hq
    have h2 := List.mem_of_find?_eq_some hq
    simp only [decide_eq_true_eq] at h1
    rw [List.mem_zipIdx_iff_getElem?] at h2
    obtain ⟨hlt, hv⟩ := List.getElem?_eq_some_iff.1 h2
    rw [← h1, ← hv]
    exact (hp.nodup.idxOf_getElem _ hlt).symm
  · rename_i hq
    rw [List.find?_eq_none] at hq
    exact absurd (by simp) (hq _ hm)

theorem invertPerm_length (perm : List Nat) (hp : IsPerm perm) : (invertPerm perm).length = perm.length := by
  rw [invertPerm_spec perm hp]; simp

theorem nth_invertPerm {perm : List Nat} (hp : IsPerm perm) {j : Nat} (hj : j < perm.length) :
    nth (invertPerm perm) j = perm.idxOf j := by rw [invertPerm_spec perm hp, nth_map_range, if_pos hj]

theorem invertPerm_isPerm {perm : List Nat} (hp : IsPerm perm) : IsPerm (invertPerm perm) := by
  rw [invertPerm_spec perm hp]
  apply isPerm_of_nodup
  · apply List.Nodup.map_on _ List.nodup_range
    intro a ha b hb hab
    rw [List.mem_range] at ha hb
    have := congrArg (nth perm) hab
    rwa [hp.nth_idxOf ha, hp.nth_idxOf hb] at this
  · intro x hx
    simp only [List.mem_map, List.mem_range, List.length_map, List.length_range] at hx ⊢
    obtain ⟨a, ha, rfl⟩ := hx
    exact hp.idxOf_lt ha

/-- Composing a permutation with its `invert_perm`, in either order, is recognised as a pair of transposes that
cancel. -/
theorem invertPerm_cancels (perm : List Nat) (hp : IsPerm perm) :
    optimizeTranspose perm (invertPerm perm) = none ∧ optimizeTranspose (invertPerm perm) perm = none := by
  have hl := invertPerm_length perm hp
  constructor
  · unfold optimizeTranspose
    rw [if_pos]
    rw [hl]
    apply ext_nth (by simp [fusePerm, hl])
    intro i hi
    simp only [fusePerm, List.length_map, hl] at hi
    rw [fusePerm, nth_map _ _ _ (hl ▸ hi), nth_invertPerm hp hi, hp.nth_idxOf hi]
    rw [nth_eq _ _ (by simpa using hi)]; simp
  · unfold optimizeTranspose
    rw [if_pos]
    apply ext_nth (by simp [fusePerm])
    intro i hi
    simp only [fusePerm, List.length_map] at hi
    rw [fusePerm, nth_map _ _ _ hi, nth_invertPerm hp (hp.nth_lt hi), hp.idxOf_nth hi]
    rw [nth_eq _ _ (by simpa using hi)]; simp

example : invertPerm [0, 2, 3, 1] = [0, 3, 1, 2] := by decide

end Verif.TransposeOpt
