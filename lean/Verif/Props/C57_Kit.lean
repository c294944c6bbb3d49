import Verif.Model.Conv
import Verif.Props.C30_Padding
import Verif.Props.EmitKit
/-!
# C57, C58: layouts and windows
-/
namespace Verif.Conv
open Verif.Tensor Verif.Nn Verif.Emit

variable {α β : Type}

/-! ## Components -/

theorem mk_length (last : Bool) (n : Nat) (sp : List Nat) (c : Nat) : (mk last n sp c).length = sp.length + 2 := by
  cases last <;> simp [mk]

@[simp] theorem nth_mk_zero (last : Bool) (n : Nat) (sp : List Nat) (c : Nat) : nth (mk last n sp c) 0 = n := by
  cases last <;> rfl

theorem nth_append_left {a b : List Nat} {i : Nat} (h : i < a.length) : nth (a ++ b) i = nth a i := by
  unfold nth; rw [List.getD_eq_getElem?_getD, List.getElem?_append_left h, ← List.getD_eq_getElem?_getD]

theorem nth_append_right {a b : List Nat} {i : Nat} (h : a.length ≤ i) : nth (a ++ b) i = nth b (i - a.length) := by
  unfold nth; rw [List.getD_eq_getElem?_getD, List.getElem?_append_right h, ← List.getD_eq_getElem?_getD]

theorem spOf_mk (last : Bool) (n : Nat) (sp : List Nat) (c : Nat) {i : Nat} (h : i < sp.length) : spOf last (mk last n sp c) i = nth sp i := by
  cases last
  · rfl
  · exact nth_append_left h

theorem chOf_mk (last : Bool) (n : Nat) (sp : List Nat) (c : Nat) : chOf last sp.length (mk last n sp c) = c := by
  cases last
  · rfl
  · show nth (sp ++ [c]) sp.length = c
    rw [nth_append_right (Nat.le_refl _)]
    simp [nth]

/-- Every multi-index has these components. -/
theorem exists_mk (last : Bool) {m : Nat} {idx : List Nat} (h : idx.length = m + 2) : ∃ n sp c, sp.length = m ∧ idx = mk last n sp c := by
  cases last
  · match idx, h with
    | n :: c :: sp, h => exact ⟨n, sp, c, by simpa using h, rfl⟩
  · match idx, h with
    | n :: l, h =>
      have hl : l ≠ [] := by intro e; simp [e] at h
      refine ⟨n, l.dropLast, l.getLast hl, by simp at h ⊢; omega, ?_⟩
      show n :: l = n :: (l.dropLast ++ [l.getLast hl])
      rw [List.dropLast_append_getLast]

theorem inB_mk {last : Bool} {n n' c c' : Nat} {sp sp' : List Nat} (hl : sp'.length = sp.length) :
    InB (mk last n sp c) (mk last n' sp' c') ↔ n' < n ∧ InB sp sp' ∧ c' < c := by
  cases last
  · show InB (n :: c :: sp) (n' :: c' :: sp') ↔ _
    rw [inB_cons, inB_cons]
    tauto
  · show InB (n :: (sp ++ [c])) (n' :: (sp' ++ [c'])) ↔ _
    rw [inB_cons, inB_append hl, inB_one]

/-! ## The transposes -/

theorem first_map (m n : Nat) (sp : List Nat) (c : Nat) (h : sp.length = m) :
    (channelsFirstPermutation m).map (nth (mk true n sp c)) = mk false n sp c := by
  subst h
  show nth (n :: (sp ++ [c])) 0 :: nth (n :: (sp ++ [c])) (sp.length + 1) :: (List.range' 1 sp.length).map (nth (n :: (sp ++ [c]))) = n :: c :: sp
  congr 2
  · exact chOf_mk true n sp c
  · apply ext_nth (by simp)
    intro i hi
    simp only [List.length_map, List.length_range'] at hi
    rw [nth_map _ _ _ (by simpa using hi)]
    have : nth (List.range' 1 sp.length) i = i + 1 := by
      unfold nth; simp [List.getD, hi]; omega
    rw [this]
    exact nth_append_left hi

theorem last_map (m n : Nat) (sp : List Nat) (c : Nat) (h : sp.length = m) :
    (channelsLastPermutation m).map (nth (mk false n sp c)) = mk true n sp c := by
  subst h
  show n :: (List.range' 2 sp.length ++ [1]).map (nth (n :: c :: sp)) = n :: (sp ++ [c])
  rw [List.map_append]
  congr 2
  apply ext_nth (by simp)
  intro i hi
  simp only [List.length_map, List.length_range'] at hi
  rw [nth_map _ _ _ (by simpa using hi)]
  have : nth (List.range' 2 sp.length) i = i + 2 := by
    unfold nth; simp [List.getD, hi]; omega
  rw [this]
  rfl

/-- The channels-first image reads the channels-last one. -/
theorem toOnnx_get (last : Bool) {m : Nat} (x : T α) (n : Nat) {sp : List Nat} (c : Nat) (h : sp.length = m) :
    (toOnnx last m x).get (mk false n sp c) = x.get (mk last n sp c) := by
  cases last
  · rfl
  · obtain ⟨hp, _, hl, _, _, _⟩ := channel_permutations_inverse m
    show x.get (permIdx (channelsFirstPermutation m) (mk false n sp c)) = _
    rw [← first_map m n sp c h, permIdx_of_nth hp (by rw [mk_length, hl, h])]

theorem toOnnx_shape (last : Bool) {m : Nat} (x : T α) {n : Nat} {sp : List Nat} {c : Nat} (h : sp.length = m) (hx : x.shape = mk last n sp c) :
    (toOnnx last m x).shape = mk false n sp c := by
  cases last
  · exact hx
  · show (channelsFirstPermutation m).map (nth x.shape) = _
    rw [hx, first_map m n sp c h]

theorem fromOnnx_get (last : Bool) {m : Nat} (x : T α) (n : Nat) {sp : List Nat} (c : Nat) (h : sp.length = m) :
    (fromOnnx last m x).get (mk last n sp c) = x.get (mk false n sp c) := by
  cases last
  · rfl
  · obtain ⟨_, hp, _, hl, _, _⟩ := channel_permutations_inverse m
    show x.get (permIdx (channelsLastPermutation m) (mk true n sp c)) = _
    rw [← last_map m n sp c h, permIdx_of_nth hp (by rw [mk_length, hl, h])]

theorem fromOnnx_shape (last : Bool) {m : Nat} (x : T α) {n : Nat} {sp : List Nat} {c : Nat} (h : sp.length = m) (hx : x.shape = mk false n sp c) :
    (fromOnnx last m x).shape = mk last n sp c := by
  cases last
  · exact hx
  · show (channelsLastPermutation m).map (nth x.shape) = _
    rw [hx, last_map m n sp c h]

/-- Compatible with `Same`. -/
theorem Same.fromOnnx (last : Bool) {m : Nat} {a b : T α} (h : Same a b) (hl : a.shape.length = m + 2) : Same (fromOnnx last m a) (fromOnnx last m b) := by
  cases last
  · exact h
  · obtain ⟨_, hp, _, hl', _, _⟩ := channel_permutations_inverse m
    exact Tensor.Same.transpose hp h (by rw [hl, hl'])

/-! ## Windows -/

theorem windowed_shape (last : Bool) (g : Geom) (cout : Nat) (F : Nat → (List Nat → Nat → Option α) → β) (x : T α) :
    (windowed last g cout F x).shape = mk last (nth x.shape 0) ((List.range g.kernel.length).map (fun i => g.outDim i (spOf last x.shape i))) cout := rfl

/-- **Layout**: transposing the image, running the operator channels first and transposing the result back is the same as running it channels last. -/
theorem windowed_layout (last : Bool) (g : Geom) (cout : Nat) (F : Nat → (List Nat → Nat → Option α) → β) (x : T α)
    (hx : x.shape.length = g.kernel.length + 2) :
    Same (fromOnnx last g.kernel.length (windowed false g cout F (toOnnx last g.kernel.length x))) (windowed last g cout F x) := by
  obtain ⟨n, sp, c, hsp, hs⟩ := exists_mk last hx
  have hts := toOnnx_shape last x hsp hs
  have hsp1 : ∀ i, i < g.kernel.length → spOf last x.shape i = nth sp i := fun i hi => by rw [hs, spOf_mk _ _ _ _ (hsp ▸ hi)]
  have hsp2 : ∀ i, i < g.kernel.length → spOf false (toOnnx last g.kernel.length x).shape i = nth sp i := fun i hi => by
    rw [hts, spOf_mk _ _ _ _ (hsp ▸ hi)]
  have hshape : (windowed false g cout F (toOnnx last g.kernel.length x)).shape =
      mk false n ((List.range g.kernel.length).map (fun i => g.outDim i (nth sp i))) cout := by
    rw [windowed_shape, hts, nth_mk_zero]
    congr 1
  have hshape' : (windowed last g cout F x).shape = mk last n ((List.range g.kernel.length).map (fun i => g.outDim i (nth sp i))) cout := by
    rw [windowed_shape, hs, nth_mk_zero]
    congr 1
    exact List.map_congr_left (fun i hi => by rw [spOf_mk _ _ _ _ (by rw [hsp]; exact List.mem_range.1 hi)])
  have hf := fromOnnx_shape last (m := g.kernel.length) _ (by simp) hshape
  refine ⟨hf.trans hshape'.symm, fun idx hi => ?_⟩
  rw [hf] at hi
  obtain ⟨b, o, q, ho, rfl⟩ := exists_mk last (m := g.kernel.length) (idx := idx) (by rw [hi.1, mk_length]; simp)
  rw [fromOnnx_get last _ _ _ ho]
  have ch : ∀ l : Bool, chOf l g.kernel.length (mk l b o q) = q := fun l => by rw [← ho]; exact chOf_mk l b o q
  have cx : chOf false g.kernel.length (toOnnx last g.kernel.length x).shape = chOf last g.kernel.length x.shape := by
    rw [hts, hs]
    have a1 := chOf_mk false n sp c
    have a2 := chOf_mk last n sp c
    rw [hsp] at a1 a2
    rw [a1, a2]
  unfold windowed
  simp only [ch]
  congr 1
  funext k c'
  have hpos : ∀ i, i < g.kernel.length → g.pos (spOf false (mk false b o q)) (nth k) i = g.pos (spOf last (mk last b o q)) (nth k) i := by
    intro i hi'
    unfold Geom.pos
    rw [spOf_mk _ _ _ _ (ho ▸ hi'), spOf_mk _ _ _ _ (ho ▸ hi')]
  have hmap : (List.range g.kernel.length).map (fun i => g.pos (spOf false (mk false b o q)) (nth k) i - nth g.before i) =
      (List.range g.kernel.length).map (fun i => g.pos (spOf last (mk last b o q)) (nth k) i - nth g.before i) :=
    List.map_congr_left (fun i hi' => by rw [hpos i (List.mem_range.1 hi')])
  have hiff : (InB g.kernel k ∧ c' < chOf false g.kernel.length (toOnnx last g.kernel.length x).shape ∧
      ∀ i, i < g.kernel.length → nth g.before i ≤ g.pos (spOf false (mk false b o q)) (nth k) i ∧
        g.pos (spOf false (mk false b o q)) (nth k) i - nth g.before i < spOf false (toOnnx last g.kernel.length x).shape i) ↔
      (InB g.kernel k ∧ c' < chOf last g.kernel.length x.shape ∧
      ∀ i, i < g.kernel.length → nth g.before i ≤ g.pos (spOf last (mk last b o q)) (nth k) i ∧
        g.pos (spOf last (mk last b o q)) (nth k) i - nth g.before i < spOf last x.shape i) := by
    rw [cx]
    refine and_congr Iff.rfl (and_congr Iff.rfl (forall_congr' fun i => forall_congr' fun hi' => ?_))
    rw [hpos i hi', hsp1 i hi', hsp2 i hi']
  by_cases hc : InB g.kernel k ∧ c' < chOf last g.kernel.length x.shape ∧
      ∀ i, i < g.kernel.length → nth g.before i ≤ g.pos (spOf last (mk last b o q)) (nth k) i ∧
        g.pos (spOf last (mk last b o q)) (nth k) i - nth g.before i < spOf last x.shape i
  · rw [if_pos (hiff.2 hc), if_pos hc, nth_mk_zero, nth_mk_zero, hmap, toOnnx_get last x _ _ (by simp)]
  · rw [if_neg (fun h => hc (hiff.1 h)), if_neg hc]

/-- The result depends on the operator only inside of the range of the output channels. -/
theorem windowed_congr (last : Bool) (g : Geom) (cout : Nat) {F F' : Nat → (List Nat → Nat → Option α) → β} (x : T α)
    (h : ∀ q r, q < cout → F q r = F' q r) : Same (windowed last g cout F x) (windowed last g cout F' x) := by
  refine ⟨rfl, fun idx hi => ?_⟩
  rw [windowed_shape] at hi
  obtain ⟨b, o, q, ho, rfl⟩ := exists_mk last (m := g.kernel.length) (idx := idx) (by rw [hi.1, mk_length]; simp)
  have hq := ((inB_mk (by simpa using ho)).1 hi).2.2
  unfold windowed
  have ch : chOf last g.kernel.length (mk last b o q) = q := by rw [← ho]; exact chOf_mk last b o q
  simp only [ch]
  exact h _ _ hq

end Verif.Conv
