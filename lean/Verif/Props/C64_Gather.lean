import Verif.Props.C64_Blocks
import Verif.Props.C64_RowIds
/-!
# C64: ragged tensors: `RaggedGather`
-/
namespace Verif.Ragged
open Verif.Tensor Verif.Emit Verif.Seg Verif.Vec

variable {β : Type}

theorem gather_rel {l : List β} {ix : List Int} {r : List β} (h : List.Forall₂ (fun i b => 0 ≤ i ∧ l[i.toNat]? = some b) ix r) :
    gather l ix = some r := by
  unfold gather
  induction h with
  | nil => rfl
  | cons hd _ ih =>
    obtain ⟨h0, h1⟩ := hd
    have hlt := List.getElem?_eq_some_iff.1 h1 |>.1
    rw [List.mapM_cons, if_pos (by omega), posOf_nonneg _ h0, h1, ih]
    rfl

/-- Where row `i` starts. -/
def startOf (rows : List (List β)) (i : Nat) : Nat := ((rows.map List.length).take i).sum

theorem flatten_at {rows : List (List β)} {i j : Nat} (hi : i < rows.length) (hj : j < rows[i].length) :
    rows.flatten[startOf rows i + j]? = some (rows[i][j]) := by
  have e : rows = rows.take i ++ (rows[i] :: rows.drop (i + 1)) := by rw [List.getElem_cons_drop, List.take_append_drop]
  have hs : startOf rows i = (rows.take i).flatten.length := by rw [startOf, List.length_flatten, List.map_take]
  have ef : rows.flatten = (rows.take i).flatten ++ (rows[i] ++ (rows.drop (i + 1)).flatten) := by
    conv => lhs; rw [e]
    rw [List.flatten_append, List.flatten_cons]
  rw [ef, hs, List.getElem?_append_right (by omega), Nat.add_sub_cancel_left, List.getElem?_append_left hj, List.getElem?_eq_getElem hj]

/-- The blocks of the picked rows. -/
def blocksOf (rows : List (List β)) (ix : List Nat) : List (Int × Nat) := ix.map (fun i => ((startOf rows i : Int), (rows.getD i []).length))

theorem gather_nums {rows : List (List β)} {ix : List Nat} (h : ∀ i ∈ ix, i < rows.length) :
    gather rows.flatten (blockNums (blocksOf rows ix)) = some (ix.map (fun i => rows.getD i [])).flatten := by
  refine gather_rel ?_
  induction ix with
  | nil => exact List.Forall₂.nil
  | cons i ix ih =>
    have hi := h i (by simp)
    have e : rows.getD i [] = rows[i] := by simp [List.getD, hi]
    show List.Forall₂ _ ((List.range (rows.getD i []).length).map (fun j : Nat => (startOf rows i : Int) + j) ++ blockNums (blocksOf rows ix)) _
    rw [List.map_cons, List.flatten_cons]
    refine List.rel_append ?_ (ih (fun k hk => h k (by simp [hk])))
    rw [e, List.forall₂_iff_get]
    refine ⟨by simp, fun j h1 h2 => ?_⟩
    simp only [List.get_eq_getElem, List.getElem_map, List.getElem_range]
    refine ⟨by omega, ?_⟩
    have := flatten_at hi (j := j) h2
    have e2 : ((startOf rows i : Int) + (j : Int)).toNat = startOf rows i + j := by omega
    rw [e2]
    exact this

/-! ## Splits of blocks -/

/-- Splits of blocks. -/
def splitsFrom (o : Nat) : List (Int × Nat) → List Int
  | [] => [(o : Int)]
  | b :: bs => (o : Int) :: splitsFrom (o + b.2) bs

theorem splitsFrom_eq (o : Nat) (bs : List (Int × Nat)) :
    splitsFrom o bs = (List.range (bs.length + 1)).map (fun k => ((o + ((bs.map Prod.snd).take k).sum : Nat) : Int)) := by
  induction bs generalizing o with
  | nil => simp [splitsFrom]
  | cons b bs ih =>
    rw [splitsFrom, ih, List.length_cons, List.range_succ_eq_map (n := bs.length + 1), List.map_cons, List.map_map]
    congr 1
    refine List.map_congr_left (fun k _ => ?_)
    simp only [Function.comp, List.map_cons, List.take_succ_cons, List.sum_cons]
    push_cast
    omega

theorem splits_blocks (bs : List (Int × Nat)) : splits (bs.map Prod.snd) = splitsFrom 0 bs := by
  rw [splitsFrom_eq]
  simp [splits]

theorem splitsFrom_length (o : Nat) (bs : List (Int × Nat)) : (splitsFrom o bs).length = bs.length + 1 := by simp [splitsFrom_eq]

/-- The blocks that are not empty. -/
def nonEmpty (bs : List (Int × Nat)) : List (Int × Nat) := bs.filter (fun b => decide (0 < (b.2 : Int)))

theorem nonEmpty_pos {bs : List (Int × Nat)} : ∀ b ∈ nonEmpty bs, 0 < b.2 := by
  intro b hb
  simpa [nonEmpty] using (List.mem_filter.1 hb).2

theorem compress_splits (bs : List (Int × Nat)) : compress (splitsFrom 0 bs) (bs.map (fun b => decide (0 < (b.2 : Int)))) = some (blockStarts 0 (nonEmpty bs)) := by
  unfold compress
  rw [if_pos (by simp [splitsFrom_length])]
  congr 1
  have : ∀ (bs : List (Int × Nat)) (o : Nat),
      (((splitsFrom o bs).zip (bs.map (fun b => decide (0 < (b.2 : Int))))).filter (fun p => p.2)).map (fun p => p.1) = blockStarts o (nonEmpty bs) := by
    intro bs
    induction bs with
    | nil => intro o; rfl
    | cons b bs ih =>
      intro o
      rw [splitsFrom, List.map_cons, List.zip_cons_cons, List.filter_cons]
      have ih' := ih (o + b.2)
      by_cases hb : 0 < b.2
      · have e : nonEmpty (b :: bs) = b :: nonEmpty bs := by simp [nonEmpty, hb]
        rw [e, blockStarts, ← ih']
        simp [hb]
      · have e : nonEmpty (b :: bs) = nonEmpty bs := by simp [nonEmpty, hb]
        have hz : b.2 = 0 := by omega
        rw [hz, Nat.add_zero] at ih'
        rw [e, ← ih']
        simp [hz]
  exact this bs 0

theorem zipWith_cons_dropLast {γ δ : Type} (f : β → γ → δ) (S : List β) (a : γ) (S' : List γ) (h : S'.length = S.length) :
    List.zipWith f S (a :: S'.dropLast) = List.zipWith f S (a :: S') := by
  apply List.ext_getElem
  · simp
    omega
  · intro k h1 h2
    simp only [List.getElem_zipWith]
    congr 1
    rcases k with _ | k
    · rfl
    · simp

theorem deltas_by_sub (nz : List (Int × Nat)) (a : Int) (c : Int) :
    (List.zipWith (fun x y => x - y) (List.zipWith (fun x y => x - y) (nz.map Prod.fst) (a :: nz.map Prod.fst)) (c :: nz.map (fun b => (b.2 : Int)))).map (· + 1) =
      blockDeltas (a + c - 1) nz := by
  induction nz generalizing a c with
  | nil => rfl
  | cons b nz ih =>
    simp only [List.map_cons, List.zipWith_cons_cons, blockDeltas]
    congr 1
    · omega
    · exact ih b.1 b.2

theorem gatherSteps_ok (nz : List (Int × Nat)) : gatherSteps (nz.map Prod.fst) (nz.map (fun b => (b.2 : Int))) = some (blockDeltas 0 nz) := by
  unfold gatherSteps
  cases nz with
  | nil => rfl
  | cons b nz =>
    have e1 : zip2 (fun a b : Int => a - b) ((b :: nz).map Prod.fst) (1 :: ((b :: nz).map Prod.fst).dropLast) =
        some (List.zipWith (fun x y => x - y) ((b :: nz).map Prod.fst) (1 :: (b :: nz).map Prod.fst)) := by
      rw [zip2_eq (by simp), zipWith_cons_dropLast _ _ _ _ rfl]
    simp only [Option.bind_eq_bind]
    rw [e1, Option.bind_some, zip2_eq (by simp), Option.bind_some]
    have e2 : ((0 : Int) :: (b :: nz).map (fun b => (b.2 : Int))).dropLast = 0 :: ((b :: nz).map (fun b => (b.2 : Int))).dropLast := rfl
    rw [e2, zipWith_cons_dropLast _ _ _ _ (by simp), deltas_by_sub]
    rfl

theorem total_nonEmpty (bs : List (Int × Nat)) : total (nonEmpty bs) = total bs := by
  induction bs with
  | nil => rfl
  | cons b bs ih =>
    unfold nonEmpty at ih ⊢
    rw [List.filter_cons]
    by_cases hb : 0 < b.2
    · simp [hb, total] at ih ⊢
      exact ih
    · have hz : b.2 = 0 := by omega
      simp [hz, total] at ih ⊢
      exact ih

theorem nums_nonEmpty (bs : List (Int × Nat)) : blockNums (nonEmpty bs) = blockNums bs := by
  unfold blockNums nonEmpty
  refine flatMap_filter_of _ _ _ (fun a _ h => ?_)
  have : a.2 = 0 := by simpa using h
  simp [this]

theorem cumsum_splits (g : List Nat) : cumsum (0 :: g.map (fun a : Nat => (a : Int))) = splits g := by
  unfold cumsum splits
  simp only [List.length_cons, List.length_map]
  refine List.map_congr_left (fun k _ => ?_)
  rw [List.take_succ_cons, List.sum_cons, ← List.map_take]
  have : ∀ l : List Nat, (l.map (fun a : Nat => (a : Int))).sum = (l.sum : Int) := by
    intro l
    induction l with
    | nil => rfl
    | cons a l ih => simp [ih]
  rw [this]
  simp

/-- **RaggedGather**: the splits and the elements of the picked rows. -/
theorem raggedGather_ok (rows : List (List β)) (ix : List Nat) (h : ∀ i ∈ ix, i < rows.length) :
    raggedGather (splits (rows.map List.length)) rows.flatten (ix.map (fun a : Nat => (a : Int))) =
      some (splits ((ix.map (fun i => rows.getD i [])).map List.length), (ix.map (fun i => rows.getD i [])).flatten) := by
  let bs := blocksOf rows ix
  have hg : (ix.map (fun i => rows.getD i [])).map List.length = bs.map Prod.snd := by
    simp [bs, blocksOf, Function.comp_def]
  have e1 : gather ((rows.map List.length).map (fun a : Nat => (a : Int))) (ix.map (fun a : Nat => (a : Int))) = some (bs.map (fun b => (b.2 : Int))) := by
    rw [gather_nat (fun i : Nat => i) 0 (by intro k hk; simpa using h k hk)]
    simp only [bs, blocksOf, List.map_map, Option.some.injEq]
    refine List.map_congr_left (fun i hi => ?_)
    have := h i hi
    simp [List.getD, this]
  have e2 : gather (splits (rows.map List.length)) (ix.map (fun a : Nat => (a : Int))) = some (bs.map Prod.fst) := by
    rw [gather_nat (fun i : Nat => i) 0 (by intro k hk; have := h k hk; rw [splits_length]; simp; omega)]
    simp only [bs, blocksOf, List.map_map, Option.some.injEq]
    refine List.map_congr_left (fun i hi => ?_)
    have hi := h i hi
    have hi' : i < rows.length + 1 := by omega
    simp [List.getD, splits, startOf, hi']
  have e3 : cumsum (0 :: bs.map (fun b => (b.2 : Int))) = splitsFrom 0 bs := by
    have := cumsum_splits (bs.map Prod.snd)
    rw [List.map_map] at this
    rw [← splits_blocks, ← this]
    rfl
  have e4 : (splitsFrom 0 bs).getLast? = some (total bs : Int) := by
    rw [splitsFrom_eq, List.getLast?_map, List.range_succ, List.getLast?_append]
    simp only [total, List.map_cons, List.map_nil, List.getLast?_singleton, Option.map_some, Option.some_or, Nat.zero_add]
    rw [List.take_of_length_le (by simp)]
  have e5 : fill (1 : Int) (total bs : Int) = some (List.replicate (total (nonEmpty bs)) 1) := by
    unfold fill
    rw [if_pos (by omega), total_nonEmpty]
    simp
  unfold raggedGather
  rw [lengthsOf_splits]
  simp only [Option.bind_eq_bind, Option.bind_some]
  rw [e1, Option.bind_some, e3, e4, Option.bind_some, e2, Option.bind_some, List.map_map]
  have ep : (fun z : Int => decide (0 < z)) ∘ (fun b : Int × Nat => (b.2 : Int)) = fun b => decide (0 < (b.2 : Int)) := rfl
  rw [ep, compress_map, Option.bind_some, compress_map, Option.bind_some, compress_splits, Option.bind_some]
  have eg := gatherSteps_ok (nonEmpty bs)
  unfold nonEmpty at eg
  rw [eg, Option.bind_some, e5, Option.bind_some]
  have er := running_index (nonEmpty bs) nonEmpty_pos
  obtain ⟨d, hd, ed⟩ := Option.map_eq_some_iff.1 er
  have hd' : scatterVec (List.replicate (total (nonEmpty bs)) 1) (blockStarts 0 (nonEmpty bs)) (blockDeltas 0 (bs.filter (fun b => decide (0 < (b.2 : Int))))) = some d := hd
  rw [hd', Option.bind_some, ed, nums_nonEmpty, gather_nums h, Option.bind_some, hg, splits_blocks]

end Verif.Ragged
