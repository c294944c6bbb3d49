import Verif.Model.Detection
import Verif.Props.C82_Combined
import Mathlib.Tactic.Ring
/-!
# C83: post-processing of detections
-/
namespace Verif.Detection
open Verif.Nms Verif.Stack

variable {K : Type} [Field K] [LinearOrder K]

/-- The boxes are decoded as TensorFlow Lite decodes them. -/
theorem adjusted_decode (exp : K → K) (scale e a : Centred K) : adjusted exp scale e a = decodeBox exp scale e a := by
  unfold adjusted decodeBox
  dsimp only
  congr 1 <;> ring

/-- The largest elements are the best. -/
theorem topk_best {e total : Nat} (g : Nat → K) : TakesBest e total g (topk e (min total e) g) := by
  have ht := topk_is (Nat.min_le_right total e) g
  have hle : ∀ {i j : Nat}, Before g i j → g j ≤ g i := by
    intro i j h
    rcases h with h | ⟨h, _⟩
    · exact le_of_lt h
    · exact le_of_eq h.symm
  exact ⟨ht.length, ht.range, ht.sorted.imp (by
    rintro i j hij rfl
    exact before_asymm hij hij), ht.sorted.imp hle, fun i hi j hj hjp => hle (ht.others i hi j hj hjp)⟩

theorem best_congr {e total : Nat} {g g' : Nat → K} {p : List Nat} (h : TakesBest e total g p) (hg : ∀ j, j < e → g j = g' j) : TakesBest e total g' p := by
  refine ⟨h.length, h.range, h.nodup, ?_, ?_⟩
  · refine List.Pairwise.imp_of_mem ?_ h.sorted
    intro i j hi hj hij
    rwa [hg i (h.range i hi), hg j (h.range j hj)] at hij
  · intro i hi j hj hjp
    have := h.others i hi j hj hjp
    rwa [hg i (h.range i hi), hg j hj] at this

theorem single_rows {C n k : Nat} {box : Nat → Box K} {pred : Nat → Nat → K} {iou : K} {least : Option K} :
    onnxNms 1 C n k (fun _ => box) (fun _ c i => pred i c) iou least =
      ((List.range C).flatMap (fun c => (column (onnxNms 1 1 n k (fun _ => box) (fun _ _ i => pred i c) iou least)).map (fun i => (c, i)))).map (fun q => [0, q.1, q.2]) := by
  have e : ∀ c, column (onnxNms 1 1 n k (fun _ => box) (fun _ _ i => pred i c) iou least) =
      greedy (fun j i => onnxSupp iou (box j) (box i)) k ((topk n n (fun i => pred i c)).filter (fun i => least.all (fun t => decide (t < pred i c)))) [] := by
    intro c
    unfold onnxNms
    rw [show List.range 1 = [0] from rfl, List.flatMap_cons, List.flatMap_cons, List.flatMap_nil, List.flatMap_nil, List.append_nil, List.append_nil, column_rows]
  simp only [e]
  unfold onnxNms
  rw [show List.range 1 = [0] from rfl, List.flatMap_cons, List.flatMap_nil, List.append_nil, List.map_flatMap]
  simp only [List.map_map]
  rfl

variable [IsStrictOrderedRing K]

/-- The converted node with regular suppression gives TensorFlow Lite's detections, if no score is exactly the threshold. -/
theorem detect_converts {exp : K → K} {viaFloat : Nat → Nat} {nd : DetNode K} {n all k : Nat} {code anchor : Nat → Centred K} {score : Nat → Nat → K} (hi : 0 ≤ nd.iou) (hr : nd.regular = true)
    (hk : nd.perClass = some k) (hall : nd.numClasses ≤ all) (hne : ∀ i, i < n → ∀ c, c < nd.numClasses → score i (all - nd.numClasses + c) ≠ nd.least)
    (hv : nd.opset < 12 → ∀ m, min (viaFloat nd.maxDetections) (viaFloat m) = min nd.maxDetections m) :
    TflDetect exp nd.scale n all nd.numClasses k nd.maxDetections code anchor score nd.iou nd.least (detect exp viaFloat nd n all code anchor score) := by
  have hbox : (fun i => adjusted exp nd.scale (code i) (anchor i)) = fun i => decodeBox exp nd.scale (code i) (anchor i) := by
    funext i
    exact adjusted_decode ..
  have hkc : boxesPerClass nd = k := by
    unfold boxesPerClass
    rw [if_pos hr, hk]; rfl
  have hmin : ∀ m, minK viaFloat nd m = min nd.maxDetections m := by
    intro m
    unfold minK
    split
    · rfl
    · exact hv (by omega) m
  unfold detect
  dsimp only
  rw [hbox, hkc, Nat.min_eq_left hall, single_rows (pred := fun i c => score i (all - nd.numClasses + c))]
  simp only [hmin]
  refine ⟨fun c => column (onnxNms 1 1 n k (fun _ i => decodeBox exp nd.scale (code i) (anchor i)) (fun _ _ i => score i (all - nd.numClasses + c)) nd.iou (some nd.least)), ?_⟩
  generalize hE : (List.range nd.numClasses).flatMap (fun c => (column (onnxNms 1 1 n k (fun _ i => decodeBox exp nd.scale (code i) (anchor i))
    (fun _ _ i => score i (all - nd.numClasses + c)) nd.iou (some nd.least))).map (fun i => (c, i))) = E
  have hget : ∀ {β : Type} (d : β) (F : List Nat → β) (j : Nat), j < E.length → ((E.map (fun q => [0, q.1, q.2])).map F).getD j d = F [0, (E.getD j (0, 0)).1, (E.getD j (0, 0)).2] := by
    intro β d F j hj
    rw [List.map_map, List.getD_eq_getElem?_getD, List.getElem?_map, List.getElem?_eq_getElem hj, Option.map_some, List.getD_eq_getElem?_getD, List.getElem?_eq_getElem hj]
    rfl
  have hlen : (E.map (fun q => [0, q.1, q.2])).length = E.length := List.length_map _
  rw [hlen]
  have hb := topk_best (e := E.length) (total := nd.maxDetections)
    (fun j => ((E.map (fun q => [0, q.1, q.2])).map (fun r => score (r.getD 2 0) (all - nd.numClasses + r.getD 1 0))).getD j 0)
  generalize topk E.length (min nd.maxDetections E.length)
    (fun j => ((E.map (fun q => [0, q.1, q.2])).map (fun r => score (r.getD 2 0) (all - nd.numClasses + r.getD 1 0))).getD j 0) = p at hb ⊢
  have hpl : p.length = min nd.maxDetections E.length := hb.length
  have hsub : nd.maxDetections - min nd.maxDetections E.length = nd.maxDetections - p.length := by rw [hpl]
  refine ⟨p, ?_, E, rfl, best_congr hb (fun j hj => hget _ _ j hj), ?_⟩
  · intro c hc
    have hs := nms_selects (n := n) (k := k) (box := fun i => decodeBox exp nd.scale (code i) (anchor i)) (score := fun i => score i (all - nd.numClasses + c)) (iou := nd.iou) (least := some nd.least) hi
    refine ⟨hs.short, ?_, hs.sorted, hs.apart, ?_⟩
    · intro i h
      exact ⟨(hs.cands i h).1, le_of_lt ((hs.cands i h).2 _ rfl)⟩
    · intro i hin hcand hn
      refine hs.complete i hin ?_ hn
      intro t ht
      rw [← Option.some.inj ht]
      exact lt_of_le_of_ne hcand (Ne.symm (hne i hin c hc))
  · rw [hsub]
    congr 1
    · congr 1
      exact List.map_congr_left (fun j hj => (hget _ (fun r => adjusted exp nd.scale (code (r.getD 2 0)) (anchor (r.getD 2 0))) j (hb.range j hj)).trans (adjusted_decode ..))
    · congr 1
      exact List.map_congr_left (fun j hj => hget _ _ j (hb.range j hj))
    · congr 1
      exact List.map_congr_left (fun j hj => hget _ _ j (hb.range j hj))
    · exact hpl.symm

end Verif.Detection
