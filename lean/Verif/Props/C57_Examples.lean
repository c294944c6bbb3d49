import Verif.Props.C57_Depthwise
import Verif.Props.C58_Pool
/-!
# C57, C58: examples, and what goes wrong
-/
namespace Verif.Conv.Ex
open Verif.Tensor Verif.Nn Verif.Emit Verif.Conv

/-- Sum of products, the channels innermost. -/
def sumAcc : Acc Int := fun K C f => ((allIdx K).map (fun k => ((List.range C).map (fun c => (f k c).1 * (f k c).2)).foldl (· + ·) 0)).foldl (· + ·) 0

/-- Largest element. -/
def maxPool : Pool Int := fun K f => ((allIdx K).filterMap f).foldl max (-1000)

/-- A tensor that counts. -/
def count (s : List Nat) : T Int := ⟨s, fun i => lin s i⟩

/-- The elements. -/
def elems (x : T Int) : List Int := (allIdx x.shape).map x.get

/-! ## The specification on small tensors (values of `tf.nn.conv2d`) -/

/-- `tf.nn.conv2d([[[[0], [1], [2]], [[3], [4], [5]], [[6], [7], [8]]]], [[[[0]], [[1]]], [[[2]], [[3]]]], 1, "VALID")`. -/
example : elems (tfConv sumAcc 0 true .valid [1, 1, 1, 1] [1, 1, 1, 1] (count [1, 3, 3, 1]) (count [2, 2, 1, 1])) = [19, 25, 37, 43] := by decide
/-- The same with `SAME`: a row of zeros below and a column to the right. -/
example : elems (tfConv sumAcc 0 true .same [1, 1, 1, 1] [1, 1, 1, 1] (count [1, 3, 3, 1]) (count [2, 2, 1, 1])) =
    [19, 25, 10, 37, 43, 16, 7, 8, 0] := by decide
/-- Stride 2. -/
example : elems (tfConv sumAcc 0 true .same [1, 2, 2, 1] [1, 1, 1, 1] (count [1, 3, 3, 1]) (count [2, 2, 1, 1])) = [19, 10, 7, 0] := by decide
/-- Two groups: two channels, every output channel sees one of them. -/
example : elems (tfConv sumAcc 0 true .valid [1, 1, 1, 1] [1, 1, 1, 1] ⟨[1, 1, 1, 2], fun i => nth i 3 + 10⟩ ⟨[1, 1, 1, 2], fun i => nth i 3 + 1⟩) =
    [10, 22] := by decide
/-- Depthwise: every channel gives two. -/
example : elems (tfDepthwise sumAcc 0 true .valid [1, 1, 1, 1] [1, 1, 1, 1] ⟨[1, 1, 1, 2], fun i => nth i 3 + 10⟩
    ⟨[1, 1, 2, 2], fun i => 2 * nth i 2 + nth i 3 + 1⟩) = [10, 20, 33, 44] := by decide
/-- Largest of 2 x 2, `SAME`. -/
example : elems (tfPool maxPool true 2 .same [1, 2, 2, 1] [1, 2, 2, 1] (count [1, 3, 3, 1])) = [4, 5, 7, 8] := by decide

/-! ## Cases of the theorems -/

/-- A grouped convolution, channels last, `SAME`, stride 2 and dilation 2: 7 x 8 with 4 channels, kernel 3 x 2, two groups. -/
def node1 : Node := ⟨"NHWC", [1, 2, 2, 1], some [1, 2, 1, 1], "SAME", [], some [-1, 7, 8, 4], some [-1, 4, 4, 6], some [3, 2, 2, 6]⟩

theorem node1_describes : Describes node1 2 .same [1, 2, 2, 1] [1, 2, 1, 1] :=
  ⟨rfl, rfl, fun l h => by simp at h, rfl, rfl, by decide, Or.inl rfl, rfl, by decide⟩

example : ConvArgs sumAcc 0 node1 2 .same [1, 2, 2, 1] [1, 2, 1, 1] (count [5, 7, 8, 4]) (count [3, 2, 2, 6]) :=
  ⟨node1_describes, rfl, rfl, by decide, by decide, by decide, by decide, by decide, ⟨_, rfl, by decide⟩, ⟨_, rfl, by decide⟩, ⟨_, rfl, by decide⟩,
    fun _ => Or.inl (by decide), Or.inr ⟨rfl, Or.inl rfl, by decide, by decide⟩, fun _ => rfl⟩

/-- What the converter writes for it. -/
example : convAttrs node1 2 = .ok ⟨false, some [3, 2], some [2, 2], some [2, 1], some [2, 0, 2, 0], 2⟩ := by rfl

/-- A 3-d convolution, channels first, explicit padding, with an unknown kernel. -/
def node2 : Node := ⟨"NCDHW", [1, 1, 1, 1, 1], some [1, 1, 1, 1, 1], "EXPLICIT", [0, 0, 0, 0, 1, 2, 0, 0, 0, 1], some [1, 2, -1, 4, 3], some [1, 1, -1, 3, 3],
  some [-1, 2, 2, 2, 1]⟩

example : ConvArgs sumAcc 0 node2 3 (.explicit [(0, 0), (0, 0), (1, 2), (0, 0), (0, 1)]) [1, 1, 1, 1, 1] [1, 1, 1, 1, 1] (count [1, 2, 5, 4, 3])
    (count [3, 2, 2, 2, 1]) :=
  ⟨⟨rfl, rfl, fun l h => by injection h with h; subst h; decide, rfl, rfl, by decide, Or.inl rfl, rfl, by decide⟩, rfl, rfl, by decide, by decide, by decide,
    by decide, by decide, ⟨_, rfl, by decide⟩, ⟨_, rfl, by decide⟩, ⟨_, rfl, by decide⟩, fun h => by simp at h, Or.inl rfl,
    fun h => by rcases h with h | h <;> exact absurd h (by decide)⟩

/-- A depthwise convolution with multiplier 2, `SAME` and an unknown size. -/
def node3 : Node := ⟨"NHWC", [1, 1, 1, 1], some [1, 1, 1, 1], "SAME", [], some [1, -1, 5, 3], some [1, -1, 5, 6], some [3, 3, 3, 2]⟩

example : DepthwiseArgs sumAcc 0 node3 .same [1, 1, 1, 1] [1, 1, 1, 1] 3 3 3 2 (count [1, 4, 5, 3]) (count [3, 3, 3, 2]) :=
  ⟨⟨rfl, rfl, fun l h => by simp at h, rfl, rfl, by decide, Or.inl rfl, rfl, by decide⟩, rfl, rfl, by decide, rfl, ⟨_, rfl, by decide⟩, ⟨_, rfl, by decide⟩,
    rfl⟩

example : depthwiseAttrs node3 none = .ok (⟨true, some [3, 3], some [1, 1], some [1, 1], none, 3⟩, [3, 3, 1, 6]) := by rfl

/-- A pool, channels first. -/
def node4 : Node := ⟨"NCHW", [1, 1, 2, 3], none, "SAME", [], some [1, 3, 7, 7], some [1, 3, 4, 3], none⟩

example : PoolArgs maxPool node4 2 .same [1, 1, 3, 2] [1, 1, 2, 3] (count [1, 3, 7, 7]) :=
  ⟨⟨rfl, rfl, fun l h => by simp at h, rfl, rfl, by decide, Or.inr ⟨rfl, rfl⟩, rfl, by decide⟩, rfl, rfl, by decide, ⟨_, rfl, by decide⟩, ⟨_, rfl, by decide⟩⟩

example : poolAttrs node4 [1, 1, 3, 2] 2 = .ok ⟨false, some [3, 2], some [2, 3], none, some [1, 0, 1, 1], 1⟩ := by rfl

/-! ## Violations -/

theorem last_nhwc {n : Node} (h : n.dataFormat = "NHWC") : n.last = true := by unfold Node.last; rw [h]; decide

/-- A `SAME` convolution with stride 1 of an `n x n` image whose kernel has unknown height and width. -/
def unknownKernel (n : Nat) : Node :=
  ⟨"NHWC", [1, 1, 1, 1], some [1, 1, 1, 1], "SAME", [], some [1, (n : Int), (n : Int), 1], some [1, (n : Int), (n : Int), 1], some [-1, -1, 1, 1]⟩

/-- **C57 is violated** by `SAME` padding with a kernel of unknown size and an image of known size: the unknown size -1 is taken for the size. No padding is
added at all: with a 3 x 3 kernel the result is two rows and two columns too small, for every size of the image. -/
theorem same_unknown_kernel_violated (n : Nat) (acc : Acc Int) (x w : T Int) (hx : x.shape = [1, n + 3, n + 3, 1]) (hw : w.shape = [3, 3, 1, 1]) :
    ∃ y, convertedConv acc 0 (unknownKernel (n + 3)) 2 x w = .ok (some y) ∧ y.shape = [1, n + 1, n + 1, 1] ∧
      (tfConv acc 0 true .same [1, 1, 1, 1] [1, 1, 1, 1] x w).shape = [1, n + 3, n + 3, 1] := by
  have e1 : ((n + 3 : Nat) : Int) ≠ -1 := by omega
  have hlast : (unknownKernel (n + 3)).last = true := last_nhwc rfl
  have hm : padTotal ((n + 3 : Nat) : Int) 1 1 (-1) ((n + 3 : Nat) : Int) = 0 := by unfold padTotal; omega
  have hpad : padding (unknownKernel (n + 3)) [-1, -1] [1, 1] (some [1, 1]) 2 = .ok (.pads [0, 0, 0, 0]) := by
    unfold padding
    rw [if_neg (by simp [unknownKernel]), hlast]
    show samePads true [1, ((n + 3 : Nat) : Int), ((n + 3 : Nat) : Int), 1] [1, ((n + 3 : Nat) : Int), ((n + 3 : Nat) : Int), 1] [-1, -1] [1, 1] [1, 1] 2 = _
    generalize ((n + 3 : Nat) : Int) = z at e1 hm
    simp [samePads, makeShapeChannelsFirst, List.range_succ, e1, hm]
  have hattrs : convAttrs (unknownKernel (n + 3)) 2 = .ok ⟨false, none, some [1, 1], some [1, 1], some [0, 0, 0, 0], 1⟩ := by
    unfold convAttrs groupOf outKnown
    rw [hlast]
    show (padding (unknownKernel (n + 3)) [-1, -1] [1, 1] (some [1, 1]) 2).bind _ = _
    rw [hpad]
    rfl
  have hXs : (toOnnx true 2 x).shape = [1, 1, n + 3, n + 3] := toOnnx_shape true x (n := 1) (sp := [n + 3, n + 3]) (c := 1) rfl hx
  have hWs : (transpose (kernelPerm 2) w).shape = [1, 1, 3, 3] := by
    show (kernelPerm 2).map (nth w.shape) = _
    rw [hw]; rfl
  refine ⟨fromOnnx true 2 (windowed false ⟨[3, 3], [1, 1], [1, 1], [0, 0], [0, 0]⟩ 1
    (convAt acc 0 [3, 3] 1 1 (fun k c q => (transpose (kernelPerm 2) w).get (q :: c :: k))) (toOnnx true 2 x)), ?_, ?_, ?_⟩
  · unfold convertedConv
    rw [hattrs, hlast]
    show Except.ok (Option.map _ (onnxConv acc 0 _ (toOnnx true 2 x) _)) = _
    unfold onnxConv
    rw [hWs]
    dsimp only
    rw [if_pos]
    · rfl
    · rw [hXs]
      exact ⟨by decide, rfl, by simp, by decide, rfl, by decide⟩
  · refine fromOnnx_shape true (m := 2) _ (n := 1) (sp := [n + 1, n + 1]) (c := 1) rfl ?_
    rw [windowed_shape, hXs]
    show mk false 1 [(n + 3 + 0 + 0 + 1 - 3) / 1, (n + 3 + 0 + 0 + 1 - 3) / 1] 1 = _
    simp
  · unfold tfConv
    rw [hw]
    dsimp only
    rw [windowed_shape, hx]
    show mk true 1 [_, _] 1 = _
    unfold Geom.outDim tfGeom TfPad.at tfSamePad
    simp [mk, nth, spOf, span, spatialPart, Nat.mod_one, List.range_succ]

/-- **C57 is violated** by a grouped convolution whose number of channels is not known: it becomes a `Conv` with one group, which is not a valid model. -/
theorem group_unknown_violated (acc : Acc Int) (n h w g : Nat) (hg : 2 ≤ g) (x k : T Int) (hx : x.shape = [n, h, w, g]) (hk : k.shape = [1, 1, 1, g]) :
    convertedConv acc 0 ⟨"NHWC", [1, 1, 1, 1], some [1, 1, 1, 1], "VALID", [], some [-1, -1, -1, -1], some [-1, -1, -1, -1], some [1, 1, 1, (g : Int)]⟩ 2 x k =
      .ok none := by
  have hXs : (toOnnx true 2 x).shape = [n, g, h, w] := toOnnx_shape true x (n := n) (sp := [h, w]) (c := g) rfl hx
  have hWs : (transpose (kernelPerm 2) k).shape = [g, 1, 1, 1] := by
    show (kernelPerm 2).map (nth k.shape) = _
    rw [hk]; rfl
  obtain ⟨nd, hnd⟩ : ∃ nd : Node, nd = ⟨"NHWC", [1, 1, 1, 1], some [1, 1, 1, 1], "VALID", [], some [-1, -1, -1, -1], some [-1, -1, -1, -1],
    some [1, 1, 1, (g : Int)]⟩ := ⟨_, rfl⟩
  have hlast : nd.last = true := last_nhwc (by rw [hnd])
  have hattrs : convAttrs nd 2 = .ok ⟨false, some [1, 1], some [1, 1], some [1, 1], none, 1⟩ := by
    unfold convAttrs padding groupOf outKnown
    rw [hlast, hnd]
    rfl
  rw [← hnd]
  unfold convertedConv
  rw [hattrs, hlast]
  show Except.ok (Option.map _ (onnxConv acc 0 ⟨false, some [1, 1], some [1, 1], some [1, 1], none, 1⟩ (toOnnx true 2 x) (transpose (kernelPerm 2) k))) = _
  unfold onnxConv
  rw [hWs]
  dsimp only
  rw [if_neg]
  · rfl
  · rw [hXs]
    rintro ⟨_, _, _, _, h, _⟩
    have : (g : Int) = 1 * 1 := h
    omega

end Verif.Conv.Ex
