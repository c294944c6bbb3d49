import Verif.Props.C66_ConvPad
/-!
# C66: bias after a convolution; examples
-/
namespace Verif.Patt
open Verif.Tensor Verif.Emit Verif.Conv Verif.Nn

variable {α : Type}

theorem geom_kernel {a : Attrs} {k : List Nat} {dim : Nat → Nat} {g : Geom} (h : a.geom k dim = some g) : g.kernel = k := by
  unfold Attrs.geom at h
  dsimp only at h
  split at h
  · split at h
    · split at h
      · cases h
      · cases h; rfl
    · cases h; rfl
  · cases h

theorem onnxConv_shape {acc : Acc α} {zero : α} {a : Attrs} {x w c : T α} {m : Nat} (hw : w.shape.length = m + 2) (h : onnxConv acc zero a x w = some c) :
    ∃ b sp, sp.length = m ∧ c.shape = mk false b sp (nth w.shape 0) := by
  unfold onnxConv at h
  dsimp only at h
  split at h
  · rw [Option.map_eq_some_iff] at h
    obtain ⟨g, hg, rfl⟩ := h
    refine ⟨_, _, ?_, windowed_shape ..⟩
    rw [List.length_map, List.length_range, geom_kernel hg, List.length_drop, hw]
    rfl
  · cases h

/-- `tf.nn.bias_add` with the layout of the convolution. -/
def biasAdd [Add α] (last : Bool) (x b : T α) : Option (T α) := if last then biasLast x b else biasFirst x b

theorem biasAdd_ok [Add α] {last : Bool} {m n c : Nat} {sp : List Nat} {x b v : T α} (hsp : sp.length = m) (hx : x.shape = mk last n sp c)
    (h : biasAdd last x b = some v) : b.shape = [c] ∧ v.shape = x.shape ∧ ∀ n' sp' c', sp'.length = m → v.get (mk last n' sp' c') = x.get (mk last n' sp' c') + b.get [c'] := by
  cases last
  · unfold biasAdd biasFirst at h
    simp only [Bool.false_eq_true, if_false] at h
    split at h
    · rename_i hc
      cases h
      rw [hx] at hc
      exact ⟨hc.2, rfl, fun n' sp' c' _ => rfl⟩
    · cases h
  · unfold biasAdd biasLast at h
    simp only [if_true] at h
    split at h
    · rename_i hc
      cases h
      rw [hx, mk_length, hsp] at hc
      have e : ∀ n sp c, sp.length = m → nth (mk true n sp c) (m + 2 - 1) = c := fun n sp c hs => by
        have := chOf_mk true n sp c
        rw [hs] at this
        exact this
      rw [e n sp c hsp] at hc
      refine ⟨hc.2, rfl, fun n' sp' c' hs => ?_⟩
      simp only [mk_length]
      rw [hs, e n' sp' c' hs]
    · cases h

/-- **C66**: a bias added to a convolution becomes the third operand of the `Conv`, and nothing changes, if the `BiasAdd` has the same layout as the convolution. -/
theorem bias_merged_partial [Add α] (acc : Acc α) (zero : α) (n : Node) (m : Nat) (p : TfPad) (strides dilations : List Nat) (x w b : T α)
    (h : ConvArgs acc zero n m p strides dilations x w) {v : T α}
    (hv : biasAdd n.last (tfConv acc zero n.last p strides dilations x w) b = some v) :
    ∃ y, biasConv acc zero n m x w b = .ok (some y) ∧ Same y v := by
  obtain ⟨y0, h0, hs⟩ := conv_converts acc zero n m p strides dilations x w h
  unfold convertedConv at h0
  cases ha : convAttrs n m with
  | error e => rw [ha] at h0; cases h0
  | ok a =>
    rw [ha] at h0
    simp only [bind, Except.bind, Except.ok.injEq] at h0
    rw [Option.map_eq_some_iff] at h0
    obtain ⟨c, hc, rfl⟩ := h0
    have hwl : (transpose (kernelPerm m) w).shape.length = m + 2 := by simp [transpose, kernelPerm]
    obtain ⟨bt, sp, hsp, hcs⟩ := onnxConv_shape hwl hc
    generalize hco : nth (transpose (kernelPerm m) w).shape 0 = cout at hcs
    have hys := fromOnnx_shape n.last c hsp hcs
    have htf : (tfConv acc zero n.last p strides dilations x w).shape = mk n.last bt sp cout := by rw [← hs.1, hys]
    obtain ⟨hb, hvs, hvg⟩ := biasAdd_ok hsp htf hv
    refine ⟨fromOnnx n.last m ⟨c.shape, fun i => c.get i + b.get [nth i 1]⟩, ?_, ?_⟩
    · unfold biasConv onnxConvBias
      rw [ha]
      simp only [bind, Except.bind, hc, Option.bind_some]
      rw [hco, if_pos hb]
      rfl
    · have hfs := fromOnnx_shape n.last (⟨c.shape, fun i => c.get i + b.get [nth i 1]⟩ : T α) hsp hcs
      refine ⟨by rw [hfs, hvs, htf], fun idx hi => ?_⟩
      rw [hfs] at hi
      obtain ⟨n', sp', c', hsp', rfl⟩ := exists_mk n.last (m := m) (idx := idx) (by rw [hi.1, mk_length, hsp])
      rw [fromOnnx_get n.last _ n' c' hsp', hvg n' sp' c' hsp', ← hs.2 _ (by rw [hys]; exact hi), fromOnnx_get n.last _ n' c' hsp']
      rfl

/-! ## Examples -/

open Verif.Conv.Ex

/-- A 2 x 2 convolution without padding behind a `Pad` of one row above and two columns to the right; channels last. -/
def padNode : Node := ⟨"NHWC", [1, 1, 1, 1], some [1, 1, 1, 1], "VALID", [], some [1, 4, 5, 1], some [1, 3, 4, 1], some [2, 2, 1, 1]⟩

example : padOf padNode none 2 [(0, 0), (1, 0), (0, 2), (0, 0)] = some [1, 0, 0, 2] := by decide
/-- Padded channels are left alone. -/
example : padOf padNode none 2 [(0, 0), (1, 0), (0, 2), (0, 1)] = none := by decide

/-- The padded image. -/
def padded : T Int := (tfPad 0 [(0, 0), (1, 0), (0, 2), (0, 0)] (count [1, 3, 3, 1])).getD (count [])

theorem pad_example : tfPad 0 [(0, 0), (1, 0), (0, 2), (0, 0)] (count [1, 3, 3, 1]) = some padded ∧
    ConvArgs sumAcc 0 padNode 2 .valid [1, 1, 1, 1] [1, 1, 1, 1] padded (count [2, 2, 1, 1]) :=
  ⟨rfl, ⟨rfl, rfl, fun l h => by simp at h, rfl, rfl, by decide, Or.inl rfl, rfl, by decide⟩, rfl, rfl, by decide, by decide, by decide, by decide, by decide,
    ⟨_, rfl, by decide⟩, ⟨_, rfl, by decide⟩, ⟨_, rfl, by decide⟩, fun h => by simp at h, Or.inl rfl, fun _ => rfl⟩

example : elems (tfConv sumAcc 0 true .valid [1, 1, 1, 1] [1, 1, 1, 1] padded (count [2, 2, 1, 1])) = [3, 8, 4, 0, 19, 25, 10, 0, 37, 43, 16, 0] := by decide

/-- The same convolution, which already has explicit padding of a row below. -/
def explicitNode : Node := ⟨"NHWC", [1, 1, 1, 1], some [1, 1, 1, 1], "EXPLICIT", [0, 0, 0, 1, 0, 0, 0, 0], some [1, 3, 3, 1], some [1, 4, 4, 1], some [2, 2, 1, 1]⟩

/-- **Defect**: only `SAME` convolutions are left alone; explicit padding of the convolution is lost. -/
theorem pad_explicit_violated : ∃ y, padConv sumAcc 0 explicitNode none 2 [(0, 0), (1, 0), (0, 2), (0, 0)] (count [1, 3, 3, 1]) (count [2, 2, 1, 1]) = some (.ok (some y)) ∧
    y.shape = [1, 3, 4, 1] ∧ (tfConv sumAcc 0 true (.explicit [(0, 0), (0, 1), (0, 0), (0, 0)]) [1, 1, 1, 1] [1, 1, 1, 1] padded (count [2, 2, 1, 1])).shape = [1, 4, 4, 1] :=
  ⟨_, rfl, rfl, rfl⟩

/-- A 1 x 1 convolution with two output channels. -/
def biasNode : Node := ⟨"NHWC", [1, 1, 1, 1], some [1, 1, 1, 1], "VALID", [], some [1, 2, 1, 1], some [1, 2, 1, 2], some [1, 1, 1, 2]⟩

theorem bias_example : ConvArgs sumAcc 0 biasNode 2 .valid [1, 1, 1, 1] [1, 1, 1, 1] (count [1, 2, 1, 1]) (count [1, 1, 1, 2]) ∧
    ∃ v, biasAdd true (tfConv sumAcc 0 true .valid [1, 1, 1, 1] [1, 1, 1, 1] (count [1, 2, 1, 1]) (count [1, 1, 1, 2])) ⟨[2], fun i => 10 * nth i 0⟩ = some v :=
  ⟨⟨⟨rfl, rfl, fun l h => by simp at h, rfl, rfl, by decide, Or.inl rfl, rfl, by decide⟩, rfl, rfl, by decide, by decide, by decide, by decide, by decide,
    ⟨_, rfl, by decide⟩, ⟨_, rfl, by decide⟩, ⟨_, rfl, by decide⟩, fun h => by simp at h, Or.inl rfl, fun _ => rfl⟩, _, rfl⟩

/-- **Defect**: the layout of the `BiasAdd` is forgotten. A bias along axis 1 is added along the last one. -/
theorem bias_layout_violated : ∃ y v, biasConv sumAcc 0 biasNode 2 (count [1, 2, 1, 1]) (count [1, 1, 1, 2]) ⟨[2], fun i => 10 * nth i 0⟩ = .ok (some y) ∧
    biasAdd false (tfConv sumAcc 0 true .valid [1, 1, 1, 1] [1, 1, 1, 1] (count [1, 2, 1, 1]) (count [1, 1, 1, 2])) ⟨[2], fun i => 10 * nth i 0⟩ = some v ∧
    y.get [0, 0, 0, 1] = 10 ∧ v.get [0, 0, 0, 1] = 0 := ⟨_, _, rfl, rfl, by decide, by decide⟩

end Verif.Patt
