import Verif.Spec.TensorOps
/-!
# TensorFlow operators that rearrange the elements of a tensor

Written from the TensorFlow documentation, element by element.
-/
namespace Verif.Emit
open Verif.Tensor

/-- `tf.reverse(x, axes)`: along every axis of the set the elements come in reverse order. -/
def tfReverse {α : Type} (axes : Nat → Bool) (x : T α) : T α :=
  { shape := x.shape
    get := fun idx => x.get ((List.range x.shape.length).map (fun i => if axes i then nth x.shape i - 1 - nth idx i else nth idx i)) }

/-- `tf.reverse_sequence(x, lens, seq_axis, batch_axis)`: in slice `i` along the batch axis the first `lens[i]` elements along the sequence axis come in
reverse order, the others stay. -/
def tfReverseSequence {α : Type} (batch seq : Nat) (lens : List Nat) (x : T α) : T α :=
  { shape := x.shape
    get := fun idx =>
      if nth idx seq < nth lens (nth idx batch) then x.get (setAt idx seq (nth lens (nth idx batch) - 1 - nth idx seq)) else x.get idx }

/-- `tf.batch_to_space(x, block, crops)`: axis 0 is split into one position for every block offset and the batch; offset and spatial position give the
position in the full image, of which `crops` are cut off at both ends. `c` are the crops, (before, after) for every spatial axis. -/
def tfBatchToSpace {α : Type} (b : List Nat) (c : List (Nat × Nat)) (x : T α) : T α :=
  let n := nth x.shape 0 / size b
  { shape := n :: (List.range b.length).map (fun k => nth x.shape (k + 1) * nth b k - (c.getD k (0, 0)).1 - (c.getD k (0, 0)).2) ++
      x.shape.drop (b.length + 1)
    get := fun idx =>
      -- position in the image before cropping
      let y := fun k => nth idx (k + 1) + (c.getD k (0, 0)).1
      let block := lin b ((List.range b.length).map (fun k => y k % nth b k))
      x.get ((block * n + nth idx 0) :: (List.range b.length).map (fun k => y k / nth b k) ++ idx.drop (b.length + 1)) }

/-- `tf.space_to_batch(x, block, paddings)`: the spatial axes are padded with zeros; every block offset gives an image of its own, they are put next to
each other along axis 0. -/
def tfSpaceToBatch {α : Type} (zero : α) (b : List Nat) (p : List (Nat × Nat)) (x : T α) : T α :=
  let n := nth x.shape 0
  { shape := (size b * n) :: (List.range b.length).map (fun k => (nth x.shape (k + 1) + (p.getD k (0, 0)).1 + (p.getD k (0, 0)).2) / nth b k) ++
      x.shape.drop (b.length + 1)
    get := fun idx =>
      let off := delin b (nth idx 0 / n)
      -- position in the padded image
      let y := fun k => nth idx (k + 1) * nth b k + nth off k
      if ∀ k, k < b.length → (p.getD k (0, 0)).1 ≤ y k ∧ y k - (p.getD k (0, 0)).1 < nth x.shape (k + 1) then
        x.get ((nth idx 0 % n) :: (List.range b.length).map (fun k => y k - (p.getD k (0, 0)).1) ++ idx.drop (b.length + 1))
      else zero }

end Verif.Emit
