import Verif.Spec.TensorOps
import Mathlib.Algebra.Field.Basic
/-!
# Model of the fusion of `Conv` and `BatchNormalization` (tf2onnx/optimizer/back_to_back_optimizer.py:193-257)

The arithmetic is exact (a field with an uninterpreted `sqrt`); the casts to the element types of the operands
(`astype(bias.dtype)`, `astype(weights.dtype)`) are left out.
-/
namespace Verif.ConvBN
open Verif Verif.Tensor

variable {K : Type} [Field K]

/-- numpy's binary operators with broadcasting: the rank of the result is the larger one. -/
def npBin (f : K → K → K) (a b : T K) : T K :=
  elementwise (fun l => f (l.getD 0 0) (l.getD 1 0)) (max a.shape.length b.shape.length) [a, b]

/-- `np.array(0, dtype=...)`. -/
def scalar (c : K) : T K := { shape := [], get := fun _ => c }

/-- `scale_new = scale / np.sqrt(var + epsilon)` (back_to_back_optimizer.py:237). -/
def scaleNew (sqrt : K → K) (scale var : T K) (eps : K) : T K :=
  npBin (· / ·) scale { shape := var.shape, get := fun i => sqrt (var.get i + eps) }

/-- `weights.transpose(2, 3, 1, 0)`, the product, and `.transpose(3, 2, 0, 1)` (back_to_back_optimizer.py:230, 238-239). -/
def weightsNew (weights scale_new : T K) : T K :=
  transpose [3, 2, 0, 1] (npBin (· * ·) (transpose [2, 3, 1, 0] weights) scale_new)

/-- `bias_new = (bias - mean) * scale_new + offset` (back_to_back_optimizer.py:240). -/
def biasNew (bias mean scale_new offset : T K) : T K :=
  npBin (· + ·) (npBin (· * ·) (npBin (· - ·) bias mean) scale_new) offset

/-- The operands of a convolution and of a batch normalization. A missing bias is `none`. -/
structure Operands (K : Type) where
  weights : T K
  bias : Option (T K)
  scale : T K
  offset : T K
  mean : T K
  var : T K
  epsilon : K

/-- What decides whether the nodes are fused besides the operands: which operands are constant, the number of consumers of
the convolution, whether its consumer is a batch normalization, whether an output of it is a graph output or one of its
further outputs is used (back_to_back_optimizer.py:195-228). -/
structure Facts where
  consumers : Nat
  consumerIsBN : Bool
  bnIsOutput : Bool
  weightsConst : Bool
  biasConst : Bool
  bnConst : List Bool
  bnOtherUsed : Bool

/-- `_optimize_conv_batchnorm_fusion` (back_to_back_optimizer.py:193-257): the new weights and bias, or `none` if the nodes
are left alone. -/
def fuse (sqrt : K → K) (f : Facts) (p : Operands K) : Option (T K × T K) :=
  if f.consumers ≠ 1 then none
  else if !f.consumerIsBN then none
  else if f.bnIsOutput then none
  else if !f.weightsConst then none
  else if p.weights.shape.length ≠ 4 then none
  else if p.bias.isSome && !f.biasConst then none
  else if false ∈ f.bnConst then none
  else if f.bnOtherUsed then none
  else
    let bias := p.bias.getD (scalar 0)
    let scale_new := scaleNew sqrt p.scale p.var p.epsilon
    some (weightsNew p.weights scale_new, biasNew bias p.mean scale_new p.offset)

end Verif.ConvBN
