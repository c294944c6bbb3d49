import Verif.Spec.Nms
/-!
# Random boxes of images: what TensorFlow promises
-/
namespace Verif.Distort
open Verif.Nms

variable {K : Type} [Field K] [LinearOrder K]

/-- What a random box must satisfy: `minRatio` to `maxRatio` the range of width by height, `minArea` to `maxArea` that of the area as a part of the image, `cover` the part of some object that must be in
the box. -/
structure Limits (K : Type) where
  minRatio : K
  maxRatio : K
  minArea : K
  maxArea : K
  cover : K

/-- The area that a box and an object have in common. -/
def common (b o : Box K) : K := max (min b.y2 o.y2 - max b.y1 o.y1) 0 * max (min b.x2 o.x2 - max b.x1 o.x1) 0

/-- The box lies within the image, its sides grow from the first corner to the second, and its width is as many times its height (in pixels of an image of size `H` and `W`) as allowed. -/
structure Fits (l : Limits K) (H W : K) (b : Box K) : Prop where
  top : 0 ≤ b.y1
  vertical : b.y1 ≤ b.y2
  bottom : b.y2 ≤ 1
  left : 0 ≤ b.x1
  horizontal : b.x1 ≤ b.x2
  right : b.x2 ≤ 1
  ratio : ∃ a, l.minRatio ≤ a ∧ a ≤ l.maxRatio ∧ (b.x2 - b.x1) * W = a * ((b.y2 - b.y1) * H)

/-- A box that may be given: it fits, its area is allowed, and enough of some object is in it. -/
structure Allowed (l : Limits K) (H W : K) (objects : List (Box K)) (b : Box K) : Prop where
  fits : Fits l H W b
  area : l.minArea ≤ (b.y2 - b.y1) * (b.x2 - b.x1) ∧ (b.y2 - b.y1) * (b.x2 - b.x1) ≤ l.maxArea
  covers : ∃ o ∈ objects, l.cover ≤ common b o / ((o.y2 - o.y1) * (o.x2 - o.x1))

/-- The whole image. -/
def whole : Box K := ⟨0, 0, 1, 1⟩

end Verif.Distort
