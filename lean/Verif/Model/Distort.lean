import Verif.Spec.Distort
/-!
# Model: `SampleDistortedBoundingBox`, `V2` (tf2onnx/onnx_opset/nn.py:1084-1234)

`Except.error`: the handler raises. What `RandomUniform` draws is a parameter: four numbers for every attempt. Simplified: numbers are elements of an ordered field with a function `sqrt` and a rounding
`round` to integers; columns of matrices are functions of the number of the attempt.
-/
namespace Verif.Distort
open Verif.Nms

variable {K : Type} [Field K] [LinearOrder K]

/-- What is drawn for an attempt. -/
structure Draw (K : Type) where
  r1 : K
  r2 : K
  r3 : K
  r4 : K

/-- The height and the width of a random box (nn.py:1121-1152). -/
def sides (sqrt : K → K) (l : Limits K) (H W : K) (d : Draw K) : K × K :=
  let aspect := d.r1 * (l.maxRatio - l.minRatio) + l.minRatio
  let img := W / H
  let adjusted := aspect / img
  let minHeight := sqrt (l.minArea / adjusted)
  let maxHeight := sqrt (l.maxArea / adjusted)
  let maxAllowed := min (img / aspect) 1
  let maxHeight2 := min maxHeight maxAllowed
  let minHeight2 := min minHeight maxHeight2
  let h := d.r2 * (maxHeight2 - minHeight2) + minHeight2
  (h, h * adjusted)

/-- A random box (nn.py:1154-1163). -/
def sample (sqrt : K → K) (l : Limits K) (H W : K) (d : Draw K) : Box K :=
  let s := sides sqrt l H W d
  let x1 := d.r3 * (1 - s.2)
  let y1 := d.r4 * (1 - s.1)
  ⟨y1, x1, y1 + s.1, x1 + s.2⟩

/-- Is the area of the random box allowed (nn.py:1165-1170)? -/
def areaOk (sqrt : K → K) (l : Limits K) (H W : K) (d : Draw K) : Bool :=
  let s := sides sqrt l H W d
  !(decide (l.maxArea < s.1 * s.2) || decide (s.1 * s.2 < l.minArea))

/-- Is enough of some object in the box (nn.py:1172-1200)? The objects that are counted, and a comparison with zero. -/
def objectOk (l : Limits K) (objects : List (Box K)) (b : Box K) : Bool :=
  decide (0 < (objects.map (fun o =>
    let ratio := max (min b.y2 o.y2 - max b.y1 o.y1) 0 * max (min b.x2 o.x2 - max b.x1 o.x1) 0 / ((o.y2 - o.y1) * (o.x2 - o.x1))
    if !decide (ratio < l.cover) then 1 else 0)).sum)

/-- `SampleDistortedBoundingBox.version_9` (nn.py:1086-1234): the box, the corner with the smaller coordinates and the size in pixels. `knownEmpty`: the known shape of the objects contains a zero. -/
def distort (sqrt : K → K) (round : K → Int) (knownEmpty useImage : Bool) (l : Limits K) (H W : K) (objects : List (Box K)) (draws : List (Draw K)) :
    Except String (Box K × (Int × Int) × (Int × Int)) :=
  if knownEmpty && useImage then .error "name 'min_area_const' is not defined"
  else
    let good := draws.filter (fun d => areaOk sqrt l H W d && objectOk l objects (sample sqrt l H W d))
    let b := (good.map (sample sqrt l H W) ++ [whole]).headD whole
    let y1 := round (b.y1 * H)
    let x1 := round (b.x1 * W)
    .ok (b, (y1, x1), (round (b.y2 * H) - y1, round (b.x2 * W) - x1))

end Verif.Distort
