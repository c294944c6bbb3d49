import Verif.Spec.Colour
/-!
# Model: colours of images (tf2onnx/onnx_opset/nn.py)

The operators emitted for `AdjustSaturation` and `AdjustHue` work on every pixel alone: `TopK`, `Split`, `Concat`, `GatherElements` and `GatherND` act along the last axis, which has
length 3, the others on each element, with the factor as a scalar. The model is that of one pixel. Numbers are exact.
-/
namespace Verif.Colour

/-- `AdjustSaturation.version_11` (nn.py:1542-1570). -/
def saturation (factor : ℚ) (p : Px) : Px :=
  let indices := topK p
  let ordered := gatherElements p indices
  let maxC := ordered.x0
  let midC := ordered.x1
  let minC := ordered.x2
  let delta := maxC - minC
  let newDelta := Min.min (delta * factor) maxC
  let newMin := maxC - newDelta
  let delta2 := midC - minC
  let deltaNz := delta + (if delta = 0 then 1 else 0)
  let newMid := newMin + delta2 * (newDelta / deltaNz)
  gatherElements ⟨maxC, newMid, newMin⟩ indices

/-- `sector_lookup` (nn.py:1599, 1602-1607): 0 where nothing is set. -/
def sectorLookup (i : Ix) : ℚ :=
  if i = ⟨0, 1, 2⟩ then 0 else if i = ⟨1, 0, 2⟩ then 2 / 6 else if i = ⟨1, 2, 0⟩ then 2 / 6 else if i = ⟨2, 1, 0⟩ then 4 / 6 else if i = ⟨2, 0, 1⟩ then 4 / 6
  else if i = ⟨0, 2, 1⟩ then 1 else 0

/-- `parity_lookup` (nn.py:1600, 1609-1614). -/
def parityLookup (i : Ix) : ℚ :=
  if i = ⟨0, 1, 2⟩ then 1 / 6 else if i = ⟨1, 0, 2⟩ then -1 / 6 else if i = ⟨1, 2, 0⟩ then 1 / 6 else if i = ⟨2, 1, 0⟩ then -1 / 6 else if i = ⟨2, 0, 1⟩ then 1 / 6
  else if i = ⟨0, 2, 1⟩ then -1 / 6 else 0

/-- The hue in turns (nn.py:1584-1623). -/
def initialAngle (p : Px) : ℚ :=
  let indices := topK p
  let ordered := gatherElements p indices
  let delta := ordered.x0 - ordered.x2
  let delta2 := ordered.x1 - ordered.x2
  let progress := delta2 / (delta + (if delta = 0 then 1 else 0))
  progress * parityLookup indices + sectorLookup indices

/-- One channel (nn.py:1630-1640). -/
def channel (newAngle offset delta minC : ℚ) : ℚ := clip (|fmod (newAngle + offset) 1 - 1 / 2| * 6 - 1) 0 1 * delta + minC

/-- `AdjustHue.version_11` (nn.py:1573-1643). -/
def turnHue (angleDelta : ℚ) (p : Px) : Px :=
  let ordered := gatherElements p (topK p)
  let delta := ordered.x0 - ordered.x2
  let newAngle := initialAngle p + (angleDelta + 1)
  ⟨channel newAngle 0 delta ordered.x2, channel newAngle (4 / 6) delta ordered.x2, channel newAngle (2 / 6) delta ordered.x2⟩

end Verif.Colour
