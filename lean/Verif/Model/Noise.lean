/-
Model of the noise of the sensors: photon and read noise of the Shack-Hartmann sensor's detector, read noise of the pyramid sensor's, and the noise added to measurements (`angleEquivNoise`).
The numbers drawn by `numpy.random` are parameters.
-/
import Verif.Model.Sensors
import Verif.Model.Slopes
import Mathlib.Algebra.BigOperators.Fin

namespace Soapy.Noise

/-- The detector of the Shack-Hartmann sensor scaled to `n` photons (shackhartmann.py:386-390), pixels in any order.  Without light the quotient is NaN in the code; here it is 0. -/
noncomputable def image {k : ℕ} (n : ℝ) (det : Fin k → ℝ) (i : Fin k) : ℝ := det i / (∑ j, det j) * n

/-- The options a sensor's noise depends on (confParse.py:780-795). -/
structure Options where
  photonNoise : Bool
  eReadNoise : ℝ
  angleEquivNoise : ℝ
  pxlsPerSubap : ℕ
  subapFOV : ℝ
  removeTT : Bool

/-- `ShackHartmann.readDetectorPlane` (shackhartmann.py:384-397, 463-481).  `counts` is what `numpy.random.poisson(self.detector)` returns, `z` the standard normal numbers that
`numpy.random.normal` scales by `eReadNoise`. -/
noncomputable def readDetector {k : ℕ} (o : Options) (n : ℝ) (det : Fin k → ℝ) (counts : Fin k → ℕ) (z : Fin k → ℝ) (i : Fin k) : ℝ :=
  let d := if o.photonNoise then (counts i : ℝ) else image n det i
  if o.eReadNoise ≠ 0 then d + o.eReadNoise * z i else d

/-- The end of `Pyramid.calcFocalPlane` (pyramid.py:359-364) and `readDetectorPlane`, which the pyramid sensor has from `WFS`, where it does nothing (wfs.py:544-545): `plane` is the detector before. -/
noncomputable def readPyramid {k : ℕ} (o : Options) (plane : Fin k → ℝ) (_counts : Fin k → ℕ) (z : Fin k → ℝ) (i : Fin k) : ℝ :=
  if o.eReadNoise ≠ 0 then plane i + o.eReadNoise * z i else plane i

/-- `a -= a.mean()`. -/
noncomputable def demean {k : ℕ} (s : Fin k → ℝ) (i : Fin k) : ℝ := s i - (∑ j, s j) / k

/-- The end of `ShackHartmann.calculateSlopes` (shackhartmann.py:449-458) for the slopes of one direction; `z` are standard normal numbers, `iMat` is set during interaction-matrix frames. -/
noncomputable def shSlopes {k : ℕ} (o : Options) (iMat : Bool) (s z : Fin k → ℝ) (i : Fin k) : ℝ :=
  let s := if o.removeTT then demean s else s
  if o.angleEquivNoise ≠ 0 ∧ iMat = false then s i + o.angleEquivNoise * (o.pxlsPerSubap : ℝ) / o.subapFOV * z i else s i

/-- `Gradient.calculateSlopes` (gradient.py:149-169): x slopes, then y slopes, with `zx` and `zy` the standard normal numbers and `a` the step of the coordinates. -/
noncomputable def gradientSlopes {n s : ℕ} (o : Options) (iMat : Bool) (a : ℝ) (p : Fin n → Sensors.Sub s) (zx zy : Fin n → ℝ) : (Fin n → ℝ) × (Fin n → ℝ) :=
  let c := Sensors.gradSlopes a o.removeTT p
  let w := o.angleEquivNoise * (o.pxlsPerSubap : ℝ) / o.subapFOV
  if o.angleEquivNoise ≠ 0 ∧ iMat = false then (fun i => c.1 i + w * zx i, fun i => c.2 i + w * zy i) else c

/-- The end of `Pyramid.calculateSlopes` (pyramid.py:405-409): `raw` are the slopes of the image, `flat` is `flat_slopes`.  No noise is added. -/
noncomputable def pyramidSlopes {k : ℕ} (_o : Options) (_iMat : Bool) (raw flat _z : Fin k → ℝ) (i : Fin k) : ℝ := raw i - flat i

end Soapy.Noise
