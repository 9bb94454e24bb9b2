/-
Model of the Shack-Hartmann measurement (`wfs/shackhartmann.py`): photon numbers, detector scaling, referencing and tip-tilt removal.
-/
import Verif.Model.Vec
import Mathlib.Analysis.SpecialFunctions.Pow.Real

namespace Soapy.Slopes

/-- `numpy.nan_to_num(slopes)`; `slopes -= pxlsPerSubap / 2.0` (shackhartmann.py:439-442).  `none` is NaN.  The centroider is from `aotools` and not
modelled: its output (x of every sub-aperture, then y) is any list. -/
def centred (p : ℕ) (cents : List (Option ℚ)) : List ℚ := cents.map fun c => c.getD 0 - p / 2

/-- `if numpy.any(self.staticData): slopes -= self.staticData` (shackhartmann.py:444-445); `none` is `None`. -/
def subStatic (static : Option (List ℚ)) (s : List ℚ) : List ℚ :=
  if (static.getD []).any (fun z => z ≠ 0) then List.zipWith (fun a b => a - b) s (static.getD []) else s

/-- `a -= a.mean()` -/
def demean (l : List ℚ) : List ℚ := l.map fun a => a - l.sum / l.length

/-- Tip-tilt removal (shackhartmann.py:449-451): the two halves of the measurement vector in turn. -/
def removeTT (n : ℕ) (l : List ℚ) : List ℚ := demean (l.take n) ++ demean (l.drop n)

/-- What an interaction-matrix frame changes (wfs.py:415-422) together with the relevant configuration. -/
structure Mode where
  removeTT : Bool
  iMat : Bool

/-- `calculateSlopes` from the centroids on (shackhartmann.py:438-460); `noise` is the sample drawn if `angleEquivNoise` is set (453-458). -/
def slopes (n p : ℕ) (m : Mode) (static noise : Option (List ℚ)) (cents : List (Option ℚ)) : List ℚ :=
  let s := subStatic static (centred p cents)
  let s := if m.removeTT then removeTT n s else s
  match noise with
  | none => s
  | some w => if m.iMat then s else List.zipWith (fun a b => a + b) s w

/-- `getStatic` (shackhartmann.py:287-297): a flat wavefront, no reference, in interaction-matrix mode.  `cents` are the centroids of that frame. -/
def getStatic (n p : ℕ) (noise : Option (List ℚ)) (cents : List (Option ℚ)) : List ℚ :=
  slopes n p { removeTT := false, iMat := true } none noise cents

/-- `photons_per_mag` (shackhartmann.py:567-587); `maskSum` is `mask.sum()`. -/
noncomputable def photons (mag maskSum scale time zp : ℝ) : ℝ := zp * maskSum * scale ^ 2 * ((10 : ℝ) ^ (-mag / 2.5) * time)

/-- The scaling in `readDetectorPlane` (shackhartmann.py:386-390), pixels in any order.  Dividing by a zero total gives NaN or infinite pixels: `none`. -/
noncomputable def scaleDetector (n : ℝ) (det : List ℝ) : Option (List ℝ) :=
  if det.sum = 0 then none else some (det.map fun a => a / det.sum * n)

end Soapy.Slopes
