/-
Model of where a science camera samples the phase and the pupil (`scienceinstrument.py`, geometric propagation), and of the image of the sampled phase.

Phase is counted in waves (`los.phase / 2π`), as rational numbers; float32 rounding of the coordinates is left out.
-/
import Verif.Model.Interp
import Verif.Model.Psf
import Verif.Model.Tools

namespace Soapy.Plate

open Soapy.Mirror Soapy.Interp

/-- `interp_coords` (scienceinstrument.py:152-154): the telescope has `P` pixels after a padding of `pad`, the phase of the line of sight `nx`, the aperture of the camera `F` (`FOVPxlNo`). -/
def interpCoords (P pad nx F : ℕ) : List ℚ := (linspace pad ((P : ℚ) + pad) F).map (clip 0 ((nx : ℚ) - 100001 / 100000))

/-- `interp_phase` (scienceinstrument.py:224-226). -/
def interpPhase (phase : Arr2) (P pad F : ℕ) : Except PyErr (List (List ℚ)) :=
  interp false phase (interpCoords P pad phase.rows F) (interpCoords P pad phase.rows F)

/-- The row or column of `mask_pupil` that row or column `k` of `scaledMask` shows (scienceinstrument.py:115-118, interp.py:25-26): `mask_pupil` begins at `pad` of the mask. -/
def maskCoord (P pad F k : ℕ) : ℚ := pad + Tools.linspace0 P F k

/-- The image (before binning) of a phase through an aperture `m` (scienceinstrument.py:217-262), `N` being `FFTPadding`. -/
noncomputable def pic (N F : ℕ) (m : ℕ → ℕ → ℝ) (waves : List (List ℚ)) (p q : ℕ) : ℝ :=
  Psf.intensity N F (Psf.field m fun j k => 2 * Real.pi * (((waves.getD j []).getD k 0 : ℚ) : ℝ)) p q

/-- `detector` before normalisation (scienceinstrument.py:251-266). -/
noncomputable def detector (N F crop b : ℕ) (m : ℕ → ℕ → ℝ) (waves : List (List ℚ)) : ℕ → ℕ → ℝ :=
  Psf.raw N F crop b (Psf.field m fun j k => 2 * Real.pi * (((waves.getD j []).getD k 0 : ℚ) : ℝ))

end Soapy.Plate
