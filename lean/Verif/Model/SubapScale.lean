/-
Model of where a Shack-Hartmann sensor samples the phase of its line of sight (geometric propagation) and of the image of every sub-aperture (`wfs/shackhartmann.py`, `numbalib/wfslib.py`).

Phase is counted in waves (`los.phase / 2π`), as rational numbers; float32 rounding is left out.
-/
import Verif.Model.Interp
import Verif.Model.Spot
import Verif.Model.Subaps
import Verif.Model.Tools

namespace Soapy.SubapScale

open Soapy.Mirror Soapy.Interp Soapy.Spot

/-- `nx_interp_efield` (shackhartmann.py:83-88): `m` is `nx_subap_interp`, `P` the pupil and `S` the simulation size. -/
def efieldSize (nx m P S : ℕ) : ℕ := (pyRound ((nx : ℚ) * m * ((S : ℚ) / P))).toNat

/-- `zoomtoefield(los.phase, interp_efield)` (shackhartmann.py:324-326, wfslib.py:10-42) before the exponential: `interp_efield` is `N × N`. -/
def sampled (phase : Arr2) (N : ℕ) : Except PyErr (List (List ℚ)) := Interp.zoom phase N N

/-- What `chop_subaps_mask` puts into `fft_input_data` for the sub-aperture that begins at `(X, Y)` (shackhartmann.py:331-335, wfslib.py:45-55), `mask` being `scaledMask`. -/
noncomputable def subField (mask : ℕ → ℕ → ℝ) (waves : List (List ℚ)) (X Y j k : ℕ) : ℂ :=
  mask (X + j) (Y + k) * cis (2 * Real.pi * (((waves.getD (X + j) []).getD (Y + k) 0 : ℚ) : ℝ))

/-- `temp_subap_intensity` of that sub-aperture (shackhartmann.py:336-346); `nFft` is `subapFFTPadding`, `m` `nx_subap_interp`. -/
noncomputable def subImage (nFft m : ℕ) (tilt : ℕ → ℕ → ℝ) (mask : ℕ → ℕ → ℝ) (waves : List (List ℚ)) (X Y : ℕ) : ℕ → ℕ → ℝ :=
  spot nFft m (subField mask waves X Y) tilt

/-- Row `k` of `scaledMask` shows this row of the mask (shackhartmann.py:140-141, interp.py:25-26). -/
def maskRow (S N k : ℕ) : ℚ := Tools.linspace0 S N k

end Soapy.SubapScale
