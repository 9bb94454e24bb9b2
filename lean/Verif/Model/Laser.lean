/-
Model of the laser launch optics (`LGS_Physical`, `LGS_Geometric` in `LGS.py`), of the scale at which the laser spot is convolved with the sub-aperture images (`wfs/shackhartmann.py`) and of the phase of the layers of an
elongated beacon (`wfs/wfs.py`), over the real numbers.
-/
import Verif.Model.Tools
import Verif.Model.Nan
import Mathlib.Analysis.SpecialFunctions.Trigonometric.Basic
import Mathlib.Analysis.SpecialFunctions.Pow.Real

namespace Soapy.Laser

open Soapy.Tools Soapy.Mirror Soapy.Nan Soapy.Influence

/-! ### Launch telescope -/

/-- `focus_rms` of `LGS_Physical.calcInitParams` (LGS.py:250): `h` the height, `D` the diameter of the launch telescope. -/
noncomputable def focusRms (h D lam : ℝ) : ℝ := h / (2 * Real.sqrt 3 * 8 * (h / D) ^ 2) * (2 * Real.pi) / lam

/-- `aotools.zernike_noll(4, n)`: focus, at distance `rho` from the centre in units of the radius.  Not part of the repository; simplified to the continuous function inside the pupil. -/
noncomputable def zernike4 (rho : ℝ) : ℝ := Real.sqrt 3 * (2 * rho ^ 2 - 1)

/-- The phase put on the beam (LGS.py:257). -/
noncomputable def launchPhase (h D lam rho : ℝ) : ℝ := -focusRms h D lam * zernike4 rho

/-- `start` and `end` (LGS.py:253-256); `m` is the size of the mask, `p` is `lgsPupilPxls`. -/
def focusRange (m p : ℕ) : ℤ × ℤ := ((m / 2 : ℕ) - (p / 2 : ℕ), (m / 2 : ℕ) + (p / 2 : ℕ) + (if p % 2 ≠ 0 then 1 else 0))

/-- `focus[start:end,start:end] = …` with a `p × p` array (LGS.py:252-257): the position of the first element; numpy refuses another length (one element would fit anywhere). -/
def placeFocus (m p : ℕ) : Except PyErr ℕ :=
  let r := focusRange m p
  if sliceLen m r.1 r.2 = p ∨ p = 1 then .ok (sliceBound m r.1) else .error .valueError

/-- `psf` of `LGS_Physical.getLgsPsf` (LGS.py:275-277): `E[n:-n, n:-n]` of a `3 n × 3 n` field; one axis. -/
def cropField {α : Type} (n : ℕ) (field : List α) : List α := pySlice field n (-(n : ℤ))

/-- `LGS_Geometric.getLgsPsf` (LGS.py:191): `interp.zoom(self.EField, self.nFovPxls)*self.mask`; the field is complex; a product with `None` raises `TypeError`. -/
def geometricField (rows cols : ℕ) (s : ℚ → ℚ → ℚ) (nFov : ℕ) (mask : ℕ → ℕ → ℚ) : Except PyErr Arr2 :=
  (zoom true rows cols s nFov nFov).bind fun z =>
    match z with
    | none => .error .typeError
    | some a => .ok ⟨a.rows, a.cols, fun i j => a.px i j * mask i j⟩

/-- The field of a laser in physical propagation where it leaves the telescope: the mask of `LGS_Physical` is complex (LGS.py:260-262) and is zoomed by the line of sight (lineofsight.py:165-169; `mask` is
`none` for a laser without one), then `EFieldBuf *= output_mask` (lineofsight.py:430), real part, for light of amplitude one; a product with `None` raises `TypeError`. -/
def physicalLaunch (mask : Option (ℕ × ℕ × (ℚ → ℚ → ℚ))) (nOut : ℕ) : Except PyErr Arr2 :=
  let out : Except PyErr (Option Arr2) := match mask with
    | none => .ok none
    | some m => zoom true m.1 m.2.1 m.2.2 nOut nOut
  out.bind fun z =>
    match z with
    | none => .error .typeError
    | some a => .ok a

/-! ### Sensor in physical propagation -/

/-- `interp_efield[:] = interp.zoom(los.EField, nx_interp_efield)` (shackhartmann.py:334), real part: numpy turns `None` into NaN. -/
def physicalField (rows cols : ℕ) (s : ℚ → ℚ → ℚ) (n : ℕ) : Except PyErr (ℕ → ℕ → Flt) :=
  (zoom true rows cols s n n).bind fun z =>
    match z with
    | none => .ok fun _ _ => none
    | some a => .ok fun i j => some (a.px i j)

/-- The measurement of a Shack-Hartmann sensor in physical propagation: `cents` makes the centroids from the field (FFT, detector, centroider), the reference is the measurement of a flat wavefront without reference (shackhartmann.py:287-297, 421-460). -/
def physicalSlopes (cents : (ℕ → ℕ → Flt) → List Flt) (n p rows cols nInterp : ℕ) (m : Slopes.Mode) (flat field : ℚ → ℚ → ℚ) : Except PyErr (List Flt) :=
  (physicalField rows cols flat nInterp).bind fun f0 =>
    (physicalField rows cols field nInterp).bind fun f =>
      .ok (shSlopes n p m (some (shSlopes n p ⟨false, true⟩ none none (cents f0))) none (cents f))

/-! ### Scale of the uplink spot -/

/-- Angle of one element of the laser spot: `outPxlScale` (shackhartmann.py:217-222), the field of the sub-aperture over the size of the FFT.  `LGS_Physical` turns it into metres at the beacon and back. -/
noncomputable def lgsScale (fov : ℝ) (nFft : ℕ) : ℝ := fov / nFft

/-- `fov` of `LGS_Physical.calcInitParams` (LGS.py:221-235) for an output scale given in arcseconds: `nOut * outPxlScale_rad * RAD2ASEC`. -/
noncomputable def lgsFov (rad2asec scale height : ℝ) (nOut : ℕ) : ℝ :=
  let scaleM := scale / rad2asec * height
  nOut * (scaleM / height) * rad2asec

/-- Angle (in radians) between two elements of the FFT of a sub-aperture of diameter `diam` sampled with `n` elements and padded to `nFft` (shackhartmann.py:66-81, 171-188). -/
noncomputable def imageScale (lam diam : ℝ) (n nFft : ℕ) : ℝ := lam / (nFft * (diam / n))

/-! ### Layers of an elongated beacon -/

/-- `focalPathDiff` (wfs.py:305-307): `gs` is `GSHeight`, `H` is `lgs.height`, `h` the height of the layer, `D` the telescope diameter. -/
noncomputable def focalPathDiff (lam D gs H h : ℝ) : ℝ :=
  2 * Real.pi / lam * (((D / 2) ^ 2 + h ^ 2) ^ ((1 : ℝ) / 2) - ((D / 2) ^ 2 + H ^ 2) ^ ((1 : ℝ) / 2) - (h - gs))

/-- `tiltPathDiff` on one axis (wfs.py:310-314): `d` is the launch position in metres, `pos` is `GSPosition`. -/
noncomputable def tiltPathDiff (lam D gs H d pos h : ℝ) : ℝ :=
  let dh := h - gs
  let theta := d / H - pos
  2 * Real.pi / lam * (Real.sqrt ((dh + H) ^ 2 + ((dh + H) * theta - d - D / 2) ^ 2) + Real.sqrt (H ^ 2 + (D / 2 - d + H * theta) ^ 2)
    - Real.sqrt (H ^ 2 + (H * theta - d - D / 2) ^ 2) - Real.sqrt ((dh + H) ^ 2 + (D / 2 - d + (dh + H) * theta) ^ 2))

/-- `phaseAddition` (wfs.py:317-325) at the point `(x, y)` of the pupil in units of its radius: each Zernike array divided by its maximum.  Simplified: the functions and maxima are those of the whole disc (2, 2 and `√3`). -/
noncomputable def phaseAddition (lam D gs H : ℝ) (d pos : ℝ × ℝ) (h x y : ℝ) : ℝ :=
  Real.sqrt 3 * (2 * (x ^ 2 + y ^ 2) - 1) / Real.sqrt 3 * focalPathDiff lam D gs H h
    + 2 * x / 2 * tiltPathDiff lam D gs H d.1 pos.1 h + 2 * y / 2 * tiltPathDiff lam D gs H d.2 pos.2 h

end Soapy.Laser
