/-
Model of the figures of merit a science camera reports (`scienceinstrument.py:calcInstStrehl`, `calc_wavefronterror`), both from the phase of the line of sight: the Strehl ratio from the sampled phase and the scaled mask,
the wavefront error from the phase and the mask of the simulation.
-/
import Verif.Model.Plate
import Verif.Model.Science

namespace Soapy.Report

open Soapy.Mirror Finset

/-- `longExpStrehl` with tip-tilt (scienceinstrument.py:282): the value of the pixel `pxls // 2`. -/
noncomputable def longStrehlTT (N n crop b px : ℕ) (hpx : 0 < px) (m : ℕ → ℕ → ℝ) (phis : List (ℕ → ℕ → ℝ)) : ℝ :=
  Psf.unit px (Psf.longRaw N n crop b m phis) (px / 2) (px / 2) / Psf.psfMax N n crop b px hpx m

/-- The wavefront error of a square array (scienceinstrument.py:297-308), in nm: `phi` in radians, `c` is `phs2Rad`. -/
noncomputable def gridWfe (n : ℕ) (m phi : ℕ → ℕ → ℝ) (c : ℝ) : ℝ :=
  Science.wfe (fun p : Fin n × Fin n => m p.1 p.2) (fun p => phi p.1 p.2) c

/-- `scaledMask` (scienceinstrument.py:115-118): the mask without its `pad` pixels at each side, zoomed to `F` elements and rounded; `spl` is the spline through an image. -/
def scaledMask (spl : Arr2 → ℚ → ℚ → ℚ) (P pad F : ℕ) (mask : Arr2) : Except PyErr Arr2 :=
  (Tools.zoom false P P (spl ⟨P, P, fun i j => mask.px (i + pad) (j + pad)⟩) F F).bind fun z => match z with
    | none => .error .typeError
    | some z => .ok ⟨z.rows, z.cols, fun i j => (pyRound (z.px i j) : ℚ)⟩

/-- What a frame reports (scienceinstrument.py:217-273, 281, 297-308) on a camera that looks down, with tip-tilt: `phase` in waves, of the whole simulation.  `k` is `FOVPxlNo` as first computed, `f` is `fftOversamp` after
the padding search. -/
noncomputable def reported (spl : Arr2 → ℚ → ℚ → ℚ) (P pad k f px : ℕ) (hpx : 0 < px) (mask phase : Arr2) (c : ℝ) : Except PyErr (ℝ × ℝ) :=
  (Science.sizes k P px f).bind fun s => (scaledMask spl P pad s.fov mask).bind fun sm => (Plate.interpPhase phase P pad s.fov).bind fun waves =>
    .ok (Psf.instStrehlTT s.fft s.fov s.crop f px hpx (fun i j => (sm.px i j : ℝ)) (fun i j => 2 * Real.pi * (((waves.getD i []).getD j 0 : ℚ) : ℝ)),
      gridWfe (P + 2 * pad) (fun i j => (mask.px i j : ℝ)) (fun i j => 2 * Real.pi * (phase.px i j : ℝ)) c)

end Soapy.Report
