/-
Model of the pyramid sensor's optics (`wfs/pyramid.py`): the phases of pyramid, centring and modulation, the detector image of a frame and of the reference, and the slopes as functions of the position in the pupil image.
-/
import Verif.Model.Psf

namespace Soapy.Pyr

open Soapy.Psf Soapy.Spot Finset

/-- The mean of `arange(n) * v`. -/
noncomputable def meanRamp (n : ℕ) (v : ℝ) : ℝ := (∑ k ∈ range n, (k : ℝ) * v) / n

/-- `calcPhaseScreenTipTilt` (pyramid.py:69-90) for an `n × n` array: the tip runs along the columns, the transposed tilt along the rows; `tilt.mean()` is taken twice. -/
noncomputable def tipTilt (n : ℕ) (tip tilt : ℝ) (i j : ℕ) : ℝ :=
  let tipPhase := fun (_ j : ℕ) => (j : ℝ) * tip - meanRamp n tip
  let tilt1 := fun j : ℕ => (j : ℝ) * tilt - meanRamp n tilt
  let tiltPhase := fun (_ j : ℕ) => tilt1 j - (∑ k ∈ range n, tilt1 k) / n
  tipPhase i j - tiltPhase j i

/-- `centroidMask` (pyramid.py:175-177). -/
noncomputable def centroidMask (N : ℕ) : ℕ → ℕ → ℝ := tipTilt N (-Real.pi / N) (Real.pi / N)

/-- `apex` (pyramid.py:232-233): `pupil` is `pupil_size`, `nx` is `nx_subaps`, `sep` is `pupil_separation`. -/
noncomputable def apex (pupil nx N : ℕ) (sep : ℝ) : ℝ := ((pupil : ℝ) / nx * sep + pupil) * (1 / (N : ℝ)) * Real.pi

/-- `pyramid_mask` (pyramid.py:235-241) for an even `N`: four faces of half the size put together. -/
noncomputable def pyramidMask (N : ℕ) (a : ℝ) (i j : ℕ) : ℝ :=
  let h := N / 2
  if i < h then (if j < h then tipTilt h (-a) a i j else tipTilt h a a i (j - h))
  else (if j < h then tipTilt h (-a) (-a) (i - h) j else tipTilt h a (-a) (i - h) (j - h))

/-- `tip_mod` and `tilt_mod` of modulation point `s` of `n` (pyramid.py:265-274): `A` is `ampl`. -/
noncomputable def modPoint (A : ℝ) (n s : ℕ) : ℝ × ℝ :=
  let t := 2 * Real.pi * s / n
  (A * Real.cos (t + Real.pi / 4), -A * Real.sin (t + Real.pi / 4))

/-- `modulation_phase_matrix` (pyramid.py:292-299). -/
noncomputable def modulation (N : ℕ) (A : ℝ) (n s : ℕ) : ℕ → ℕ → ℝ := tipTilt N (modPoint A n s).1 (modPoint A n s).2

/-- `fft_input_data` of a frame (pyramid.py:339-347): the first `nb` of `max(32, nb)` slots are written, the others keep what was there (`stale`). -/
noncomputable def slots (N nb : ℕ) (A : ℝ) (m phi : ℕ → ℕ → ℝ) (stale : ℕ → ℕ → ℕ → ℂ) (s : ℕ) : ℕ → ℕ → ℂ :=
  if s < nb then pyrField m phi (modulation N A nb s) (centroidMask N) 1 else stale s

/-- `wfsDetectorPlane` of a frame with phase `phi` (pyramid.py:302-365) through the mask `m`; `noise` is what `addReadNoise` adds. -/
noncomputable def framePlane (N b nb : ℕ) (A a : ℝ) (m phi : ℕ → ℕ → ℝ) (stale : ℕ → ℕ → ℕ → ℂ) (noise : ℕ → ℕ → ℝ) (i j : ℕ) : ℝ :=
  pyrPlane (max 32 nb) N b nb (slots N nb A m phi stale) (pyramidMask N a) i j + noise i j

/-- `wfsDetectorPlane` for the reference (pyramid.py:330-331, 359-360): the phase is the mask itself and the image is not divided by the number of points. -/
noncomputable def flatPlane (N b nb : ℕ) (A a : ℝ) (m : ℕ → ℕ → ℝ) (stale : ℕ → ℕ → ℕ → ℂ) (noise : ℕ → ℕ → ℝ) (i j : ℕ) : ℝ :=
  rebin b (pyrImage (max 32 nb) N (slots N nb A m m stale) (pyramidMask N a)) i j + noise i j

/-- Where the pupil image of quadrant row (or column) `r` begins, for a quadrant of `before + n + after` pixels (pyramid.py:203-219): the second quadrant's mask is the mirror image of the first's. -/
def pupilAt (before n after r : ℕ) : ℕ := if r = 0 then before else before + n + after + after

/-- The shape of the detector mask: `n × n` pixels with the values `sub` (the same seen in a mirror), `before` pixels before and `after` pixels after them in the first quadrant. -/
structure Mask where
  before : ℕ
  n : ℕ
  after : ℕ
  sub : ℕ → ℕ → ℝ

/-- The value of pixel `(x, y)` of the pupil image in quadrant `(r, c)` (pyramid.py:373-398). -/
noncomputable def part (M : Mask) (det : ℕ → ℕ → ℝ) (r c x y : ℕ) : ℝ := |det (pupilAt M.before M.n M.after r + x) (pupilAt M.before M.n M.after c + y) * M.sub x y|

/-- `sum_int` (pyramid.py:401). -/
noncomputable def sumInt (M : Mask) (det : ℕ → ℕ → ℝ) : ℝ := ∑ x ∈ range M.n, ∑ y ∈ range M.n, (part M det 0 0 x y + part M det 0 1 x y + part M det 1 0 x y + part M det 1 1 x y)

/-- The elements of `Xslopes` and `Yslopes` for pixel `(x, y)` of the pupil (pyramid.py:402-403). -/
noncomputable def slopeX (M : Mask) (det : ℕ → ℕ → ℝ) (x y : ℕ) : ℝ := (part M det 0 0 x y + part M det 0 1 x y - (part M det 1 0 x y + part M det 1 1 x y)) / sumInt M det

@[inherit_doc slopeX]
noncomputable def slopeY (M : Mask) (det : ℕ → ℕ → ℝ) (x y : ℕ) : ℝ := (part M det 0 0 x y + part M det 1 0 x y - (part M det 0 1 x y + part M det 1 1 x y)) / sumInt M det

/-- `slopes` of a frame (pyramid.py:405-409) for pixel `(x, y)` of the pupil, with the reference `ref` (pyramid.py:430-433). -/
noncomputable def measured (M : Mask) (ref det : ℕ → ℕ → ℝ) (x y : ℕ) : ℝ × ℝ := (slopeY M det x y - slopeY M ref x y, slopeX M det x y - slopeX M ref x y)

end Soapy.Pyr
