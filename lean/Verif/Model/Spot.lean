/-
Model of the image of one sub-aperture of a Shack-Hartmann sensor, from the field on the sub-aperture to the binned detector pixels (`wfs/shackhartmann.py`), over the real and complex numbers.
-/
import Verif.Model.Tools
import Mathlib.Analysis.SpecialFunctions.Trigonometric.Basic
import Mathlib.Analysis.Complex.Trigonometric
import Mathlib.Algebra.BigOperators.Intervals

namespace Soapy.Spot

open Soapy.Tools

/-- `numpy.exp(1j * x)` -/
noncomputable def cis (x : ℝ) : ℂ := Complex.exp (x * Complex.I)

/-- `nx_subap_interp` (shackhartmann.py:66-81): `over` is `SUBAP_OVERSIZE` (1 with field stop, 2 without), `x` the number of elements wanted, `subap_diam * subap_fov_rad / wavelength`; `round` is exact here. -/
def nxInterp (over : ℕ) (x : ℚ) : ℤ := pyRound x * over

/-- `A` in `calcTiltCorrect` (shackhartmann.py:267-274); `nFft` is `subapFFTPadding`. -/
noncomputable def tiltAmp (over : ℕ) (fovRad diam lam : ℝ) (nFft : ℕ) : ℝ :=
  let theta := over * fovRad / (2 * nFft)
  theta * diam / (2 * lam) * 2 * Real.pi

/-- `numpy.linspace(-1, 1, n)[k]`; a single point is -1. -/
noncomputable def coord (n k : ℕ) : ℝ := if n ≤ 1 then -1 else -1 + k * (2 / ((n : ℝ) - 1))

/-- `tilt_fix` (shackhartmann.py:267-283). -/
noncomputable def tiltFix (pxls n : ℕ) (A : ℝ) (j k : ℕ) : ℝ := if pxls % 2 = 0 then -1 * A * (coord n k + coord n j) else 0

/-- The FFT of the field `e` of one sub-aperture, multiplied by the tilt correction and padded with zeros to `nFft` (shackhartmann.py:336-342), at frequency `(u, v)`; the code has it at the whole numbers `0 … nFft - 1`.
The padding leaves only the first `n` rows and columns. -/
noncomputable def focal (nFft n : ℕ) (e : ℕ → ℕ → ℂ) (tilt : ℕ → ℕ → ℝ) (u v : ℝ) : ℂ :=
  ∑ j ∈ Finset.range n, ∑ k ∈ Finset.range n, e j k * cis (tilt j k) * cis (-(2 * Real.pi * (u * j + v * k) / nFft))

/-- `temp_subap_intensity` (shackhartmann.py:344-346): shift, then absolute square. -/
noncomputable def spot (nFft n : ℕ) (e : ℕ → ℕ → ℂ) (tilt : ℕ → ℕ → ℝ) (p q : ℕ) : ℝ :=
  Complex.normSq (focal nFft n e tilt (ftShiftIdx nFft p) (ftShiftIdx nFft q))

/-- `bin_imgs` on one sub-aperture (wfslib.py:139-152), see C37. -/
def binned (b : ℕ) (img : ℕ → ℕ → ℝ) (i j : ℕ) : ℝ := ∑ x ∈ Finset.range b, ∑ y ∈ Finset.range b, img (x + i * b) (y + j * b)

end Soapy.Spot
