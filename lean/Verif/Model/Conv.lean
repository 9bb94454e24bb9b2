/-
Model of the convolutions by Fourier transform: `AOFFT.convolve`, the class `AOFFT.Convolve`, and the blur of the spots of a Shack-Hartmann sensor with the image of its laser (`ShackHartmann.applyLgsUplink`),
over the real and complex numbers.
-/
import Verif.Model.Spot
import Verif.Model.Tools

namespace Soapy.Conv

open Soapy.Spot Soapy.Tools Finset

/-- Forward FFT of `r × c` numbers: `FFT(...)()` with direction FORWARD (AOFFT.py:167-169, 207-208), pyfftw's or scipy's. -/
noncomputable def fft (r c : ℕ) (e : ℕ → ℕ → ℂ) (u v : ℕ) : ℂ :=
  ∑ x ∈ range r ×ˢ range c, e x.1 x.2 * cis (-(2 * Real.pi * ((x.1 : ℝ) * u / r + (x.2 : ℝ) * v / c)))

/-- Backward FFT with the normalisation of pyfftw and scipy: direction BACKWARD (AOFFT.py:170-173, 209-210). -/
noncomputable def ifft (r c : ℕ) (e : ℕ → ℕ → ℂ) (p q : ℕ) : ℂ :=
  (∑ x ∈ range r ×ˢ range c, e x.1 x.2 * cis (2 * Real.pi * ((p : ℝ) * x.1 / r + (q : ℝ) * x.2 / c))) / ((r : ℂ) * c)

/-- Both images backward, multiplied, and forward again (AOFFT.py:397-407, 359-369; shackhartmann.py:408-419). -/
noncomputable def product (r c : ℕ) (a b : ℕ → ℕ → ℝ) (u v : ℕ) : ℂ :=
  fft r c (fun p q => ifft r c (fun j k => (a j k : ℂ)) p q * ifft r c (fun j k => (b j k : ℂ)) p q) u v

/-- `numpy.fft.fftshift` on an axis of length `n`: where element `i` comes from. -/
def npShift (n i : ℕ) : ℕ := (i + (n - n / 2)) % n

/-- `AOFFT.convolve(img1, img2)` (AOFFT.py:373-408) of images `r × c`. -/
noncomputable def convolve (r c : ℕ) (a b : ℕ → ℕ → ℝ) (i j : ℕ) : ℝ := (product r c a b (npShift r i) (npShift c j)).re

/-- `Convolve.__call__` (AOFFT.py:357-370), real part as taken by its caller (extendedshackhartmann.py:89-90). -/
noncomputable def convClass (r c : ℕ) (a b : ℕ → ℕ → ℝ) (i j : ℕ) : ℝ := (product r c a b (ftShiftIdx r i) (ftShiftIdx c j)).re

/-- One sub-aperture of `applyLgsUplink` (shackhartmann.py:406-420): `a` is its `subap_focus_intensity`, `b` is `lgs.psf`, both `n × n`; the shifted array is turned by 180 degrees. -/
noncomputable def uplink (n : ℕ) (a b : ℕ → ℕ → ℝ) (i j : ℕ) : ℝ := (product n n a b (ftShiftIdx n (n - 1 - i)) (ftShiftIdx n (n - 1 - j))).re

end Soapy.Conv
