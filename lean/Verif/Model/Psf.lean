/-
Model of the light in the images: from the field in the aperture to the normalised image and the Strehl ratio of a science camera (`scienceinstrument.py`), the light of a Shack-Hartmann sub-aperture (`wfs/shackhartmann.py`)
and the light of the pyramid sensor (`wfs/pyramid.py`), over the real and complex numbers.
-/
import Verif.Model.Spot
import Verif.Model.Par
import Mathlib.Algebra.Order.BigOperators.Ring.Finset
import Mathlib.Data.Finset.Lattice.Fold

namespace Soapy.Psf

open Soapy.Spot Finset

/-! ### Science camera, geometric propagation -/

/-- Where `fftshift_2d_inplace` takes element `(i, j)` of an `n × n` array from (numbalib.py:217-229; the loop itself is `Par.shiftThread`). -/
def shiftIdx (n : ℕ) (p : ℕ × ℕ) : ℕ × ℕ :=
  let h := n / 2
  if p.1 < 2 * h ∧ p.2 < 2 * h then (if p.1 < h then p.1 + h else p.1 - h, if p.2 < h then p.2 + h else p.2 - h) else p

/-- `EField_fov` (scienceinstrument.py:228-231): `m` is `scaledMask`, `phi` is `interp_phase`. -/
noncomputable def field (m phi : ℕ → ℕ → ℝ) (j k : ℕ) : ℂ := cis (phi j k) * m j k

/-- `fft_input_data` before the shift (scienceinstrument.py:235-243): zeros with the `n × n` field at `(N - n) // 2`. -/
noncomputable def placed (N n : ℕ) (e : ℕ → ℕ → ℂ) (p : ℕ × ℕ) : ℂ :=
  let o := (N - n) / 2
  if (o ≤ p.1 ∧ p.1 < o + n) ∧ (o ≤ p.2 ∧ p.2 < o + n) then e (p.1 - o) (p.2 - o) else 0

/-- `fft_output_data` before the second shift (scienceinstrument.py:246-247). -/
noncomputable def focus (N n : ℕ) (e : ℕ → ℕ → ℂ) (u : ℕ × ℕ) : ℂ :=
  ∑ j ∈ range N, ∑ k ∈ range N, placed N n e (shiftIdx N (j, k)) * cis (-(2 * Real.pi * ((u.1 : ℝ) * j + (u.2 : ℝ) * k) / N))

/-- Intensity in the focal plane after the second shift (scienceinstrument.py:248, 262). -/
noncomputable def intensity (N n : ℕ) (e : ℕ → ℕ → ℂ) (p q : ℕ) : ℝ := Complex.normSq (focus N n e (shiftIdx N (p, q)))

/-- `focus_intensity` (scienceinstrument.py:251-262): `crop` elements are left away at each side. -/
noncomputable def cropped (crop : ℕ) (img : ℕ → ℕ → ℝ) (p q : ℕ) : ℝ := img (p + crop) (q + crop)

/-- `detector` before normalisation (scienceinstrument.py:266): `b` is `fftOversamp`. -/
noncomputable def raw (N n crop b : ℕ) (e : ℕ → ℕ → ℂ) : ℕ → ℕ → ℝ := binned b (cropped crop (intensity N n e))

/-- `detector.sum()` -/
noncomputable def total (px : ℕ) (img : ℕ → ℕ → ℝ) : ℝ := ∑ i ∈ range px, ∑ j ∈ range px, img i j

/-- `detector.max()` of an image with at least one pixel. -/
noncomputable def peak (px : ℕ) (hpx : 0 < px) (img : ℕ → ℕ → ℝ) : ℝ :=
  (range px ×ˢ range px).sup' (by simp [hpx.ne']) fun p => img p.1 p.2

/-- `detector /= detector.sum()` (scienceinstrument.py:272).  Lean's `x / 0 = 0` stands for NaN; the theorems exclude a dark detector. -/
noncomputable def unit (px : ℕ) (img : ℕ → ℕ → ℝ) (i j : ℕ) : ℝ := img i j / total px img

/-- `psfMax` (scienceinstrument.py:166-169): the perfect wavefront through the same optics. -/
noncomputable def psfMax (N n crop b px : ℕ) (hpx : 0 < px) (m : ℕ → ℕ → ℝ) : ℝ := peak px hpx (unit px (raw N n crop b (field m fun _ _ => 0)))

/-- `instStrehl` without tip-tilt (scienceinstrument.py:284). -/
noncomputable def instStrehl (N n crop b px : ℕ) (hpx : 0 < px) (m phi : ℕ → ℕ → ℝ) : ℝ :=
  peak px hpx (unit px (raw N n crop b (field m phi))) / psfMax N n crop b px hpx m

/-- `instStrehl` with tip-tilt (scienceinstrument.py:281): the value of the pixel `pxls // 2`. -/
noncomputable def instStrehlTT (N n crop b px : ℕ) (hpx : 0 < px) (m phi : ℕ → ℕ → ℝ) : ℝ :=
  unit px (raw N n crop b (field m phi)) (px / 2) (px / 2) / psfMax N n crop b px hpx m

/-- `_long_exp_image` after the frames with these phases (scienceinstrument.py:269). -/
noncomputable def longRaw (N n crop b : ℕ) (m : ℕ → ℕ → ℝ) (phis : List (ℕ → ℕ → ℝ)) (i j : ℕ) : ℝ := (phis.map fun phi => raw N n crop b (field m phi) i j).sum

/-- `longExpStrehl` without tip-tilt (scienceinstrument.py:273, 285). -/
noncomputable def longStrehl (N n crop b px : ℕ) (hpx : 0 < px) (m : ℕ → ℕ → ℝ) (phis : List (ℕ → ℕ → ℝ)) : ℝ :=
  peak px hpx (unit px (longRaw N n crop b m phis)) / psfMax N n crop b px hpx m

/-! ### Shack-Hartmann sensor -/

/-- The field of a sub-aperture in geometric propagation (shackhartmann.py:331-340; wfslib.py:40, 53): `phi` the phase, `m` the mask on its `n × n` elements. -/
noncomputable def subapField (m phi : ℕ → ℕ → ℝ) (j k : ℕ) : ℂ := cis (phi j k) * m j k

/-- The binned image of a sub-aperture (shackhartmann.py:342-346, 371-378): FFT, shift, absolute square, binning by `b` and the factor `subapFillFactor`. -/
noncomputable def subapImage (nFft n b : ℕ) (m phi : ℕ → ℕ → ℝ) (tilt : ℕ → ℕ → ℝ) (fill : ℝ) (i j : ℕ) : ℝ :=
  binned b (spot nFft n (subapField m phi) tilt) i j * fill

/-! ### Pyramid sensor -/

/-- `complex_phase_screen` of one modulation point (pyramid.py:339-341): `mod` is that point's plane of `modulation_phase_matrix`, `cen` is `centroidMask`. -/
noncomputable def pyrField (m phi mod cen : ℕ → ℕ → ℝ) (intensity : ℝ) (j k : ℕ) : ℂ :=
  m j k * cis ((phi j k + mod j k + cen j k) * intensity * m j k)

/-- Forward FFT of one slot (pyramid.py:348). -/
noncomputable def fft2 (N : ℕ) (e : ℕ → ℕ → ℂ) (u v : ℕ) : ℂ :=
  ∑ j ∈ range N, ∑ k ∈ range N, e j k * cis (-(2 * Real.pi * ((u : ℝ) * j + (v : ℝ) * k) / N))

/-- Inverse FFT of one slot with pyfftw's normalisation (pyramid.py:353). -/
noncomputable def ifft2 (N : ℕ) (e : ℕ → ℕ → ℂ) (p q : ℕ) : ℂ :=
  (∑ j ∈ range N, ∑ k ∈ range N, e j k * cis (2 * Real.pi * ((p : ℝ) * j + (q : ℝ) * k) / N)) / (N : ℂ) ^ 2

/-- `numpy.fft.fftshift` over all three axes of the slots (pyramid.py:350): element taken for slot `s` of `K`, position `(p, q)` of `N × N`. -/
def shift3 (K N s p q : ℕ) : ℕ × ℕ × ℕ := ((s + (K - K / 2)) % K, (p + (N - N / 2)) % N, (q + (N - N / 2)) % N)

/-- The image before binning and division (pyramid.py:347-354): `slots` are the contents of the `K` FFT slots, `pyr` is `pyramid_mask`. -/
noncomputable def pyrImage (K N : ℕ) (slots : ℕ → ℕ → ℕ → ℂ) (pyr : ℕ → ℕ → ℝ) (p q : ℕ) : ℝ :=
  ∑ s ∈ range K, Complex.normSq (ifft2 N (fun u v =>
    let x := shift3 K N s u v
    fft2 N (slots x.1) x.2.1 x.2.2 * cis (pyr u v)) p q)

/-- `rebin` to `new × new` (pyramid.py:64-67) of an `new * b` square: means over blocks. -/
noncomputable def rebin (b : ℕ) (img : ℕ → ℕ → ℝ) (i j : ℕ) : ℝ := binned b img i j / (b : ℝ) ^ 2

/-- `wfsDetectorPlane` (pyramid.py:347-360), without read noise; `num` is `num_of_mod`. -/
noncomputable def pyrPlane (K N b num : ℕ) (slots : ℕ → ℕ → ℕ → ℂ) (pyr : ℕ → ℕ → ℝ) (i j : ℕ) : ℝ := rebin b (pyrImage K N slots pyr) i j / num

end Soapy.Psf
