/-
Model of the science camera (`scienceinstrument.py:PSFCamera`): array sizes, exposures, Strehl ratio and wavefront error.
-/
import Verif.Model.Subaps
import Mathlib.Analysis.SpecialFunctions.Pow.Real
import Mathlib.Order.Fin.Basic

namespace Soapy.Science

/-! ### Sizes -/

/-- The array sizes used to form an image. -/
structure Sizes where
  /-- elements across the aperture (`FOVPxlNo`) -/
  fov : ℕ
  /-- `FFTPadding` -/
  fft : ℕ
  /-- slice of the FFT input that takes the aperture (scienceinstrument.py:238-243) -/
  put : ℕ × ℕ
  /-- `fft_crop_elements` -/
  crop : ℕ
  /-- size of `focus_intensity` -/
  focus : ℕ
  deriving DecidableEq

/-- scienceinstrument.py:77-79, 122-132, 158-160, 238-243.  `k` is `FOVPxlNo` as first computed from the field of view (69-71), `f` the oversampling left by the padding search
(`Subaps.padSearch`). -/
def sizes (k pupil px f : ℕ) : Except PyErr Sizes :=
  if k = 0 then .error .zeroDivisionError
  else
    let c := 1 + pupil / k
    let pad := px * f
    let n := pad * c
    .ok { fov := k * c, fft := n, put := ((n - k * c) / 2, (n + k * c) / 2), crop := (pad * c - pad) / 2, focus := n / c }

/-- Elements of the focal plane after cropping (scienceinstrument.py:251-258): `[crop:-crop]`, or everything. -/
def focalSize (s : Sizes) : ℕ := if s.crop ≠ 0 then sliceLen s.fft s.crop (-s.crop) else s.fft

/-- The steps of `calcFocalPlane` that need matching sizes: placing the field (238-243), the intensities (262), binning (266). -/
def focalPlane (s : Sizes) (px f : ℕ) : Except PyErr Unit :=
  if sliceLen s.fft s.put.1 s.put.2 ≠ s.fov then .error .valueError
  else if focalSize s ≠ s.focus then .error .valueError
  else if s.focus < px * f then .error .indexError
  else .ok ()

/-- Padding around the aperture in physical propagation (scienceinstrument.py:83-91): `(padFOVPxlNo, fov_sim_pad)`. -/
def physPad (fov sim pupil : ℕ) : ℕ × ℕ :=
  let p := (pyRound ((fov : ℚ) * sim / pupil)).toNat
  let p := if p % 2 ≠ fov % 2 then p + 1 else p
  (p, (p - fov) / 2)

/-- `los.EField[fov_sim_pad:-fov_sim_pad]`: elements left (scienceinstrument.py:212-214). -/
def physSize (fov sim pupil : ℕ) : ℕ :=
  let p := physPad fov sim pupil
  sliceLen p.1 p.2 (-p.2)

/-! ### Exposures -/

/-- An image of `n` pixels in any order. -/
abbrev Img (n : ℕ) := Fin n → ℚ

variable {n : ℕ}

/-- `a / a.sum()`; `none` is NaN. -/
def unit (a : Img n) : Option (Img n) := if ∑ i, a i = 0 then none else some fun i => a i / ∑ j, a j

/-- State of a camera: `_long_exp_image`, `long_exp_image`, `detector`. -/
structure Cam (n : ℕ) where
  acc : Img n
  long : Option (Img n)
  det : Option (Img n)

/-- What can happen to a camera: a frame with a certain binned intensity image, or `reset`. -/
inductive Ev (n : ℕ) where
  | frame (raw : Img n)
  | reset

/-- After `__init__` (zeros, 161-163) or `reset` (177-185). -/
def blank : Cam n := ⟨fun _ => 0, some fun _ => 0, some fun _ => 0⟩

/-- `calcFocalPlane` from the binned image on (scienceinstrument.py:266-273); `reset` (177-185). -/
def step (s : Cam n) : Ev n → Cam n
  | .frame raw =>
    let acc := fun i => s.acc i + raw i
    ⟨acc, unit acc, unit raw⟩
  | .reset => blank

/-- A camera as `__init__` leaves it (162-174): one frame with the perfect wavefront, then `reset`. -/
def init (ideal : Img n) : Cam n := step (step blank (.frame ideal)) .reset

/-- A sequence of frames and resets. -/
def runCam (s : Cam n) (evs : List (Ev n)) : Cam n := evs.foldl step s

/-- `image.max()` for a camera with at least one pixel. -/
def peak (a : Img (n + 1)) : ℚ := Finset.univ.sup' Finset.univ_nonempty a

/-- Strehl ratios without tip-tilt (scienceinstrument.py:283-285); `psfMax` (169) is the peak of the normalised perfect image. -/
def strehl (ideal : Img (n + 1)) (image : Option (Img (n + 1))) : Option ℚ :=
  match unit ideal, image with
  | some best, some a => if peak best = 0 then none else some (peak a / peak best)
  | _, _ => none

/-- Strehl ratios with tip-tilt (scienceinstrument.py:280-282): value at the central pixel `c`. -/
def strehlTT (ideal : Img (n + 1)) (c : Fin (n + 1)) (image : Option (Img (n + 1))) : Option ℚ :=
  match unit ideal, image with
  | some best, some a => if peak best = 0 then none else some (a c / peak best)
  | _, _ => none

/-! ### Wavefront error -/

variable {ι : Type} [Fintype ι]

/-- `res` after piston removal (scienceinstrument.py:297-303), in nm; `c` is `phs2Rad`, the phase in rad. -/
noncomputable def flattened (mask phase : ι → ℝ) (c : ℝ) : ι → ℝ :=
  let res := fun i => phase i * mask i / c
  let piston := (∑ i, res i) / ∑ i, mask i
  fun i => res i - piston * mask i

/-- `calc_wavefronterror` in geometric mode (scienceinstrument.py:297-308). -/
noncomputable def wfe (mask phase : ι → ℝ) (c : ℝ) : ℝ :=
  Real.sqrt ((∑ i, flattened mask phase c i ^ 2) / ∑ i, mask i)

end Soapy.Science
