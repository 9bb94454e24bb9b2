/-
Model of one wavefront-sensor frame (`WFS.frame`) for a Shack-Hartmann sensor.
-/
import Verif.Model.Py
import Mathlib.Algebra.BigOperators.Group.List.Basic

namespace Soapy.WfsFrame

/-- The settings that an interaction-matrix frame switches off (wfs.py:415-422) and the flag `self.iMat`. -/
structure Settings where
  removeTT : Bool
  photonNoise : Bool
  eReadNoise : ℚ
  iMat : Bool
  deriving DecidableEq

/-- The numerical parts of a sensor that are not modelled further: `F` focal-plane intensities, `D` detector
images, `S` measurement vectors, `Ω` what else enters a frame from outside: random numbers and the laser spot.

* `place`: `bin_imgs`, fill-factor scaling, `place_subaps_on_detector` (shackhartmann.py:371-381), the image
  *added* to the detector;
* `uplink`: `applyLgsUplink` (shackhartmann.py:399-419) if an uplink is configured, which overwrites
  `subap_focus_intensity` by its convolution with the laser spot of this frame (`getLgsPsf` of the screens of this frame);
* `scale`: normalisation to the photon count (shackhartmann.py:386-390);
* `poisson`, `readNoise`: `addPhotonNoise`, `addReadNoise` (shackhartmann.py:463-480);
* `centroid`: cutting, centroiding, subtraction of centre and static offsets (shackhartmann.py:428-447);
* `detilt`: removal of the mean x and y slope (shackhartmann.py:449-451);
* `angleNoise`: `angleEquivNoise` if configured (shackhartmann.py:453-458);
* `noData`: `numpy.zeros(n_measurements)` (wfs.py:466). -/
structure Sensor (F D S Ω : Type) where
  place : F → D
  uplink : Option (Ω → F → F)
  scale : D → D
  poisson : Ω → D → D
  readNoise : ℚ → Ω → D → D
  centroid : D → S
  detilt : S → S
  angleNoise : Option (Ω → S → S)
  noData : S

/-- Attributes of the sensor object that survive a frame: `subap_focus_intensity`, `detector`, `slopes`
and the settings. -/
structure State (F D S : Type) where
  fp : F
  det : D
  slopes : S
  settings : Settings

/-- What one call of `frame` gets: the intensities computed by `calcFocalPlane` (one, or one per elongation
layer; or the exception raised by the line of sight), the random numbers and laser spot, and the two flags. -/
structure FrameIn (F Ω : Type) where
  lights : Except PyErr (List F)
  noise : Ω
  read : Bool
  iMatFrame : Bool

variable {F D S Ω : Type} [AddCommMonoid F] [AddCommMonoid D]

/-- wfs.py:415-422. -/
def quiet (c : Settings) : Settings :=
  { c with iMat := true, removeTT := false, photonNoise := false, eReadNoise := 0 }

/-- wfs.py:451-455: `removeTT`, `photonNoise`, `eReadNoise` get the saved values, `iMat` is set to False. -/
def restore (saved c : Settings) : Settings :=
  { c with
    iMat := false, removeTT := saved.removeTT, photonNoise := saved.photonNoise,
    eReadNoise := saved.eReadNoise }

/-- `readDetectorPlane` (shackhartmann.py:384-396). -/
def readDetector (w : Sensor F D S Ω) (c : Settings) (ω : Ω) (d : D) : D :=
  let d := w.scale d
  let d := if c.photonNoise then w.poisson ω d else d
  if c.eReadNoise ≠ 0 then w.readNoise c.eReadNoise ω d else d

/-- `calculateSlopes` (shackhartmann.py:421-460). -/
def calcSlopes (w : Sensor F D S Ω) (c : Settings) (ω : Ω) (d : D) : S :=
  let s := w.centroid d
  let s := if c.removeTT then w.detilt s else s
  match w.angleNoise with
  | none => s
  | some f => if c.iMat then s else f ω s

/-- `integrateDetectorPlane` up to the binning (shackhartmann.py:364-366): with an uplink and not in an
interaction-matrix frame the *accumulated* focal plane is replaced by its convolution. -/
def convolve (w : Sensor F D S Ω) (c : Settings) (ω : Ω) (fp : F) : F :=
  match w.uplink with
  | none => fp
  | some g => if c.iMat then fp else g ω fp

/-- `WFS.frame` (wfs.py:395-466) with the methods of the Shack-Hartmann sensor.  The state is returned also
when an exception leaves the function.  Simplification: exceptions are only considered in the line of sight
and propagation (before the focal plane is changed); `nan_to_num` at wfs.py:460-461 discards its result and
is therefore no operation. -/
def frame (w : Sensor F D S Ω) (s : State F D S) (i : FrameIn F Ω) :
    State F D S × Except PyErr S :=
  let saved := s.settings
  let s := if i.iMatFrame then { s with settings := quiet s.settings } else s
  -- zeroData(detector=read, FP=False), wfs.py:424
  let s := { s with det := if i.read then 0 else s.det }
  match i.lights with
  | .error e => (s, .error e)
  | .ok ls =>
    let s := { s with fp := ls.foldl (· + ·) s.fp }
    let s := { s with fp := convolve w s.settings i.noise s.fp }
    let s := { s with det := s.det + w.place s.fp }
    let s :=
      if i.read then
        let d := readDetector w s.settings i.noise s.det
        -- zeroData(detector=False), wfs.py:448
        { s with det := d, slopes := calcSlopes w s.settings i.noise d, fp := 0 }
      else s
    let s := if i.iMatFrame then { s with settings := restore saved s.settings } else s
    (s, .ok (if i.read then s.slopes else w.noData))

/-- State of the sensor before frame `n` of a sequence of frames. -/
def before (w : Sensor F D S Ω) (s₀ : State F D S) (ins : ℕ → FrameIn F Ω) : ℕ → State F D S
  | 0 => s₀
  | n + 1 => (frame w (before w s₀ ins n) (ins n)).1

/-- Measurements returned by frame `n`. -/
def out (w : Sensor F D S Ω) (s₀ : State F D S) (ins : ℕ → FrameIn F Ω) (n : ℕ) : Except PyErr S :=
  (frame w (before w s₀ ins n) (ins n)).2

/-- `WFS.simple_frame` (wfs.py:468-515): `zeroData()` clears everything first, then as `frame` with
read-out; the focal plane is not cleared at the end. -/
def simpleFrame (w : Sensor F D S Ω) (s : State F D S) (light : Except PyErr F) (ω : Ω)
    (iMatFrame : Bool) : State F D S × Except PyErr S :=
  let saved := s.settings
  let s := { s with fp := 0, det := 0 }
  let s := if iMatFrame then { s with settings := quiet s.settings } else s
  match light with
  | .error e => (s, .error e)
  | .ok l =>
    let s := { s with fp := s.fp + l }
    let s := { s with fp := convolve w s.settings ω s.fp }
    let s := { s with det := s.det + w.place s.fp }
    let d := readDetector w s.settings ω s.det
    let s := { s with det := d, slopes := calcSlopes w s.settings ω d }
    let s := if iMatFrame then { s with settings := restore saved s.settings } else s
    (s, .ok s.slopes)

/-- What `make_dm_iMat` does with one sensor for one poke (reconstruction.py:297-312): unless `imat_noise` is set, photon and read noise are switched off before
`frame(…, iMatFrame=True)` (which is always read) and restored afterwards.  An exception leaves everything as it is at that moment. -/
def pokeSensor (w : Sensor F D S Ω) (imatNoise : Bool) (s : State F D S) (lights : Except PyErr (List F)) (ω : Ω) :
    State F D S × Except PyErr S :=
  let saved := s.settings
  let s := if imatNoise = false then { s with settings := { s.settings with photonNoise := false, eReadNoise := 0 } } else s
  match frame w s ⟨lights, ω, true, true⟩ with
  | (s, .error e) => (s, .error e)
  | (s, .ok m) =>
    (if imatNoise = false then
      { s with settings := { s.settings with photonNoise := saved.photonNoise, eReadNoise := saved.eReadNoise } } else s, .ok m)

end Soapy.WfsFrame
