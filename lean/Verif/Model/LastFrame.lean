/-
Model of successive frames of the gradient and the pyramid sensor when the exposure lasts several frames (`WFS.frame` with `read`, wfs/wfs.py; wfs/gradient.py; wfs/pyramid.py).

Neither class has its own `zeroData`, and `integrateDetectorPlane` of the base class does nothing (wfs.py:541, 553), so `calcFocalPlane` decides what remains of a frame.  Not in this model: `angleEquivNoise`, laser, elongation;
float32 rounding.
-/
import Verif.Model.Sensors
import Verif.Model.Pyr

namespace Soapy.LastFrame

/-- Frames one after the other; `frame` gives the vector a frame returns and what the sensor keeps (simulation.py:391-404). -/
def run {S I O : Type} (frame : S → I → Bool → O × S) : S → List (I × Bool) → List O
  | _, [] => []
  | s, (i, read) :: rest => (frame s i read).1 :: run frame (frame s i read).2 rest

/-- A gradient sensor: the step of its coordinates, `removeTT`, the mask and the corners of the sub-apertures in the pupil. -/
structure Grad (n : ℕ) where
  a : ℝ
  removeTT : Bool
  mask : ℕ → ℕ → ℝ
  corner : Fin n → ℕ × ℕ

/-- Vectors of measurements: all x, all y. -/
abbrev Out (n : ℕ) := (Fin n → ℝ) × (Fin n → ℝ)

/-- The measurements of one phase (gradient.py:101-170). -/
noncomputable def gradOne {n : ℕ} (s : ℕ) (g : Grad n) (phase : ℕ → ℕ → ℝ) : Out n :=
  Sensors.gradSlopes (s := s) g.a g.removeTT fun k => Sensors.cut g.mask phase (g.corner k).1 (g.corner k).2

/-- A frame of the gradient sensor (wfs.py:424-466; gradient.py:101-170): `subapArrays[i] = …` overwrites what was there, and only a frame that is read computes slopes, after taking the mean out of `subapArrays`.  Otherwise
zeros are returned. -/
noncomputable def gradFrame {n : ℕ} (s : ℕ) (g : Grad n) (_mem : Fin n → Sensors.Sub s) (phase : ℕ → ℕ → ℝ) (read : Bool) : Out n × (Fin n → Sensors.Sub s) :=
  let arrays : Fin n → Sensors.Sub s := fun k => Sensors.cut g.mask phase (g.corner k).1 (g.corner k).2
  if read then (Sensors.gradSlopes g.a g.removeTT arrays, fun k i j => arrays k i j - Sensors.smean (arrays k)) else ((fun _ => 0, fun _ => 0), arrays)

/-- A pyramid sensor: sizes, modulation, pyramid, mask of the pupil and of the detector, reference image. -/
structure PyrSensor where
  N : ℕ
  b : ℕ
  nb : ℕ
  A : ℝ
  a : ℝ
  m : ℕ → ℕ → ℝ
  M : Pyr.Mask
  ref : ℕ → ℕ → ℝ

/-- What a frame of the pyramid gets: the phase, the leftovers in the slots that are not written, the read noise. -/
structure PyrIn where
  phi : ℕ → ℕ → ℝ
  stale : ℕ → ℕ → ℕ → ℂ
  noise : ℕ → ℕ → ℝ

/-- The measurements of one such frame, by position in the pupil image. -/
noncomputable def pyrOne (g : PyrSensor) (i : PyrIn) : ℕ → ℕ → ℝ × ℝ := Pyr.measured g.M g.ref (Pyr.framePlane g.N g.b g.nb g.A g.a g.m i.phi i.stale i.noise)

/-- A frame of the pyramid sensor (wfs.py:424-466; pyramid.py:302-409): `wfsDetectorPlane = …` replaces the image of earlier frames. -/
noncomputable def pyrFrame (g : PyrSensor) (_mem : ℕ → ℕ → ℝ) (i : PyrIn) (read : Bool) : (ℕ → ℕ → ℝ × ℝ) × (ℕ → ℕ → ℝ) :=
  let plane := Pyr.framePlane g.N g.b g.nb g.A g.a g.m i.phi i.stale i.noise
  (if read then Pyr.measured g.M g.ref plane else fun _ _ => (0, 0), plane)

/-- An exposure: all frames but the last are not read. -/
def exposure {I : Type} (l : List I) : List (I × Bool) := (l.dropLast.map fun a => (a, false)) ++ (l.getLast?.toList.map fun a => (a, true))

end Soapy.LastFrame
